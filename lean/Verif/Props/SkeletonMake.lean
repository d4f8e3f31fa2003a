import Verif.Proof.SkeletonMake
import Verif.Props.Skeleton

/-!
Property C122: copies of skeletons whose joints are made by a function of the client.
-/

set_option linter.unusedSectionVars false
set_option autoImplicit false

namespace Geom.Skeleton.Props

variable {M X : Type}

theorem numJoints_walk (f : List (Joint M X)) (h : NoNull f) : numJoints f = .ok (walk f).length := by
  obtain ⟨h1, h2⟩ := numSubJointsAll_eq f h [] [] 0 f.length
  rw [numJoints, h1, walk]
  congr 1
  omega

theorem dataAt_of_mem (f : List (Joint M X)) (v : Visit M X) (h : v ∈ walk f) :
    dataAt f v.path = some v.data := by
  obtain ⟨s, h, -⟩ := (walk_mem f v).1 h
  simp [dataAt, h, Joint.data?]

/-- C122: if each call of `makeSkeletonJoint` returns a new joint without sub joints, `CopyFrom` appends a copy
with the shape and the data of the model, calls the function once for each joint of the model, and the joints of the copy are
in depth-first order the joints which the calls have returned. What the function has stored in them is overwritten. -/
theorem C122_copy (mk : Nat → Made M X) (a : Nat → Nat) (e : Nat → Data M X) (roots model : List (Joint M X))
    (h : NoNull model) (n : Nat) (hn : numJoints model = .ok n)
    (hm : ∀ k < n, mk k = .joint (.own (a k) (e k) []) false) :
    ∃ c, copyFromBy mk roots model = .ok ⟨roots ++ c, n, false⟩ ∧ NoNull c ∧ (∀ p, dataAt c p = dataAt model p) ∧
      jointList c = .ok ((List.range n).map a) := by
  rw [numJoints_walk model h, Res.ok.injEq] at hn
  subst hn
  obtain ⟨c, h1, h2, h3⟩ := make_spec mk a e _ hm model h 0 roots (Nat.zero_le _) (fun h => by omega)
  obtain ⟨h4, h5⟩ := h3 [] [] 0
  have hlt : ¬ (walk model).length < 0 + (walk model).length := by omega
  rw [if_neg hlt, decide_eq_false hlt, Nat.zero_add] at h1
  rw [← walk, ← walk, Nat.sub_zero, List.take_of_length_le (by simp)] at h4
  refine ⟨c, h1, h2, fun p => ?_, ?_⟩
  · have key : ∀ f g : List (Joint M X), (walk f).map Visit.key = (walk g).map Visit.key → NoNull f →
        ∀ x, dataAt f p = some x → dataAt g p = some x := by
      intro f g hfg hf x hx
      have : ∃ v ∈ walk f, v.path = p ∧ v.data = x := by
        rcases ha : at? f p with _ | j
        · simp [dataAt, ha] at hx
        · cases j with
          | null => exact absurd ha (hf p)
          | own b d s =>
            refine ⟨⟨p, b, d, chain f p⟩, (walk_mem f _).2 ⟨s, ha, rfl⟩, rfl, ?_⟩
            simpa [dataAt, ha, Joint.data?] using hx
      obtain ⟨v, hv, rfl, rfl⟩ := this
      have : v.key ∈ (walk g).map Visit.key := hfg ▸ List.mem_map_of_mem hv
      obtain ⟨w, hw, e⟩ := List.mem_map.1 this
      have e1 : w.path = v.path := congrArg Prod.fst e
      have e2 : w.data = v.data := congrArg Prod.snd e
      rw [← e1, ← e2]
      exact dataAt_of_mem g w hw
    apply Option.ext
    intro x
    exact ⟨key c model h4 h2 x, key model c h4.symm h x⟩
  · rw [jointList, listJointsAll_eq c h2 [] [] 0, List.nil_append, h5]
    simp [List.range_eq_range']

/-- The function of the client: new joints with the addresses 20, 21, …. -/
def plainMaker : Nat → Made ℚ Unit := fun k => .joint (.own (20 + k) (jd 1 1) []) false

example : numJoints skel = .ok 5 ∧ (∀ k < 5, plainMaker k = .joint (.own (20 + k) (jd 1 1) []) false) ∧
    copyFromBy plainMaker [] skel = .ok ⟨[.own 20 (jd 2 2) [.own 21 (jd 3 3) [.own 22 (jd 5 5) []], .own 23 (jd 7 7) []],
      .own 24 (jd 11 11) []], 5, false⟩ := ⟨rfl, fun _ _ => rfl, rfl⟩

/-- C122: if call `m` of `makeSkeletonJoint` throws, or returns a joint which has a parent, `CopyFrom` stops with the exception. The
joints copied so far stay in the skeleton: the first `m` joints of the model in depth-first order, with their
places and data. -/
theorem C122_throw (mk : Nat → Made M X) (a : Nat → Nat) (e : Nat → Data M X) (roots model : List (Joint M X))
    (h : NoNull model) (n m : Nat) (hn : numJoints model = .ok n) (hmn : m < n)
    (hm : ∀ k < m, mk k = .joint (.own (a k) (e k) []) false) (hs : (mk m).Stops) :
    ∃ c ps, copyFromBy mk roots model = .ok ⟨roots ++ c, m + 1, true⟩ ∧ NoNull c ∧ DepthFirst model ps ∧
      DepthFirst c (ps.take m) ∧ (∀ p ∈ ps.take m, dataAt c p = dataAt model p) ∧
      jointList c = .ok ((List.range m).map a) := by
  rw [numJoints_walk model h, Res.ok.injEq] at hn
  subst hn
  obtain ⟨c, h1, h2, h3⟩ := make_spec mk a e m hm model h 0 roots (Nat.zero_le _) (fun _ => hs)
  obtain ⟨h4, h5⟩ := h3 [] [] 0
  have hlt : m < 0 + (walk model).length := by omega
  rw [if_pos hlt, decide_eq_true hlt] at h1
  rw [← walk, ← walk, Nat.sub_zero] at h4
  have hp : (walk c).map Visit.path = ((walk model).map Visit.path).take m := by
    have := congrArg (List.map Prod.fst) h4
    rw [List.map_take, List.map_map, List.map_map] at this
    exact this
  refine ⟨c, (walk model).map Visit.path, h1, h2, walk_depthFirst model h, hp ▸ walk_depthFirst c h2, ?_, ?_⟩
  · intro p hpm
    rw [← hp] at hpm
    obtain ⟨v, hv, rfl⟩ := List.mem_map.1 hpm
    have : v.key ∈ ((walk model).map Visit.key).take m := h4 ▸ List.mem_map_of_mem hv
    obtain ⟨w, hw, e⟩ := List.mem_map.1 (List.mem_of_mem_take this)
    have e1 : w.path = v.path := congrArg Prod.fst e
    have e2 : w.data = v.data := congrArg Prod.snd e
    rw [dataAt_of_mem c v hv, ← e1, ← e2, dataAt_of_mem model w hw]
  · rw [jointList, listJointsAll_eq c h2 [] [] 0, List.nil_append, h5, min_eq_right (by omega)]
    simp [List.range_eq_range']

/-- The fourth call throws. -/
def failingMaker : Nat → Made ℚ Unit := fun k => if k = 3 then .throws else plainMaker k

/-- The fourth call returns a joint which has been removed from another joint. -/
def reusingMaker : Nat → Made ℚ Unit := fun k => if k = 3 then .joint (.own 7 (jd 1 1) []) true else plainMaker k

example : (failingMaker 3).Stops ∧ (reusingMaker 3).Stops ∧
    (∀ k < 3, failingMaker k = .joint (.own (20 + k) (jd 1 1) []) false) ∧
    copyFromBy failingMaker [] skel = .ok ⟨[.own 20 (jd 2 2) [.own 21 (jd 3 3) [.own 22 (jd 5 5) []]]], 4, true⟩ ∧
    copyFromBy reusingMaker [] skel = copyFromBy failingMaker [] skel :=
  ⟨trivial, trivial, fun k hk => by simp [failingMaker, plainMaker, show k ≠ 3 by omega], rfl, rfl⟩

/-- C122: a call which returns a null pointer is undefined behavior. -/
theorem C122_null (mk : Nat → Made M X) (a : Nat → Nat) (e : Nat → Data M X) (roots model : List (Joint M X))
    (h : NoNull model) (n m : Nat) (hn : numJoints model = .ok n) (hmn : m < n) (b : Bool)
    (hm : ∀ k < m, mk k = .joint (.own (a k) (e k) []) false) (hs : mk m = .joint .null b) :
    copyFromBy mk roots model = .ub := by
  rw [numJoints_walk model h, Res.ok.injEq] at hn
  subst hn
  exact make_null mk a e m b hm hs model h 0 roots (Nat.zero_le _) (by omega)

example : copyFromBy (fun k => if k = 3 then .joint .null false else plainMaker k) [] skel = .ub :=
  C122_null _ (20 + ·) (fun _ => jd 1 1) [] skel skel_noNull 5 3 rfl (by omega) false
    (fun k hk => by simp [plainMaker, show k ≠ 3 by omega]) rfl

/-- C122: `CopyFrom` has no strong guarantee: after an exception the skeleton is not as it was before the call. -/
theorem C122_unchanged_refuted : ¬ ∀ (mk : Nat → Made ℚ Unit) (roots model : List (Joint ℚ Unit)) (r : Copied (List (Joint ℚ Unit))),
    NoNull model → copyFromBy mk roots model = .ok r → r.threw = true → r.val = roots := fun h => by
  have := h failingMaker [] skel _ skel_noNull rfl rfl
  simp at this

/-- New joints which already have a sub joint. -/
def furnishedMaker : Nat → Made ℚ Unit := fun k => .joint (.own (20 + k) (jd 1 1) [.own (50 + k) (jd 13 13) []]) false

/-- C122 does not hold without the condition that the new joints have no sub joints: joints which the function returns with sub joints keep them, in front of the copied ones, so that
the copy is not a copy of the model (with or without the extra joints being last). -/
theorem C122_furnished_refuted : ¬ ∀ (mk : Nat → Made ℚ Unit) (model : List (Joint ℚ Unit)) (c : List (Joint ℚ Unit)) (n : Nat),
    NoNull model → copyFromBy mk [] model = .ok ⟨c, n, false⟩ → (∀ k, ∃ a d s, mk k = .joint (.own a d s) false) →
    ∀ p x, dataAt model p = some x → dataAt c p = some x := fun h => by
  have := h furnishedMaker skel _ _ skel_noNull rfl (fun k => ⟨_, _, _, rfl⟩) [0, 0] (jd 3 3) rfl
  simp [dataAt, at?, Joint.subs, Joint.data?, jd] at this

end Geom.Skeleton.Props
