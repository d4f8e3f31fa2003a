import Verif.Proof.Skeleton

/-!
Properties C60-C64: traversals, transform buffers, bind pose, copies and removal of joints.
-/

set_option linter.unusedSectionVars false
set_option autoImplicit false

namespace Geom.Skeleton.Props

variable {M X : Type}

/-! ### A concrete skeleton: a root joint with two sub joints, the first of which has one, and a
second root joint. Matrices are (nonzero) rational numbers. -/

def jd (t p : ℚ) : Data ℚ Unit := ⟨t, p, 0, ()⟩

def skel : List (Joint ℚ Unit) :=
  [.own 10 (jd 2 2) [.own 11 (jd 3 3) [.own 12 (jd 5 5) []], .own 13 (jd 7 7) []], .own 14 (jd 11 11) []]

theorem skel_noNull : NoNull skel := by
  simp only [skel, noNull_cons, noNull_nil, and_self]

/-! ## C60 -/

/-- C60: `JointList` is the list of the joints in depth-first order, `NumJoints` is its length, and
`ForEachJoint` calls the callback for each entry with its position in this list. -/
theorem C60_traversals (roots : List (Joint M X)) (h : NoNull roots) :
    ∃ ps js, DepthFirst roots ps ∧ js.map some = ps.map (addrAt roots) ∧
      jointList roots = .ok js ∧ numJoints roots = .ok ps.length ∧
      ∀ {σ : Type} (callback : σ → Nat → Nat → σ) (s : σ), forEachJoint callback roots s =
        .ok (js.zipIdx.foldl (fun s p => callback s p.1 p.2) s) := by
  refine ⟨(walk roots).map Visit.path, (walk roots).map Visit.addr, walk_depthFirst roots h, ?_, ?_, ?_, ?_⟩
  · rw [List.map_map, List.map_map]
    apply List.map_congr_left
    intro v hv
    obtain ⟨s, h1, -⟩ := (walk_mem roots v).1 hv
    simp [addrAt, h1, Joint.addr?]
  · simp [jointList, listJointsAll_eq roots h [] [] 0, walk]
  · obtain ⟨h1, h2⟩ := numSubJointsAll_eq roots h [] [] 0 roots.length
    rw [numJoints, h1, List.length_map, walk]
    congr 1
    omega
  · intro σ callback s
    simp [forEachJoint, iterateJoints_eq callback roots h [] [] 0, walk]

example : NoNull skel ∧ jointList skel = .ok [10, 11, 12, 13, 14] ∧ numJoints skel = .ok 5 ∧
    DepthFirst skel [[0], [0, 0], [0, 0, 0], [0, 1], [1]] := by
  refine ⟨skel_noNull, rfl, rfl, ?_⟩
  exact walk_depthFirst skel skel_noNull

/-- With distinct addresses each joint is visited exactly once: the visited list has no duplicates,
and contains an address if and only if a joint of the skeleton has it. -/
theorem C60_once (roots : List (Joint M X)) (h : NoNull roots)
    (hd : ∀ p q a, addrAt roots p = some a → addrAt roots q = some a → p = q) :
    ∃ js, jointList roots = .ok js ∧ js.Nodup ∧ ∀ a, a ∈ js ↔ ∃ p, addrAt roots p = some a := by
  obtain ⟨ps, js, h1, h2, h3, -, -⟩ := C60_traversals roots h
  have hmem : ∀ a, a ∈ js ↔ ∃ p ∈ ps, addrAt roots p = some a := by
    intro a
    have : a ∈ js ↔ some a ∈ js.map some := by simp
    rw [this, h2, List.mem_map]
  refine ⟨js, h3, ?_, fun a => ?_⟩
  · have hn : ps.Nodup := h1.1.imp fun {a b} hab => ne_of_lt hab
    have : (js.map some).Nodup := by
      rw [h2]
      refine List.Nodup.map_on ?_ hn
      intro p hp q hq hpq
      obtain ⟨j, hj⟩ := (h1.2 p).1 hp
      cases j with
      | null => exact absurd hj (h p)
      | own a d s =>
        have ha : addrAt roots p = some a := by simp [addrAt, hj, Joint.addr?]
        exact hd p q a ha (hpq ▸ ha)
    exact List.Nodup.of_map _ this
  · rw [hmem]
    constructor
    · rintro ⟨p, -, hp⟩; exact ⟨p, hp⟩
    · rintro ⟨p, hp⟩
      refine ⟨p, (h1.2 p).2 ?_, hp⟩
      cases hj : at? roots p with
      | none => rw [addrAt, hj] at hp; cases hp
      | some j => exact ⟨j, rfl⟩

example : ∃ js, jointList skel = .ok js ∧ js.Nodup := ⟨[10, 11, 12, 13, 14], rfl, by decide⟩

/-! ## C61 -/

section Buffer
variable [Monoid M]

/-- The matrix of the joint at a path in the global buffer. -/
def globalEntry (roots : List (Joint M X)) (rel : Bool) (p : List Nat) : Option M :=
  (dataAt roots p).map fun d =>
    if rel then globalAt roots p * d.jointSpaceTransform else globalAt roots p

/-- C61, global buffer: for a buffer which has room for `bufferSize` floats, exactly the matrices of
the first `bufferSize / 16` joints in depth-first order are written and the return value is 16 times
their number. -/
theorem C61_global (roots : List (Joint M X)) (h : NoNull roots) (room bufferSize : Nat)
    (hr : bufferSize ≤ room) (h16 : 16 ∣ bufferSize) (rel : Bool) :
    ∃ ps w, DepthFirst roots ps ∧
      fillGlobalTransformBuffer roots (some room) bufferSize rel = .ok (w, 16 * min ps.length (bufferSize / 16)) ∧
      w.map some = (ps.take (bufferSize / 16)).map (globalEntry roots rel) := by
  refine ⟨(walk roots).map Visit.path, ((walk roots).map (Visit.global rel)).take (bufferSize / 16),
    walk_depthFirst roots h, ?_, ?_⟩
  · have h0 : ¬ (bufferSize % 16 ≠ 0) := by omega
    have := fillGlobalAll_eq (room / 16) (bufferSize / 16) rel (Nat.div_le_div_right hr) roots h [] [] 0 []
      (Nat.zero_le _)
    simp only [List.map_nil, List.prod_nil, List.length_nil, Nat.sub_zero, List.nil_append] at this
    simp only [fillGlobalTransformBuffer, if_neg h0, this, Res.bind_ok, walk, List.length_take,
      List.length_map]
    congr 2
    rw [Nat.mul_comm, Nat.min_comm]
  · rw [← List.map_take, ← List.map_take, List.map_map, List.map_map]
    apply List.map_congr_left
    intro v hv
    obtain ⟨s, h1, h2⟩ := (walk_mem roots v).1 (List.mem_of_mem_take hv)
    simp only [Function.comp, Visit.global, h2, globalEntry, dataAt, h1, globalAt, Option.bind_some,
      Joint.data?, Option.map_some]

/-- C61, local buffer. -/
theorem C61_local (roots : List (Joint M X)) (h : NoNull roots) (room bufferSize : Nat)
    (hr : bufferSize ≤ room) (h16 : 16 ∣ bufferSize) :
    ∃ ps w, DepthFirst roots ps ∧
      fillLocalTransformBuffer roots (some room) bufferSize = .ok (w, 16 * min ps.length (bufferSize / 16)) ∧
      w.map some = (ps.take (bufferSize / 16)).map (fun p => (dataAt roots p).map Data.transform) := by
  refine ⟨(walk roots).map Visit.path, ((walk roots).map (fun v => v.data.transform)).take (bufferSize / 16),
    walk_depthFirst roots h, ?_, ?_⟩
  · have h0 : ¬ (bufferSize % 16 ≠ 0) := by omega
    have := fillLocalAll_eq (room / 16) (bufferSize / 16) (Nat.div_le_div_right hr) roots h [] [] 0 []
      (Nat.zero_le _)
    simp only [List.length_nil, Nat.sub_zero, List.nil_append] at this
    simp only [fillLocalTransformBuffer, if_neg h0, this, Res.bind_ok, walk, List.length_take,
      List.length_map]
    congr 2
    rw [Nat.mul_comm, Nat.min_comm]
  · rw [← List.map_take, ← List.map_take, List.map_map, List.map_map]
    apply List.map_congr_left
    intro v hv
    obtain ⟨s, h1, h2⟩ := (walk_mem roots v).1 (List.mem_of_mem_take hv)
    simp only [Function.comp, dataAt, h1, Option.bind_some, Joint.data?, Option.map_some]

/-- C61: a null buffer, or a size which is not a multiple of 16, is rejected. -/
theorem C61_rejects (roots : List (Joint M X)) (buffer : Option Nat) (bufferSize : Nat) (rel : Bool)
    (h : buffer = none ∨ ¬ 16 ∣ bufferSize) :
    fillGlobalTransformBuffer roots buffer bufferSize rel = .throw ∧
    fillLocalTransformBuffer roots buffer bufferSize = .throw := by
  rcases h with rfl | h
  · exact ⟨rfl, rfl⟩
  · have h0 : bufferSize % 16 ≠ 0 := by omega
    cases buffer <;> simp [fillGlobalTransformBuffer, fillLocalTransformBuffer, h0]

/-- A buffer for three of the five joints. -/
example : fillGlobalTransformBuffer skel (some 60) 48 false = .ok ([2, 6, 30], 48) ∧
    globalAt skel [0, 0, 0] = 30 := by
  constructor
  · decide +kernel
  · norm_num [globalAt, chain, skel, jd]

example : fillLocalTransformBuffer skel (some 800) 800 = .ok ([2, 3, 5, 7, 11], 80) := by decide +kernel

/-! ## C62 -/

variable (inv : M → M)

/-- `BuildJointSpace` sets the joint space transformation of each joint to the inverse of its global
pose transformation and changes nothing else. -/
theorem C62_joint_space (roots : List (Joint M X)) (h : NoNull roots) :
    ∃ r, buildJointSpace inv roots = .ok r ∧ NoNull r ∧ ∀ p, addrAt r p = addrAt roots p ∧
      dataAt r p = (dataAt roots p).map
        (fun d => { d with jointSpaceTransform := inv (globalPoseAt roots p) }) := by
  obtain ⟨r, h1, h2, h3⟩ := buildJoints_spec inv roots h 1
  refine ⟨r, h1, h2, fun p => ⟨(h3 p).1, ?_⟩⟩
  have := (h3 p).2.1
  rw [one_mul] at this
  exact this

/-- C62: with invertible pose transformations, after `BuildJointSpace` the relative global buffer of a
skeleton in its bind pose consists of identity matrices. -/
theorem C62_bind_pose (hinv : ∀ u : Mˣ, inv u = (u⁻¹ : Mˣ)) (roots : List (Joint M X))
    (h : NoNull roots)
    (hp : ∀ p d, dataAt roots p = some d → IsUnit d.poseTransform ∧ d.transform = d.poseTransform)
    (room bufferSize : Nat) (hr : bufferSize ≤ room) (h16 : 16 ∣ bufferSize) :
    ∃ r w n, buildJointSpace inv roots = .ok r ∧
      fillGlobalTransformBuffer r (some room) bufferSize true = .ok (w, n) ∧ ∀ m ∈ w, m = 1 := by
  obtain ⟨r, h1, h2, h3⟩ := buildJoints_spec inv roots h 1
  obtain ⟨ps, w, d1, d2, d3⟩ := C61_global r h2 room bufferSize hr h16 true
  refine ⟨r, w, _, h1, d2, fun m hm => ?_⟩
  have hm' : some m ∈ w.map some := List.mem_map.2 ⟨m, hm, rfl⟩
  rw [d3, List.mem_map] at hm'
  obtain ⟨p, -, hpm⟩ := hm'
  obtain ⟨-, g2, g3, -⟩ := h3 p
  rw [globalEntry, g2] at hpm
  -- the chain consists of joints of the forest
  have hchain : ∀ (f : List (Joint M X)) (p : List Nat),
      (∀ p d, dataAt f p = some d → IsUnit d.poseTransform ∧ d.transform = d.poseTransform) →
      ∀ d ∈ chain f p, IsUnit d.poseTransform ∧ d.transform = d.poseTransform := by
    intro f p
    induction p generalizing f with
    | nil => intro _ d hd; simp [chain] at hd
    | cons i p ih =>
      intro hf d hd
      cases hj : f[i]? with
      | none => simp [chain, hj] at hd
      | some j =>
        cases j with
        | null => simp [chain, hj] at hd
        | own a e s =>
          simp only [chain, hj, List.mem_cons] at hd
          rcases hd with rfl | hd
          · exact hf [i] d (by simp [dataAt, at?, hj, Joint.data?])
          · refine ih s (fun q e' hq => ?_) d hd
            cases q with
            | nil => rw [dataAt_nil] at hq; cases hq
            | cons k q => exact hf (i :: k :: q) e' (by
                simpa [dataAt, at?, hj, Joint.subs] using hq)
  have hc := hchain roots p hp
  have hglob : globalAt r p = globalPoseAt roots p := by
    rw [globalAt, g3, globalPoseAt]
    exact congrArg List.prod (List.map_congr_left fun d hd => (hc d hd).2)
  have hunit : IsUnit (globalPoseAt roots p) := by
    rw [globalPoseAt]
    have : ∀ l : List (Data M X), (∀ d ∈ l, IsUnit d.poseTransform) →
        IsUnit (l.map Data.poseTransform).prod := by
      intro l hl
      induction l with
      | nil => simp
      | cons d l ih =>
        rw [List.map_cons, List.prod_cons]
        exact (hl d (by simp)).mul (ih fun e he => hl e (by simp [he]))
    exact this _ fun d hd => (hc d hd).1
  cases hd : dataAt roots p with
  | none => rw [hd] at hpm; cases hpm
  | some d =>
    rw [hd] at hpm
    simp only [Option.map_some, if_true, Option.some.injEq] at hpm
    obtain ⟨u, hu⟩ := hunit
    rw [← hpm, hglob, one_mul, ← hu, hinv, Units.mul_inv]

/-- C62: if the pose transformations are invertible, `RebuildPoseTransforms` recovers all of them from
the joint space transformations, whatever they have been replaced by after `BuildJointSpace`. -/
theorem C62_rebuild (hinv : ∀ u : Mˣ, inv u = (u⁻¹ : Mˣ)) (roots : List (Joint M X))
    (h : NoNull roots) (hp : ∀ p d, dataAt roots p = some d → IsUnit d.poseTransform)
    (φ : Nat → M → M) :
    ∃ r, buildJointSpace inv roots = .ok r ∧ rebuildPoseTransforms inv (setPoses φ r) = .ok r ∧
      ∀ p, (dataAt r p).map Data.poseTransform = (dataAt roots p).map Data.poseTransform := by
  obtain ⟨r, h1, h2, h3⟩ := buildJoints_spec inv roots h 1
  refine ⟨r, h1, rebuild_build inv hinv φ roots h hp 1 r h1, fun p => ?_⟩
  rw [(h3 p).2.1]
  cases dataAt roots p <;> rfl

end Buffer

example : ∀ u : ℚˣ, (fun x : ℚ => x⁻¹) u = (u⁻¹ : ℚˣ) := fun u => by simp

theorem skel_pose : ∀ p d, dataAt skel p = some d → IsUnit d.poseTransform ∧ d.transform = d.poseTransform := by
  intro p d hd
  have : ∃ v ∈ walk skel, v.data = d := by
    rw [dataAt] at hd
    cases hj : at? skel p with
    | none => rw [hj] at hd; cases hd
    | some j =>
      rw [hj] at hd
      cases j with
      | null => cases hd
      | own a e s =>
        simp only [Option.bind_some, Joint.data?, Option.some.injEq] at hd
        exact ⟨⟨p, a, e, chain skel p⟩, (walk_mem skel _).2 ⟨s, hj, rfl⟩, hd⟩
  obtain ⟨v, hv, rfl⟩ := this
  simp only [walk, skel, walkFrom_own, walkFrom_nil, List.mem_cons, List.append_nil, List.nil_append,
    List.mem_append, List.not_mem_nil, or_false] at hv
  rcases hv with rfl | (rfl | rfl | rfl) | rfl <;> simp [jd]

/-! ## C63 -/

/-- C63: `CopyFrom` keeps the root joints and appends a forest of the same shape with the same data;
the new joints have distinct, unused addresses (`next`, `next + 1`, ...). -/
theorem C63_copy (next : Nat) (roots model : List (Joint M X)) (h : NoNull model) :
    ∃ c n, copyFrom next roots model = .ok (roots ++ c) ∧ NoNull c ∧
      (∀ p, dataAt c p = dataAt model p) ∧ numJoints model = .ok n ∧
      jointList c = .ok (List.range' next n) := by
  obtain ⟨c, n', h1, h2, h3, h4⟩ := copyJoints_spec model h next
  obtain ⟨ps, js, k1, k2, k3, k4, -⟩ := C60_traversals model h
  have hn : ps = (walk model).map Visit.path := k1.unique (walk_depthFirst model h)
  refine ⟨c, (walk model).length, by simp only [copyFrom, h1, Res.bind_ok], h2, h3, ?_, ?_⟩
  · rw [k4, hn, List.length_map]
  · simp only [jointList, listJointsAll_eq c h2 [] [] 0, List.nil_append]
    rw [(h4 [] [] 0).1]
    rfl

example : (copyFrom 20 skel [.own 1 (jd 4 4) [.own 2 (jd 9 9) []]]).bind jointList =
    .ok [10, 11, 12, 13, 14, 20, 21] := by rfl

/-- Copying a nonempty skeleton into itself is undefined (the loop runs over the growing list). -/
theorem C63_self_undefined (roots : List (Joint M X)) (h : roots ≠ []) : copyFromSelf roots = .ub := by
  cases roots with
  | nil => exact absurd rfl h
  | cons j js => rfl

/-! ## C64 -/

/-- C64 for a joint which is not in the list: null is returned and nothing is changed. -/
theorem C64_absent_partial (l : List (Joint M X)) (a : Nat) (h : ∀ j ∈ l, j.addr? ≠ some a) :
    removeJoint l a = .ok ⟨.null, l, .null⟩ := by
  have : findJoint l a = l.length := by
    rw [findJoint, List.findIdx_eq_length]
    intro j hj
    simpa using h j hj
  simp [removeJoint, this]

example : ∀ j ∈ skel, j.addr? ≠ some 12 := by simp [skel, Joint.addr?]

/-- C64 is refuted for each joint in a list: if the joint is the last one the call has undefined
behaviour; otherwise the joint is destroyed, its successor is returned instead of it, and a null
pointer is left in the list at its place. -/
theorem C64_refuted (pre post : List (Joint M X)) (a : Nat) (d : Data M X) (s : List (Joint M X))
    (h : ∀ j ∈ pre, j.addr? ≠ some a) :
    removeJoint (pre ++ .own a d s :: post) a = match post with
      | [] => .ub
      | j :: post => .ok ⟨j, pre ++ .null :: post, .own a d s⟩ := by
  have hi : findJoint (pre ++ .own a d s :: post) a = pre.length := by
    have hn : ¬ List.findIdx (fun j => j.addr? == some a) pre < pre.length := by
      rw [List.findIdx_lt_length]
      rintro ⟨x, hx, hxa⟩
      exact h x hx (by simpa using hxa)
    rw [findJoint, List.findIdx_append, if_neg hn]
    simp [List.findIdx_cons, Joint.addr?]
  have hlen : pre.length < (pre ++ Joint.own a d s :: post).length := by simp
  have her : (pre ++ Joint.own a d s :: post).eraseIdx pre.length = pre ++ post := by
    rw [List.eraseIdx_append_of_length_le le_rfl]
    simp
  simp only [removeJoint, hi, if_pos hlen, her]
  cases post with
  | nil => simp
  | cons j post => simp

example : removeJoint skel 10 = .ok ⟨.own 14 (jd 11 11) [], [.null], .own 10 (jd 2 2) [.own 11 (jd 3 3)
    [.own 12 (jd 5 5) []], .own 13 (jd 7 7) []]⟩ ∧ removeJoint skel 14 = .ub := by
  constructor
  · exact C64_refuted [] [.own 14 (jd 11 11) []] 10 _ _ (by simp)
  · exact C64_refuted [.own 10 _ _] [] 14 (jd 11 11) [] (by simp [Joint.addr?])

/-- After `RemoveRootJoint` of a joint of the list, each traversal of the skeleton is undefined. -/
theorem C64_then_traversals_undefined (roots : List (Joint M X)) (a : Nat) (j : Joint M X) (hj : j ∈ roots)
    (ha : j.addr? = some a) (hn : NoNull roots) :
    (removeJoint roots a).bind (fun r => jointList r.list) = .ub := by
  have hf : ∃ pre d s post, roots = pre ++ .own a d s :: post ∧ ∀ j ∈ pre, j.addr? ≠ some a := by
    clear hn
    induction roots with
    | nil => cases hj
    | cons k ks ih =>
      by_cases hk : k.addr? = some a
      · cases k with
        | null => cases hk
        | own b d s =>
          simp only [Joint.addr?, Option.some.injEq] at hk
          subst hk
          exact ⟨[], d, s, ks, rfl, by simp⟩
      · have : j ∈ ks := by
          rcases List.mem_cons.1 hj with rfl | h
          · exact absurd ha hk
          · exact h
        obtain ⟨pre, d, s, post, rfl, h⟩ := ih this
        exact ⟨k :: pre, d, s, post, rfl, by
          intro x hx
          rcases List.mem_cons.1 hx with rfl | hx
          · exact hk
          · exact h x hx⟩
  obtain ⟨pre, d, s, post, rfl, h⟩ := hf
  rw [C64_refuted pre post a d s h]
  cases post with
  | nil => rfl
  | cons k post =>
    have key : ∀ (pre : List (Joint M X)) (acc : List Nat), NoNull (pre ++ .own a d s :: k :: post) →
        listJointsAll (pre ++ .null :: post) acc = .ub := by
      intro pre
      induction pre with
      | nil => intro acc _; simp [listJointsAll, listJoints]
      | cons p pre ih =>
        intro acc hn
        cases p with
        | null => exact absurd hn (noNull_null _)
        | own b e t =>
          rw [List.cons_append] at hn
          obtain ⟨h1, h2⟩ := (noNull_cons b e t _).1 hn
          simp only [List.cons_append, listJointsAll, listJoints, listJointsAll_eq t h1 [] [] 0,
            Res.bind_ok]
          exact ih _ h2
    exact key pre [] hn

/-! The theorems for this skeleton. -/

example := C61_global skel skel_noNull 60 48 (by norm_num) (by norm_num) false
example := C61_local skel skel_noNull 60 48 (by norm_num) (by norm_num)
example := C62_joint_space (fun x : ℚ => x⁻¹) skel skel_noNull
example := C62_bind_pose (fun x : ℚ => x⁻¹) (fun u => by simp) skel skel_noNull skel_pose 60 48 (by norm_num) (by norm_num)
example := C63_self_undefined skel (by simp [skel])
example : (removeJoint skel 14).bind (fun r => jointList r.list) = .ub := C64_then_traversals_undefined skel 14 (.own 14 (jd 11 11) []) (by simp [skel]) rfl skel_noNull

end Geom.Skeleton.Props
