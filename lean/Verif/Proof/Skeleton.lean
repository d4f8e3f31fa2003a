import Verif.Spec.Skeleton
import Verif.Base.Tac

set_option linter.unusedSectionVars false
set_option autoImplicit false

namespace Geom.Skeleton

variable {M X : Type}

/-- Induction over forests. -/
theorem forest_ind {P : List (Joint M X) → Prop} (nil : P []) (null : ∀ js, P js → P (.null :: js))
    (own : ∀ a d s js, P s → P js → P (.own a d s :: js)) : ∀ f, P f
  | [] => nil
  | .null :: js => null js (forest_ind nil null own js)
  | .own a d s :: js => own a d s js (forest_ind nil null own s) (forest_ind nil null own js)
termination_by f => sizeOf f

/-! ### Paths -/

theorem at?_nil_forest (p : List Nat) : at? ([] : List (Joint M X)) p = none := by
  cases p with
  | nil => rfl
  | cons i p => cases p <;> simp [at?]

theorem at?_cons_succ (j : Joint M X) (js : List (Joint M X)) (i : Nat) (p : List Nat) :
    at? (j :: js) ((i + 1) :: p) = at? js (i :: p) := by
  cases p <;> simp [at?]

theorem at?_cons_zero (j : Joint M X) (js : List (Joint M X)) : at? (j :: js) [0] = some j := by
  simp [at?]

theorem at?_cons_zero_cons (j : Joint M X) (js : List (Joint M X)) (i : Nat) (p : List Nat) :
    at? (j :: js) (0 :: i :: p) = at? j.subs (i :: p) := by
  simp [at?]

theorem noNull_null (js : List (Joint M X)) : ¬ NoNull (.null :: js) :=
  fun h => h [0] (at?_cons_zero _ _)

theorem noNull_cons (a : Nat) (d : Data M X) (s js : List (Joint M X)) :
    NoNull (.own a d s :: js) ↔ NoNull s ∧ NoNull js := by
  constructor
  · intro h
    constructor
    · intro p hp
      cases p with
      | nil => simp [at?] at hp
      | cons i p => exact h (0 :: i :: p) (by rw [at?_cons_zero_cons]; exact hp)
    · intro p hp
      cases p with
      | nil => simp [at?] at hp
      | cons i p => exact h ((i + 1) :: p) (by rw [at?_cons_succ]; exact hp)
  · rintro ⟨h1, h2⟩ p hp
    cases p with
    | nil => simp [at?] at hp
    | cons i p =>
      cases i with
      | zero =>
        cases p with
        | nil => rw [at?_cons_zero] at hp; cases hp
        | cons i p => rw [at?_cons_zero_cons] at hp; exact h1 _ hp
      | succ i => rw [at?_cons_succ] at hp; exact h2 _ hp

theorem noNull_nil : NoNull ([] : List (Joint M X)) := fun p => by simp [at?_nil_forest]

/-! ### The list of all joints -/

/-- A joint of the forest, as seen by the traversal. -/
structure Visit (M X : Type) where
  path : List Nat
  addr : Nat
  data : Data M X
  anc : List (Data M X)

mutual
/-- Joints below and at a pointer at the path `path`, whose ancestors have the data `anc`. -/
def walk1 (path : List Nat) (anc : List (Data M X)) : Joint M X → List (Visit M X)
  | .null => []
  | .own a d s => ⟨path, a, d, anc ++ [d]⟩ :: walkFrom path (anc ++ [d]) 0 s

def walkFrom (path : List Nat) (anc : List (Data M X)) : Nat → List (Joint M X) → List (Visit M X)
  | _, [] => []
  | i, j :: js => walk1 (path ++ [i]) anc j ++ walkFrom path anc (i + 1) js
end

/-- All joints of a forest. -/
def walk (f : List (Joint M X)) : List (Visit M X) := walkFrom [] [] 0 f

theorem walkFrom_nil (path : List Nat) (anc : List (Data M X)) (i : Nat) :
    walkFrom path anc i [] = [] := by simp only [walkFrom]

theorem walkFrom_null (path : List Nat) (anc : List (Data M X)) (i : Nat) (js : List (Joint M X)) :
    walkFrom path anc i (.null :: js) = walkFrom path anc (i + 1) js := by
  simp only [walkFrom, walk1, List.nil_append]

theorem walkFrom_own (path : List Nat) (anc : List (Data M X)) (i a : Nat) (d : Data M X)
    (s js : List (Joint M X)) :
    walkFrom path anc i (.own a d s :: js) = ⟨path ++ [i], a, d, anc ++ [d]⟩ ::
      (walkFrom (path ++ [i]) (anc ++ [d]) 0 s ++ walkFrom path anc (i + 1) js) := by
  simp only [walkFrom, walk1, List.cons_append]

theorem walkFrom_mem (f : List (Joint M X)) : ∀ (path : List Nat) (anc : List (Data M X)) (i : Nat)
    (v : Visit M X), v ∈ walkFrom path anc i f ↔ ∃ k q s, v.path = path ++ (i + k) :: q ∧
      at? f (k :: q) = some (.own v.addr v.data s) ∧ v.anc = anc ++ chain f (k :: q) := by
  induction f using forest_ind with
  | nil => intro path anc i v; simp [walkFrom_nil, at?_nil_forest]
  | null js ih =>
    intro path anc i v
    rw [walkFrom_null, ih]
    constructor
    · rintro ⟨k, q, s, h1, h2, h3⟩
      refine ⟨k + 1, q, s, ?_, by rw [at?_cons_succ]; exact h2, ?_⟩
      · rw [h1]; congr 2; omega
      · rw [h3]; simp [chain]
    · rintro ⟨k, q, s, h1, h2, h3⟩
      cases k with
      | zero =>
        cases q with
        | nil => simp [at?] at h2
        | cons k q => rw [at?_cons_zero_cons] at h2; simp [Joint.subs, at?_nil_forest] at h2
      | succ k =>
        refine ⟨k, q, s, ?_, by rw [at?_cons_succ] at h2; exact h2, ?_⟩
        · rw [h1]; congr 2; omega
        · rw [h3]; simp [chain]
  | own a d t js iht ihj =>
    intro path anc i v
    rw [walkFrom_own, List.mem_cons, List.mem_append, iht, ihj]
    constructor
    · rintro (rfl | ⟨k, q, s, h1, h2, h3⟩ | ⟨k, q, s, h1, h2, h3⟩)
      · exact ⟨0, [], t, by simp, at?_cons_zero _ _, by simp [chain]⟩
      · refine ⟨0, k :: q, s, by simpa using h1, by rw [at?_cons_zero_cons]; exact h2, ?_⟩
        rw [h3]; simp [chain]
      · refine ⟨k + 1, q, s, ?_, by rw [at?_cons_succ]; exact h2, ?_⟩
        · rw [h1]; congr 2; omega
        · rw [h3]; simp [chain]
    · rintro ⟨k, q, s, h1, h2, h3⟩
      cases k with
      | zero =>
        cases q with
        | nil =>
          left
          rw [at?_cons_zero] at h2
          simp only [Option.some.injEq, Joint.own.injEq] at h2
          obtain ⟨h4, h5, h6⟩ := h2
          simp only [chain, List.getElem?_cons_zero] at h3
          cases v
          simp_all
        | cons k q =>
          right; left
          refine ⟨k, q, s, by simpa using h1, by rw [at?_cons_zero_cons] at h2; exact h2, ?_⟩
          rw [h3]; simp [chain]
      | succ k =>
        right; right
        refine ⟨k, q, s, ?_, by rw [at?_cons_succ] at h2; exact h2, ?_⟩
        · rw [h1]; congr 2; omega
        · rw [h3]; simp [chain]

theorem lt_append_of_lt (path p q : List Nat) (h : p < q) : path ++ p < path ++ q := by
  induction path with
  | nil => exact h
  | cons a path ih => exact List.cons_lt_cons_iff.2 (Or.inr ⟨rfl, ih⟩)

theorem walkFrom_sorted (f : List (Joint M X)) : ∀ (path : List Nat) (anc : List (Data M X)) (i : Nat),
    ((walkFrom path anc i f).map Visit.path).Pairwise (· < ·) := by
  induction f using forest_ind with
  | nil => intro path anc i; simp [walkFrom_nil]
  | null js ih => intro path anc i; rw [walkFrom_null]; exact ih _ _ _
  | own a d t js iht ihj =>
    intro path anc i
    rw [walkFrom_own, List.map_cons, List.map_append, List.pairwise_cons, List.pairwise_append]
    refine ⟨?_, iht _ _ _, ihj _ _ _, ?_⟩
    · intro p hp
      rw [List.mem_append, List.mem_map, List.mem_map] at hp
      rcases hp with ⟨v, hv, rfl⟩ | ⟨v, hv, rfl⟩
      · obtain ⟨k, q, s, h1, -⟩ := (walkFrom_mem _ _ _ _ _).1 hv
        rw [h1, List.append_assoc]
        exact lt_append_of_lt _ _ _ (by simp)
      · obtain ⟨k, q, s, h1, -⟩ := (walkFrom_mem _ _ _ _ _).1 hv
        rw [h1]
        exact lt_append_of_lt _ _ _ (List.cons_lt_cons_iff.2 (Or.inl (by omega)))
    · intro p hp p' hp'
      rw [List.mem_map] at hp hp'
      obtain ⟨v, hv, rfl⟩ := hp
      obtain ⟨v', hv', rfl⟩ := hp'
      obtain ⟨k, q, s, h1, -⟩ := (walkFrom_mem _ _ _ _ _).1 hv
      obtain ⟨k', q', s', h1', -⟩ := (walkFrom_mem _ _ _ _ _).1 hv'
      rw [h1, h1', List.append_assoc]
      exact lt_append_of_lt _ _ _ (List.cons_lt_cons_iff.2 (Or.inl (by omega)))

theorem walk_mem (f : List (Joint M X)) (v : Visit M X) : v ∈ walk f ↔
    ∃ s, at? f v.path = some (.own v.addr v.data s) ∧ v.anc = chain f v.path := by
  unfold walk
  rw [walkFrom_mem]
  constructor
  · rintro ⟨k, q, s, h1, h2, h3⟩
    simp only [List.nil_append, Nat.zero_add] at h1 h3
    rw [h1]
    exact ⟨s, h2, h3⟩
  · rintro ⟨s, h1, h2⟩
    cases hp : v.path with
    | nil => rw [hp] at h1; simp [at?] at h1
    | cons k q => exact ⟨k, q, s, by simp, by rw [← hp]; exact h1, by rw [h2, hp]; rfl⟩

theorem walk_depthFirst (f : List (Joint M X)) (hf : NoNull f) :
    DepthFirst f ((walk f).map Visit.path) := by
  refine ⟨walkFrom_sorted f _ _ _, fun p => ?_⟩
  rw [List.mem_map]
  constructor
  · rintro ⟨v, hv, rfl⟩
    obtain ⟨s, h, -⟩ := (walk_mem f v).1 hv
    exact ⟨_, h⟩
  · rintro ⟨j, hj⟩
    cases j with
    | null => exact absurd hj (hf p)
    | own a d s => exact ⟨⟨p, a, d, chain f p⟩, (walk_mem f _).2 ⟨s, hj, rfl⟩, rfl⟩

/-- The depth-first list is unique. -/
theorem DepthFirst.unique {f : List (Joint M X)} {ps qs : List (List Nat)} (h : DepthFirst f ps)
    (h' : DepthFirst f qs) : ps = qs := by
  have hn : ∀ l : List (List Nat), l.Pairwise (· < ·) → l.Nodup := fun l hl =>
    hl.imp fun {a b} hab => ne_of_lt hab
  have hp : ps.Perm qs := (List.perm_ext_iff_of_nodup (hn _ h.1) (hn _ h'.1)).2 fun p => by
    rw [h.2, h'.2]
  exact hp.eq_of_pairwise (fun a b _ _ h1 h2 => absurd h2 (lt_asymm h1)) h.1 h'.1

/-! ### The functions in terms of the list of all joints -/

theorem listJointsAll_eq (f : List (Joint M X)) (hf : NoNull f) : ∀ (path anc i acc),
    listJointsAll f acc = .ok (acc ++ (walkFrom path anc i f).map Visit.addr) := by
  induction f using forest_ind with
  | nil => intro path anc i acc; simp [walkFrom_nil, listJointsAll]
  | null js ih => exact absurd hf (noNull_null js)
  | own a d t js iht ihj =>
    intro path anc i acc
    obtain ⟨h1, h2⟩ := (noNull_cons a d t js).1 hf
    rw [walkFrom_own]
    simp only [listJointsAll, listJoints, iht h1 (path ++ [i]) (anc ++ [d]) 0, Res.bind_ok,
      ihj h2 path anc (i + 1)]
    simp

theorem iterateJoints_eq {σ : Type} (g : σ → Nat → Nat → σ) (f : List (Joint M X)) (hf : NoNull f) :
    ∀ (path anc i) (s : σ) (n : Nat), iterateJoints g f s n =
      .ok ((((walkFrom path anc i f).map Visit.addr).zipIdx n).foldl (fun s p => g s p.1 p.2) s,
        n + (walkFrom path anc i f).length) := by
  induction f using forest_ind with
  | nil => intro path anc i s n; simp [walkFrom_nil, iterateJoints]
  | null js ih => exact absurd hf (noNull_null js)
  | own a d t js iht ihj =>
    intro path anc i s n
    obtain ⟨h1, h2⟩ := (noNull_cons a d t js).1 hf
    rw [walkFrom_own]
    simp only [iterateJoints, iterateJoint, iht h1 (path ++ [i]) (anc ++ [d]) 0, Res.bind_ok,
      ihj h2 path anc (i + 1)]
    simp only [List.map_cons, List.map_append, List.zipIdx_cons, List.zipIdx_append, List.foldl_cons,
      List.foldl_append, List.length_cons, List.length_append, List.length_map]
    congr 2
    omega

theorem numSubJointsAll_eq (f : List (Joint M X)) (hf : NoNull f) : ∀ (path anc i n),
    numSubJointsAll f n = .ok (n + ((walkFrom path anc i f).length - f.length)) ∧
      f.length ≤ (walkFrom path anc i f).length := by
  induction f using forest_ind with
  | nil => intro path anc i n; simp [walkFrom_nil, numSubJointsAll]
  | null js ih => exact absurd hf (noNull_null js)
  | own a d t js iht ihj =>
    intro path anc i n
    obtain ⟨h1, h2⟩ := (noNull_cons a d t js).1 hf
    rw [walkFrom_own]
    obtain ⟨e1, l1⟩ := iht h1 (path ++ [i]) (anc ++ [d]) 0 t.length
    simp only [numSubJointsAll, numSubJoints, e1, Res.bind_ok]
    obtain ⟨e2, l2⟩ := ihj h2 path anc (i + 1)
      (n + (t.length + ((walkFrom (path ++ [i]) (anc ++ [d]) 0 t).length - t.length)))
    rw [e2]
    simp only [List.length_cons, List.length_append]
    exact ⟨by congr 1; omega, by omega⟩

section Buffer
variable [Monoid M]

/-- Writing the list `l` from `w` on, stopping when `max` matrices are written. -/
theorem put_ok (cap : Nat) (w : List M) (m : M) (h : w.length < cap) : put cap w m = .ok (w ++ [m]) := by
  simp [put, h]

/-- The matrix the global buffer gets for a joint. -/
def Visit.global (rel : Bool) (v : Visit M X) : M :=
  if rel then (v.anc.map Data.transform).prod * v.data.jointSpaceTransform
  else (v.anc.map Data.transform).prod

theorem take_app (max : Nat) (w l l' : List M) (h : w.length ≤ max) :
    w ++ l.take (max - w.length) ++ l'.take (max - (w ++ l.take (max - w.length)).length) =
      w ++ (l ++ l').take (max - w.length) := by
  rw [List.append_assoc, List.take_append]
  congr 2
  simp only [List.length_append, List.length_take]
  congr 1
  omega

theorem fillGlobalAll_eq (cap max : Nat) (rel : Bool) (hc : max ≤ cap) (f : List (Joint M X))
    (hf : NoNull f) : ∀ (path anc i) (w : List M), w.length ≤ max →
      fillGlobalAll cap max rel f ((anc.map Data.transform).prod) w =
        .ok (w ++ ((walkFrom path anc i f).map (Visit.global rel)).take (max - w.length)) := by
  induction f using forest_ind with
  | nil => intro path anc i w _; simp [walkFrom_nil, fillGlobalAll]
  | null js ih => exact absurd hf (noNull_null js)
  | own a d t js iht ihj =>
    intro path anc i w hw
    obtain ⟨h1, h2⟩ := (noNull_cons a d t js).1 hf
    rw [walkFrom_own]
    by_cases hlt : w.length < max
    · have hp : ((anc.map Data.transform).prod) * d.transform =
          ((anc ++ [d]).map Data.transform).prod := by simp
      simp only [fillGlobalAll, if_pos hlt, fillGlobal, hp]
      rw [put_ok _ _ _ (by omega)]
      simp only [Res.bind_ok]
      set m := (if rel = true then (List.map Data.transform (anc ++ [d])).prod * d.jointSpaceTransform
        else (List.map Data.transform (anc ++ [d])).prod) with hm
      rw [iht h1 (path ++ [i]) (anc ++ [d]) 0 (w ++ [m]) (by simp; omega)]
      simp only [Res.bind_ok]
      rw [ihj h2 path anc (i + 1) _ (by simp; omega), take_app _ _ _ _ (by simp; omega)]
      have hmm : Visit.global rel ⟨path ++ [i], a, d, anc ++ [d]⟩ = m := by simp [Visit.global, hm]
      rw [List.map_cons, hmm]
      obtain ⟨k, hk⟩ : ∃ k, max - w.length = k + 1 := ⟨max - w.length - 1, by omega⟩
      have hk' : max - (w ++ [m]).length = k := by simp; omega
      rw [hk, hk', List.take_succ_cons]
      simp
    · have : max - w.length = 0 := by omega
      simp only [fillGlobalAll, if_neg hlt, this, List.take_zero, List.append_nil]

theorem fillLocalAll_eq (cap max : Nat) (hc : max ≤ cap) (f : List (Joint M X))
    (hf : NoNull f) : ∀ (path anc i) (w : List M), w.length ≤ max →
      fillLocalAll cap max f w =
        .ok (w ++ ((walkFrom path anc i f).map (fun v => v.data.transform)).take (max - w.length)) := by
  induction f using forest_ind with
  | nil => intro path anc i w _; simp [walkFrom_nil, fillLocalAll]
  | null js ih => exact absurd hf (noNull_null js)
  | own a d t js iht ihj =>
    intro path anc i w hw
    obtain ⟨h1, h2⟩ := (noNull_cons a d t js).1 hf
    rw [walkFrom_own]
    by_cases hlt : w.length < max
    · simp only [fillLocalAll, if_pos hlt, fillLocal]
      rw [put_ok _ _ _ (by omega)]
      simp only [Res.bind_ok]
      rw [iht h1 (path ++ [i]) (anc ++ [d]) 0 (w ++ [d.transform]) (by simp; omega)]
      simp only [Res.bind_ok]
      rw [ihj h2 path anc (i + 1) _ (by simp; omega), take_app _ _ _ _ (by simp; omega)]
      rw [List.map_cons]
      obtain ⟨k, hk⟩ : ∃ k, max - w.length = k + 1 := ⟨max - w.length - 1, by omega⟩
      have hk' : max - (w ++ [d.transform]).length = k := by simp; omega
      rw [hk, hk', List.take_succ_cons]
      simp
    · have : max - w.length = 0 := by omega
      simp only [fillLocalAll, if_neg hlt, this, List.take_zero, List.append_nil]

end Buffer

/-! ### Data by path -/

theorem dataAt_nil (f : List (Joint M X)) : dataAt f [] = none := by simp [dataAt, at?]

theorem dataAt_nil_forest (p : List Nat) : dataAt ([] : List (Joint M X)) p = none := by
  simp [dataAt, at?_nil_forest]

theorem dataAt_zero (a : Nat) (d : Data M X) (s js : List (Joint M X)) :
    dataAt (.own a d s :: js) [0] = some d := by simp [dataAt, at?_cons_zero, Joint.data?]

theorem dataAt_zero_cons (a : Nat) (d : Data M X) (s js : List (Joint M X)) (i : Nat) (p : List Nat) :
    dataAt (.own a d s :: js) (0 :: i :: p) = dataAt s (i :: p) := by
  simp [dataAt, at?_cons_zero_cons, Joint.subs]

theorem dataAt_succ (j : Joint M X) (js : List (Joint M X)) (i : Nat) (p : List Nat) :
    dataAt (j :: js) ((i + 1) :: p) = dataAt js (i :: p) := by
  simp [dataAt, at?_cons_succ]

theorem addrAt_zero (a : Nat) (d : Data M X) (s js : List (Joint M X)) :
    addrAt (.own a d s :: js) [0] = some a := by simp [addrAt, at?_cons_zero, Joint.addr?]

theorem addrAt_zero_cons (a : Nat) (d : Data M X) (s js : List (Joint M X)) (i : Nat) (p : List Nat) :
    addrAt (.own a d s :: js) (0 :: i :: p) = addrAt s (i :: p) := by
  simp [addrAt, at?_cons_zero_cons, Joint.subs]

theorem addrAt_succ (j : Joint M X) (js : List (Joint M X)) (i : Nat) (p : List Nat) :
    addrAt (j :: js) ((i + 1) :: p) = addrAt js (i :: p) := by
  simp [addrAt, at?_cons_succ]

theorem chain_zero (a : Nat) (d : Data M X) (s js : List (Joint M X)) (p : List Nat) :
    chain (.own a d s :: js) (0 :: p) = d :: chain s p := by simp [chain]

theorem chain_succ (j : Joint M X) (js : List (Joint M X)) (i : Nat) (p : List Nat) :
    chain (j :: js) ((i + 1) :: p) = chain js (i :: p) := by simp [chain]

/-- Case distinction over the paths in a nonempty forest. -/
theorem path_cases {P : List Nat → Prop} (h0 : P []) (h1 : P [0]) (h2 : ∀ i p, P (0 :: i :: p))
    (h3 : ∀ i p, P ((i + 1) :: p)) : ∀ p, P p
  | [] => h0
  | [0] => h1
  | 0 :: i :: p => h2 i p
  | (i + 1) :: p => h3 i p

/-- Each joint of the forest has data with the property `Q`. -/
def AllData (Q : Data M X → Prop) (f : List (Joint M X)) : Prop := ∀ p d, dataAt f p = some d → Q d

theorem allData_cons (Q : Data M X → Prop) (a : Nat) (d : Data M X) (s js : List (Joint M X))
    (h : AllData Q (.own a d s :: js)) : Q d ∧ AllData Q s ∧ AllData Q js := by
  refine ⟨h [0] d (dataAt_zero _ _ _ _), fun p e he => ?_, fun p e he => ?_⟩
  · cases p with
    | nil => rw [dataAt_nil] at he; cases he
    | cons i p => exact h (0 :: i :: p) e (by rw [dataAt_zero_cons]; exact he)
  · cases p with
    | nil => rw [dataAt_nil] at he; cases he
    | cons i p => exact h ((i + 1) :: p) e (by rw [dataAt_succ]; exact he)

section Space
variable [Monoid M] (inv : M → M)

theorem globalPoseAt_zero (a : Nat) (d : Data M X) (s js : List (Joint M X)) (p : List Nat) :
    globalPoseAt (.own a d s :: js) (0 :: p) = d.poseTransform * globalPoseAt s p := by
  simp [globalPoseAt, chain_zero]

theorem globalPoseAt_succ (j : Joint M X) (js : List (Joint M X)) (i : Nat) (p : List Nat) :
    globalPoseAt (j :: js) ((i + 1) :: p) = globalPoseAt js (i :: p) := by
  simp [globalPoseAt, chain_succ]

/-- What `BuildJointSpace` does to each joint. -/
theorem buildJoints_spec (f : List (Joint M X)) (hf : NoNull f) : ∀ par : M,
    ∃ f', buildJoints inv f par = .ok f' ∧ NoNull f' ∧ ∀ p, addrAt f' p = addrAt f p ∧
      dataAt f' p = (dataAt f p).map
        (fun d => { d with jointSpaceTransform := inv (par * globalPoseAt f p) }) ∧
      (chain f' p).map Data.transform = (chain f p).map Data.transform ∧
      (chain f' p).map Data.poseTransform = (chain f p).map Data.poseTransform := by
  induction f using forest_ind with
  | nil => exact fun par => ⟨[], by simp only [buildJoints], noNull_nil, fun p => by
      simp [dataAt_nil_forest, addrAt, at?_nil_forest]⟩
  | null js ih => exact absurd hf (noNull_null js)
  | own a d t js iht ihj =>
    intro par
    obtain ⟨h1, h2⟩ := (noNull_cons a d t js).1 hf
    obtain ⟨t', e1, n1, s1⟩ := iht h1 (par * d.poseTransform)
    obtain ⟨js', e2, n2, s2⟩ := ihj h2 par
    refine ⟨_, by simp only [buildJoints, buildJoint, e1, e2, Res.bind_ok]; rfl,
      (noNull_cons _ _ _ _).2 ⟨n1, n2⟩, ?_⟩
    apply path_cases
    · simp [dataAt_nil, addrAt, at?, chain]
    · simp [dataAt_zero, addrAt_zero, chain, globalPoseAt]
    · intro i p
      obtain ⟨b1, b2, b3, b4⟩ := s1 (i :: p)
      rw [addrAt_zero_cons, addrAt_zero_cons, dataAt_zero_cons, dataAt_zero_cons, chain_zero,
        chain_zero, globalPoseAt_zero, ← mul_assoc]
      exact ⟨b1, b2, by simp [b3], by simp [b4]⟩
    · intro i p
      rw [addrAt_succ, addrAt_succ, dataAt_succ, dataAt_succ, chain_succ, chain_succ,
        globalPoseAt_succ]
      exact s2 (i :: p)

mutual
/-- Arbitrary changes of the pose transformations of a forest. -/
def setPose1 (φ : Nat → M → M) : Joint M X → Joint M X
  | .null => .null
  | .own a d s => .own a { d with poseTransform := φ a d.poseTransform } (setPoses φ s)
def setPoses (φ : Nat → M → M) : List (Joint M X) → List (Joint M X)
  | [] => []
  | j :: js => setPose1 φ j :: setPoses φ js
end

theorem rebuild_build (hinv : ∀ u : Mˣ, inv u = (u⁻¹ : Mˣ)) (φ : Nat → M → M)
    (f : List (Joint M X)) (hf : NoNull f)
    (hu : AllData (fun d => IsUnit d.poseTransform) f) : ∀ (par : Mˣ) (f' : List (Joint M X)),
    buildJoints inv f par = .ok f' → rebuildJoints inv (setPoses φ f') par = .ok f' := by
  induction f using forest_ind with
  | nil =>
    intro par f' h
    simp only [buildJoints, Res.ok.injEq] at h
    subst h
    simp only [setPoses, rebuildJoints]
  | null js ih => exact absurd hf (noNull_null js)
  | own a d t js iht ihj =>
    intro par f' h
    obtain ⟨h1, h2⟩ := (noNull_cons a d t js).1 hf
    obtain ⟨⟨u, hd⟩, u1, u2⟩ := allData_cons _ a d t js hu
    obtain ⟨t', e1, -, -⟩ := buildJoints_spec inv t h1 (par * d.poseTransform)
    obtain ⟨js', e2, -, -⟩ := buildJoints_spec inv js h2 par
    simp only [buildJoints, buildJoint, e1, e2, Res.bind_ok, Res.ok.injEq] at h
    subst h
    have hpd : (par : M) * d.poseTransform = ((par * u : Mˣ) : M) := by rw [← hd]; simp
    have hi : inv ((par : M) * d.poseTransform) = (((par * u)⁻¹ : Mˣ) : M) := by rw [hpd, hinv]
    have hii : inv (inv ((par : M) * d.poseTransform)) = (par : M) * d.poseTransform := by
      rw [hi, hinv, inv_inv, ← hpd]
    have hpose : inv (par : M) * ((par : M) * d.poseTransform) = d.poseTransform := by
      rw [hinv, ← mul_assoc, Units.inv_mul, one_mul]
    have ht := iht h1 u1 (par * u) t' (by rw [← hpd]; exact e1)
    have hj := ihj h2 u2 par js' e2
    rw [← hpd] at ht
    simp only [setPoses, setPose1, rebuildJoints, rebuildJoint, hii, hpose, ht, hj, Res.bind_ok]

end Space

/-! ### Copies -/

theorem copyJoints_spec (f : List (Joint M X)) (hf : NoNull f) : ∀ n : Nat,
    ∃ f' n', copyJoints n f = .ok (f', n') ∧ NoNull f' ∧ (∀ p, dataAt f' p = dataAt f p) ∧
      ∀ path anc i, (walkFrom path anc i f').map Visit.addr =
        List.range' n (walkFrom path anc i f).length ∧ n' = n + (walkFrom path anc i f).length := by
  induction f using forest_ind with
  | nil => exact fun n => ⟨[], n, by simp only [copyJoints], noNull_nil, fun p => rfl, fun path anc i => by
      simp [walkFrom_nil]⟩
  | null js ih => exact absurd hf (noNull_null js)
  | own a d t js iht ihj =>
    intro n
    obtain ⟨h1, h2⟩ := (noNull_cons a d t js).1 hf
    obtain ⟨t', n1, e1, nn1, d1, w1⟩ := iht h1 (n + 1)
    obtain ⟨js', n2, e2, nn2, d2, w2⟩ := ihj h2 n1
    refine ⟨_, n2, by simp only [copyJoints, copyJoint, e1, e2, Res.bind_ok]; rfl,
      (noNull_cons _ _ _ _).2 ⟨nn1, nn2⟩, ?_, ?_⟩
    · apply path_cases
      · simp [dataAt_nil]
      · simp [dataAt_zero]
      · intro i p; rw [dataAt_zero_cons, dataAt_zero_cons]; exact d1 _
      · intro i p; rw [dataAt_succ, dataAt_succ]; exact d2 _
    · intro path anc i
      obtain ⟨a1, a2⟩ := w1 (path ++ [i]) (anc ++ [d]) 0
      obtain ⟨b1, b2⟩ := w2 path anc (i + 1)
      rw [walkFrom_own, walkFrom_own]
      simp only [List.map_cons, List.map_append, a1, b1, List.length_cons, List.length_append]
      constructor
      · rw [List.range'_succ, ← List.range'_append_1, a2]
      · omega

end Geom.Skeleton
