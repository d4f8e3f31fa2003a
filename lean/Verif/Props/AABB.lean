import Verif.Proof.AABB
import Mathlib.Data.Fintype.Pi
import Mathlib.Data.Fintype.Card
import Mathlib.Data.Rat.Defs
import Mathlib.Algebra.Order.Ring.Rat
import Mathlib.Tactic.Linarith
import Mathlib.Tactic.Positivity
import Mathlib.Tactic.NormNum
import Mathlib.Tactic.FinCases
import Mathlib.Tactic.Ring

/-!
Properties C01-C04 and C09 (axis-aligned boxes), for each dimension `n` and each linearly
ordered component type.
-/

set_option linter.unusedSectionVars false

set_option autoImplicit false

namespace Geom.AABB.Props

variable {n : Nat} {T : Type} [LinearOrder T]

/-! ## C01: the tightest box -/

/-- A reset box and any non-empty sequence of points (within the limits of the number type). -/
theorem C01_hull (lo hi : T) (ps : List (Fin n → T)) (hne : ps ≠ [])
    (hl : ∀ p ∈ ps, InLimits lo hi p) : IsHull {p | p ∈ ps} (insertAll (reset lo hi) ps) := by
  refine ⟨fun p hp i => ?_, fun c hc i => ?_⟩
  · exact ⟨((le_insertAll_min ps _ i _).1 le_rfl).2 p hp, ((insertAll_max_le ps _ i _).1 le_rfl).2 p hp⟩
  · obtain ⟨q, hq⟩ := List.exists_mem_of_ne_nil ps hne
    constructor
    · exact (le_insertAll_min ps _ i _).2 ⟨(hc hq i).1.trans (hl q hq i).2, fun p hp => (hc hp i).1⟩
    · exact (insertAll_max_le ps _ i _).2 ⟨(hl q hq i).1.trans (hc hq i).2, fun p hp => (hc hp i).2⟩

example : IsHull {p | p ∈ [![1, 5], ![3, 2], ![0, 4]]} (⟨![0, 2], ![3, 5]⟩ : Box 2 Int) := by
  have h := C01_hull (-100) (100 : Int) [![1, 5], ![3, 2], ![0, 4]] (by simp)
    (by simp [InLimits])
  have e : insertAll (reset (-100) 100) [![1, 5], ![3, 2], ![0, 4]] =
      (⟨![0, 2], ![3, 5]⟩ : Box 2 Int) := by
    ext i <;> fin_cases i <;> rfl
  rwa [e] at h

/-- Covering does not need the limits: the box covers the points whatever they are, and
whatever the box was before. -/
theorem C01_covers (b : Box n T) (ps : List (Fin n → T)) :
    ∀ p ∈ ps, contains (insertAll b ps) p = true := by
  intro p hp
  rw [contains_iff]
  exact fun i =>
    ⟨((le_insertAll_min ps _ i _).1 le_rfl).2 p hp, ((insertAll_max_le ps _ i _).1 le_rfl).2 p hp⟩

example : contains (insertAll (⟨![0, 2], ![3, 5]⟩ : Box 2 Int) [![1, 9], ![-4, 3]]) ![-4, 3] = true := C01_covers _ _ _ (by simp)

/-- After `Reset(point)` no limits are needed at all. -/
theorem C01_hull_resetTo (p : Fin n → T) (ps : List (Fin n → T)) :
    IsHull {q | q ∈ p :: ps} (insertAll (resetTo p) ps) := by
  refine ⟨fun q hq i => ?_, fun c hc i => ?_⟩
  · have h1 := (le_insertAll_min ps (resetTo p) i _).1 le_rfl
    have h2 := (insertAll_max_le ps (resetTo p) i _).1 le_rfl
    rcases List.mem_cons.1 hq with rfl | hq
    · exact ⟨h1.1, h2.1⟩
    · exact ⟨h1.2 q hq, h2.2 q hq⟩
  · have hp := hc (show p ∈ {q | q ∈ p :: ps} from List.mem_cons_self)
    constructor
    · exact (le_insertAll_min ps _ i _).2
        ⟨(hp i).1, fun q hq => (hc (show q ∈ {q | q ∈ p :: ps} from List.mem_cons_of_mem _ hq) i).1⟩
    · exact (insertAll_max_le ps _ i _).2
        ⟨(hp i).2, fun q hq => (hc (show q ∈ {q | q ∈ p :: ps} from List.mem_cons_of_mem _ hq) i).2⟩

/-- Order and repetition do not matter. -/
theorem C01_set (b : Box n T) (ps qs : List (Fin n → T)) (h : ∀ p, p ∈ ps ↔ p ∈ qs) :
    insertAll b ps = insertAll b qs := by
  apply box_ext_bounds
  · intro i x; simp only [le_insertAll_min, h]
  · intro i x; simp only [insertAll_max_le, h]

example : ∀ p : Fin 1 → Nat, p ∈ [![1], ![2], ![1]] ↔ p ∈ [![2], ![1]] := by simp [or_comm]

/-- A box counts as its two corners. -/
theorem C01_box_as_corners (b c : Box n T) (h : Valid c) :
    insertBox b c = insert (insert b c.min) c.max := by
  ext i
  · rw [insertBox_min, insert_min, insert_min, min_assoc, min_eq_left (h i)]
  · rw [insertBox_max, insert_max, insert_max, max_assoc, max_eq_right (h i)]

example : Valid (⟨![0, 2], ![3, 5]⟩ : Box 2 Int) := by
  intro i; fin_cases i <;> simp

/-- A box without points is neutral for the insertion of boxes, and merging two boxes built from
points gives the box of all the points. -/
theorem C01_merge (lo hi : T) (ps qs : List (Fin n → T)) :
    insertBox (insertAll (reset lo hi) ps) (insertAll (reset lo hi) qs) =
      insertAll (reset lo hi) (ps ++ qs) := by
  apply box_ext_bounds
  · intro i x
    rw [insertBox_min, le_min_iff]
    simp only [le_insertAll_min, List.mem_append, or_imp, forall_and]
    tauto
  · intro i x
    rw [insertBox_max, max_le_iff]
    simp only [insertAll_max_le, List.mem_append, or_imp, forall_and]
    tauto

/-- Mixed histories: any non-empty sequence of insertions of points and valid boxes into a reset
box yields the tightest box around the union of what was inserted. -/
theorem C01_history (lo hi : T) (ops : List (Ins n T)) (hne : ops ≠ [])
    (hv : ∀ b, Ins.box b ∈ ops → Valid b)
    (hl : ∀ op ∈ ops, ∀ p ∈ op.set, InLimits lo hi p) :
    IsHull {p | ∃ op ∈ ops, p ∈ op.set} (ops.foldl Ins.apply (reset lo hi)) := by
  -- the list of the inserted points and corners
  let cs : List (Fin n → T) := ops.flatMap fun
    | .point p => [p]
    | .box b => [b.min, b.max]
  have key : ∀ (ops : List (Ins n T)) (b : Box n T), (∀ c, Ins.box c ∈ ops → Valid c) →
      ops.foldl Ins.apply b = insertAll b (ops.flatMap fun
        | .point p => [p]
        | .box b => [b.min, b.max]) := by
    intro ops
    induction ops with
    | nil => intro b _; rfl
    | cons op ops ih =>
      intro b hv
      have hv' : ∀ c, Ins.box c ∈ ops → Valid c := fun c hc => hv c (List.mem_cons_of_mem _ hc)
      cases op with
      | point p =>
        rw [List.foldl_cons, ih _ hv', List.flatMap_cons]; rfl
      | box c =>
        rw [List.foldl_cons, ih _ hv', List.flatMap_cons]
        simp only [Ins.apply, C01_box_as_corners b c (hv c List.mem_cons_self)]
        rfl
  have mem_cs : ∀ p ∈ cs, ∃ op ∈ ops, p ∈ op.set := by
    intro p hp
    obtain ⟨op, hop, h⟩ := List.mem_flatMap.1 hp
    refine ⟨op, hop, ?_⟩
    cases op with
    | point q => simpa [Ins.set] using h
    | box b =>
      rcases List.mem_cons.1 h with rfl | h
      · exact min_mem (hv b hop)
      · rw [List.mem_singleton.1 h]; exact max_mem (hv b hop)
  have hcs : cs ≠ [] := by
    obtain ⟨op, hop⟩ := List.exists_mem_of_ne_nil ops hne
    cases op with
    | point q => exact List.ne_nil_of_mem (List.mem_flatMap.2 ⟨_, hop, List.mem_singleton.2 rfl⟩)
    | box b => exact List.ne_nil_of_mem (List.mem_flatMap.2 ⟨_, hop, List.mem_cons_self⟩)
  rw [key ops _ hv]
  obtain ⟨h1, h2⟩ := C01_hull lo hi cs hcs (fun p hp => by
    obtain ⟨op, hop, h⟩ := mem_cs p hp; exact hl op hop p h)
  refine ⟨?_, fun c hc => h2 c (fun p hp => hc (mem_cs p hp))⟩
  rintro p ⟨op, hop, hp⟩
  cases op with
  | point q =>
    have : p = q := hp
    subst this
    exact h1 (List.mem_flatMap.2 ⟨_, hop, List.mem_singleton.2 rfl⟩)
  | box b =>
    have ha := h1 (show b.min ∈ {p | p ∈ cs} from List.mem_flatMap.2 ⟨_, hop, List.mem_cons_self⟩)
    have hb := h1 (show b.max ∈ {p | p ∈ cs} from
      List.mem_flatMap.2 ⟨_, hop, List.mem_cons_of_mem _ List.mem_cons_self⟩)
    exact fun i => ⟨(ha i).1.trans (hp i).1, (hp i).2.trans (hb i).2⟩

example : ∀ op ∈ [Ins.point ![1, 5], Ins.box (⟨![0, 2], ![3, 5]⟩ : Box 2 Int)], ∀ p ∈ op.set,
    InLimits (-100) 100 p := by
  intro op hop p hp i
  rcases List.mem_cons.1 hop with rfl | hop
  · rw [show p = ![1, 5] from hp]; fin_cases i <;> simp
  · rw [List.mem_singleton.1 hop] at hp
    have := hp i
    fin_cases i <;> simp at this ⊢ <;> omega

/-! ## C02: set relations -/

theorem C02_contains (b : Box n T) (p : Fin n → T) :
    contains b p = true ↔ ∀ i, b.min i ≤ p i ∧ p i ≤ b.max i := contains_iff b p

theorem C02_overlap (a b : Box n T) (ha : Valid a) (hb : Valid b) :
    overlap a b = true ↔ (pts a ∩ pts b).Nonempty := by
  rw [overlap_iff]
  constructor
  · intro h
    refine ⟨fun i => max (a.min i) (b.min i), fun i => ⟨le_max_left _ _, ?_⟩,
      fun i => ⟨le_max_right _ _, ?_⟩⟩
    · exact max_le (ha i) (h i).1
    · exact max_le (h i).2 (hb i)
  · rintro ⟨p, h1, h2⟩ i
    exact ⟨(h2 i).1.trans (h1 i).2, (h1 i).1.trans (h2 i).2⟩

example : (pts (⟨![0, 2], ![3, 5]⟩ : Box 2 Int) ∩ pts ⟨![3, 5], ![4, 9]⟩).Nonempty :=
  (C02_overlap _ _ (by intro i; fin_cases i <;> simp) (by intro i; fin_cases i <;> simp)).1 (by decide)

theorem C02_insideOf (a b : Box n T) (ha : Valid a) : insideOf a b = true ↔ pts a ⊆ pts b := by
  rw [insideOf_iff]
  constructor
  · intro h p hp i
    exact ⟨(h i).1.trans (hp i).1, (hp i).2.trans (h i).2⟩
  · intro h i
    exact ⟨(h (min_mem ha) i).1, (h (max_mem ha) i).2⟩

example : pts (⟨![1, 2], ![3, 4]⟩ : Box 2 Int) ⊆ pts ⟨![0, 2], ![3, 5]⟩ :=
  (C02_insideOf _ _ (by intro i; fin_cases i <;> simp)).1 (by decide)

theorem C02_containsBox (a b : Box n T) (ha : Valid a) :
    containsBox b a = true ↔ pts a ⊆ pts b := C02_insideOf a b ha

example : ¬ pts (⟨![1, 2], ![3, 6]⟩ : Box 2 Int) ⊆ pts ⟨![0, 2], ![3, 5]⟩ :=
  fun h => absurd ((C02_containsBox _ _ (by intro i; fin_cases i <;> simp)).2 h) (by decide)

theorem C02_overlap_symm (a b : Box n T) : overlap a b = overlap b a := by
  rw [Bool.eq_iff_iff, overlap_iff, overlap_iff]
  exact forall_congr' fun i => and_comm

theorem C02_insideOf_refl (a : Box n T) : insideOf a a = true := by
  rw [insideOf_iff]; exact fun i => ⟨le_rfl, le_rfl⟩

theorem C02_insideOf_trans (a b c : Box n T) (h1 : insideOf a b = true) (h2 : insideOf b c = true) :
    insideOf a c = true := by
  rw [insideOf_iff] at *
  exact fun i => ⟨(h2 i).1.trans (h1 i).1, (h1 i).2.trans (h2 i).2⟩

example : insideOf (⟨![1, 2], ![3, 4]⟩ : Box 2 Int) ⟨![-1, 1], ![8, 9]⟩ = true :=
  C02_insideOf_trans _ ⟨![0, 2], ![3, 5]⟩ _ (by decide) (by decide)

theorem C02_insideOf_antisymm (a b : Box n T) (h1 : insideOf a b = true)
    (h2 : insideOf b a = true) : a = b := by
  rw [insideOf_iff] at *
  ext i
  · exact le_antisymm (h2 i).1 (h1 i).1
  · exact le_antisymm (h1 i).2 (h2 i).2

example : Valid (⟨![0, 2], ![3, 5]⟩ : Box 2 Int) ∧ Valid (⟨![3, 5], ![4, 9]⟩ : Box 2 Int) ∧
    overlap (⟨![0, 2], ![3, 5]⟩ : Box 2 Int) ⟨![3, 5], ![4, 9]⟩ = true ∧
    overlap (⟨![0, 2], ![3, 5]⟩ : Box 2 Int) ⟨![3, 6], ![4, 9]⟩ = false ∧
    insideOf (⟨![1, 2], ![3, 4]⟩ : Box 2 Int) ⟨![0, 2], ![3, 5]⟩ = true := by
  refine ⟨?_, ?_, by decide, by decide, by decide⟩ <;> intro i <;> fin_cases i <;> simp

/-- Validity is needed: an invalid (empty) box overlaps a box although it has no point. -/
theorem C02_overlap_needs_valid : ∃ a b : Box 1 Int,
    overlap a b = true ∧ ¬ (pts a ∩ pts b).Nonempty := by
  refine ⟨⟨![3], ![2]⟩, ⟨![0], ![9]⟩, by decide, ?_⟩
  rintro ⟨p, h, -⟩
  have := h 0
  simp at this
  omega

/-! ## C03: Repair, Center, Size -/

theorem C03_repair_valid (b : Box n T) : Valid (repair b) := by
  intro i
  rw [repair_min, repair_max]
  exact min_le_max

theorem C03_repair_same_pair (b : Box n T) (i : Fin n) :
    ((repair b).min i = b.min i ∧ (repair b).max i = b.max i) ∨
    ((repair b).min i = b.max i ∧ (repair b).max i = b.min i) := by
  rw [repair_min, repair_max]
  rcases le_total (b.min i) (b.max i) with h | h
  · left; exact ⟨min_eq_left h, max_eq_right h⟩
  · right; exact ⟨min_eq_right h, max_eq_left h⟩

theorem C03_repair_valid_unchanged (b : Box n T) (h : Valid b) : repair b = b := by
  ext i
  · rw [repair_min, min_eq_left (h i)]
  · rw [repair_max, max_eq_right (h i)]

example : repair (⟨![0, 2], ![3, 5]⟩ : Box 2 Int) = ⟨![0, 2], ![3, 5]⟩ :=
  C03_repair_valid_unchanged _ (by intro i; fin_cases i <;> simp)

theorem C03_repair_idempotent (b : Box n T) : repair (repair b) = repair b :=
  C03_repair_valid_unchanged _ (C03_repair_valid b)

example : repair (⟨![4, 2], ![3, 5]⟩ : Box 2 Int) = ⟨![3, 2], ![4, 5]⟩ := by
  ext i <;> fin_cases i <;> rfl

section
variable {K : Type} [Field K] [LinearOrder K] [IsStrictOrderedRing K]

theorem C03_center (b : Box n K) (h : Valid b) : contains b (center b) = true := by
  rw [contains_iff]
  intro i
  have := h i
  constructor <;> simp only [center] <;> linarith

/-- The center halves the box on each axis. -/
theorem C03_center_middle (b : Box n K) (i : Fin n) :
    center b i - b.min i = b.max i - center b i := by
  simp only [center]; ring

theorem C03_size (b : Box n K) (i : Fin n) : 0 ≤ size b i ∧
    (Valid b → size b i = b.max i - b.min i) ∧ size (repair b) i = size b i ∧
    center (repair b) i = center b i := by
  refine ⟨abs_nonneg _, fun h => abs_of_nonneg (sub_nonneg.2 (h i)), ?_, ?_⟩
  · rcases C03_repair_same_pair b i with ⟨h1, h2⟩ | ⟨h1, h2⟩ <;> simp only [size, h1, h2]
    exact abs_sub_comm _ _
  · rcases C03_repair_same_pair b i with ⟨h1, h2⟩ | ⟨h1, h2⟩ <;> simp only [center, h1, h2]
    rw [add_comm]

example : Valid (⟨![0, 2], ![3, 5]⟩ : Box 2 ℚ) := by
  intro i; fin_cases i <;> norm_num
end

/-! ## C04: NaN -/

/-- One insertion into a box without NaN. -/
theorem C04_insert (b : Box n T) (p : Fin n → Flt T) :
    ∃ c : Box n T, insert (lift b) p = lift c ∧ ∀ i,
      (p i = .nan → c.min i = b.min i ∧ c.max i = b.max i) ∧
      (∀ x, p i = .num x → c.min i = min (b.min i) x ∧ c.max i = max (b.max i) x) := by
  refine ⟨⟨fun i => match p i with | .nan => b.min i | .num x => min (b.min i) x,
    fun i => match p i with | .nan => b.max i | .num x => max (b.max i) x⟩, ?_, ?_⟩
  · ext i
    · simp only [insert, lift]
      cases h : p i with
      | nan => simp [CLt.lt]
      | num x =>
        simp only [CLt.lt, decide_eq_true_eq]
        split_ifs with hx
        · rw [min_eq_right hx.le]
        · rw [min_eq_left (not_lt.1 hx)]
    · simp only [insert, lift]
      cases h : p i with
      | nan => simp [CLt.lt]
      | num x =>
        simp only [CLt.lt, decide_eq_true_eq]
        split_ifs with hx
        · rw [max_eq_right hx.le]
        · rw [max_eq_left (not_lt.1 hx)]
  · intro i
    constructor
    · intro h; simp [h]
    · intro x h; simp [h]

/-- A whole history of insertions: the box never holds a NaN, and on each axis it is the box
of the numbers that were inserted. -/
theorem C04_history (ps : List (Fin n → Flt T)) : ∀ b : Box n T,
    ∃ c : Box n T, insertAll (lift b) ps = lift c ∧ ∀ i,
      (∀ x, x ≤ c.min i ↔ x ≤ b.min i ∧ ∀ p ∈ ps, ∀ y, p i = .num y → x ≤ y) ∧
      (∀ x, c.max i ≤ x ↔ b.max i ≤ x ∧ ∀ p ∈ ps, ∀ y, p i = .num y → y ≤ x) := by
  induction ps with
  | nil => intro b; exact ⟨b, rfl, by simp⟩
  | cons p ps ih =>
    intro b
    obtain ⟨c, hc, h⟩ := C04_insert b p
    obtain ⟨d, hd, h'⟩ := ih c
    refine ⟨d, by simp only [insertAll, List.foldl_cons, hc]; exact hd, fun i => ?_⟩
    obtain ⟨h1, h2⟩ := h' i
    obtain ⟨g1, g2⟩ := h i
    cases hp : p i with
    | nan =>
      obtain ⟨e1, e2⟩ := g1 hp
      constructor
      · intro x; rw [h1, e1]; simp [hp]
      · intro x; rw [h2, e2]; simp [hp]
    | num y =>
      obtain ⟨e1, e2⟩ := g2 y hp
      constructor
      · intro x; rw [h1, e1]; simp [hp, and_assoc]
      · intro x; rw [h2, e2]; simp [hp, and_assoc]

example : ∃ c : Box 2 Int, insertAll (lift ⟨![0, 0], ![1, 1]⟩)
    [![.nan, .num 7], ![.num (-2), .nan]] = lift c ∧ c.min = ![-2, 0] ∧ c.max = ![1, 7] := by
  refine ⟨⟨![-2, 0], ![1, 7]⟩, ?_, rfl, rfl⟩
  ext i <;> fin_cases i <;> rfl

/-- `Contains` looks at the numeric coordinates only; so a point of NaN coordinates is
"contained" in each box. -/
theorem C04_contains (b : Box n T) (p : Fin n → Flt T) :
    contains (lift b) p = true ↔ ∀ i x, p i = .num x → b.min i ≤ x ∧ x ≤ b.max i := by
  simp only [contains, lift, List.all_eq_true, List.mem_finRange, true_implies]
  refine forall_congr' fun i => ?_
  cases h : p i with
  | nan => simp [CLt.lt]
  | num y => simp [CLt.lt, not_lt]

/-! ## C09: edges -/

/-- Three dimensions: there is a list of twelve corner pairs, the same for each box, which
contains each edge of a box exactly once, and `AABBEdges` delivers these segments. -/
theorem C09_edges3 : ∃ E : List ((Fin 3 → Bool) × (Fin 3 → Bool)), E.length = 12 ∧
    EachEdgeOnce E ∧ ∀ {T : Type} (b : Box 3 T),
      edges3 b = E.map fun e => ⟨corner b e.1, corner b e.2⟩ := by
  refine ⟨[
    (![false, false, false], ![false, true, false]), (![false, true, false], ![true, true, false]),
    (![true, true, false], ![true, false, false]), (![true, false, false], ![false, false, false]),
    (![false, false, true], ![false, true, true]), (![false, true, true], ![true, true, true]),
    (![true, true, true], ![true, false, true]), (![true, false, true], ![false, false, true]),
    (![false, false, false], ![false, false, true]), (![false, true, false], ![false, true, true]),
    (![true, true, false], ![true, true, true]), (![true, false, false], ![true, false, true])],
    rfl, ?_, ?_⟩
  · unfold EachEdgeOnce Adjacent ExistsUnique
    constructor <;> decide
  · intro T b
    simp only [edges3, List.map_cons, List.map_nil]
    congr <;> · funext i; fin_cases i <;> rfl

/-- Two dimensions: four edges, which moreover form a closed walk. -/
theorem C09_edges2 : ∃ E : List ((Fin 2 → Bool) × (Fin 2 → Bool)), E.length = 4 ∧
    EachEdgeOnce E ∧ (∀ k : Fin 4, (E[k.val]?).map (·.2) = (E[(k.val + 1) % 4]?).map (·.1)) ∧
    ∀ {T : Type} (b : Box 2 T), edges2 b = E.map fun e => ⟨corner b e.1, corner b e.2⟩ := by
  refine ⟨[(![false, false], ![false, true]), (![false, true], ![true, true]),
    (![true, true], ![true, false]), (![true, false], ![false, false])], rfl, ?_, ?_, ?_⟩
  · unfold EachEdgeOnce Adjacent ExistsUnique
    constructor <;> decide
  · decide
  · intro T b
    simp only [edges2, List.map_cons, List.map_nil]
    congr <;> · funext i; fin_cases i <;> rfl

end Geom.AABB.Props
