import Verif.Model.VectorizedAABB
import Verif.Proof.AABB
import Verif.Base.Tac

/-!
Properties C05 and C06: the four-lane box against the scalar box of `Model/AABB`.
-/

set_option linter.unusedSectionVars false

set_option autoImplicit false

namespace Geom.VAABB.Props

open Geom.AABB

variable {T : Type} [LinearOrder T] (val : BitVec 32 → Flt T)

/-- The scalar box in lane `k`. -/
def lane (b : VBox) (k : Fin 4) : Box 3 (Flt T) where
  min := ![val (b.xMin k), val (b.yMin k), val (b.zMin k)]
  max := ![val (b.xMax k), val (b.yMax k), val (b.zMax k)]

/-- The point for lane `k`. -/
def point (p : V3) : Fin 3 → Flt T := ![val p.x, val p.y, val p.z]

def NoNaN {n : Nat} (p : Fin n → Flt T) : Prop := ∀ i, (p i).IsNum
def NoNaNBox {n : Nat} (b : Box n (Flt T)) : Prop := NoNaN b.min ∧ NoNaN b.max

/-- The answer of lane `k` in a mask register. -/
def answer (m : M128) (k : Fin 4) (b : Bool) : Prop := m k = mask b

/-! ## Lemmas about one lane -/

theorem num_of {x : Flt T} (h : x.IsNum) : ∃ a, x = .num a := by
  cases x with
  | num a => exact ⟨a, rfl⟩
  | nan => exact h.elim

theorem mask_and (a b : Bool) : mask a &&& mask b = mask (a && b) := by
  cases a <;> cases b <;> decide

theorem mask_inj {a b : Bool} (h : mask a = mask b) : a = b := by
  cases a <;> cases b <;> first | rfl | exact absurd h (by decide)

theorem set_ps_lane (f : V3 → BitVec 32) (p : Fin 4 → V3) (k : Fin 4) :
    set_ps (f (p 3)) (f (p 2)) (f (p 1)) (f (p 0)) k = f (p k) := by
  fin_cases k <;> rfl

theorem min_lane (a b : M128) (k : Fin 4) (ha : (val (a k)).IsNum) (hb : (val (b k)).IsNum) :
    val (min_ps val a b k) =
      if CLt.lt (val (b k)) (val (a k)) then val (b k) else val (a k) := by
  obtain ⟨x, hx⟩ := num_of ha
  obtain ⟨y, hy⟩ := num_of hb
  simp only [min_ps, hx, hy, CLt.lt, decide_eq_true_eq]
  rcases lt_trichotomy x y with h | h | h
  · rw [if_pos h, if_neg h.not_gt, hx]
  · subst h; rw [if_neg (lt_irrefl _), if_neg (lt_irrefl _), hy]
  · rw [if_neg h.not_gt, if_pos h, hy]

theorem max_lane (a b : M128) (k : Fin 4) (ha : (val (a k)).IsNum) (hb : (val (b k)).IsNum) :
    val (max_ps val a b k) =
      if CLt.lt (val (a k)) (val (b k)) then val (b k) else val (a k) := by
  obtain ⟨x, hx⟩ := num_of ha
  obtain ⟨y, hy⟩ := num_of hb
  simp only [max_ps, hx, hy, CLt.lt, decide_eq_true_eq]
  rcases lt_trichotomy x y with h | h | h
  · rw [if_neg h.not_gt, if_pos h, hy]
  · subst h; rw [if_neg (lt_irrefl _), if_neg (lt_irrefl _), hy]
  · rw [if_pos h, if_neg h.not_gt, hx]

theorem fle_eq {x y : Flt T} (hx : x.IsNum) (hy : y.IsNum) : fle x y = !(CLt.lt y x) := by
  obtain ⟨a, rfl⟩ := num_of hx
  obtain ⟨b, rfl⟩ := num_of hy
  simp only [fle, CLt.lt]
  rw [← decide_not]
  simp [not_lt]

theorem nn {b : Box 3 (Flt T)} (h : NoNaNBox b) :
    ((b.min 0).IsNum ∧ (b.min 1).IsNum ∧ (b.min 2).IsNum) ∧
    ((b.max 0).IsNum ∧ (b.max 1).IsNum ∧ (b.max 2).IsNum) :=
  ⟨⟨h.1 0, h.1 1, h.1 2⟩, h.2 0, h.2 1, h.2 2⟩

/-! ## C05 -/

/-- Construction puts the k-th points in lane k. -/
theorem C05_make (mn mx : Fin 4 → V3) (k : Fin 4) :
    lane val (make mn mx) k = ⟨point val (mn k), point val (mx k)⟩ := by
  simp only [lane, make, point, set_ps_lane]

theorem C05_reset (lo hi : BitVec 32) (k : Fin 4) :
    lane val (reset lo hi) k = AABB.reset (val lo) (val hi) := by
  ext i <;> fin_cases i <;> rfl

theorem C05_insert (b : VBox) (p : Fin 4 → V3) (k : Fin 4) (hb : NoNaNBox (lane val b k))
    (hp : NoNaN (point val (p k))) :
    lane val (insert val b p) k = AABB.insert (lane val b k) (point val (p k)) := by
  obtain ⟨⟨h1, h2, h3⟩, h4, h5, h6⟩ := nn hb
  have q1 := hp 0; have q2 := hp 1; have q3 := hp 2
  simp only [lane, point] at h1 h2 h3 h4 h5 h6 q1 q2 q3
  ext i
  · fin_cases i
    · exact (min_lane val _ _ k h1 (by rw [set_ps_lane V3.x]; exact q1)).trans
        (by rw [set_ps_lane V3.x]; rfl)
    · exact (min_lane val _ _ k h2 (by rw [set_ps_lane V3.y]; exact q2)).trans
        (by rw [set_ps_lane V3.y]; rfl)
    · exact (min_lane val _ _ k h3 (by rw [set_ps_lane V3.z]; exact q3)).trans
        (by rw [set_ps_lane V3.z]; rfl)
  · fin_cases i
    · exact (max_lane val _ _ k h4 (by rw [set_ps_lane V3.x]; exact q1)).trans
        (by rw [set_ps_lane V3.x]; rfl)
    · exact (max_lane val _ _ k h5 (by rw [set_ps_lane V3.y]; exact q2)).trans
        (by rw [set_ps_lane V3.y]; rfl)
    · exact (max_lane val _ _ k h6 (by rw [set_ps_lane V3.z]; exact q3)).trans
        (by rw [set_ps_lane V3.z]; rfl)

theorem C05_insertBox (b o : VBox) (k : Fin 4) (hb : NoNaNBox (lane val b k))
    (ho : NoNaNBox (lane val o k)) :
    lane val (insertBox val b o) k = AABB.insertBox (lane val b k) (lane val o k) := by
  obtain ⟨⟨h1, h2, h3⟩, h4, h5, h6⟩ := nn hb
  obtain ⟨⟨q1, q2, q3⟩, q4, q5, q6⟩ := nn ho
  ext i
  · fin_cases i
    · exact min_lane val _ _ k h1 q1
    · exact min_lane val _ _ k h2 q2
    · exact min_lane val _ _ k h3 q3
  · fin_cases i
    · exact max_lane val _ _ k h4 q4
    · exact max_lane val _ _ k h5 q5
    · exact max_lane val _ _ k h6 q6

/-- A scalar box stays free of NaN. -/
theorem insert_noNaN {n : Nat} (b : Box n (Flt T)) (p : Fin n → Flt T) (hb : NoNaNBox b)
    (hp : NoNaN p) : NoNaNBox (AABB.insert b p) := by
  refine ⟨fun i => ?_, fun i => ?_⟩ <;> simp only [AABB.insert] <;> split_ifs
  · exact hp i
  · exact hb.1 i
  · exact hp i
  · exact hb.2 i

/-- Histories of insertions: four boxes are grown at once, each like the scalar box. -/
theorem C05_insert_history (ps : List (Fin 4 → V3)) (k : Fin 4)
    (hp : ∀ p ∈ ps, NoNaN (point val (p k))) : ∀ b : VBox, NoNaNBox (lane val b k) →
    lane val (ps.foldl (insert val) b) k =
      insertAll (lane val b k) (ps.map fun p => point val (p k)) := by
  induction ps with
  | nil => intro b _; rfl
  | cons p ps ih =>
    intro b hb
    have hpp := hp p List.mem_cons_self
    have e := C05_insert val b p k hb hpp
    rw [List.foldl_cons, ih (fun q hq => hp q (List.mem_cons_of_mem _ hq)) _
      (by rw [e]; exact insert_noNaN _ _ hb hpp), e]
    rfl

private theorem all3 (f : Fin 3 → Bool) : (List.finRange 3).all f = (f 0 && (f 1 && f 2)) := by
  simp [List.finRange_succ]

theorem C05_insideOf (b o : VBox) (k : Fin 4) (hb : NoNaNBox (lane val b k))
    (ho : NoNaNBox (lane val o k)) :
    answer (insideOf val b o) k (AABB.insideOf (lane val b k) (lane val o k)) := by
  obtain ⟨⟨h1, h2, h3⟩, h4, h5, h6⟩ := nn hb
  obtain ⟨⟨q1, q2, q3⟩, q4, q5, q6⟩ := nn ho
  simp only [lane, Matrix.cons_val_zero, Matrix.cons_val_one, Matrix.cons_val] at *
  simp only [answer, insideOf, and_ps, cmpge_ps, cmple_ps, mask_and, AABB.insideOf, all3,
    fle_eq h4 q4, fle_eq h5 q5, fle_eq h6 q6, fle_eq q1 h1, fle_eq q2 h2, fle_eq q3 h3, Bool.not_or]
  rfl

theorem C05_containsBox (b i : VBox) (k : Fin 4) (hb : NoNaNBox (lane val b k))
    (hi : NoNaNBox (lane val i k)) :
    answer (containsBox val b i) k (AABB.containsBox (lane val b k) (lane val i k)) :=
  C05_insideOf val i b k hi hb

theorem C05_overlap (a b : VBox) (k : Fin 4) (ha : NoNaNBox (lane val a k))
    (hb : NoNaNBox (lane val b k)) :
    answer (overlap val a b) k (AABB.overlap (lane val a k) (lane val b k)) := by
  obtain ⟨⟨h1, h2, h3⟩, h4, h5, h6⟩ := nn ha
  obtain ⟨⟨q1, q2, q3⟩, q4, q5, q6⟩ := nn hb
  simp only [lane, Matrix.cons_val_zero, Matrix.cons_val_one, Matrix.cons_val] at *
  simp only [answer, overlap, and_ps, cmpge_ps, cmple_ps, mask_and, AABB.overlap, all3,
    fle_eq q1 h4, fle_eq q2 h5, fle_eq q3 h6, fle_eq h1 q4, fle_eq h2 q5, fle_eq h3 q6, Bool.not_or]
  rfl

/-- An interpretation of bit patterns for the examples: the unsigned number, one pattern is NaN. -/
def valEx (b : BitVec 32) : Flt Nat := if b = 0x7fc00000#32 then .nan else .num b.toNat

/-- Lane 2 of a box and of a point without NaN, with a result that differs from both. -/
theorem sample_lane : NoNaNBox (lane valEx (make (fun k => ⟨k.val, 5, 5⟩) (fun _ => ⟨9, 9, 9⟩)) 2) ∧
    NoNaN (point valEx ⟨1, 7, 12⟩) ∧
    lane valEx (insert valEx (make (fun k => ⟨k.val, 5, 5⟩) (fun _ => ⟨9, 9, 9⟩))
      (fun _ => ⟨1, 7, 12⟩)) 2 = ⟨![.num 1, .num 5, .num 5], ![.num 9, .num 9, .num 12]⟩ := by
  refine ⟨⟨?_, ?_⟩, ?_, ?_⟩
  · intro i; fin_cases i <;> exact trivial
  · intro i; fin_cases i <;> exact trivial
  · intro i; fin_cases i <;> exact trivial
  · ext i <;> fin_cases i <;> decide

/-- The absence of NaN is needed: a NaN point destroys the lane, while the scalar box ignores it
(C04). -/
theorem C05_nan_differs : ∃ (b : VBox) (p : Fin 4 → V3),
    NoNaNBox (lane valEx b 0) ∧ (lane valEx (insert valEx b p) 0).min 0 = .nan ∧
    (AABB.insert (lane valEx b 0) (point valEx (p 0))).min 0 = .num 3 := by
  refine ⟨make (fun _ => ⟨3, 3, 3⟩) (fun _ => ⟨9, 9, 9⟩), fun _ => ⟨0x7fc00000#32, 4, 4⟩, ⟨?_, ?_⟩,
    by decide, by decide⟩
  · intro i; fin_cases i <;> exact trivial
  · intro i; fin_cases i <;> exact trivial

/-! ## C06 -/

/-- What `Repair` does in fact: the minimum becomes the larger of the two values and the maximum
is left as it is. -/
theorem C06_repair_actual (b : VBox) (k : Fin 4) :
    (repair val b).xMin k = (if CLt.lt (val (b.xMax k)) (val (b.xMin k)) then b.xMin k else b.xMax k) ∧
    (repair val b).yMin k = (if CLt.lt (val (b.yMax k)) (val (b.yMin k)) then b.yMin k else b.yMax k) ∧
    (repair val b).zMin k = (if CLt.lt (val (b.zMax k)) (val (b.zMin k)) then b.zMin k else b.zMax k) ∧
    (repair val b).xMax = b.xMax ∧ (repair val b).yMax = b.yMax ∧ (repair val b).zMax = b.zMax := by
  have sel : ∀ (c : Bool) (x y : BitVec 32),
      (mask c &&& x) ||| (~~~ (mask c) &&& y) = if c then x else y := by
    intro c x y
    have e : (4294967295#32) = BitVec.allOnes 32 := by decide
    cases c
    · simp [mask]
      rw [e, BitVec.allOnes_and]
    · simp [mask]
      rw [e, BitVec.allOnes_and]
  refine ⟨sel _ _ _, sel _ _ _, sel _ _ _, rfl, rfl, rfl⟩

/-- So the claim for `Repair` holds exactly for boxes which are one point on each axis of the lane
(NaN-free data). -/
theorem C06_repair_partial (b : VBox) (k : Fin 4) (hb : NoNaNBox (lane val b k)) :
    lane val (repair val b) k = AABB.repair (lane val b k) ↔
      (lane val b k).min = (lane val b k).max := by
  obtain ⟨⟨h1, h2, h3⟩, h4, h5, h6⟩ := nn hb
  obtain ⟨r1, r2, r3, r4, r5, r6⟩ := C06_repair_actual val b k
  simp only [lane, Matrix.cons_val_zero, Matrix.cons_val_one, Matrix.cons_val] at h1 h2 h3 h4 h5 h6
  obtain ⟨a1, e1⟩ := num_of h1; obtain ⟨a2, e2⟩ := num_of h2; obtain ⟨a3, e3⟩ := num_of h3
  obtain ⟨a4, e4⟩ := num_of h4; obtain ⟨a5, e5⟩ := num_of h5; obtain ⟨a6, e6⟩ := num_of h6
  have axis : ∀ (m M : BitVec 32) (a A : T), val m = .num a → val M = .num A →
      ((val (if CLt.lt (val M) (val m) then m else M) =
        (if CLt.lt (val M) (val m) then val M else val m) ∧
        val M = (if CLt.lt (val M) (val m) then val m else val M)) ↔ val m = val M) := by
    intro m M a A em eM
    simp only [em, eM, CLt.lt, decide_eq_true_eq]
    rcases lt_trichotomy a A with h | h | h
    · simp [h.not_gt, eM, eq_comm]
    · subst h; simp [eM]
    · simp [h, em, eq_comm]
  have x := axis _ _ _ _ e1 e4
  have y := axis _ _ _ _ e2 e5
  have z := axis _ _ _ _ e3 e6
  constructor
  · intro h
    have h1 := fun i => congrFun (congrArg Box.min h) i
    have h2 := fun i => congrFun (congrArg Box.max h) i
    have x1 := h1 0; have y1 := h1 1; have z1 := h1 2
    have x2 := h2 0; have y2 := h2 1; have z2 := h2 2
    simp only [lane, AABB.repair, Matrix.cons_val_zero, Matrix.cons_val_one, Matrix.cons_val,
      r1, r2, r3, r4, r5, r6] at x1 y1 z1 x2 y2 z2
    simp only [lane]
    rw [x.1 ⟨x1, x2⟩, y.1 ⟨y1, y2⟩, z.1 ⟨z1, z2⟩]
  · intro h
    have x0 := x.2 (congrFun h 0)
    have y0 := y.2 (congrFun h 1)
    have z0 := z.2 (congrFun h 2)
    ext i
    · fin_cases i <;> simp only [lane, AABB.repair, r1, r2, r3]
      · exact x0.1
      · exact y0.1
      · exact z0.1
    · fin_cases i <;> simp only [lane, AABB.repair, r4, r5, r6]
      · exact x0.2
      · exact y0.2
      · exact z0.2

/-- `Repair` breaks a valid box (it collapses to its upper corner) and does not repair an invalid
one. -/
theorem C06_repair_refuted : ∃ b c : VBox,
    lane valEx b 0 = ⟨![.num 1, .num 1, .num 1], ![.num 2, .num 2, .num 2]⟩ ∧
    lane valEx (repair valEx b) 0 = ⟨![.num 2, .num 2, .num 2], ![.num 2, .num 2, .num 2]⟩ ∧
    lane valEx c 0 = ⟨![.num 2, .num 2, .num 2], ![.num 1, .num 1, .num 1]⟩ ∧
    lane valEx (repair valEx c) 0 = lane valEx c 0 := by
  refine ⟨make (fun _ => ⟨1, 1, 1⟩) (fun _ => ⟨2, 2, 2⟩), make (fun _ => ⟨2, 2, 2⟩) (fun _ => ⟨1, 1, 1⟩),
    ?_, ?_, ?_, ?_⟩ <;> ext i <;> fin_cases i <;> decide

/-- What `Contains(points)` decides in fact: the comparisons are the wrong way round. -/
theorem C06_contains_actual (b : VBox) (p : Fin 4 → V3) (k : Fin 4) :
    answer (contains val b p) k
      (fle (val (p k).x) (val (b.xMin k)) && fle (val (b.xMax k)) (val (p k).x) &&
      (fle (val (p k).y) (val (b.yMin k)) && fle (val (b.yMax k)) (val (p k).y) &&
      (fle (val (p k).z) (val (b.zMin k)) && fle (val (b.zMax k)) (val (p k).z)))) := by
  simp only [answer, contains, and_ps, cmpge_ps, cmple_ps, mask_and, set_ps_lane V3.x,
    set_ps_lane V3.y, set_ps_lane V3.z]

/-- For a valid box with different corners no point at all is reported to be inside; the answer is
the right one for boxes of one point. -/
theorem C06_contains_partial (b : VBox) (p : Fin 4 → V3) (k : Fin 4) (c : Box 3 T) (q : Fin 3 → T)
    (hb : lane val b k = lift c) (hp : point val (p k) = fun i => .num (q i)) (hv : Valid c) :
    answer (contains val b p) k (decide (c.min = q ∧ c.max = q)) := by
  have h := C06_contains_actual val b p k
  have b1 := fun i => congrFun (congrArg Box.min hb) i
  have b2 := fun i => congrFun (congrArg Box.max hb) i
  have x1 := b1 0; have y1 := b1 1; have z1 := b1 2
  have x2 := b2 0; have y2 := b2 1; have z2 := b2 2
  have px := congrFun hp 0; have py := congrFun hp 1; have pz := congrFun hp 2
  simp only [lane, lift, point, Matrix.cons_val_zero, Matrix.cons_val_one, Matrix.cons_val]
    at x1 y1 z1 x2 y2 z2 px py pz
  rw [x1, y1, z1, x2, y2, z2, px, py, pz] at h
  simp only [fle] at h
  rw [answer] at h ⊢
  rw [h]
  congr 1
  rw [Bool.eq_iff_iff]
  simp only [Bool.and_eq_true, decide_eq_true_eq]
  constructor
  · rintro ⟨⟨h1, h2⟩, ⟨h3, h4⟩, h5, h6⟩
    have v0 := hv 0; have v1 := hv 1; have v2 := hv 2
    refine ⟨funext fun i => ?_, funext fun i => ?_⟩ <;> fin_cases i
    · exact le_antisymm (v0.trans h2) h1
    · exact le_antisymm (v1.trans h4) h3
    · exact le_antisymm (v2.trans h6) h5
    · exact le_antisymm h2 (h1.trans v0)
    · exact le_antisymm h4 (h3.trans v1)
    · exact le_antisymm h6 (h5.trans v2)
  · rintro ⟨rfl, h⟩
    rw [h]
    exact ⟨⟨le_rfl, le_rfl⟩, ⟨le_rfl, le_rfl⟩, le_rfl, le_rfl⟩

/-- The middle of a valid box is said to be outside. -/
theorem C06_contains_refuted : ∃ (b : VBox) (p : Fin 4 → V3),
    AABB.contains (lane valEx b 0) (point valEx (p 0)) = true ∧ answer (contains valEx b p) 0 false := by
  refine ⟨make (fun _ => ⟨1, 1, 1⟩) (fun _ => ⟨3, 3, 3⟩), fun _ => ⟨2, 2, 2⟩, by decide, ?_⟩
  unfold answer
  decide

/-! The theorems for this lane. -/

example := C05_insert valEx _ (fun _ => ⟨1, 7, 12⟩) 2 sample_lane.1 sample_lane.2.1
example := C05_insertBox valEx _ _ 2 sample_lane.1 sample_lane.1
example := C05_insert_history valEx [fun _ => ⟨1, 7, 12⟩, fun _ => ⟨1, 7, 12⟩] 2 (by simpa using sample_lane.2.1) _ sample_lane.1
example := C05_insideOf valEx _ _ 2 sample_lane.1 sample_lane.1
example := C05_containsBox valEx _ _ 2 sample_lane.1 sample_lane.1
example := C06_repair_partial valEx _ 2 sample_lane.1
example := C06_contains_partial valEx (make (fun _ => ⟨1, 5, 5⟩) (fun _ => ⟨9, 9, 9⟩)) (fun _ => ⟨3, 6, 7⟩) 2 ⟨![1, 5, 5], ![9, 9, 9]⟩ ![3, 6, 7]
  (by ext i <;> fin_cases i <;> decide) (by ext i; fin_cases i <;> decide) (by intro i; fin_cases i <;> decide)

end Geom.VAABB.Props
