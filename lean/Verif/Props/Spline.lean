import Verif.Spec.Spline
import Mathlib.Algebra.BigOperators.Intervals
import Mathlib.Algebra.BigOperators.Module
import Mathlib.Algebra.Order.BigOperators.Group.Finset
import Mathlib.Analysis.Convex.Combination
import Mathlib.Tactic.Ring
import Mathlib.Tactic.Linarith
import Mathlib.Tactic.FieldSimp
import Mathlib.Tactic.Positivity
import Mathlib.Tactic.NormNum

/-
  C74: B-splines.
-/
set_option autoImplicit false
set_option linter.unusedSectionVars false

namespace Geom.Spline
open Spec Finset

variable {K V : Type} [Field K] [LinearOrder K] [IsStrictOrderedRing K] [AddCommGroup V] [Module K V]

/-! Order. -/

/-- The spline after a call. -/
def call (s : Spline K V) : Call K V → Spline K V
  | .addPoint p t => addPoint s p t
  | .setOrder o => setOrder s o

/-- C74: the order is never negative, whatever is called. -/
theorem C74_order (cs : List (Call K V)) : 0 ≤ (cs.foldl call (new : Spline K V)).order := by
  induction cs using List.reverseRecOn with
  | nil => simp [new]
  | append_singleton cs c ih =>
    rw [List.foldl_append]
    generalize cs.foldl call (new : Spline K V) = s at *
    cases c with
    | addPoint p t => exact ih
    | setOrder o =>
      simp only [List.foldl_cons, List.foldl_nil, call, setOrder]
      split_ifs <;> omega

/-- C74: the points are those that were added, in this order, with their knots, whatever else is called. -/
theorem C74_history (cs : List (Call K V)) :
    (cs.foldl call (new : Spline K V)).points = cs.filterMap fun c => match c with
      | .addPoint p t => some ⟨p, t⟩
      | .setOrder _ => none := by
  induction cs using List.reverseRecOn with
  | nil => simp [new]
  | append_singleton cs c ih =>
    rw [List.foldl_append, List.filterMap_append, ← ih]
    cases c with
    | addPoint p t => simp [call, addPoint]
    | setOrder o => simp [call, setOrder]

/-- The first point added is the first point of the spline, also if the order is set between. -/
example : pt ([Call.addPoint (5 : ℚ) (0 : ℚ), .setOrder 2, .addPoint 7 1].foldl call (new : Spline ℚ ℚ)) 0 = 5 := by
  rw [pt, C74_history]
  simp

/-- C74: on a spline with points `SetOrder` clamps to the range from 1 to the number of points. -/
theorem C74_clamp (s : Spline K V) (o : ℤ) (h : 0 < s.points.length) :
    (setOrder s o).order = max 1 (min o s.points.length) ∧ (setOrder s o).points = s.points := by
  refine ⟨?_, rfl⟩
  simp only [setOrder]
  split_ifs <;> omega

/-- C74 is violated without points: each order from one on becomes zero. -/
theorem C74_clamp_refuted (o : ℤ) (h : 1 ≤ o) : (setOrder (new : Spline K V) o).order = 0 := by
  simp only [setOrder, new, List.length_nil, Nat.cast_zero]
  rw [if_neg (by omega), if_pos (by omega)]

/-- C74: accesses are in range. -/
theorem C74_in_range (n : ℕ) (h : 0 < n) (i : ℤ) : idx n i < n := by
  unfold idx
  split_ifs <;> omega

/-! Weights. -/

variable {x : ℤ → K}

theorem basis_zero (hx : Monotone x) (q : ℕ) (j : ℤ) (t : K) (h : t < x j ∨ x (j + q + 1) ≤ t) : basis x q j t = 0 := by
  induction q generalizing j with
  | zero =>
    simp only [basis]
    rw [if_neg]
    rintro ⟨h1, h2⟩
    simp only [Nat.cast_zero, add_zero] at h
    rcases h with h | h
    · exact absurd h1 (not_le.2 h)
    · exact absurd h2 (not_lt.2 h)
  | succ q ih =>
    simp only [basis]
    have e1 : basis x q j t = 0 := by
      apply ih
      rcases h with h | h
      · exact .inl h
      · exact .inr ((hx (by push_cast; omega)).trans h)
    have e2 : basis x q (j + 1) t = 0 := by
      apply ih
      rcases h with h | h
      · exact .inl (h.trans_le (hx (by omega)))
      · refine .inr (le_trans (le_of_eq ?_) h)
        congr 1
        push_cast
        ring
    rw [e1, e2]
    simp

theorem basis_nonneg (hx : Monotone x) (q : ℕ) (j : ℤ) (t : K) : 0 ≤ basis x q j t := by
  induction q generalizing j with
  | zero => simp only [basis]; split_ifs <;> norm_num
  | succ q ih =>
    by_cases h : t < x j ∨ x (j + (q + 1 : ℕ) + 1) ≤ t
    · rw [basis_zero hx _ _ _ h]
    · push Not at h
      simp only [basis]
      apply add_nonneg
      · split_ifs with hd
        · exact mul_nonneg (div_nonneg (by linarith [h.1]) hd.le) (ih _)
        · exact le_refl _
      · split_ifs with hd
        · exact mul_nonneg (div_nonneg (by linarith [h.2]) hd.le) (ih _)
        · exact le_refl _

/-- The weights which are not zero have the sum one. -/
theorem basis_sum (hx : Monotone x) (k : ℤ) (t : K) (h1 : x k ≤ t) (h2 : t < x (k + 1)) (q : ℕ) : ∑ m ∈ range (q + 1), basis x q (k - q + m) t = 1 := by
  induction q with
  | zero =>
    rw [Finset.sum_range_one]
    simp only [basis, Nat.cast_zero, sub_zero, add_zero]
    rw [if_pos ⟨h1, h2⟩]
  | succ q ih =>
    have e : ∀ m ∈ range (q + 2), basis x (q + 1) (k - (q + 1 : ℕ) + m) t =
        (if 0 < x (k - q + m + q) - x (k - q - 1 + m) then (t - x (k - q - 1 + m)) / (x (k - q + m + q) - x (k - q - 1 + m)) * basis x q (k - q - 1 + m) t else 0) +
        (if 0 < x (k - q + m + q + 1) - x (k - q + m) then (x (k - q + m + q + 1) - t) / (x (k - q + m + q + 1) - x (k - q + m)) * basis x q (k - q + m) t else 0) := by
      intro m _
      simp only [basis]
      rw [show k - ((q + 1 : ℕ) : ℤ) + m = k - q - 1 + m by push_cast; ring, show k - q - 1 + (m : ℤ) + ((q + 1 : ℕ) : ℤ) = k - q + m + q by push_cast; ring,
        show k - q - 1 + (m : ℤ) + 1 = k - q + m by ring]
    rw [sum_congr rfl e, sum_add_distrib]
    have z1 : basis x q (k - q - 1 + (0 : ℕ)) t = 0 := basis_zero hx _ _ _ (.inr (le_trans (hx (by push_cast; omega)) h1))
    have z2 : basis x q (k - q + (q + 1 : ℕ)) t = 0 := basis_zero hx _ _ _ (.inl (h2.trans_le (hx (by push_cast; omega))))
    rw [sum_range_succ' _ (q + 1), sum_range_succ _ (q + 1), z1, z2]
    simp only [mul_zero, ite_self, add_zero]
    rw [← sum_add_distrib, ← ih]
    refine sum_congr rfl fun m hm => ?_
    have hm' : m < q + 1 := mem_range.1 hm
    rw [show k - q - 1 + ((m + 1 : ℕ) : ℤ) = k - q + m by push_cast; ring, show k - q + ((m + 1 : ℕ) : ℤ) + q = k - q + m + q + 1 by push_cast; ring]
    have a : x (k - q + m) ≤ x k := hx (by omega)
    have b : x (k + 1) ≤ x (k - q + m + q + 1) := hx (by omega)
    have hd : 0 < x (k - q + m + q + 1) - x (k - q + m) := by linarith
    rw [if_pos hd, if_pos hd, ← add_mul, ← add_div]
    rw [show t - x (k - q + m) + (x (k - q + m + q + 1) - t) = x (k - q + m + q + 1) - x (k - q + m) by ring, div_self hd.ne', one_mul]

/-- The last weight is positive. -/
theorem basis_pos_last (hx : Monotone x) (q : ℕ) (i : ℤ) (t : K) (h1 : x (i + q) ≤ t) (h2 : t < x (i + q + 1)) : 0 < basis x q i t := by
  induction q generalizing i with
  | zero => simp only [Nat.cast_zero, add_zero] at h1 h2; simp [basis, h1, h2]
  | succ q ih =>
    have hp := ih (i + 1) (by convert h1 using 2; push_cast; ring) (by convert h2 using 2; push_cast; ring)
    simp only [basis]
    have a : x (i + 1) ≤ x (i + (q + 1 : ℕ)) := hx (by push_cast; omega)
    have hd : 0 < x (i + (q + 1 : ℕ) + 1) - x (i + 1) := by linarith
    rw [if_pos hd]
    refine add_pos_of_nonneg_of_pos ?_ (mul_pos (div_pos (by linarith) hd) hp)
    split_ifs with hd1
    · have c : x i ≤ x (i + (q + 1 : ℕ)) := hx (by push_cast; omega)
      exact mul_nonneg (div_nonneg (by linarith) hd1.le) (basis_nonneg hx _ _ _)
    · exact le_refl _

/-- A weight is positive inside of its support. -/
theorem basis_pos (hx : Monotone x) (q : ℕ) (i : ℤ) (t : K) (h1 : x i < t) (h2 : t < x (i + q + 1)) : 0 < basis x q i t := by
  induction q generalizing i with
  | zero => simp only [Nat.cast_zero, add_zero] at h2; simp [basis, h1.le, h2]
  | succ q ih =>
    rcases lt_or_ge t (x (i + (q + 1 : ℕ))) with h | h
    · have hp := ih i h1 (by convert h using 2; push_cast; ring)
      have hd : 0 < x (i + (q + 1 : ℕ)) - x i := by linarith
      simp only [basis]
      rw [if_pos hd]
      refine add_pos_of_pos_of_nonneg (mul_pos (div_pos (by linarith) hd) hp) ?_
      split_ifs with hd1
      · exact mul_nonneg (div_nonneg (by linarith) hd1.le) (basis_nonneg hx _ _ _)
      · exact le_refl _
    · exact basis_pos_last hx _ _ _ h h2

/-! Curve. -/

theorem interval_eq (s : Spline K V) (i : ℤ) : interval s.points i = knot s (idx s.points.length i) := rfl

theorem interval_mono {s : Spline K V} (h : Sorted s) (h0 : 0 < s.points.length) : Monotone (interval s.points) := by
  intro i j hij
  rw [interval_eq, interval_eq]
  refine h _ _ ?_ (C74_in_range _ h0 _)
  unfold idx
  split_ifs <;> omega

theorem interval_nat (s : Spline K V) (i : ℕ) (h : i < s.points.length) : interval s.points i = knot s i := by
  rw [interval_eq, idx, if_neg (by omega), if_neg (by simp; omega)]
  simp

/-- The weight of the point with the index `i`. -/
def weight (s : Spline K V) (t : K) (i : ℕ) : K := basis (interval s.points) s.order.toNat (i - s.order) t

theorem evaluate_eq (s : Spline K V) (t : K) : evaluate s t = ∑ i ∈ range s.points.length, weight s t i • pt s i := by
  unfold evaluate
  split_ifs with h
  · rw [List.isEmpty_iff.1 h]; simp
  · have key : ∀ (l : List (ControlPoint K V)) (f : ℤ → K) (a : V) (j : ℤ),
        l.foldl (fun (a : V × ℤ) p => (a.1 + f a.2 • p.point, a.2 + 1)) (a, j) =
          (a + ∑ i ∈ range l.length, f (j + i) • (l[i]?.map ControlPoint.point).getD 0, j + l.length) := by
      intro l f
      induction l with
      | nil => intro a j; simp
      | cons p l ih =>
        intro a j
        rw [List.foldl_cons, ih, List.length_cons, sum_range_succ']
        simp only [List.getElem?_cons_succ, List.getElem?_cons_zero, Option.map_some, Option.getD_some, Nat.cast_zero, add_zero, Nat.cast_add, Nat.cast_one, Prod.mk.injEq]
        constructor
        · rw [add_assoc, add_comm (f j • p.point)]
          congr 2
          refine sum_congr rfl fun i _ => ?_
          rw [add_assoc, add_comm (1 : ℤ)]
        · ring
    rw [key _ (fun j => basis (interval s.points) s.order.toNat j t)]
    simp only [zero_add]
    refine sum_congr rfl fun i _ => ?_
    rw [weight, neg_add_eq_sub]
    rfl

/-- Inside of the range the parameter is between two consecutive knots. -/
theorem find_knot (s : Spline K V) (t : K) (n : ℕ) (h0 : knot s 0 ≤ t) (hn : t < knot s n) : ∃ k, k < n ∧ knot s k ≤ t ∧ t < knot s (k + 1) := by
  induction n with
  | zero => exact absurd h0 (not_le.2 hn)
  | succ n ih =>
    rcases lt_or_ge t (knot s n) with h | h
    · obtain ⟨k, hk, r⟩ := ih h
      exact ⟨k, by omega, r⟩
    · exact ⟨n, by omega, h, hn⟩

/-- The sum over all points is the sum over `q + 1` consecutive ones. -/
theorem sum_window {M : Type} [AddCommGroup M] [Module K M] (s : Spline K V) (hs : Sorted s) (q : ℕ) (hq : s.order = q) (t : K) (k : ℕ) (hk : k + q < s.points.length)
    (hk1 : k + 1 < s.points.length) (h1 : knot s k ≤ t) (h2 : t < knot s (k + 1)) (f : ℕ → M) :
    ∑ i ∈ range s.points.length, weight s t i • f i = ∑ m ∈ range (q + 1), weight s t (k + m) • f (k + m) := by
  have hm := interval_mono hs (show 0 < s.points.length by omega)
  have z : ∀ i, i < s.points.length → (i < k ∨ k + q < i) → weight s t i = 0 := by
    intro i hi hc
    rw [weight, hq, Int.toNat_natCast]
    apply basis_zero hm
    rcases hc with hc | hc
    · right
      rw [show (i : ℤ) - q + q + 1 = ((i + 1 : ℕ) : ℤ) by push_cast; ring, interval_nat _ _ (by omega)]
      exact (hs _ _ (by omega) (by omega)).trans h1
    · left
      rw [show (i : ℤ) - q = ((i - q : ℕ) : ℤ) by omega, interval_nat _ _ (by omega)]
      exact h2.trans_le (hs _ _ (by omega) (by omega))
  have : ∑ i ∈ Ico k (k + (q + 1)), weight s t i • f i = ∑ m ∈ range (q + 1), weight s t (k + m) • f (k + m) := by
    rw [sum_Ico_eq_sum_range, show k + (q + 1) - k = q + 1 by omega]
  rw [← this]
  symm
  apply sum_subset
  · intro i hi
    have := mem_Ico.1 hi
    exact mem_range.2 (by omega)
  · intro i hi hni
    rw [z i (mem_range.1 hi) (by by_contra hc; exact hni (mem_Ico.2 (by omega))), zero_smul]

theorem weight_sum_window (s : Spline K V) (hs : Sorted s) (q : ℕ) (hq : s.order = q) (t : K) (k : ℕ) (hk1 : k + 1 < s.points.length)
    (h1 : knot s k ≤ t) (h2 : t < knot s (k + 1)) : ∑ m ∈ range (q + 1), weight s t (k + m) = 1 := by
  have hm := interval_mono hs (show 0 < s.points.length by omega)
  rw [← basis_sum hm k t (by rwa [interval_nat _ _ (by omega)]) (by rw [show (k : ℤ) + 1 = ((k + 1 : ℕ) : ℤ) by push_cast; ring, interval_nat _ _ (by omega)]; exact h2) q]
  refine sum_congr rfl fun m _ => ?_
  rw [weight, hq, Int.toNat_natCast]
  congr 1
  push_cast
  ring

theorem weight_sum_le (s : Spline K V) (hs : Sorted s) (ho : 0 ≤ s.order) (t : K) : ∑ i ∈ range s.points.length, weight s t i ≤ 1 := by
  rcases Nat.eq_zero_or_pos s.points.length with h | h
  · rw [h]; simp
  have hm := interval_mono hs h
  obtain ⟨q, hq⟩ := Int.eq_ofNat_of_zero_le ho
  rcases lt_or_ge t (knot s 0) with h0 | h0
  · rw [sum_eq_zero]
    · exact zero_le_one
    · intro i _
      apply basis_zero hm
      left
      rw [interval_eq]
      exact h0.trans_le (hs _ _ (by omega) (C74_in_range _ h _))
  rcases lt_or_ge t (knot s (s.points.length - 1)) with h1 | h1
  · obtain ⟨k, hk, a, b⟩ := find_knot s t _ h0 h1
    rw [← weight_sum_window s hs q hq t k (by omega) a b]
    have e : ∑ m ∈ range (q + 1), weight s t (k + m) = ∑ i ∈ Ico k (k + (q + 1)), weight s t i := by
      rw [sum_Ico_eq_sum_range, show k + (q + 1) - k = q + 1 by omega]
    rw [e]
    have z : ∑ i ∈ range s.points.length, weight s t i = ∑ i ∈ (range s.points.length).filter (· ∈ Ico k (k + (q + 1))), weight s t i := by
      symm
      apply sum_subset (filter_subset _ _)
      intro i hi hni
      have hi' := mem_range.1 hi
      rw [weight, hq, Int.toNat_natCast]
      apply basis_zero hm
      rcases lt_or_ge i k with c | c
      · right
        rw [show (i : ℤ) - q + q + 1 = ((i + 1 : ℕ) : ℤ) by push_cast; ring, interval_nat _ _ (by omega)]
        exact (hs _ _ (by omega) (by omega)).trans a
      · have : k + q < i := by
          by_contra hc
          exact hni (mem_filter.2 ⟨hi, mem_Ico.2 (by omega)⟩)
        left
        rw [show (i : ℤ) - q = ((i - q : ℕ) : ℤ) by omega, interval_nat _ _ (by omega)]
        exact b.trans_le (hs _ _ (by omega) (by omega))
    rw [z]
    exact sum_le_sum_of_subset_of_nonneg (fun i hi => (mem_filter.1 hi).2) fun i _ _ => basis_nonneg hm _ _ _
  · rw [sum_eq_zero]
    · exact zero_le_one
    · intro i _
      apply basis_zero hm
      right
      rw [interval_eq]
      exact (hs _ _ (by have := C74_in_range s.points.length h ((i : ℤ) - s.order + s.order.toNat + 1); omega) (by omega)).trans h1

/-- C74: for each parameter the weights of the points are not negative and their sum is at most one. -/
theorem C74_nonneg (s : Spline K V) (hs : Sorted s) (ho : 0 ≤ s.order) (t : K) :
    ∃ w : ℕ → K, (∀ i < s.points.length, 0 ≤ w i) ∧ ∑ i ∈ range s.points.length, w i ≤ 1 ∧ evaluate s t = ∑ i ∈ range s.points.length, w i • pt s i :=
  ⟨weight s t, fun _ _ => basis_nonneg (interval_mono hs (by omega)) _ _ _, weight_sum_le s hs ho t, evaluate_eq s t⟩

/-- C74: the curve begins at the first point. -/
theorem C74_start (s : Spline K V) (hs : Sorted s) (ho : 0 ≤ s.order) (h1 : 1 < s.points.length) (hn : s.order < s.points.length) (h : knot s 0 < knot s 1) : evaluate s (knot s 0) = pt s 0 := by
  obtain ⟨q, hq⟩ := Int.eq_ofNat_of_zero_le ho
  have hm := interval_mono hs (show 0 < s.points.length by omega)
  have w := weight_sum_window s hs q hq (knot s 0) 0 h1 (le_refl _) h
  rw [evaluate_eq, sum_window s hs q hq (knot s 0) 0 (by omega) h1 (le_refl _) h]
  have z : ∀ m ∈ range q, weight s (knot s 0) (0 + (m + 1)) = 0 := by
    intro m hm'
    have hmq := mem_range.1 hm'
    rw [weight, hq, Int.toNat_natCast]
    rw [zero_add]
    have key : ∀ (q : ℕ) (j : ℤ), j ≤ 0 → 1 ≤ j + q → basis (interval s.points) q j (knot s 0) = 0 ∨ j + q ≤ 0 := by
      intro q
      induction q with
      | zero => intro j a b; right; simp only [Nat.cast_zero]; simp only [Nat.cast_zero] at b; omega
      | succ q ih =>
        intro j a b
        left
        have neg : ∀ i : ℤ, i ≤ 0 → interval s.points i = knot s 0 := by
          intro i hi
          rw [interval_eq]
          congr 1
          unfold idx
          split_ifs <;> omega
        simp only [basis]
        rw [neg j a, sub_self, zero_div, zero_mul, ite_self, zero_add]
        have : basis (interval s.points) q (j + 1) (knot s 0) = 0 := by
          rcases lt_or_ge 0 (j + 1) with c | c
          · apply basis_zero hm
            left
            rw [show j + 1 = ((1 : ℕ) : ℤ) by push_cast; omega, interval_nat _ _ h1]
            exact h
          · rcases ih (j + 1) c (by push_cast at b; omega) with r | r
            · exact r
            · push_cast at b; omega
        rw [this, mul_zero, ite_self]
    rcases lt_or_ge ((m + 1 : ℕ) - (q : ℤ)) 1 with c | c
    · rcases key q ((m + 1 : ℕ) - (q : ℤ)) (by omega) (by push_cast; omega) with r | r
      · exact r
      · push_cast at r; omega
    · push_cast at c; omega
  rw [sum_range_succ', sum_eq_zero fun m hm' => by rw [z m hm', zero_smul]]
  rw [sum_range_succ', sum_eq_zero z, zero_add] at w
  rw [w, zero_add, one_smul]

/-- C74: for an order `q` below the number `n` of points, from the first knot to (excluding) the knot `n - q`, the point of the curve is in the convex hull of
`q + 1` consecutive points, which belong to the knots around the parameter. -/
theorem C74_hull (s : Spline K V) (hs : Sorted s) (q : ℕ) (hq : s.order = q) (h1 : 1 ≤ q) (hn : q < s.points.length) (t : K) (h0 : knot s 0 ≤ t) (ht : t < knot s (s.points.length - q)) :
    ∃ k, k + q < s.points.length ∧ knot s k ≤ t ∧ t < knot s (k + 1) ∧ evaluate s t ∈ convexHull K {p | ∃ m ≤ q, p = pt s (k + m)} := by
  obtain ⟨k, hk, a, b⟩ := find_knot s t _ h0 ht
  refine ⟨k, by omega, a, b, ?_⟩
  have hm := interval_mono hs (show 0 < s.points.length by omega)
  rw [evaluate_eq, sum_window s hs q hq t k (by omega) (by omega) a b]
  refine (convex_convexHull K _).sum_mem (fun i _ => basis_nonneg hm _ _ _) (weight_sum_window s hs q hq t k (by omega) a b) fun m hm' => ?_
  exact subset_convexHull K _ ⟨m, by have := mem_range.1 hm'; omega, rfl⟩

/-- C74: a spline of order one interpolates linearly between its points. -/
theorem C74_linear (s : Spline K V) (hs : Sorted s) (hq : s.order = 1) (k : ℕ) (hk : k + 1 < s.points.length) (t : K) (h1 : knot s k ≤ t) (h2 : t < knot s (k + 1)) :
    evaluate s t = pt s k + ((t - knot s k) / (knot s (k + 1) - knot s k)) • (pt s (k + 1) - pt s k) := by
  have hd : 0 < knot s (k + 1) - knot s k := by linarith
  have w := weight_sum_window s hs 1 hq t k hk h1 h2
  rw [evaluate_eq, sum_window s hs 1 hq t k hk hk h1 h2, sum_range_succ, sum_range_one]
  rw [sum_range_succ, sum_range_one] at w
  have e : weight s t (k + 1) = (t - knot s k) / (knot s (k + 1) - knot s k) := by
    have i0 : interval s.points k = knot s k := interval_nat _ _ (by omega)
    have i1 : interval s.points (k + 1) = knot s (k + 1) := by rw [show (k : ℤ) + 1 = ((k + 1 : ℕ) : ℤ) by push_cast; ring, interval_nat _ _ hk]
    rw [weight, hq, show ((k + 1 : ℕ) : ℤ) - 1 = k by push_cast; ring, show (1 : ℤ).toNat = 0 + 1 from rfl]
    simp only [basis]
    rw [show ((0 + 1 : ℕ) : ℤ) = 1 by norm_num, i0, i1, if_pos hd, if_pos ⟨h1, h2⟩, if_neg (fun hx : _ ∧ _ => absurd hx.1 (not_le.2 h2))]
    simp
  simp only [Nat.add_zero] at w ⊢
  rw [show weight s t k = 1 - weight s t (k + 1) by linarith, e, smul_sub, sub_smul, one_smul]
  abel

/-- C74 is violated at the last knot and beyond: the result is zero, for each order and all points. -/
theorem C74_end_refuted (s : Spline K V) (hs : Sorted s) (t : K) (ht : knot s (s.points.length - 1) ≤ t) : evaluate s t = 0 := by
  rw [evaluate_eq]
  apply sum_eq_zero
  intro i hi
  have hi := mem_range.1 hi
  have : interval s.points ((i : ℤ) - s.order + s.order.toNat + 1) ≤ t := by
    rw [interval_eq]
    exact (hs _ _ (by have := C74_in_range s.points.length (by omega) ((i : ℤ) - s.order + s.order.toNat + 1); omega) (by omega)).trans ht
  rw [weight, basis_zero (interval_mono hs (by omega)) _ _ _ (.inr this), zero_smul]

/-- C74 is violated for each order from two on (up to the number of points, the greatest one `SetOrder` allows) after the knot `n - q`: the weights have a sum below one, so that a spline
with all points equal leaves them. -/
theorem C74_sum_refuted (s : Spline K V) (hs : Sorted s) (q : ℕ) (hq : s.order = q) (h2 : 2 ≤ q) (hn : q ≤ s.points.length) (t : K)
    (h0 : knot s (s.points.length - q) < t) (ht : t < knot s (s.points.length - 1)) (p : V) (hp : ∀ i < s.points.length, pt s i = p) :
    ∃ w : K, w < 1 ∧ evaluate s t = w • p := by
  set n := s.points.length with hnn
  have hm := interval_mono hs (show 0 < s.points.length by omega)
  refine ⟨∑ i ∈ range n, weight s t i, ?_, ?_⟩
  · obtain ⟨k, hk, a, b⟩ := find_knot s t (n - 1) ((hs 0 _ (by omega) (by omega)).trans h0.le) ht
    have hle : n - q ≤ k := by
      by_contra hc
      exact absurd (b.trans_le (hs (k + 1) (n - q) (by omega) (by omega))) (not_lt.2 h0.le)
    have hw := weight_sum_window s hs q hq t k (by omega) a b
    have hsub : ∑ i ∈ range n, weight s t i = ∑ i ∈ Ico k n, weight s t i := by
      symm
      apply sum_subset
      · intro i hi
        exact mem_range.2 (mem_Ico.1 hi).2
      · intro i hi hni
        have hi := mem_range.1 hi
        have : i < k := by by_contra hc; exact hni (mem_Ico.2 (by omega))
        rw [weight, hq, Int.toNat_natCast]
        apply basis_zero hm
        right
        rw [show (i : ℤ) - q + q + 1 = ((i + 1 : ℕ) : ℤ) by push_cast; ring, interval_nat _ _ (by omega)]
        exact (hs _ _ (by omega) (by omega)).trans a
    have hall : ∑ i ∈ Ico k (k + q + 1), weight s t i = 1 := by
      rw [sum_Ico_eq_sum_range, show k + q + 1 - k = q + 1 by omega]
      exact hw
    have hpos : 0 < weight s t n := by
      rw [weight, hq, Int.toNat_natCast]
      apply basis_pos hm
      · rw [show (n : ℤ) - q = ((n - q : ℕ) : ℤ) by omega, interval_nat _ _ (by omega)]
        exact h0
      · rw [show (n : ℤ) - q + q + 1 = ((n + 1 : ℕ) : ℤ) by push_cast; ring, interval_eq, idx, if_neg (by omega), if_pos (by simp [← hnn])]
        exact ht
    rw [hsub, ← hall, ← sum_Ico_consecutive _ (show k ≤ n by omega) (show n ≤ k + q + 1 by omega)]
    have : 0 < ∑ i ∈ Ico n (k + q + 1), weight s t i :=
      sum_pos' (fun i _ => basis_nonneg hm _ _ _) ⟨n, mem_Ico.2 (by omega), hpos⟩
    linarith
  · rw [evaluate_eq, sum_smul]
    exact sum_congr rfl fun i hi => by rw [hp i (mem_range.1 hi)]

/-- A spline with three points and the order two at the parameters 0 and 3/2. -/
example : evaluate (⟨[⟨1, 0⟩, ⟨1, 1⟩, ⟨1, 2⟩], 2⟩ : Spline ℚ ℚ) 0 = 1 ∧ evaluate (⟨[⟨1, 0⟩, ⟨1, 1⟩, ⟨1, 2⟩], 2⟩ : Spline ℚ ℚ) (3 / 2) = 3 / 4 := by
  decide +kernel

/-! The theorems for a spline with four points. -/

def sampleSpline (q : ℤ) : Spline ℚ ℚ := ⟨[⟨1, 0⟩, ⟨5, 1⟩, ⟨2, 3⟩, ⟨7, 4⟩], q⟩

theorem sample_sorted (q : ℤ) : Sorted (sampleSpline q) := by
  intro i j hij hj
  change j < 4 at hj
  obtain rfl | rfl | rfl | rfl : j = 0 ∨ j = 1 ∨ j = 2 ∨ j = 3 := by omega
  all_goals obtain rfl | rfl | rfl | rfl : i = 0 ∨ i = 1 ∨ i = 2 ∨ i = 3 := by omega
  all_goals first | omega | norm_num [knot, sampleSpline]

example := C74_clamp (sampleSpline 2) 9 (by simp [sampleSpline])
example := C74_clamp_refuted (K := ℚ) (V := ℚ) 3 (by norm_num)
example := C74_in_range 4 (by norm_num) (-7)
example := C74_nonneg (sampleSpline 2) (sample_sorted 2) (by simp [sampleSpline]) (5 / 2)
example := C74_start (sampleSpline 2) (sample_sorted 2) (by simp [sampleSpline]) (by simp [sampleSpline]) (by simp [sampleSpline]) (by decide +kernel)
example := C74_hull (sampleSpline 2) (sample_sorted 2) 2 rfl (by norm_num) (by simp [sampleSpline]) (5 / 2) (by decide +kernel) (by decide +kernel)
example := C74_linear (sampleSpline 1) (sample_sorted 1) rfl 1 (by simp [sampleSpline]) 2 (by decide +kernel) (by decide +kernel)
example := C74_end_refuted (sampleSpline 2) (sample_sorted 2) 4 (by decide +kernel)

end Geom.Spline
