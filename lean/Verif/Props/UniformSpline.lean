import Verif.Model.UniformSpline
import Verif.Spec.UniformSpline
import Mathlib.Analysis.Calculus.Deriv.Mul
import Mathlib.Analysis.Calculus.Deriv.Prod
import Mathlib.Analysis.Calculus.Deriv.Comp
import Mathlib.Analysis.Calculus.Deriv.Pow
import Mathlib.Analysis.Calculus.Deriv.Add
import Mathlib.Algebra.Order.Floor.Semiring
import Mathlib.Data.Rat.Floor
import Mathlib.Algebra.Order.Archimedean.Real.Basic
import Mathlib.Tactic.Ring
import Mathlib.Tactic.Linarith
import Mathlib.Tactic.LinearCombination
import Mathlib.Tactic.FieldSimp
import Mathlib.Tactic.Positivity
import Mathlib.Tactic.NormNum

/-
  C75: uniform splines.
-/
set_option autoImplicit false
set_option linter.unusedSectionVars false

namespace Geom.UniformSpline
open Spec

/-! The linear system. -/

section System
variable {K : Type} [Field K] [LinearOrder K] [IsStrictOrderedRing K] (n : ℕ) (p : ℕ → K) (e : K)

theorem v_bounds (i : ℕ) : 0 < (v i : K) ∧ (v i : K) ≤ 1 / 2 := by
  induction i with
  | zero => simp only [v]; norm_num
  | succ i ih =>
    simp only [v]
    obtain ⟨h1, h2⟩ := ih
    have h3 : (2 : K) ≤ 4 - v i := by linarith
    exact ⟨div_pos one_pos (by linarith), one_div_le_one_div_of_le (by norm_num) h3⟩

theorem s_last : s n p e (n - 1) = q n p e (n - 1) := by simp [s, sRev]

theorem s_step (i : ℕ) (h : i + 1 < n) : s n p e i = q n p e i - v i * s n p e (i + 1) := by
  unfold s
  obtain ⟨m, hm⟩ : ∃ m, n - 1 - i = m + 1 := ⟨n - 2 - i, by omega⟩
  rw [hm, sRev, show n - 1 - m - 1 = i by omega, show n - 1 - (i + 1) = m by omega]

theorem system_first (h : 2 ≤ n) : 2 * s n p 1 0 + s n p 1 1 = 3 * (p 1 - p 0) := by
  rw [s_step n p 1 0 (by omega)]
  simp only [q, v, y, if_true]
  ring

theorem system_inner (i : ℕ) (h : i + 2 < n) : s n p 1 i + 4 * s n p 1 (i + 1) + s n p 1 (i + 2) = 3 * (p (i + 2) - p i) := by
  have h4 : (4 : K) - v i ≠ 0 := by have := (v_bounds (K := K) i).2; intro hc; linarith
  have hv : (4 - v i) * (v (i + 1) : K) = 1 := by rw [v]; field_simp
  have hq : q n p 1 (i + 1) = v (i + 1) * (3 * (p (i + 2) - p i) - q n p 1 i) := by
    rw [q, if_pos (by omega), y, if_neg (by omega), if_pos (by omega), one_mul, Nat.add_sub_cancel]
  rw [s_step n p 1 i (by omega), s_step n p 1 (i + 1) (by omega), hq]
  linear_combination (3 * (p (i + 2) - p i) - q n p 1 i - s n p 1 (i + 2)) * hv

theorem system_last (m : ℕ) : s (m + 2) p 1 m + 2 * s (m + 2) p 1 (m + 1) = 3 * (p (m + 1) - p m) := by
  have h2 : (2 : K) - v m ≠ 0 := by have := (v_bounds (K := K) m).2; intro hc; linarith
  have hl : s (m + 2) p 1 (m + 1) = 1 / (2 - v m) * (3 * (p (m + 1) - p m) - q (m + 2) p 1 m) := by
    have := s_last (m + 2) p (1 : K)
    rw [show m + 2 - 1 = m + 1 by omega] at this
    rw [this, q, if_neg (by omega), y, if_neg (by omega), if_neg (by omega), one_mul]
    simp
  have hv : (2 - v m) * (1 / (2 - (v m : K))) = 1 := by field_simp
  rw [s_step (m + 2) p 1 m (by omega), hl]
  linear_combination (3 * (p (m + 1) - p m) - q (m + 2) p 1 m) * hv

theorem q_zero (i : ℕ) : q n p 0 (i + 1) = 0 := by
  rw [q]; split_ifs <;> ring

theorem s_zero (i : ℕ) (h : i + 1 < n) : s n p 0 (i + 1) = 0 := by
  obtain ⟨m, hm⟩ : ∃ m, i + 1 + m = n - 1 := ⟨n - 1 - (i + 1), by omega⟩
  induction m generalizing i with
  | zero => rw [show i + 1 = n - 1 by omega, s_last, show n - 1 = i + 1 by omega, q_zero]
  | succ m ih => rw [s_step n p 0 (i + 1) (by omega), q_zero, ih (i + 1) (by omega) (by omega)]; ring

theorem s_zero_first (h : 2 ≤ n) : s n p 0 0 = 3 / 2 * (p 1 - p 0) := by
  rw [s_step n p 0 0 (by omega), s_zero n p 0 (by omega)]
  simp only [q, y, if_true]
  ring

end System

/-! Evaluation. -/

section Eval
variable {K : Type} [Field K] [LinearOrder K] [IsStrictOrderedRing K] [FloorRing K] {d : ℕ}

/-- The point with the index `i`. -/
def pt (points : List (Fin d → K)) (i : ℕ) : Fin d → K := fun k => (points[i]?.map (· k)).getD 0

theorem pt_eq (points : List (Fin d → K)) (i : ℕ) (h : i < points.length) : pt points i = points[i] := by
  funext k; simp [pt, h]

/-- The polynomial with the index `i`. -/
def poly (points : List (Fin d → K)) (e : K) (i : ℕ) : Polynomial K d :=
  ⟨fun c k => coeffs points.length (fun j => pt points j k) e i c⟩

theorem build_eq (old : List (Polynomial K d)) (points : List (Fin d → K)) (e : K) (h : 2 ≤ points.length) :
    build old points e = (List.range (points.length - 1)).map (poly points e) := by
  rw [build, if_pos h]; rfl

theorem poly_zero (points : List (Fin d → K)) (e : K) (i : ℕ) : (poly points e i).evaluate 0 = pt points i := by
  funext k; simp [Polynomial.evaluate, poly, coeffs]

theorem poly_one (points : List (Fin d → K)) (e : K) (i : ℕ) : (poly points e i).evaluate 1 = pt points (i + 1) := by
  funext k; simp [Polynomial.evaluate, poly, coeffs]; ring

/-- The polynomials one after the other. -/
def pw {E : Type} (N : ℕ) (P : ℕ → K → E) (t : K) : E := P ⌊t * N⌋.toNat (t * N - ⌊t * N⌋)

theorem floor_range (N : ℕ) (t : K) (h0 : 0 < t) (h1 : t < 1) (hN : 0 < N) : 0 ≤ ⌊t * N⌋ ∧ ⌊t * N⌋.toNat < N := by
  have hN' : (0 : K) < N := by exact_mod_cast hN
  have a : 0 ≤ ⌊t * N⌋ := Int.floor_nonneg.2 (mul_nonneg h0.le hN'.le)
  have b : ⌊t * N⌋ < N := by
    rw [Int.floor_lt]
    calc t * N < 1 * N := mul_lt_mul_of_pos_right h1 hN'
      _ = ((N : ℤ) : K) := by simp
  exact ⟨a, by omega⟩

/-- The value. -/
def value (points : List (Fin d → K)) (e t : K) : Fin d → K :=
  if t ≤ 0 then pt points 0 else if 1 ≤ t then pt points (points.length - 1) else pw (points.length - 1) (fun i => (poly points e i).evaluate) t

theorem evaluate_build (old : List (Polynomial K d)) (points : List (Fin d → K)) (e t : K) (h : 2 ≤ points.length) :
    evaluate (build old points e) t = .ok (value points e t) := by
  rw [build_eq _ _ _ h]
  obtain ⟨m, hm⟩ : ∃ m, points.length - 1 = m + 1 := ⟨points.length - 2, by omega⟩
  unfold evaluate value
  rw [if_pos (by rw [hm]; simp [List.range_succ])]
  split_ifs with h0 h1
  · rw [hm, List.range_succ_eq_map]
    simp [poly_zero]
  · rw [hm, List.range_succ]
    simp [poly_one]
  · have := floor_range (points.length - 1) t (not_le.1 h0) (not_le.1 h1) (by omega)
    dsimp only
    rw [List.length_map, List.length_range, List.getElem?_map, List.getElem?_range this.2]
    rfl

/-- C75: evaluation never leaves the list of polynomials, for all polynomials and all parameters. -/
theorem C75_in_range (ps : List (Polynomial K d)) (t : K) : ∃ x, evaluate ps t = .ok x := by
  unfold evaluate
  split_ifs with h h0 h1
  · rw [List.head?_eq_some_head h]; exact ⟨_, rfl⟩
  · rw [List.getLast?_eq_some_getLast h]; exact ⟨_, rfl⟩
  · have := floor_range ps.length t (not_le.1 h0) (not_le.1 h1) (List.length_pos_of_ne_nil h)
    dsimp only
    rw [List.getElem?_eq_getElem this.2]
    exact ⟨_, rfl⟩
  · exact ⟨_, rfl⟩

/-- C75: at the parameter i/(n-1) the spline is at its point with the index i, for each expansion; before and after the range it stays at the ends. -/
theorem C75_interpolates (old : List (Polynomial K d)) (points : List (Fin d → K)) (e : K) (h : 2 ≤ points.length) :
    (∀ i (hi : i < points.length), evaluate (build old points e) ((i : K) / ((points.length - 1 : ℕ) : K)) = .ok points[i]) ∧
    (∀ t ≤ 0, evaluate (build old points e) t = .ok points[0]) ∧
    (∀ t, 1 ≤ t → evaluate (build old points e) t = .ok points[points.length - 1]) := by
  have hN : (0 : K) < ((points.length - 1 : ℕ) : K) := by exact_mod_cast (by omega : 0 < points.length - 1)
  refine ⟨fun i hi => ?_, fun t ht => ?_, fun t ht => ?_⟩
  · rw [evaluate_build _ _ _ _ h, ← pt_eq]
    unfold value
    split_ifs with h0 h1
    · have : (i : K) ≤ 0 := by
        by_contra hc
        exact absurd h0 (not_le.2 (div_pos (not_le.1 hc) hN))
      have : i = 0 := by exact_mod_cast le_antisymm this (Nat.cast_nonneg i)
      rw [this]
    · rw [le_div_iff₀ hN, one_mul] at h1
      have : points.length - 1 ≤ i := by exact_mod_cast h1
      rw [show points.length - 1 = i by omega]
    · rw [pw, div_mul_cancel₀ _ hN.ne', Int.floor_natCast, Int.toNat_natCast, Int.cast_natCast, sub_self, poly_zero]
  · rw [evaluate_build _ _ _ _ h, value, if_pos ht, pt_eq _ _ (by omega)]
  · rw [evaluate_build _ _ _ _ h, value, if_neg (by intro hc; linarith), if_pos ht, pt_eq _ _ (by omega)]

/-- C75: with the expansion 0 each piece is on the straight line between its points. -/
theorem C75_straight (old : List (Polynomial K d)) (points : List (Fin d → K)) (t : K) (h : 2 ≤ points.length) (h0 : 0 < t) (h1 : t < 1) :
    ∃ (i : ℕ) (hi : i + 1 < points.length) (x : Fin d → K), (i : K) ≤ t * ((points.length - 1 : ℕ) : K) ∧ t * ((points.length - 1 : ℕ) : K) ≤ i + 1 ∧
      evaluate (build old points 0) t = .ok x ∧ x ∈ segment K points[i] points[i + 1] := by
  set N := points.length - 1 with hNN
  obtain ⟨a, b⟩ := floor_range N t h0 h1 (by omega)
  set i := ⌊t * N⌋.toNat with hi
  have hfl : ((⌊t * N⌋ : ℤ) : K) = (i : K) := by
    have : (i : ℤ) = ⌊t * N⌋ := Int.toNat_of_nonneg a
    rw [← this, Int.cast_natCast]
  have u0 : (i : K) ≤ t * N := hfl ▸ Int.floor_le _
  have u1 : t * N < i + 1 := hfl ▸ Int.lt_floor_add_one _
  refine ⟨i, by omega, _, u0, u1.le, evaluate_build _ _ _ _ h, ?_⟩
  rw [value, if_neg (not_le.2 h0), if_neg (not_le.2 h1), pw, ← hNN, ← hi, hfl, ← pt_eq, ← pt_eq]
  generalize hu : t * N - i = u
  have v0 : 0 ≤ u := by linarith
  have v1 : u ≤ 1 := by linarith
  rw [segment_eq_image']
  rcases Nat.eq_zero_or_pos i with c | c
  · rw [c]
    refine ⟨3 / 2 * u - 1 / 2 * u ^ 3, ⟨?_, ?_⟩, ?_⟩
    · have : 0 ≤ u * (1 - u) * (1 + u) := by have := sub_nonneg.2 v1; positivity
      nlinarith
    · have : 0 ≤ (1 - u) ^ 2 * (2 + u) := by positivity
      nlinarith
    · funext k
      simp only [Polynomial.evaluate, poly, coeffs, s_zero_first _ _ h, s_zero _ _ 0 (show 0 + 1 < points.length by omega), Pi.add_apply, Pi.smul_apply, Pi.sub_apply, smul_eq_mul,
        Matrix.cons_val_zero, Matrix.cons_val_one, Matrix.cons_val, zero_add]
      ring
  · obtain ⟨j, hj⟩ : ∃ j, i = j + 1 := ⟨i - 1, by omega⟩
    refine ⟨3 * u ^ 2 - 2 * u ^ 3, ⟨?_, ?_⟩, ?_⟩
    · have : 0 ≤ u ^ 2 * (3 - 2 * u) := by have : 0 ≤ 3 - 2 * u := by linarith
                                           positivity
      nlinarith
    · have : 0 ≤ (1 - u) ^ 2 * (1 + 2 * u) := by positivity
      nlinarith
    · funext k
      simp only [hj, Polynomial.evaluate, poly, coeffs, s_zero _ _ j (show j + 1 < points.length by omega), s_zero _ _ (j + 1) (show j + 1 + 1 < points.length by omega), Pi.add_apply, Pi.smul_apply,
        Pi.sub_apply, smul_eq_mul, Matrix.cons_val_zero, Matrix.cons_val_one, Matrix.cons_val]
      ring

/-- C75: the documentation ("If the expansion is 0.0, this spline will be a linear spline") does not hold for the parameters: in the middle between the parameters of the first two points
the spline is not in the middle between them, unless they are equal. -/
theorem C75_linear_refuted (old : List (Polynomial K d)) (points : List (Fin d → K)) (h : 2 ≤ points.length) (hne : points[0] ≠ points[1]) :
    evaluate (build old points 0) (1 / (2 * ((points.length - 1 : ℕ) : K))) ≠ .ok (fun k => (points[0] k + points[1] k) / 2) := by
  have hN : (1 : K) ≤ ((points.length - 1 : ℕ) : K) := by exact_mod_cast (by omega : 1 ≤ points.length - 1)
  rw [evaluate_build _ _ _ _ h, value, if_neg (not_le.2 (by positivity)), if_neg (not_le.2 (by rw [div_lt_one (by positivity)]; linarith)), pw]
  have e : 1 / (2 * ((points.length - 1 : ℕ) : K)) * ((points.length - 1 : ℕ) : K) = 1 / 2 := by field_simp
  have f : ⌊(1 / 2 : K)⌋ = 0 := by rw [Int.floor_eq_iff]; norm_num
  rw [e, f]
  intro hc
  apply hne
  rw [← pt_eq _ _ (by omega), ← pt_eq _ _ (by omega)] at *
  funext k
  have hk := congrFun (Res.ok.inj hc) k
  simp only [Polynomial.evaluate, poly, coeffs, s_zero_first _ _ h, s_zero _ _ 0 (show 0 + 1 < points.length by omega), Int.toNat_zero, Int.cast_zero, sub_zero,
        Matrix.cons_val_zero, Matrix.cons_val_one, Matrix.cons_val, zero_add] at hk
  linarith

/-- C75: `Build` with less than two points changes nothing, the former points remain. -/
theorem C75_stale (old : List (Polynomial K d)) (points : List (Fin d → K)) (e : K) (h : points.length < 2) : build old points e = old := by
  rw [build, if_neg (by omega)]

end Eval

/-! Smoothness. -/

section Smooth
open Set Topology Filter

variable {E : Type} [NormedAddCommGroup E] [NormedSpace ℝ E]

/-- Each piece is continued by the next one. -/
def Joined (N : ℕ) (P : ℕ → ℝ → E) : Prop := ∀ i, i + 1 < N → P i 1 = P (i + 1) 0

theorem pw_eq (N : ℕ) (P : ℕ → ℝ → E) (b : ℕ) (w : ℝ) (h0 : (b : ℝ) ≤ w * N) (h1 : w * N < b + 1) : pw N P w = P b (w * N - b) := by
  have : ⌊w * N⌋ = (b : ℤ) := by rw [Int.floor_eq_iff]; exact ⟨by exact_mod_cast h0, by exact_mod_cast h1⟩
  rw [pw, this, Int.toNat_natCast, Int.cast_natCast]

/-- Near a parameter there are at most two pieces. -/
theorem pw_local (N : ℕ) (t : ℝ) (h0 : 0 < t) (h1 : t < 1) (hN : 0 < N) :
    ∃ a b : ℕ, ∀ P : ℕ → ℝ → E, Joined N P → ∀ᶠ w in 𝓝 t, (w ≤ t → pw N P w = P a (w * N - a)) ∧ (t ≤ w → pw N P w = P b (w * N - b)) := by
  obtain ⟨ha, hb⟩ := floor_range N t h0 h1 hN
  have hN' : (0 : ℝ) < N := by exact_mod_cast hN
  obtain ⟨b, hbe⟩ := Int.eq_ofNat_of_zero_le ha
  rw [hbe, Int.toNat_natCast] at hb
  have l0 : (b : ℝ) ≤ t * N := by have := Int.floor_le (t * N : ℝ); rw [hbe] at this; exact_mod_cast this
  have l1 : t * N < (b : ℝ) + 1 := by have := Int.lt_floor_add_one (t * N : ℝ); rw [hbe] at this; exact_mod_cast this
  have cont : Continuous fun w : ℝ => w * N := by fun_prop
  have up : ∀ᶠ w in 𝓝 t, w * N < (b : ℝ) + 1 := cont.continuousAt.eventually_lt continuousAt_const l1
  rcases l0.lt_or_eq with l | l
  · have lo : ∀ᶠ w in 𝓝 t, (b : ℝ) < w * N := continuousAt_const.eventually_lt cont.continuousAt l
    refine ⟨b, b, fun P _ => ?_⟩
    filter_upwards [up, lo] with w hu hl
    exact ⟨fun _ => pw_eq N P b w hl.le hu, fun _ => pw_eq N P b w hl.le hu⟩
  · have hb0 : b ≠ 0 := by
      rintro rfl
      have := mul_pos h0 hN'
      rw [← l] at this
      simp at this
    obtain ⟨a, rfl⟩ := Nat.exists_eq_succ_of_ne_zero hb0
    simp only [Nat.succ_eq_add_one, Nat.cast_add, Nat.cast_one] at *
    have lo : ∀ᶠ w in 𝓝 t, (a : ℝ) < w * N := continuousAt_const.eventually_lt cont.continuousAt (by linarith)
    refine ⟨a, a + 1, fun P hP => ?_⟩
    filter_upwards [up, lo] with w hu hl
    constructor
    · intro hw
      rcases hw.lt_or_eq with hw | hw
      · exact pw_eq N P a w hl.le (by rw [l]; exact mul_lt_mul_of_pos_right hw hN')
      · rw [hw, pw_eq N P (a + 1) t (by push_cast; exact l0) (by push_cast; exact l1), ← l]
        push_cast
        rw [sub_self, add_sub_cancel_left, hP a hb]
    · intro hw
      have := mul_le_mul_of_nonneg_right hw hN'.le
      exact_mod_cast pw_eq N P (a + 1) w (by push_cast; linarith) (by push_cast; linarith)

theorem pw_continuousAt (N : ℕ) (hN : 0 < N) (P : ℕ → ℝ → E) (hP : ∀ i, Continuous (P i)) (hJ : Joined N P) (t : ℝ) (h0 : 0 < t) (h1 : t < 1) : ContinuousAt (pw N P) t := by
  obtain ⟨a, b, h⟩ := pw_local (E := E) N t h0 h1 hN
  have h := h P hJ
  have ht := h.self_of_nhds
  have cl : ∀ a : ℕ, Continuous fun w : ℝ => P a (w * N - a) := fun a => (hP a).comp (by fun_prop)
  have L : ContinuousWithinAt (pw N P) (Iic t) t := by
    refine (cl a).continuousWithinAt.congr_of_eventuallyEq ?_ (ht.1 le_rfl)
    filter_upwards [nhdsWithin_le_nhds h, self_mem_nhdsWithin] with w hw hm using hw.1 hm
  have R : ContinuousWithinAt (pw N P) (Ici t) t := by
    refine (cl b).continuousWithinAt.congr_of_eventuallyEq ?_ (ht.2 le_rfl)
    filter_upwards [nhdsWithin_le_nhds h, self_mem_nhdsWithin] with w hw hm using hw.2 hm
  exact continuousAt_iff_continuous_left_right.2 ⟨L, R⟩

theorem pw_hasDerivAt (N : ℕ) (hN : 0 < N) (P P' : ℕ → ℝ → E) (hP : ∀ i t, HasDerivAt (P i) (P' i t) t) (hJ : Joined N P) (hJ' : Joined N P') (t : ℝ) (h0 : 0 < t) (h1 : t < 1) :
    HasDerivAt (pw N P) ((N : ℝ) • pw N P' t) t := by
  obtain ⟨a, b, h⟩ := pw_local (E := E) N t h0 h1 hN
  have h' := (h P' hJ').self_of_nhds
  have h := h P hJ
  have ht := h.self_of_nhds
  have cl : ∀ a : ℕ, HasDerivAt (fun w : ℝ => P a (w * N - a)) ((N : ℝ) • P' a (t * N - a)) t := fun a => by
    have inner : HasDerivAt (fun w : ℝ => w * N - a) (1 * N) t := ((hasDerivAt_id t).mul_const (N : ℝ)).sub_const (a : ℝ)
    have := HasDerivAt.scomp t (hP a (t * N - a)) inner
    rw [one_mul] at this
    exact this
  have L : HasDerivWithinAt (pw N P) ((N : ℝ) • pw N P' t) (Iic t) t := by
    rw [h'.1 le_rfl]
    refine (cl a).hasDerivWithinAt.congr_of_eventuallyEq ?_ (ht.1 le_rfl)
    filter_upwards [nhdsWithin_le_nhds h, self_mem_nhdsWithin] with w hw hm using hw.1 hm
  have R : HasDerivWithinAt (pw N P) ((N : ℝ) • pw N P' t) (Ici t) t := by
    rw [h'.2 le_rfl]
    refine (cl b).hasDerivWithinAt.congr_of_eventuallyEq ?_ (ht.2 le_rfl)
    filter_upwards [nhdsWithin_le_nhds h, self_mem_nhdsWithin] with w hw hm using hw.2 hm
  have := L.union R
  rwa [Iic_union_Ici, hasDerivWithinAt_univ] at this

theorem pw_tendsto_start (N : ℕ) (hN : 0 < N) (P : ℕ → ℝ → E) (hP : Continuous (P 0)) : Tendsto (pw N P) (𝓝[>] 0) (𝓝 (P 0 0)) := by
  have hN' : (0 : ℝ) < N := by exact_mod_cast hN
  have c : Continuous fun w : ℝ => P 0 (w * N) := hP.comp (by fun_prop)
  have := (c.tendsto 0).mono_left (nhdsWithin_le_nhds (s := Ioi (0 : ℝ)))
  simp only [zero_mul] at this
  refine this.congr' ?_
  have cont : Continuous fun w : ℝ => w * (N : ℝ) := by fun_prop
  have up : ∀ᶠ w : ℝ in 𝓝 (0 : ℝ), w * N < 1 := cont.continuousAt.eventually_lt continuousAt_const (by simp)
  filter_upwards [nhdsWithin_le_nhds up, self_mem_nhdsWithin] with w hw hm
  have hm : 0 < w := hm
  rw [pw_eq N P 0 w (by simp; positivity) (by simpa using hw)]
  simp

theorem pw_tendsto_end (N : ℕ) (hN : 0 < N) (P : ℕ → ℝ → E) (hP : Continuous (P (N - 1))) : Tendsto (pw N P) (𝓝[<] 1) (𝓝 (P (N - 1) 1)) := by
  have hN' : (0 : ℝ) < N := by exact_mod_cast hN
  have e : ((N - 1 : ℕ) : ℝ) = N - 1 := by rw [Nat.cast_sub hN]; simp
  have c : Continuous fun w : ℝ => P (N - 1) (w * N - (N - 1 : ℕ)) := hP.comp (by fun_prop)
  have := (c.tendsto 1).mono_left (nhdsWithin_le_nhds (s := Iio (1 : ℝ)))
  rw [show (1 : ℝ) * N - (N - 1 : ℕ) = 1 by rw [e]; ring] at this
  refine this.congr' ?_
  have lo : ∀ᶠ w in 𝓝 (1 : ℝ), ((N - 1 : ℕ) : ℝ) < w * N := continuousAt_const.eventually_lt (by fun_prop : Continuous fun w : ℝ => w * N).continuousAt (by rw [e]; linarith)
  filter_upwards [nhdsWithin_le_nhds lo, self_mem_nhdsWithin] with w hw hm
  have hm : w < 1 := hm
  have := mul_lt_mul_of_pos_right hm hN'
  rw [pw_eq N P (N - 1) w hw.le (by rw [e]; linarith)]

variable {d : ℕ}

/-- First derivative of a polynomial. -/
def d1 (p : Polynomial ℝ d) (t : ℝ) : Fin d → ℝ := fun k => p.coeff 1 k + 2 * p.coeff 2 k * t + 3 * p.coeff 3 k * t * t

/-- Second derivative of a polynomial. -/
def d2 (p : Polynomial ℝ d) (t : ℝ) : Fin d → ℝ := fun k => 2 * p.coeff 2 k + 6 * p.coeff 3 k * t

theorem evaluate_deriv (p : Polynomial ℝ d) (t : ℝ) : HasDerivAt p.evaluate (d1 p t) t := by
  refine hasDerivAt_pi.2 ?_
  intro k
  have i := hasDerivAt_id t
  have h := (((i.const_mul (p.coeff 1 k)).const_add (p.coeff 0 k)).add ((i.const_mul (p.coeff 2 k)).mul i)).add (((i.const_mul (p.coeff 3 k)).mul i).mul i)
  refine HasDerivAt.congr_deriv h ?_
  simp only [d1, Pi.mul_apply, id]
  ring

theorem d1_deriv (p : Polynomial ℝ d) (t : ℝ) : HasDerivAt (d1 p) (d2 p t) t := by
  refine hasDerivAt_pi.2 ?_
  intro k
  have i := hasDerivAt_id t
  have h := ((i.const_mul (2 * p.coeff 2 k)).const_add (p.coeff 1 k)).add ((i.const_mul (3 * p.coeff 3 k)).mul i)
  refine HasDerivAt.congr_deriv h ?_
  simp only [d2, id]
  ring

theorem d2_continuous (p : Polynomial ℝ d) : Continuous (d2 p) := by
  unfold d2; fun_prop

theorem joined_value (points : List (Fin d → ℝ)) (e : ℝ) : Joined (points.length - 1) fun i => (poly points e i).evaluate := by
  intro i _
  dsimp only
  rw [poly_one, poly_zero]

theorem joined_d1 (points : List (Fin d → ℝ)) (e : ℝ) : Joined (points.length - 1) fun i => d1 (poly points e i) := by
  intro i _
  funext k
  simp only [d1, poly, coeffs, Matrix.cons_val_one, Matrix.cons_val]
  simp
  ring

theorem joined_d2 (points : List (Fin d → ℝ)) : Joined (points.length - 1) fun i => d2 (poly points 1 i) := by
  intro i hi
  funext k
  have h := system_inner points.length (fun j => pt points j k) i (by omega)
  simp only [d2, poly, coeffs, Matrix.cons_val]
  simp only [show i + 1 + 1 = i + 2 from rfl]
  linear_combination 2 * h

theorem value_continuous (points : List (Fin d → ℝ)) (e : ℝ) (h : 2 ≤ points.length) : Continuous (value points e) := by
  have hc : ∀ i, Continuous (poly points e i).evaluate := fun i => continuous_iff_continuousAt.2 fun t => (evaluate_deriv _ t).continuousAt
  have near : ∀ t : ℝ, 0 < t → t < 1 → value points e t = pw (points.length - 1) (fun i => (poly points e i).evaluate) t := fun t h0 h1 => by
    rw [value, if_neg (not_le.2 h0), if_neg (not_le.2 h1)]
  have low : ∀ t ≤ (0 : ℝ), value points e t = pt points 0 := fun t ht => by rw [value, if_pos ht]
  have high : ∀ t, (1 : ℝ) ≤ t → value points e t = pt points (points.length - 1) := fun t ht => by rw [value, if_neg (by intro hc; linarith), if_pos ht]
  rw [continuous_iff_continuousAt]
  intro t
  rcases lt_trichotomy t 0 with h0 | h0 | h0
  · refine (continuousAt_const (y := pt points 0)).congr ?_
    filter_upwards [Iio_mem_nhds h0] with w hw using (low w (le_of_lt hw)).symm
  · subst h0
    rw [continuousAt_iff_continuous_left'_right']
    constructor
    · refine (continuousWithinAt_const (b := pt points 0)).congr (fun w hw => low w (le_of_lt hw)) (low 0 le_rfl)
    · have := pw_tendsto_start (points.length - 1) (by omega) (fun i => (poly points e i).evaluate) (hc 0)
      rw [ContinuousWithinAt, low 0 le_rfl]
      rw [poly_zero] at this
      refine this.congr' ?_
      filter_upwards [nhdsWithin_le_nhds (Iio_mem_nhds (show (0 : ℝ) < 1 by norm_num)), self_mem_nhdsWithin] with w hw hm using (near w hm hw).symm
  rcases lt_trichotomy t 1 with h1 | h1 | h1
  · refine (pw_continuousAt (points.length - 1) (by omega) (fun i => (poly points e i).evaluate) hc (joined_value points e) t h0 h1).congr ?_
    filter_upwards [Ioo_mem_nhds h0 h1] with w hw using (near w hw.1 hw.2).symm
  · subst h1
    rw [continuousAt_iff_continuous_left'_right']
    constructor
    · have := pw_tendsto_end (points.length - 1) (by omega) (fun i => (poly points e i).evaluate) (hc _)
      rw [ContinuousWithinAt, high 1 le_rfl]
      rw [poly_one, show points.length - 1 - 1 + 1 = points.length - 1 by omega] at this
      refine this.congr' ?_
      filter_upwards [nhdsWithin_le_nhds (Ioi_mem_nhds (show (0 : ℝ) < 1 by norm_num)), self_mem_nhdsWithin] with w hw hm using (near w hw hm).symm
    · refine (continuousWithinAt_const (b := pt points (points.length - 1))).congr (fun w hw => high w (le_of_lt hw)) (high 1 le_rfl)
  · refine (continuousAt_const (y := pt points (points.length - 1))).congr ?_
    filter_upwards [Ioi_mem_nhds h1] with w hw using (high w (le_of_lt hw)).symm

theorem value_deriv (points : List (Fin d → ℝ)) (e : ℝ) (h : 2 ≤ points.length) (t : ℝ) (ht : t ∈ Ioo (0 : ℝ) 1) :
    HasDerivAt (value points e) (((points.length - 1 : ℕ) : ℝ) • pw (points.length - 1) (fun i => d1 (poly points e i)) t) t := by
  refine (pw_hasDerivAt _ (by omega) (fun i => (poly points e i).evaluate) (fun i => d1 (poly points e i)) (fun i => evaluate_deriv _) (joined_value _ _) (joined_d1 _ _) t ht.1 ht.2).congr_of_eventuallyEq ?_
  filter_upwards [Ioo_mem_nhds ht.1 ht.2] with w hw
  rw [value, if_neg (not_le.2 hw.1), if_neg (not_le.2 hw.2)]

/-- C75: with each expansion the spline is continuous, and between the ends it has a continuous derivative. -/
theorem C75_smooth (old : List (Polynomial ℝ d)) (points : List (Fin d → ℝ)) (e : ℝ) (h : 2 ≤ points.length) :
    ∃ f : ℝ → Fin d → ℝ, (∀ t, evaluate (build old points e) t = .ok (f t)) ∧ C1 f := by
  refine ⟨value points e, fun t => evaluate_build _ _ _ _ h, value_continuous _ _ h, _, fun t ht => ⟨value_deriv points e h t ht, ?_⟩⟩
  exact (pw_continuousAt (points.length - 1) (by omega) _ (fun i => continuous_iff_continuousAt.2 fun t => (d1_deriv _ t).continuousAt) (joined_d1 _ _) t ht.1 ht.2).const_smul ((points.length - 1 : ℕ) : ℝ)

/-- C75: with the expansion 1 the spline is a natural cubic spline. -/
theorem C75_natural (old : List (Polynomial ℝ d)) (points : List (Fin d → ℝ)) (h : 2 ≤ points.length) :
    ∃ f : ℝ → Fin d → ℝ, (∀ t, evaluate (build old points 1) t = .ok (f t)) ∧ Natural f := by
  refine ⟨value points 1, fun t => evaluate_build _ _ _ _ h, value_continuous _ _ h,
    fun t => ((points.length - 1 : ℕ) : ℝ) • pw (points.length - 1) (fun i => d1 (poly points 1 i)) t,
    fun t => ((points.length - 1 : ℕ) : ℝ) • ((points.length - 1 : ℕ) : ℝ) • pw (points.length - 1) (fun i => d2 (poly points 1 i)) t, fun t ht => ⟨value_deriv points 1 h t ht, ?_, ?_⟩, ?_, ?_⟩
  · exact (pw_hasDerivAt (points.length - 1) (by omega) _ _ (fun i => d1_deriv _) (joined_d1 _ _) (joined_d2 _) t ht.1 ht.2).const_smul ((points.length - 1 : ℕ) : ℝ)
  · exact ((pw_continuousAt (points.length - 1) (by omega) _ (fun i => d2_continuous _) (joined_d2 _) t ht.1 ht.2).const_smul ((points.length - 1 : ℕ) : ℝ)).const_smul ((points.length - 1 : ℕ) : ℝ)
  · have := ((pw_tendsto_start (points.length - 1) (by omega) (fun i => d2 (poly points 1 i)) (d2_continuous _)).const_smul ((points.length - 1 : ℕ) : ℝ)).const_smul ((points.length - 1 : ℕ) : ℝ)
    convert this using 2
    have : d2 (poly points 1 0) 0 = 0 := by
      funext k
      have h := system_first points.length (fun j => pt points j k) h
      simp only [d2, poly, coeffs, Matrix.cons_val, Pi.zero_apply, zero_add]
      linear_combination -2 * h
    rw [this]; simp
  · have := ((pw_tendsto_end (points.length - 1) (by omega) (fun i => d2 (poly points 1 i)) (d2_continuous _)).const_smul ((points.length - 1 : ℕ) : ℝ)).const_smul ((points.length - 1 : ℕ) : ℝ)
    convert this using 2
    have : d2 (poly points 1 (points.length - 1 - 1)) 1 = 0 := by
      funext k
      obtain ⟨m, hm⟩ : ∃ m, points.length = m + 2 := ⟨points.length - 2, by omega⟩
      have h := system_last (fun j => pt points j k) m
      simp only [d2, poly, coeffs, Matrix.cons_val, Pi.zero_apply, hm, show m + 2 - 1 - 1 = m by omega]
      linear_combination 2 * h
    rw [this]; simp

end Smooth

/-- The spline through 0, 1, 0 in the middle of its first piece. -/
example : evaluate (build (d := 1) [] [fun _ => 0, fun _ => 1, fun _ => 0] (1 : ℚ)) (1 / 4) = .ok (fun _ => 11 / 16) := by
  decide +kernel

/-! The theorems for the spline through 0, 1, 0. -/

example := C75_interpolates (d := 1) [] [fun _ => 0, fun _ => 1, fun _ => 0] (1 : ℚ) (by simp)
example := C75_straight (d := 1) [] [fun _ => 0, fun _ => 1, fun _ => 0] (1 / 3 : ℚ) (by simp) (by norm_num) (by norm_num)
example := C75_linear_refuted (d := 1) [] [fun _ => (0 : ℚ), fun _ => 1, fun _ => 0] (by simp) (fun h => by simpa using congrFun h 0)
example := C75_stale (d := 1) (build [] [fun _ => 0, fun _ => 1] 1) [fun _ => 0] (1 : ℚ) (by simp)
example := C75_smooth (d := 1) [] [fun _ => 0, fun _ => 1, fun _ => 0] (1 : ℝ) (by simp)

end Geom.UniformSpline
