import Verif.Spec.BezierFloat
import Verif.Props.Bezier
import Verif.Props.BezierPatch
import Verif.Props.BSplineFloat
import Verif.Props.GridFloat

/-!
Property C123: Bezier curves and patches in floating-point arithmetic.
-/

set_option linter.unusedSectionVars false
set_option autoImplicit false

namespace Geom.Bezier
open Geom.Float Geom.Bezier.Spec Geom.Spline.Spec Geom.AABB Finset
open Geom.Spline (fl_zero fl_nonneg fl_one zero_float unit_pos round_add pow_upper pow_lower inv_pow unit_lt_one)

variable {p : ℕ} {emin : ℤ} {fl : ℚ → ℚ} {pw : ℚ → ℕ → ℚ} {ι : Type}

/-! ### Sums -/

/-- The rounded sum of the products. -/
def acc (fl : ℚ → ℚ) (x w : ℕ → ℚ) : ℕ → ℚ
  | 0 => 0
  | n + 1 => fl (acc fl x w n + fl (x n * w n))

theorem acc_float (hf : IsRounding p emin fl) (x w : ℕ → ℚ) (n : ℕ) : acc fl x w n ∈ Floats p emin := by
  cases n with
  | zero => exact zero_float
  | succ n => exact hf.mem _

theorem acc_congr {x w x' w' : ℕ → ℚ} (n : ℕ) (h : ∀ k < n, x k = x' k ∧ w k = w' k) : acc fl x w n = acc fl x' w' n := by
  induction n with
  | zero => rfl
  | succ n ih => rw [acc, acc, ih fun k hk => h k (by omega), (h n (by omega)).1, (h n (by omega)).2]

theorem acc_round (hf : IsRounding p emin fl) (hp : 1 ≤ p) (x w : ℕ → ℚ) (n : ℕ) :
    |acc fl x w n - ∑ k ∈ range n, fl (x k * w k)| ≤ ((1 + unit p) ^ n - 1) * ∑ k ∈ range n, |fl (x k * w k)| := by
  have hu0 := (unit_pos p).le
  induction n with
  | zero => simp [acc]
  | succ n ih =>
    rw [acc, sum_range_succ, sum_range_succ]
    have h := round_add hf hp (acc_float hf x w n) (hf.mem (x n * w n))
    have hS : |∑ k ∈ range n, fl (x k * w k)| ≤ ∑ k ∈ range n, |fl (x k * w k)| := abs_sum_le_sum_abs _ _
    have hG : 1 ≤ (1 + unit p) ^ n := one_le_pow₀ (by linarith)
    generalize fl (x n * w n) = a at *
    generalize acc fl x w n = A at *
    generalize (∑ k ∈ range n, fl (x k * w k)) = S at *
    generalize (∑ k ∈ range n, |fl (x k * w k)|) = T at *
    generalize fl (A + a) = B at *
    rw [pow_succ]
    generalize (1 + unit p) ^ n = G at *
    generalize unit p = u at *
    have t1 : |B - (S + a)| ≤ |B - (A + a)| + |A - S| := by
      have := abs_add_le (B - (A + a)) (A - S)
      rwa [show B - (A + a) + (A - S) = B - (S + a) by ring] at this
    have t2 : |A + a| ≤ |A - S| + |S| + |a| := by
      have h1 := abs_add_le (A - S) (S + a)
      have h2 := abs_add_le S a
      rw [show A - S + (S + a) = A + a by ring] at h1
      linarith
    have ha := abs_nonneg a
    have hT : 0 ≤ T := (abs_nonneg S).trans hS
    have t3 : |A + a| ≤ G * T + |a| := by nlinarith
    have t4 : u * |A + a| ≤ u * (G * T + |a|) := mul_le_mul_of_nonneg_left t3 hu0
    nlinarith [mul_nonneg (mul_nonneg (sub_nonneg.2 hG) hu0) ha, mul_nonneg (sub_nonneg.2 hG) ha]

/-- The error of a rounded sum whose weights have a relative error `α` and absolute errors `β`. -/
theorem acc_error (hf : IsRounding p emin fl) (hp : 1 ≤ p) (x w w' β : ℕ → ℚ) (N : ℕ) {M α b : ℚ} (hN : 4 * N * unit p ≤ 1) (hM : ∀ k < N, |x k| ≤ M) (hM0 : 0 ≤ M)
    (hw : ∀ k < N, 0 ≤ w k) (hs : ∑ k ∈ range N, w k = 1) (hβ : ∀ k < N, 0 ≤ β k) (hb : ∑ k ∈ range N, β k ≤ b) (hab : α + b ≤ 1 / 4)
    (h : ∀ k < N, |w' k - w k| ≤ α * w k + β k) (hu : unit p ≤ 1 / 16) :
    |acc fl x w' N - ∑ k ∈ range N, x k * w k| ≤ M * (2 * (N + 1) * unit p + α + b) + 2 * N * 2 ^ emin := by
  have hu0 := (unit_pos p).le
  have hη := (two_zpow_pos emin).le
  have hr := acc_round hf hp x w' N
  have hG : (1 + unit p) ^ N - 1 ≤ 4 / 3 * (N * unit p) := by
    have := pow_upper hu0 (by linarith) hN
    linarith
  have hG0 : 0 ≤ (1 + unit p) ^ N - 1 := sub_nonneg.2 (one_le_pow₀ (by linarith))
  have hb0 : 0 ≤ b := (sum_nonneg fun k hk => hβ k (mem_range.1 hk)).trans hb
  have hterm : ∀ k < N, |fl (x k * w' k) - x k * w k| ≤ M * (unit p * ((1 + α) * w k + β k) + α * w k + β k) + 2 ^ emin := by
    intro k hk
    have h1 := round_any hf hp (x k * w' k)
    have e : (2 : ℚ) ^ (1 - (p : ℤ)) = unit p := rfl
    rw [e] at h1
    have h2 := h k hk
    have h3 := hM k hk
    have hw' : |w' k| ≤ (1 + α) * w k + β k := by
      have := abs_add_le (w' k - w k) (w k)
      rw [sub_add_cancel, abs_of_nonneg (hw k hk)] at this
      linarith
    have h4 : |x k * w' k| ≤ M * ((1 + α) * w k + β k) := by
      rw [abs_mul]
      exact mul_le_mul h3 hw' (abs_nonneg _) hM0
    have h5 : |x k * w' k - x k * w k| ≤ M * (α * w k + β k) := by
      rw [← mul_sub, abs_mul]
      exact mul_le_mul h3 h2 (abs_nonneg _) hM0
    have h6 := abs_sub_le (fl (x k * w' k)) (x k * w' k) (x k * w k)
    have h7 := mul_le_mul_of_nonneg_left h4 hu0
    nlinarith
  have hsum : |∑ k ∈ range N, fl (x k * w' k) - ∑ k ∈ range N, x k * w k| ≤ M * (unit p * (1 + α + b) + α + b) + N * 2 ^ emin ∧
      ∑ k ∈ range N, |fl (x k * w' k)| ≤ M * (1 + unit p * (1 + α + b) + α + b) + N * 2 ^ emin := by
    have hd : ∑ k ∈ range N, |fl (x k * w' k) - x k * w k| ≤ M * (unit p * (1 + α + b) + α + b) + N * 2 ^ emin := by
      refine (sum_le_sum fun k hk => hterm k (mem_range.1 hk)).trans ?_
      rw [sum_add_distrib, sum_const, card_range, nsmul_eq_mul, ← mul_sum, sum_add_distrib, sum_add_distrib, ← mul_sum, sum_add_distrib, ← mul_sum, ← mul_sum, hs]
      have : unit p * ((1 + α) * 1 + ∑ k ∈ range N, β k) + α * 1 + ∑ k ∈ range N, β k ≤ unit p * (1 + α + b) + α + b := by nlinarith
      have := mul_le_mul_of_nonneg_left this hM0
      linarith
    refine ⟨?_, ?_⟩
    · rw [← sum_sub_distrib]
      exact (abs_sum_le_sum_abs _ _).trans hd
    · have h2 : ∑ k ∈ range N, |fl (x k * w' k)| ≤ ∑ k ∈ range N, (|fl (x k * w' k) - x k * w k| + M * w k) := by
        refine sum_le_sum fun k hk => ?_
        have hk := mem_range.1 hk
        have h3 : |x k * w k| ≤ M * w k := by
          rw [abs_mul, abs_of_nonneg (hw k hk)]
          exact mul_le_mul_of_nonneg_right (hM k hk) (hw k hk)
        have := abs_add_le (fl (x k * w' k) - x k * w k) (x k * w k)
        rw [sub_add_cancel] at this
        linarith
      rw [sum_add_distrib, ← mul_sum, hs] at h2
      linarith
  obtain ⟨h1, h2⟩ := hsum
  have h3 := abs_sub_le (acc fl x w' N) (∑ k ∈ range N, fl (x k * w' k)) (∑ k ∈ range N, x k * w k)
  have hT0 : 0 ≤ ∑ k ∈ range N, |fl (x k * w' k)| := sum_nonneg fun k _ => abs_nonneg _
  have h4 := mul_le_mul hG h2 hT0 (by positivity : 0 ≤ 4 / 3 * (N * unit p))
  generalize (2 : ℚ) ^ emin = η at *
  generalize unit p = u at *
  have hN0 : (0 : ℚ) ≤ N := by positivity
  generalize (N : ℚ) = n at *
  have hd1 : u * (1 + α + b) ≤ 5 / 4 * u := by nlinarith
  have hd2 : 1 + u * (1 + α + b) + α + b ≤ 4 / 3 := by linarith
  have hnu : 0 ≤ n * u := mul_nonneg hN0 hu0
  have h5 : 4 / 3 * (n * u) * (M * (1 + u * (1 + α + b) + α + b) + n * η) ≤ 16 / 9 * (n * u) * M + 1 / 3 * (n * η) := by
    have a1 := mul_le_mul_of_nonneg_left hd2 hM0
    have a2 : 0 ≤ n * η := mul_nonneg hN0 hη
    have a3 := mul_le_mul_of_nonneg_left a1 hnu
    have a4 : n * u * (n * η) ≤ 1 / 4 * (n * η) := mul_le_mul_of_nonneg_right (by linarith) a2
    nlinarith
  have h6 : M * (u * (1 + α + b) + α + b) ≤ M * (5 / 4 * u + α + b) := mul_le_mul_of_nonneg_left (by linarith) hM0
  have h7 : 0 ≤ M * (n * u) := mul_nonneg hM0 hnu
  have h8 : 0 ≤ M * u := mul_nonneg hM0 hu0
  have h9 : 0 ≤ n * η := mul_nonneg hN0 hη
  nlinarith

/-! ### Weights -/

/-- The rounded weight. -/
def wtFl (fl : ℚ → ℚ) (pw : ℚ → ℕ → ℚ) (t : ℚ) (n i : ℕ) : ℚ := fl (fl (fl ((n.choose i : ℕ) : ℚ) * pw t i) * pw (fl (1 - t)) (n - i))

theorem bernsteinFl_ok (t : ℚ) {i n : ℕ} (hi : i ≤ n) (h1 : 1 ≤ n) (hn : n ≤ 20) : bernsteinFl fl pw t i n = .ok (wtFl fl pw t n i) := by
  rw [bernsteinFl, if_pos ⟨hi, h1⟩, binomial64_ok hi hn]
  rfl

theorem first_near {u η C a P A : ℚ} (hu0 : 0 ≤ u) (hu : u ≤ 1 / 8) (hη : 0 ≤ η) (hη1 : η ≤ 1 / 8) (hC : 1 ≤ C) (ha0 : 0 ≤ a) (ha1 : a ≤ 1)
    (hP0 : 0 ≤ P) (hP : |P - a| ≤ u * a + η) (hA : |A - C * P| ≤ u * |C * P| + η) :
    A ≤ (1 + u) ^ 2 * (C * a) + 19 / 8 * (C * η) ∧ A ≤ 3 * C ∧ (1 - u) ^ 2 * (C * a) - 2 * (C * η) ≤ A := by
  rw [abs_of_nonneg (mul_nonneg (by linarith) hP0)] at hA
  obtain ⟨p1, p2⟩ := abs_le.1 hP
  obtain ⟨a1, a2⟩ := abs_le.1 hA
  have hC0 : 0 ≤ C := by linarith
  have hCa : 0 ≤ C * a := mul_nonneg hC0 ha0
  have hCa1 : C * a ≤ C := mul_le_of_le_one_right hC0 ha1
  have hCη : 0 ≤ C * η := mul_nonneg hC0 hη
  have hη2 : η ≤ C * η := le_mul_of_one_le_left hη hC
  have hCη1 : C * η ≤ C * (1 / 8) := mul_le_mul_of_nonneg_left hη1 hC0
  have hu2 : u * (C * η) ≤ 1 / 8 * (C * η) := mul_le_mul_of_nonneg_right hu hCη
  have hu3 : 0 ≤ u * (C * η) := mul_nonneg hu0 hCη
  have A_up : A ≤ (1 + u) ^ 2 * (C * a) + 19 / 8 * (C * η) := by
    have h1 : C * P ≤ C * ((1 + u) * a + η) := mul_le_mul_of_nonneg_left (by linarith) hC0
    have h2 : A ≤ (1 + u) * (C * P) + η := by linarith
    have h3 : (1 + u) * (C * P) ≤ (1 + u) * (C * ((1 + u) * a + η)) := mul_le_mul_of_nonneg_left h1 (by linarith)
    have e : (1 + u) * (C * ((1 + u) * a + η)) = (1 + u) ^ 2 * (C * a) + C * η + u * (C * η) := by ring
    linarith
  refine ⟨A_up, ?_, ?_⟩
  · have h1 : (1 + u) ^ 2 ≤ 2 := by nlinarith
    have h2 : (1 + u) ^ 2 * (C * a) ≤ 2 * C := mul_le_mul h1 hCa1 hCa (by norm_num)
    linarith
  · have h1 : C * ((1 - u) * a - η) ≤ C * P := mul_le_mul_of_nonneg_left (by linarith) hC0
    have h2 : (1 - u) * (C * P) - η ≤ A := by linarith
    have h3 : (1 - u) * (C * ((1 - u) * a - η)) ≤ (1 - u) * (C * P) := mul_le_mul_of_nonneg_left h1 (by linarith)
    have e : (1 - u) * (C * ((1 - u) * a - η)) = (1 - u) ^ 2 * (C * a) - C * η + u * (C * η) := by ring
    linarith

theorem second_near {u η s R Q : ℚ} {m : ℕ} (hu0 : 0 ≤ u) (hu : u ≤ 1 / 8) (hη1 : η ≤ 1 / 8) (hR1 : (1 - u) ^ m * s ≤ R) (hR2 : R ≤ (1 + u) ^ m * s)
    (hR3 : R ≤ 1) (hQ : |Q - R| ≤ u * R + η) :
    Q ≤ (1 + u) ^ (m + 1) * s + η ∧ Q ≤ 5 / 4 ∧ (1 - u) ^ (m + 1) * s - η ≤ Q := by
  obtain ⟨q1, q2⟩ := abs_le.1 hQ
  have h1 : (1 + u) * R ≤ (1 + u) * ((1 + u) ^ m * s) := mul_le_mul_of_nonneg_left hR2 (by linarith)
  have h2 : (1 - u) * ((1 - u) ^ m * s) ≤ (1 - u) * R := mul_le_mul_of_nonneg_left hR1 (by linarith)
  have h3 : (1 + u) * R ≤ (1 + u) * 1 := mul_le_mul_of_nonneg_left hR3 (by linarith)
  have e1 : (1 + u) ^ (m + 1) * s = (1 + u) * ((1 + u) ^ m * s) := by ring
  have e2 : (1 - u) ^ (m + 1) * s = (1 - u) * ((1 - u) ^ m * s) := by ring
  rw [e1, e2]
  refine ⟨by linarith, by linarith, by linarith⟩

theorem upper_near {u η C a A s Q B : ℚ} {m : ℕ} (hu0 : 0 ≤ u) (hu : u ≤ 1 / 8) (hη : 0 ≤ η) (hC : 1 ≤ C) (ha0 : 0 ≤ a) (ha1 : a ≤ 1) (hQ0 : 0 ≤ Q)
    (A_up : A ≤ (1 + u) ^ 2 * (C * a) + 19 / 8 * (C * η)) (Q_up : Q ≤ (1 + u) ^ (m + 1) * s + η) (Q_up' : Q ≤ 5 / 4) (hB : B ≤ (1 + u) * (A * Q) + η) :
    B ≤ (1 + u) ^ (m + 4) * (C * a * s) + 8 * (C * η) := by
  have hC0 : 0 ≤ C := by linarith
  have hCa : 0 ≤ C * a := mul_nonneg hC0 ha0
  have hCa1 : C * a ≤ C := mul_le_of_le_one_right hC0 ha1
  have hCη : 0 ≤ C * η := mul_nonneg hC0 hη
  have hη2 : η ≤ C * η := le_mul_of_one_le_left hη hC
  have h2 : A * Q ≤ (1 + u) ^ 2 * (C * a) * Q + 19 / 8 * (C * η) * Q := by
    have := mul_le_mul_of_nonneg_right A_up hQ0
    linarith
  have h3 : (1 + u) ^ 2 * (C * a) * Q ≤ (1 + u) ^ 2 * (C * a) * ((1 + u) ^ (m + 1) * s + η) :=
    mul_le_mul_of_nonneg_left Q_up (mul_nonneg (sq_nonneg _) hCa)
  have h4 : 19 / 8 * (C * η) * Q ≤ 19 / 8 * (C * η) * (5 / 4) := mul_le_mul_of_nonneg_left Q_up' (by positivity)
  have h5 : (1 + u) ^ 2 ≤ 81 / 64 := by nlinarith
  have h6 : (1 + u) ^ 2 * (C * a) * η ≤ 81 / 64 * (C * η) := by
    have := mul_le_mul h5 hCa1 hCa (by norm_num)
    have := mul_le_mul_of_nonneg_right this hη
    linarith
  have h7 : A * Q ≤ (1 + u) ^ (m + 3) * (C * a * s) + 5 * (C * η) := by
    have e : (1 + u) ^ (m + 3) * (C * a * s) = (1 + u) ^ 2 * (C * a) * ((1 + u) ^ (m + 1) * s) := by ring
    rw [e]
    linarith
  have h8 := mul_le_mul_of_nonneg_left h7 (by linarith : 0 ≤ 1 + u)
  have e : (1 + u) ^ (m + 4) * (C * a * s) = (1 + u) * ((1 + u) ^ (m + 3) * (C * a * s)) := by ring
  have h9 : u * (C * η) ≤ 1 / 8 * (C * η) := mul_le_mul_of_nonneg_right hu hCη
  rw [e]
  linarith

theorem lower_near {u η C a A s Q B : ℚ} {m : ℕ} (hu0 : 0 ≤ u) (hu : u ≤ 1 / 8) (hη : 0 ≤ η) (hC : 1 ≤ C) (hA0 : 0 ≤ A) (hs0 : 0 ≤ s) (hs1 : s ≤ 1)
    (A_lo : (1 - u) ^ 2 * (C * a) - 2 * (C * η) ≤ A) (A_up : A ≤ 3 * C) (Q_lo : (1 - u) ^ (m + 1) * s - η ≤ Q) (hB : (1 - u) * (A * Q) - η ≤ B) :
    (1 - u) ^ (m + 4) * (C * a * s) - 8 * (C * η) ≤ B := by
  have hC0 : 0 ≤ C := by linarith
  have hCη : 0 ≤ C * η := mul_nonneg hC0 hη
  have hη2 : η ≤ C * η := le_mul_of_one_le_left hη hC
  have hY0 : 0 ≤ (1 - u) ^ (m + 1) * s := mul_nonneg (pow_nonneg (by linarith) _) hs0
  have hY1 : (1 - u) ^ (m + 1) * s ≤ 1 := mul_le_one₀ (pow_le_one₀ (by linarith) (by linarith)) hs0 hs1
  have h2 : A * ((1 - u) ^ (m + 1) * s - η) ≤ A * Q := mul_le_mul_of_nonneg_left Q_lo hA0
  have h3 : ((1 - u) ^ 2 * (C * a) - 2 * (C * η)) * ((1 - u) ^ (m + 1) * s) ≤ A * ((1 - u) ^ (m + 1) * s) := mul_le_mul_of_nonneg_right A_lo hY0
  have h4 : A * η ≤ 3 * C * η := mul_le_mul_of_nonneg_right A_up hη
  have h5 : C * η * ((1 - u) ^ (m + 1) * s) ≤ C * η := mul_le_of_le_one_right hCη hY1
  have h7 : (1 - u) ^ (m + 3) * (C * a * s) - 5 * (C * η) ≤ A * Q := by
    have e : (1 - u) ^ (m + 3) * (C * a * s) = (1 - u) ^ 2 * (C * a) * ((1 - u) ^ (m + 1) * s) := by ring
    rw [e]
    linarith
  have h8 := mul_le_mul_of_nonneg_left h7 (by linarith : 0 ≤ 1 - u)
  have e : (1 - u) ^ (m + 4) * (C * a * s) = (1 - u) * ((1 - u) ^ (m + 3) * (C * a * s)) := by ring
  have h9 : 0 ≤ u * (C * η) := mul_nonneg hu0 hCη
  rw [e]
  linarith

/-- The estimate of one weight. -/
theorem prod_near {u η C a P A s R Q B : ℚ} {m : ℕ} (hu0 : 0 ≤ u) (hu : u ≤ 1 / 8) (hη : 0 ≤ η) (hη1 : η ≤ 1 / 8) (hm : 4 * (m + 4) * u ≤ 1) (hC : 1 ≤ C) (ha0 : 0 ≤ a) (ha1 : a ≤ 1)
    (hP0 : 0 ≤ P) (hP : |P - a| ≤ u * a + η) (hA0 : 0 ≤ A) (hA : |A - C * P| ≤ u * |C * P| + η) (hs0 : 0 ≤ s) (hs1 : s ≤ 1) (hR1 : (1 - u) ^ m * s ≤ R) (hR2 : R ≤ (1 + u) ^ m * s)
    (hR3 : R ≤ 1) (hQ0 : 0 ≤ Q) (hQ : |Q - R| ≤ u * R + η) (hB : |B - A * Q| ≤ u * |A * Q| + η) :
    |B - C * a * s| ≤ 4 / 3 * ((m + 4) * u) * (C * a * s) + 8 * C * η := by
  obtain ⟨a1, a2, a3⟩ := first_near hu0 hu hη hη1 hC ha0 ha1 hP0 hP hA
  obtain ⟨q1, q2, q3⟩ := second_near hu0 hu hη1 hR1 hR2 hR3 hQ
  rw [abs_of_nonneg (mul_nonneg hA0 hQ0)] at hB
  obtain ⟨b1, b2⟩ := abs_le.1 hB
  have up := upper_near (B := B) hu0 hu hη hC ha0 ha1 hQ0 a1 q1 q2 (by linarith)
  have lo := lower_near (B := B) hu0 hu hη hC hA0 hs0 hs1 a3 a2 q3 (by linarith)
  have hup : (1 + u) ^ (m + 4) ≤ 1 + 4 / 3 * ((m + 4) * u) := by
    have := pow_upper hu0 (by linarith) (n := m + 4) (by push_cast; exact hm)
    push_cast at this
    exact this
  have hlo : 1 - (m + 4) * u ≤ (1 - u) ^ (m + 4) := by
    have := pow_lower (u := u) (by linarith) (m + 4)
    push_cast at this
    exact this
  have hw : 0 ≤ C * a * s := mul_nonneg (mul_nonneg (by linarith) ha0) hs0
  have e1 := mul_le_mul_of_nonneg_right hup hw
  have e2 := mul_le_mul_of_nonneg_right hlo hw
  have e3 : 0 ≤ (m + 4 : ℚ) * u * (C * a * s) := mul_nonneg (mul_nonneg (by positivity) hu0) hw
  rw [abs_le]
  constructor <;> linarith

theorem choose_le_float {n i : ℕ} (hn : n ≤ 20) (hp : 18 ≤ p) : n.choose i ≤ 2 ^ p := by
  calc n.choose i ≤ n.choose (n / 2) := Nat.choose_le_middle i n
    _ ≤ (20).choose 10 := by interval_cases n <;> decide
    _ ≤ 2 ^ 18 := by decide
    _ ≤ 2 ^ p := Nat.pow_le_pow_right (by norm_num) hp

theorem fl_choose (hf : IsRounding p emin fl) (hp : 18 ≤ p) (he : emin ≤ 0) {n i : ℕ} (hn : n ≤ 20) : fl ((n.choose i : ℕ) : ℚ) = n.choose i := by
  refine hf.fix _ ?_
  have := int_mem (p := p) (emin := emin) (k := (n.choose i : ℕ)) (by omega) he (by
    rw [abs_of_nonneg (by positivity)]
    exact_mod_cast choose_le_float hn hp)
  simpa using this

theorem unit_le (hp : 18 ≤ p) : unit p ≤ 1 / 131072 := by
  unfold unit
  calc (2 : ℚ) ^ (1 - (p : ℤ)) ≤ 2 ^ (-17 : ℤ) := zpow_le_zpow_right₀ (by norm_num) (by omega)
    _ = 1 / 131072 := by norm_num

theorem one_mem (hp : 18 ≤ p) (he : emin ≤ 0) : (1 : ℚ) ∈ Floats p emin := by
  have := int_mem (p := p) (emin := emin) (k := 1) (by omega) he (by simpa using one_le_pow₀ (M₀ := ℤ) one_le_two)
  simpa using this

theorem wtFl_error (hf : IsRounding p emin fl) (hw : IsPow p emin pw) (hp : 18 ≤ p) (he : emin ≤ -3) {t : ℚ} (ht : t ∈ Floats p emin) (h0 : 0 ≤ t) (h1 : t ≤ 1) {n i : ℕ} (hi : i ≤ n) (hn : n ≤ 20) :
    |wtFl fl pw t n i - wt t n i| ≤ 4 / 3 * ((n + 4) * unit p) * wt t n i + 8 * n.choose i * 2 ^ emin := by
  have hu := unit_le hp
  have hu0 := (unit_pos p).le
  have hη := (two_zpow_pos emin).le
  have hη1 : (2 : ℚ) ^ emin ≤ 1 / 8 := by
    calc (2 : ℚ) ^ emin ≤ 2 ^ (-3 : ℤ) := zpow_le_zpow_right₀ (by norm_num) he
      _ = 1 / 8 := by norm_num
  have e1 : fl 1 = 1 := hf.fix 1 (one_mem hp (by omega))
  have r0 : 0 ≤ fl (1 - t) := fl_nonneg hf (by linarith)
  have r1 : fl (1 - t) ≤ 1 := by
    have := hf.mono (show 1 - t ≤ 1 by linarith)
    rwa [e1] at this
  have hr := round_sub hf (by omega) (one_mem hp (by omega)) ht
  have eu : (2 : ℚ) ^ (1 - (p : ℤ)) = unit p := rfl
  rw [eu, abs_of_nonneg (by linarith : 0 ≤ 1 - t)] at hr
  obtain ⟨r2, r3⟩ := abs_le.1 hr
  have hi20 : ((n - i : ℕ) : ℚ) ≤ n := by exact_mod_cast Nat.sub_le n i
  have hn20 : (n : ℚ) ≤ 20 := by exact_mod_cast hn
  have hC : (1 : ℚ) ≤ n.choose i := by exact_mod_cast Nat.choose_pos hi
  have hA := round_any hf (by omega) (fl ((n.choose i : ℕ) : ℚ) * pw t i)
  have hB := round_any hf (by omega) (fl (fl ((n.choose i : ℕ) : ℚ) * pw t i) * pw (fl (1 - t)) (n - i))
  rw [eu] at hA hB
  rw [fl_choose hf hp (by omega) hn] at hA hB
  have hA0 : 0 ≤ fl ((n.choose i : ℚ) * pw t i) := fl_nonneg hf (mul_nonneg (by linarith) (hw.nonneg _ _ h0))
  have hs0 : 0 ≤ (1 - t) ^ (n - i) := pow_nonneg (by linarith) _
  have key := prod_near (m := n - i) hu0 (by linarith) hη hη1 (by nlinarith) hC (pow_nonneg h0 i) (pow_le_one₀ h0 h1) (hw.nonneg t i h0) (hw.near t i h0 h1) hA0 hA hs0
    (pow_le_one₀ (by linarith) (by linarith)) (R := fl (1 - t) ^ (n - i)) (by
      rw [← mul_pow]; exact pow_le_pow_left₀ (mul_nonneg (by linarith) (by linarith)) (by linarith) _) (by
      rw [← mul_pow]; exact pow_le_pow_left₀ r0 (by linarith) _) (pow_le_one₀ r0 r1) (hw.nonneg _ _ r0) (hw.near _ _ r0 r1) hB
  have ew : wt t n i = n.choose i * t ^ i * (1 - t) ^ (n - i) := rfl
  have hwt : 0 ≤ wt t n i := by rw [ew]; exact mul_nonneg (mul_nonneg (by linarith) (pow_nonneg h0 _)) hs0
  rw [wtFl, fl_choose hf hp (by omega) hn, ew] at *
  refine key.trans ?_
  have : 4 / 3 * ((((n - i : ℕ) : ℚ) + 4) * unit p) ≤ 4 / 3 * ((n + 4) * unit p) := by nlinarith
  have := mul_le_mul_of_nonneg_right this hwt
  linarith

/-! ### Curves -/

theorem wt_sum (t : ℚ) (n : ℕ) : ∑ i ∈ range (n + 1), wt t n i = 1 := by
  have := add_pow t (1 - t) n
  rw [show t + (1 - t) = 1 by ring, one_pow] at this
  rw [this]
  exact sum_congr rfl fun i _ => by simp only [wt]; ring

theorem wt_nonneg {t : ℚ} (h0 : 0 ≤ t) (h1 : t ≤ 1) (n i : ℕ) : 0 ≤ wt t n i := by
  have : 0 ≤ 1 - t := sub_nonneg.2 h1
  unfold wt
  positivity

theorem evaluateFl_ok (ps : List (ι → ℚ)) (t : ℚ) (m : ℕ) (hm : ps.length = m + 1) (h1 : 1 ≤ m) (h20 : m ≤ 20) :
    evaluateFl fl pw ps t = .ok fun c => acc fl (fun i => ps.getD i 0 c) (wtFl fl pw t m) (m + 1) := by
  have e : w32 (m + 1 + 2 ^ 32 - 1) = m := by unfold w32; omega
  simp only [evaluateFl, hm, w32_of_lt (show m + 1 < 2 ^ 32 by omega), e]
  refine forLt_ok 0 (m + 1) _ (fun k c => acc fl (fun i => ps.getD i 0 c) (wtFl fl pw t m) k) (by omega) (by omega) fun i _ hi => ?_
  rw [bernsteinFl_ok t (by omega) h1 h20]
  rfl

/-- Terms with the weight zero at the end. -/
theorem acc_tail (hf : IsRounding p emin fl) (x w : ℕ → ℚ) (a b : ℕ) (h : ∀ k, a ≤ k → k < a + b → w k = 0) : acc fl x w (a + b) = acc fl x w a := by
  induction b with
  | zero => rfl
  | succ b ih =>
    rw [← add_assoc, acc, ih fun k h1 h2 => h k h1 (by omega), h (a + b) (by omega) (by omega), mul_zero, fl_zero hf, add_zero]
    exact hf.fix _ (acc_float hf x w a)

/-- Terms with the weight zero in front. -/
theorem acc_front (hf : IsRounding p emin fl) (x w : ℕ → ℚ) (a b : ℕ) (h : ∀ k < a, w k = 0) :
    acc fl x w (a + b) = acc fl (fun k => x (a + k)) (fun k => w (a + k)) b := by
  induction b with
  | zero =>
    have := acc_tail hf x w 0 a fun k _ hk => h k (by omega)
    rw [Nat.zero_add] at this
    rw [Nat.add_zero, this]
    rfl
  | succ b ih => rw [← add_assoc, acc, acc, ih]

theorem acc_single (hf : IsRounding p emin fl) (x w : ℕ → ℚ) (n k : ℕ) (hk : k < n) (hx : x k ∈ Floats p emin) (h1 : w k = 1) (h0 : ∀ i < n, i ≠ k → w i = 0) :
    acc fl x w n = x k := by
  obtain ⟨b, rfl⟩ : ∃ b, n = (k + 1) + b := ⟨n - (k + 1), by omega⟩
  rw [acc_tail hf x w (k + 1) b fun i h2 h3 => h0 i (by omega) (by omega), acc_front hf x w k 1 fun i hi => h0 i (by omega) (by omega)]
  simp only [acc, Nat.add_zero, h1, mul_one, zero_add, hf.fix _ hx]

theorem wtFl_zero (hf : IsRounding p emin fl) (hw : IsPow p emin pw) (hp : 18 ≤ p) (he : emin ≤ 0) {n i : ℕ} (hn : n ≤ 20) : wtFl fl pw 0 n i = if i = 0 then 1 else 0 := by
  have e1 : fl 1 = 1 := hf.fix 1 (one_mem hp he)
  rw [wtFl, fl_choose hf hp he hn]
  split_ifs with h
  · subst h
    rw [hw.exp_zero, sub_zero, e1, hw.one]
    simp [e1]
  · obtain ⟨k, rfl⟩ := Nat.exists_eq_succ_of_ne_zero h
    rw [Nat.succ_eq_add_one, hw.zero, mul_zero, fl_zero hf, zero_mul, fl_zero hf]

theorem wtFl_one (hf : IsRounding p emin fl) (hw : IsPow p emin pw) (hp : 18 ≤ p) (he : emin ≤ 0) {n i : ℕ} (hn : n ≤ 20) (hi : i ≤ n) : wtFl fl pw 1 n i = if i = n then 1 else 0 := by
  have e1 : fl 1 = 1 := hf.fix 1 (one_mem hp he)
  rw [wtFl, fl_choose hf hp he hn, sub_self, fl_zero hf, hw.one, mul_one]
  split_ifs with h
  · subst h
    rw [Nat.sub_self, hw.exp_zero, Nat.choose_self, Nat.cast_one, mul_one, e1, e1]
  · obtain ⟨k, hk⟩ := Nat.exists_eq_succ_of_ne_zero (show n - i ≠ 0 by omega)
    rw [hk, Nat.succ_eq_add_one, hw.zero, mul_zero, fl_zero hf]

theorem getD_float {ps : List (ι → ℚ)} (h : FloatPoints p emin ps) (k : ℕ) (hk : k < ps.length) (c : ι) : ps.getD k 0 c ∈ Floats p emin := by
  rw [List.getD_eq_getElem _ _ hk]
  exact h _ (List.getElem_mem _) c

/-- C123: a curve of 2 to 21 control points starts exactly at the first one and ends exactly at the last one, in each rounding mode. -/
theorem C123_ends (hf : IsRounding p emin fl) (hw : IsPow p emin pw) (hp : 18 ≤ p) (he : emin ≤ 0) (ps : List (ι → ℚ)) (h2 : 2 ≤ ps.length) (h21 : ps.length ≤ 21)
    (hps : FloatPoints p emin ps) :
    evaluateFl fl pw ps 0 = .ok (ps.head (by rintro rfl; simp at h2)) ∧ evaluateFl fl pw ps 1 = .ok (ps.getLast (by rintro rfl; simp at h2)) := by
  obtain ⟨m, hm⟩ : ∃ m, ps.length = m + 1 := ⟨ps.length - 1, by omega⟩
  rw [evaluateFl_ok ps 0 m hm (by omega) (by omega), evaluateFl_ok ps 1 m hm (by omega) (by omega)]
  constructor
  · congr 1
    funext c
    rw [acc_single hf _ _ (m + 1) 0 (by omega) (getD_float hps 0 (by omega) c) (by rw [wtFl_zero hf hw hp he (by omega)]; simp)
      (fun i hi h0 => by rw [wtFl_zero hf hw hp he (by omega), if_neg h0])]
    rw [List.getD_eq_getElem _ _ (by omega), List.head_eq_getElem]
  · congr 1
    funext c
    rw [acc_single hf _ _ (m + 1) m (by omega) (getD_float hps m (by omega) c) (by rw [wtFl_one hf hw hp he (by omega) le_rfl]; simp)
      (fun i hi h0 => by rw [wtFl_one hf hw hp he (by omega) (by omega), if_neg h0])]
    rw [List.getD_eq_getElem _ _ (by omega), List.getLast_eq_getElem]
    congr! 2
    omega

theorem curve_sum (ps : List (ι → ℚ)) (t : ℚ) (m : ℕ) (hm : ps.length = m + 1) (c : ι) : curve ps t c = ∑ k ∈ range (m + 1), ps.getD k 0 c * wt t m k := by
  rw [curve, hm, Nat.add_sub_cancel, casteljau_eq, Finset.sum_apply]
  refine sum_congr rfl fun k _ => ?_
  rw [Nat.zero_add, Pi.smul_apply, smul_eq_mul, mul_comm]

theorem choose_sum (n : ℕ) : ∑ k ∈ range (n + 1), (n.choose k : ℚ) = 2 ^ n := by exact_mod_cast Nat.sum_range_choose n

theorem small {k : ℕ} (he : emin ≤ -(p : ℤ) - k) : (2 : ℚ) ^ (k + 1) * 2 ^ emin ≤ unit p := by
  unfold unit
  rw [← zpow_natCast, ← zpow_add₀ (by norm_num)]
  exact zpow_le_zpow_right₀ (by norm_num) (by push_cast; omega)

/-- C123: for parameters from 0 to 1 each coordinate of a curve of `n + 1` control points (2 to 21) differs from the exact one by
at most `4 (n + 3)` units of the greatest absolute value of the coordinate of the control points, plus underflow. -/
theorem C123_curve (hf : IsRounding p emin fl) (hw : IsPow p emin pw) (hp : 18 ≤ p) (he : emin ≤ -(p : ℤ) - 30) (ps : List (ι → ℚ)) (n : ℕ) (hn : ps.length = n + 1) (h1 : 1 ≤ n) (h20 : n ≤ 20)
    (t : ℚ) (ht : t ∈ Floats p emin) (h0 : 0 ≤ t) (ht1 : t ≤ 1) (c : ι) (M : ℚ) (hM : ∀ q ∈ ps, |q c| ≤ M) :
    ∃ q, evaluateFl fl pw ps t = .ok q ∧ |q c - curve ps t c| ≤ 4 * (n + 3) * unit p * M + 2 * (n + 1) * 2 ^ emin := by
  refine ⟨_, evaluateFl_ok ps t n hn h1 h20, ?_⟩
  rw [curve_sum ps t n hn]
  have hu := unit_le hp
  have hu0 := (unit_pos p).le
  have hη := (two_zpow_pos emin).le
  have hM' : ∀ k < n + 1, |ps.getD k 0 c| ≤ M := fun k hk => by
    rw [List.getD_eq_getElem _ _ (by omega)]
    exact hM _ (List.getElem_mem _)
  have hM0 : 0 ≤ M := (abs_nonneg _).trans (hM' 0 (by omega))
  have hn20 : (n : ℚ) ≤ 20 := by exact_mod_cast h20
  have hn0 : (0 : ℚ) ≤ n := by positivity
  have hsm := small (p := p) (k := 30) (by exact_mod_cast he)
  have hβ : ∑ k ∈ range (n + 1), 8 * (n.choose k : ℚ) * 2 ^ emin ≤ unit p := by
    rw [← sum_mul, ← mul_sum, choose_sum]
    have : (2 : ℚ) ^ n ≤ 2 ^ 20 := pow_le_pow_right₀ (by norm_num) h20
    have : 8 * (2 : ℚ) ^ n ≤ 2 ^ (30 + 1) := by norm_num at this ⊢; linarith
    exact (mul_le_mul_of_nonneg_right this hη).trans hsm
  have key := acc_error hf (by omega) (fun i => ps.getD i 0 c) (wt t n) (wtFl fl pw t n) (fun k => 8 * (n.choose k : ℚ) * 2 ^ emin) (n + 1) (M := M)
    (α := 4 / 3 * ((n + 4) * unit p)) (b := unit p) (by push_cast; nlinarith) hM' hM0 (fun k _ => wt_nonneg h0 ht1 n k) (wt_sum t n) (fun k _ => by positivity) hβ (by nlinarith)
    (fun k hk => wtFl_error hf hw hp (by omega) ht h0 ht1 (by omega) h20) (by linarith)
  refine key.trans ?_
  push_cast
  have : 2 * ((n : ℚ) + 1 + 1) * unit p + 4 / 3 * ((n + 4) * unit p) + unit p ≤ 4 * (n + 3) * unit p := by nlinarith
  have := mul_le_mul_of_nonneg_left this hM0
  linarith

/-! ### Patches -/

/-- The control point and the weight number `k` in the order of the sum. -/
def pk (q : Patch (ι → ℚ)) (c : ι) (k : ℕ) : ℚ := q.get (k / (q.order + 1)) (k % (q.order + 1)) c
def wk (fl : ℚ → ℚ) (pw : ℚ → ℕ → ℚ) (u v : ℚ) (n k : ℕ) : ℚ := fl (wtFl fl pw u n (k / (n + 1)) * wtFl fl pw v n (k % (n + 1)))

theorem row_div {n i j : ℕ} (hj : j ≤ n) : (i * (n + 1) + j) / (n + 1) = i ∧ (i * (n + 1) + j) % (n + 1) = j := by
  constructor
  · rw [Nat.mul_comm, Nat.mul_add_div (by omega), Nat.div_eq_of_lt (by omega), Nat.add_zero]
  · rw [Nat.mul_comm, Nat.mul_add_mod, Nat.mod_eq_of_lt (by omega)]

theorem evalFl_ok (q : Patch (ι → ℚ)) (u v : ℚ) (h1 : 1 ≤ q.order) (h20 : q.order ≤ 20) :
    q.evalFl fl pw u v = .ok fun c => acc fl (pk q c) (wk fl pw u v q.order) ((q.order + 1) * (q.order + 1)) := by
  have := forLe_ok 0 q.order (fun i result =>
    forLe 0 q.order (fun j (result : ι → ℚ) =>
      (bernsteinFl fl pw u i q.order).bind fun bu => (bernsteinFl fl pw v j q.order).bind fun bv =>
        .ok fun c => fl (result c + fl (q.get i j c * fl (bu * bv)))) result)
    (fun i c => acc fl (pk q c) (wk fl pw u v q.order) (i * (q.order + 1))) (by omega) (by omega) fun i _ hi => by
      have := forLe_ok 0 q.order (fun j (result : ι → ℚ) =>
        (bernsteinFl fl pw u i q.order).bind fun bu => (bernsteinFl fl pw v j q.order).bind fun bv =>
          .ok fun c => fl (result c + fl (q.get i j c * fl (bu * bv))))
        (fun j c => acc fl (pk q c) (wk fl pw u v q.order) (i * (q.order + 1) + j)) (by omega) (by omega) fun j _ hj => by
          rw [bernsteinFl_ok u hi h1 h20, Res.bind_ok, bernsteinFl_ok v hj h1 h20, Res.bind_ok]
          congr 1
          funext c
          obtain ⟨e1, e2⟩ := row_div (n := q.order) (i := i) hj
          rw [← add_assoc, acc, pk, wk, e1, e2]
      rw [Nat.add_zero] at this
      rw [this]
      congr 2
      funext c
      congr 1
      ring
  simp only [Nat.zero_mul] at this
  exact this

/-- The border of a patch as a list of control points. -/
def border (q : Patch (ι → ℚ)) (f : ℕ → ℕ × ℕ) : List (ι → ℚ) := (List.range (q.order + 1)).map fun k => q.get (f k).1 (f k).2

theorem border_getD (q : Patch (ι → ℚ)) (f : ℕ → ℕ × ℕ) (k : ℕ) (hk : k ≤ q.order) : (border q f).getD k 0 = q.get (f k).1 (f k).2 := by
  rw [border, List.getD_eq_getElem _ _ (by simp; omega)]
  simp

theorem border_length (q : Patch (ι → ℚ)) (f : ℕ → ℕ × ℕ) : (border q f).length = q.order + 1 := by simp [border]

theorem wtFl_fix (hf : IsRounding p emin fl) (t : ℚ) (n i : ℕ) : fl (wtFl fl pw t n i) = wtFl fl pw t n i := hf.fix _ (hf.mem _)

/-- C123: at the borders of the parameters a patch is exactly the curve of the control points at this border, in each rounding mode. -/
theorem C123_border (hf : IsRounding p emin fl) (hw : IsPow p emin pw) (hp : 18 ≤ p) (he : emin ≤ 0) (q : Patch (ι → ℚ)) (h1 : 1 ≤ q.order) (h20 : q.order ≤ 20) (t : ℚ) :
    q.evalFl fl pw 0 t = evaluateFl fl pw ((List.range (q.order + 1)).map fun k => q.get 0 k) t ∧
    q.evalFl fl pw 1 t = evaluateFl fl pw ((List.range (q.order + 1)).map fun k => q.get q.order k) t ∧
    q.evalFl fl pw t 0 = evaluateFl fl pw ((List.range (q.order + 1)).map fun k => q.get k 0) t ∧
    q.evalFl fl pw t 1 = evaluateFl fl pw ((List.range (q.order + 1)).map fun k => q.get k q.order) t := by
  have key : ∀ (f : ℕ → ℕ × ℕ) (u v : ℚ), (∀ c, acc fl (pk q c) (wk fl pw u v q.order) ((q.order + 1) * (q.order + 1)) =
      acc fl (fun k => q.get (f k).1 (f k).2 c) (wtFl fl pw t q.order) (q.order + 1)) → q.evalFl fl pw u v = evaluateFl fl pw (border q f) t := by
    intro f u v h
    rw [evalFl_ok q u v h1 h20, evaluateFl_ok _ t q.order (border_length q f) h1 h20]
    congr 1
    funext c
    rw [h c]
    exact acc_congr _ fun k hk => ⟨by rw [border_getD q f k (by omega)], rfl⟩
  have side : ∀ (u : ℚ) (i₀ : ℕ), i₀ ≤ q.order → (∀ i ≤ q.order, wtFl fl pw u q.order i = if i = i₀ then 1 else 0) → ∀ c,
      acc fl (pk q c) (wk fl pw u t q.order) ((q.order + 1) * (q.order + 1)) = acc fl (fun k => q.get i₀ k c) (wtFl fl pw t q.order) (q.order + 1) := by
    intro u i₀ hi hu c
    have z : ∀ i ≤ q.order, i ≠ i₀ → ∀ j ≤ q.order, wk fl pw u t q.order (i * (q.order + 1) + j) = 0 := by
      intro i hi' hne j hj
      obtain ⟨e1, e2⟩ := row_div (n := q.order) (i := i) hj
      rw [wk, e1, e2, hu i hi', if_neg hne, zero_mul, fl_zero hf]
    have zz : ∀ k < (q.order + 1) * (q.order + 1), k / (q.order + 1) ≠ i₀ → wk fl pw u t q.order k = 0 := by
      intro k hk hne
      have h2 := z (k / (q.order + 1)) (by have := Nat.div_lt_of_lt_mul hk; omega) hne (k % (q.order + 1)) (by have := Nat.mod_lt k (show 0 < q.order + 1 by omega); omega)
      rwa [Nat.div_add_mod'] at h2
    obtain ⟨b, hb⟩ : ∃ b, (q.order + 1) * (q.order + 1) = (i₀ * (q.order + 1) + (q.order + 1)) + b := by
      have : (i₀ + 1) * (q.order + 1) ≤ (q.order + 1) * (q.order + 1) := Nat.mul_le_mul_right _ (by omega)
      exact ⟨(q.order + 1) * (q.order + 1) - (i₀ * (q.order + 1) + (q.order + 1)), by rw [Nat.add_mul] at this; omega⟩
    rw [hb, acc_tail hf _ _ _ b fun k k1 k2 => zz k (by omega) (by
        intro h
        have := (Nat.div_lt_iff_lt_mul (show 0 < q.order + 1 by omega)).1 (show k / (q.order + 1) < i₀ + 1 by omega)
        rw [Nat.add_mul] at this
        omega),
      acc_front hf _ _ _ _ fun k hk => zz k (by omega) (by
        intro h
        have := Nat.div_lt_of_lt_mul (show k < (q.order + 1) * i₀ by rw [Nat.mul_comm]; exact hk)
        omega)]
    refine acc_congr _ fun k hk => ?_
    obtain ⟨e1, e2⟩ := row_div (n := q.order) (i := i₀) (show k ≤ q.order by omega)
    exact ⟨by rw [pk, e1, e2], by rw [wk, e1, e2, hu i₀ hi, if_pos rfl, one_mul, wtFl_fix hf]⟩
  have side' : ∀ (v : ℚ) (j₀ : ℕ), j₀ ≤ q.order → (∀ j ≤ q.order, wtFl fl pw v q.order j = if j = j₀ then 1 else 0) → ∀ c,
      acc fl (pk q c) (wk fl pw t v q.order) ((q.order + 1) * (q.order + 1)) = acc fl (fun k => q.get k j₀ c) (wtFl fl pw t q.order) (q.order + 1) := by
    intro v j₀ hj hv c
    have row : ∀ i ≤ q.order + 1, acc fl (pk q c) (wk fl pw t v q.order) (i * (q.order + 1)) = acc fl (fun k => q.get k j₀ c) (wtFl fl pw t q.order) i := by
      intro i
      induction i with
      | zero => intro _; rw [Nat.zero_mul]; rfl
      | succ i ih =>
        intro hi
        have z : ∀ j ≤ q.order, j ≠ j₀ → wk fl pw t v q.order (i * (q.order + 1) + j) = 0 := by
          intro j hj' hne
          obtain ⟨e1, e2⟩ := row_div (n := q.order) (i := i) hj'
          rw [wk, e1, e2, hv j hj', if_neg hne, mul_zero, fl_zero hf]
        have e : (i + 1) * (q.order + 1) = i * (q.order + 1) + j₀ + 1 + (q.order - j₀) := by rw [Nat.add_mul]; omega
        rw [e, acc_tail hf _ _ _ (q.order - j₀) fun k k1 k2 => by
          have := z (k - i * (q.order + 1)) (by omega) (by omega)
          rwa [Nat.add_sub_cancel' (by omega)] at this]
        rw [acc, acc_tail hf _ _ _ j₀ fun k k1 k2 => by
          have := z (k - i * (q.order + 1)) (by omega) (by omega)
          rwa [Nat.add_sub_cancel' (by omega)] at this, ih (by omega), acc]
        obtain ⟨e1, e2⟩ := row_div (n := q.order) (i := i) hj
        rw [pk, wk, e1, e2, hv j₀ hj, if_pos rfl, mul_one, wtFl_fix hf]
    exact row (q.order + 1) le_rfl
  refine ⟨?_, ?_, ?_, ?_⟩
  · exact key (fun k => (0, k)) 0 t (side 0 0 (by omega) fun i _ => wtFl_zero hf hw hp he h20)
  · exact key (fun k => (q.order, k)) 1 t (side 1 q.order le_rfl fun i hi => wtFl_one hf hw hp he h20 hi)
  · exact key (fun k => (k, 0)) t 0 (side' 0 0 (by omega) fun i _ => wtFl_zero hf hw hp he h20)
  · exact key (fun k => (k, q.order)) t 1 (side' 1 q.order le_rfl fun i hi => wtFl_one hf hw hp he h20 hi)

theorem sum_rows (f : ℕ → ℕ → ℚ) (n a : ℕ) : ∑ k ∈ range (a * (n + 1)), f (k / (n + 1)) (k % (n + 1)) = ∑ i ∈ range a, ∑ j ∈ range (n + 1), f i j := by
  induction a with
  | zero => simp
  | succ a ih =>
    rw [Nat.add_mul, Nat.one_mul, sum_range_add, ih, sum_range_succ (fun i => ∑ j ∈ range (n + 1), f i j)]
    refine congrArg₂ (· + ·) rfl (sum_congr rfl fun j hj => ?_)
    obtain ⟨e1, e2⟩ := row_div (n := n) (i := a) (show j ≤ n by have := mem_range.1 hj; omega)
    rw [e1, e2]

theorem patch_sum (q : Patch (ι → ℚ)) (u v : ℚ) (c : ι) : patch q.order q.get u v c =
    ∑ k ∈ range ((q.order + 1) * (q.order + 1)), pk q c k * (wt u q.order (k / (q.order + 1)) * wt v q.order (k % (q.order + 1))) := by
  unfold pk
  rw [sum_rows (fun i j => q.get i j c * (wt u q.order i * wt v q.order j)), patch, casteljau_eq, Finset.sum_apply]
  refine sum_congr rfl fun i _ => ?_
  rw [Nat.zero_add, Pi.smul_apply, casteljau_eq, Finset.sum_apply, smul_eq_mul, mul_sum]
  refine sum_congr rfl fun j _ => ?_
  rw [Nat.zero_add, Pi.smul_apply, smul_eq_mul]
  ring

/-- The product of two rounded weights. -/
theorem product_near {u α x y x' y' β γ η r : ℚ} (hu0 : 0 ≤ u) (hu : u ≤ 1 / 64) (hα0 : u ≤ α) (hα : α ≤ 1 / 64) (hx0 : 0 ≤ x) (hx1 : x ≤ 1) (hy0 : 0 ≤ y) (hy1 : y ≤ 1) (hβ : 0 ≤ β) (hγ : 0 ≤ γ)
    (hγ1 : γ ≤ 1 / 64) (hη : η ≤ β) (hx : |x' - x| ≤ α * x + β) (hy : |y' - y| ≤ α * y + γ) (hr : |r - x' * y'| ≤ u * |x' * y'| + η) :
    |r - x * y| ≤ 4 * α * (x * y) + 3 * (β + γ) := by
  have hxy : 0 ≤ x * y := mul_nonneg hx0 hy0
  have h0 : 0 ≤ α := hu0.trans hα0
  have e : x' * y' - x * y = (x' - x) * (y' - y) + x * (y' - y) + (x' - x) * y := by ring
  have h1 : |(x' - x) * (y' - y)| ≤ (α * x + β) * (α * y + γ) := by
    rw [abs_mul]
    exact mul_le_mul hx hy (abs_nonneg _) (by positivity)
  have h2 : |x * (y' - y)| ≤ x * (α * y + γ) := by
    rw [abs_mul, abs_of_nonneg hx0]
    exact mul_le_mul_of_nonneg_left hy hx0
  have h3 : |(x' - x) * y| ≤ (α * x + β) * y := by
    rw [abs_mul, abs_of_nonneg hy0]
    exact mul_le_mul_of_nonneg_right hx hy0
  have h4 : |x' * y' - x * y| ≤ (2 * α + α * α) * (x * y) + 9 / 8 * (β + γ) := by
    have t := abs_add_le ((x' - x) * (y' - y) + x * (y' - y)) ((x' - x) * y)
    have t' := abs_add_le ((x' - x) * (y' - y)) (x * (y' - y))
    rw [← e] at t
    have b1 : x * γ ≤ γ := mul_le_of_le_one_left hγ hx1
    have b2 : β * y ≤ β := mul_le_of_le_one_right hβ hy1
    have b3 : β * γ ≤ β * (1 / 64) := mul_le_mul_of_nonneg_left hγ1 hβ
    have b4 : α * (x * γ) ≤ 1 / 64 * γ := mul_le_mul hα b1 (by positivity) (by norm_num)
    have b5 : α * (β * y) ≤ 1 / 64 * β := mul_le_mul hα b2 (by positivity) (by norm_num)
    nlinarith
  have h5 : |x' * y'| ≤ (1 + 2 * α + α * α) * (x * y) + 9 / 8 * (β + γ) := by
    have := abs_add_le (x' * y' - x * y) (x * y)
    rw [sub_add_cancel, abs_of_nonneg hxy] at this
    linarith
  have h6 : u * |x' * y'| ≤ u * ((1 + 2 * α + α * α) * (x * y) + 9 / 8 * (β + γ)) := mul_le_mul_of_nonneg_left h5 hu0
  have h7 := abs_sub_le r (x' * y') (x * y)
  have h8 : α * α ≤ 1 / 64 * α := mul_le_mul_of_nonneg_right hα h0
  have h9 : u * (1 + 2 * α + α * α) ≤ 5 / 4 * α := by
    have : u * (1 + 2 * α + α * α) ≤ α * (1 + 2 * α + α * α) := mul_le_mul_of_nonneg_right hα0 (by positivity)
    nlinarith
  have h10 := mul_le_mul_of_nonneg_right h9 hxy
  have h11 := mul_le_mul_of_nonneg_right h8 hxy
  have h12 : u * (β + γ) ≤ 1 / 64 * (β + γ) := mul_le_mul_of_nonneg_right hu (by linarith)
  have h13 : 0 ≤ α * (x * y) := mul_nonneg h0 hxy
  nlinarith

theorem wt_le_one {t : ℚ} (h0 : 0 ≤ t) (h1 : t ≤ 1) {n i : ℕ} (hi : i ≤ n) : wt t n i ≤ 1 := by
  rw [← wt_sum t n]
  exact single_le_sum (f := wt t n) (fun k _ => wt_nonneg h0 h1 n k) (mem_range.2 (by omega))

/-- C123: for parameters from 0 to 1 each coordinate of a patch of order `n` (1 to 20) differs from the exact one by at most
`2 (n + 1)^2 + 6 (n + 5)` units of the greatest absolute value of the coordinate of the control points, plus underflow. -/
theorem C123_patch (hf : IsRounding p emin fl) (hw : IsPow p emin pw) (hp : 18 ≤ p) (he : emin ≤ -(p : ℤ) - 40) (q : Patch (ι → ℚ)) (h1 : 1 ≤ q.order) (h20 : q.order ≤ 20)
    (u v : ℚ) (hu : u ∈ Floats p emin) (hu0 : 0 ≤ u) (hu1 : u ≤ 1) (hv : v ∈ Floats p emin) (hv0 : 0 ≤ v) (hv1 : v ≤ 1) (c : ι) (M : ℚ)
    (hM : ∀ i ≤ q.order, ∀ j ≤ q.order, |q.get i j c| ≤ M) :
    ∃ x, q.evalFl fl pw u v = .ok x ∧ |x c - patch q.order q.get u v c| ≤ (2 * (q.order + 1) ^ 2 + 6 * (q.order + 5)) * unit p * M + 2 * (q.order + 1) ^ 2 * 2 ^ emin := by
  refine ⟨_, evalFl_ok q u v h1 h20, ?_⟩
  rw [patch_sum]
  have hU := unit_le hp
  have hU0 := (unit_pos p).le
  have hη := (two_zpow_pos emin).le
  generalize hn : q.order = n at *
  have hM' : ∀ k < (n + 1) * (n + 1), |pk q c k| ≤ M := fun k hk => by
    have a := Nat.div_lt_of_lt_mul hk
    have b := Nat.mod_lt k (show 0 < n + 1 by omega)
    rw [pk, hn]
    exact hM _ (by omega) _ (by omega)
  have hM0 : 0 ≤ M := (abs_nonneg _).trans (hM 0 (by omega) 0 (by omega))
  have hn20 : (n : ℚ) ≤ 20 := by exact_mod_cast h20
  have hn1 : (1 : ℚ) ≤ n := by exact_mod_cast h1
  have hsm := small (p := p) (k := 40) (by exact_mod_cast he)
  have h2n : (2 : ℚ) ^ n ≤ 2 ^ 20 := pow_le_pow_right₀ (by norm_num) h20
  let β : ℕ → ℚ := fun i => 8 * (n.choose i : ℚ) * 2 ^ emin
  have hβ0 : ∀ i, 0 ≤ β i := fun i => by positivity
  have hβs : ∑ i ∈ range (n + 1), β i = 8 * 2 ^ n * 2 ^ emin := by
    simp only [β]
    rw [← sum_mul, ← mul_sum, choose_sum]
  have hβ1 : ∀ i ≤ n, β i ≤ 1 / 64 := fun i hi => by
    have a := single_le_sum (f := β) (fun k _ => hβ0 k) (mem_range.2 (show i < n + 1 by omega))
    rw [hβs] at a
    have b : 8 * (2 : ℚ) ^ n * 2 ^ emin ≤ 2 ^ (40 + 1) * 2 ^ emin := mul_le_mul_of_nonneg_right (by norm_num at h2n ⊢; linarith) hη
    linarith
  have hβ2 : ∀ i ≤ n, (2 : ℚ) ^ emin ≤ β i := fun i hi => by
    have : (1 : ℚ) ≤ n.choose i := by exact_mod_cast Nat.choose_pos hi
    simp only [β]
    nlinarith
  have hsum : ∑ k ∈ range ((n + 1) * (n + 1)), 3 * (β (k / (n + 1)) + β (k % (n + 1))) ≤ unit p := by
    rw [sum_rows (fun i j => 3 * (β i + β j))]
    simp only [← mul_sum, sum_add_distrib, sum_const, card_range, nsmul_eq_mul, hβs]
    push_cast
    have : 3 * (((n : ℚ) + 1) * (8 * 2 ^ n * 2 ^ emin) + (n + 1) * (8 * 2 ^ n * 2 ^ emin)) = 48 * (n + 1) * 2 ^ n * 2 ^ emin := by ring
    refine le_trans (le_of_eq ?_) (le_trans (mul_le_mul_of_nonneg_right (b := 48 * ((n : ℚ) + 1) * 2 ^ n) ?_ hη) hsm)
    · rw [← this]; ring
    have : (n + 1 : ℚ) * 2 ^ n ≤ 21 * 2 ^ 20 := mul_le_mul (by linarith) h2n (by positivity) (by norm_num)
    norm_num at this ⊢
    linarith
  have hα : 4 / 3 * ((n + 4) * unit p) ≤ 1 / 64 := by nlinarith
  have hw1 : ∑ k ∈ range ((n + 1) * (n + 1)), wt u n (k / (n + 1)) * wt v n (k % (n + 1)) = 1 := by
    rw [sum_rows (fun i j => wt u n i * wt v n j)]
    simp only [← mul_sum, wt_sum, mul_one]
  have key := acc_error hf (by omega) (pk q c) (fun k => wt u n (k / (n + 1)) * wt v n (k % (n + 1))) (wk fl pw u v n) (fun k => 3 * (β (k / (n + 1)) + β (k % (n + 1)))) ((n + 1) * (n + 1)) (M := M)
    (α := 4 * (4 / 3 * ((n + 4) * unit p))) (b := unit p) (by push_cast; nlinarith) hM' hM0 (fun k _ => mul_nonneg (wt_nonneg hu0 hu1 n _) (wt_nonneg hv0 hv1 n _)) hw1
    (fun k _ => by have := hβ0 (k / (n + 1)); have := hβ0 (k % (n + 1)); linarith) hsum (by linarith)
    (fun k hk => by
      have a : k / (n + 1) ≤ n := by have := Nat.div_lt_of_lt_mul hk; omega
      have b : k % (n + 1) ≤ n := by have := Nat.mod_lt k (show 0 < n + 1 by omega); omega
      have hr := round_any hf (by omega) (wtFl fl pw u n (k / (n + 1)) * wtFl fl pw v n (k % (n + 1)))
      have e : (2 : ℚ) ^ (1 - (p : ℤ)) = unit p := rfl
      rw [e] at hr
      exact product_near hU0 (by linarith) (by nlinarith) hα (wt_nonneg hu0 hu1 n _) (wt_le_one hu0 hu1 a) (wt_nonneg hv0 hv1 n _) (wt_le_one hv0 hv1 b) (hβ0 _) (hβ0 _) (hβ1 _ b)
        (hβ2 _ a) (wtFl_error hf hw hp (by omega) hu hu0 hu1 a h20) (wtFl_error hf hw hp (by omega) hv hv0 hv1 b h20) hr) (by linarith)
  refine key.trans ?_
  push_cast
  have : 2 * (((n : ℚ) + 1) * (n + 1) + 1) * unit p + 4 * (4 / 3 * ((n + 4) * unit p)) + unit p ≤ (2 * (n + 1) ^ 2 + 6 * (n + 5)) * unit p := by nlinarith
  have := mul_le_mul_of_nonneg_left this hM0
  nlinarith

/-! ### Seams -/

theorem gridFl_zero (hf : IsRounding p emin fl) (n : ℕ) : Gen.gridFl fl n 0 = 0 := by
  simp [Gen.gridFl, fl_zero hf]

/-- C123: if two patches have the control points at a border in common, the vertices of their meshes at this border are exactly the same, provided that the last
parameter is exactly one (see C110). -/
theorem C123_seam (hf : IsRounding p emin fl) (hw : IsPow p emin pw) (hp : 18 ≤ p) (he : emin ≤ 0) (q r : Patch (ι → ℚ)) (h1 : 1 ≤ q.order) (h20 : q.order ≤ 20) (ho : r.order = q.order)
    (m n : ℕ) (hm : Gen.gridFl fl m m = 1) (k i : ℕ) :
    ((∀ j ≤ q.order, q.get q.order j = r.get 0 j) → q.vertexFl fl pw m k i m = r.vertexFl fl pw n k i 0) ∧
    ((∀ j ≤ q.order, q.get j q.order = r.get j 0) → q.vertexFl fl pw k m m i = r.vertexFl fl pw k n 0 i) := by
  constructor
  · intro h
    rw [Patch.vertexFl, Patch.vertexFl, hm, gridFl_zero hf, (C123_border hf hw hp he q h1 h20 _).2.1, (C123_border hf hw hp he r (by omega) (by omega) _).1, ho]
    congr 1
    exact List.map_congr_left fun j hj => h j (by have := List.mem_range.1 hj; omega)
  · intro h
    rw [Patch.vertexFl, Patch.vertexFl, hm, gridFl_zero hf, (C123_border hf hw hp he q h1 h20 _).2.2.2, (C123_border hf hw hp he r (by omega) (by omega) _).2.2.1, ho]
    congr 1
    exact List.map_congr_left fun j hj => h j (by have := List.mem_range.1 hj; omega)

/-- C123: so there are no cracks if the numbers of segments are powers of two. -/
theorem C123_seam_power (hf : IsNearest p emin fl) (hw : IsPow p emin pw) (hp : 18 ≤ p) (he : emin ≤ -2 * p) (q r : Patch (ι → ℚ)) (h1 : 1 ≤ q.order) (h20 : q.order ≤ 20) (ho : r.order = q.order)
    (h : ∀ j ≤ q.order, q.get q.order j = r.get 0 j) (m n : ℕ) (hm : m ≤ p) (k i : ℕ) : q.vertexFl fl pw (2 ^ m) k i (2 ^ m) = r.vertexFl fl pw n k i 0 := by
  refine (C123_seam hf.toIsRounding hw hp (by omega) q r h1 h20 ho (2 ^ m) n ?_ k i).1 h
  rw [Gen.C110_power hf (by omega) he hm (2 ^ m) le_rfl]
  push_cast
  exact div_self (by positivity)

/-- Powers rounded once. -/
theorem isPow_rounded (hf : IsRounding p emin fl) (hp : 18 ≤ p) (he : emin ≤ 0) : IsPow p emin fun x n => fl (x ^ n) where
  mem x n := hf.mem _
  nonneg x n h := fl_nonneg hf (pow_nonneg h n)
  exp_zero x := by simp [hf.fix 1 (one_mem hp he)]
  one n := by simp [hf.fix 1 (one_mem hp he)]
  zero n := by simp [fl_zero hf]
  near x n h0 h1 := by
    have := round_any hf (by omega) (x ^ n)
    rwa [abs_of_nonneg (pow_nonneg h0 n)] at this

/-- Two patches of order one, of points with one coordinate, with a common border. -/
def leftPatch : Patch (Unit → ℚ) := ⟨1, [fun _ => 0, fun _ => 1, fun _ => 0, fun _ => 1]⟩
def rightPatch : Patch (Unit → ℚ) := ⟨1, [fun _ => 1, fun _ => 2, fun _ => 1, fun _ => 2]⟩

theorem common_border : ∀ j ≤ leftPatch.order, leftPatch.get leftPatch.order j = rightPatch.get 0 j := by
  intro j hj
  have : j = 0 ∨ j = 1 := by simp only [leftPatch] at hj; omega
  rcases this with rfl | rfl <;> rfl

example (hf : IsNearest 24 (-149) fl) : leftPatch.vertexFl fl (fun x n => fl (x ^ n)) 8 5 3 8 = rightPatch.vertexFl fl (fun x n => fl (x ^ n)) 7 5 3 0 :=
  C123_seam_power hf (isPow_rounded hf.toIsRounding (by norm_num) (by norm_num)) (by norm_num) (by norm_num) leftPatch rightPatch (by decide) (by decide) rfl common_border 3 7 (by norm_num) 5 3

/-- C123 does not hold for each number of segments: with `float` and 41 segments the meshes of two patches with a common border do not meet, since
the last parameter is less than one. -/
theorem C123_seam_float_refuted (hf : IsNearest 24 (-149) fl) : leftPatch.vertexFl fl (fun x n => fl (x ^ n)) 41 1 0 41 = .ok (fun _ => 1 - 2 ^ (-24 : ℤ)) ∧
    rightPatch.vertexFl fl (fun x n => fl (x ^ n)) 41 1 0 0 = .ok (fun _ => 1) := by
  have hr := hf.toIsRounding
  have hw := isPow_rounded (p := 24) (emin := -149) hr (by norm_num) (by norm_num)
  have m1 : (1 : ℚ) - 2 ^ (-24 : ℤ) ∈ Floats 24 (-149) := ⟨2 ^ 24 - 1, -24, by norm_num, by norm_num, by norm_num⟩
  have e1 : fl 1 = 1 := hr.fix 1 (one_mem (by norm_num) (by norm_num))
  have e0 := fl_zero hr
  constructor
  · rw [Patch.vertexFl, (Gen.C110_float_refuted hf).1, gridFl_zero hr, (C123_border hr hw (by norm_num) (by norm_num) leftPatch (by decide) (by decide) _).2.2.1,
      evaluateFl_ok _ _ 1 (by simp [leftPatch]) (by norm_num) (by norm_num)]
    congr 1
    funext c
    have w1 : wtFl fl (fun x n => fl (x ^ n)) (1 - 2 ^ (-24 : ℤ)) 1 1 = 1 - 2 ^ (-24 : ℤ) := by
      simp only [wtFl, Nat.choose_self, Nat.cast_one, e1, one_mul, pow_one, Nat.sub_self, pow_zero, mul_one, hr.fix _ m1]
    simp only [acc, w1, zero_add]
    have g0 : ((List.range (leftPatch.order + 1)).map fun k => leftPatch.get k 0).getD 0 0 c = 0 := rfl
    have g1 : ((List.range (leftPatch.order + 1)).map fun k => leftPatch.get k 0).getD 1 0 c = 1 := rfl
    rw [g0, g1, zero_mul, e0, e0, zero_add, one_mul, hr.fix _ m1, hr.fix _ m1]
  · rw [Patch.vertexFl, gridFl_zero hr, gridFl_zero hr, (C123_border hr hw (by norm_num) (by norm_num) rightPatch (by decide) (by decide) _).1]
    refine (C123_ends hr hw (by norm_num) (by norm_num) _ (by simp [rightPatch]) (by simp [rightPatch]) ?_).1
    intro x hx c
    rw [List.mem_map] at hx
    obtain ⟨k, hk, rfl⟩ := hx
    have : k = 0 ∨ k = 1 := by have := List.mem_range.1 hk; simp only [rightPatch] at this; omega
    rcases this with rfl | rfl <;> exact one_mem (by norm_num) (by norm_num)

theorem slab_convex (c : ι) (lo hi : ℚ) : Convex ℚ {x : ι → ℚ | lo ≤ x c ∧ x c ≤ hi} := by
  intro x hx y hy a b ha hb hab
  simp only [Set.mem_ofPred_eq, Pi.add_apply, Pi.smul_apply, smul_eq_mul] at hx hy ⊢
  have e : b = 1 - a := by linarith
  subst e
  constructor
  · nlinarith [mul_le_mul_of_nonneg_left hx.1 ha, mul_le_mul_of_nonneg_left hy.1 hb]
  · nlinarith [mul_le_mul_of_nonneg_left hx.2 ha, mul_le_mul_of_nonneg_left hy.2 hb]

/-- C123: a curve leaves the box of its control points by no more than the rounding errors. -/
theorem C123_hull (hf : IsRounding p emin fl) (hw : IsPow p emin pw) (hp : 18 ≤ p) (he : emin ≤ -(p : ℤ) - 30) (ps : List (ι → ℚ)) (n : ℕ) (hn : ps.length = n + 1) (h1 : 1 ≤ n) (h20 : n ≤ 20)
    (t : ℚ) (ht : t ∈ Floats p emin) (h0 : 0 ≤ t) (ht1 : t ≤ 1) (c : ι) (lo hi : ℚ) (hb : ∀ q ∈ ps, lo ≤ q c ∧ q c ≤ hi) :
    ∃ q, evaluateFl fl pw ps t = .ok q ∧ lo - (4 * (n + 3) * unit p * max |lo| |hi| + 2 * (n + 1) * 2 ^ emin) ≤ q c ∧
      q c ≤ hi + (4 * (n + 3) * unit p * max |lo| |hi| + 2 * (n + 1) * 2 ^ emin) := by
  obtain ⟨q, h2, h3⟩ := C123_curve hf hw hp he ps n hn h1 h20 t ht h0 ht1 c (max |lo| |hi|) fun q hq => abs_le_max_abs_abs (hb q hq).1 (hb q hq).2
  have hc : curve ps t ∈ {x : ι → ℚ | lo ≤ x c ∧ x c ≤ hi} := casteljau_mem h0 ht1 (slab_convex c lo hi) _ _ _ fun k hk => by
    rw [Nat.zero_add, List.getD_eq_getElem _ _ (by omega)]
    exact hb _ (List.getElem_mem _)
  obtain ⟨a, b⟩ := abs_le.1 h3
  exact ⟨q, h2, by linarith [hc.1], by linarith [hc.2]⟩

/-! ### Examples -/

/-- A cubic curve of floats. -/
def cubic : List (Fin 2 → ℚ) := [![0, 0], ![1, 2], ![3, -1], ![4, 1 / 2]]

theorem cubic_float : FloatPoints 24 (-149) cubic := by
  have h : ∀ k : ℤ, |k| ≤ 8 → (k : ℚ) / 2 ∈ Floats 24 (-149) := fun k hk => by
    have := mem_of_le (p := 24) (emin := -149) (k := k) (e := -1) (by norm_num) (by norm_num) (hk.trans (by norm_num))
    rwa [show (k : ℚ) * 2 ^ (-1 : ℤ) = k / 2 by norm_num [div_eq_mul_inv]] at this
  intro q hq c
  simp only [cubic, List.mem_cons, List.not_mem_nil, or_false] at hq
  have h0 := h 0 (by norm_num)
  have h1 := h 2 (by norm_num)
  have h2 := h 4 (by norm_num)
  have h3 := h 6 (by norm_num)
  have h4 := h (-2) (by norm_num)
  have h5 := h 8 (by norm_num)
  have h6 := h 1 (by norm_num)
  norm_num at h0 h1 h2 h3 h4 h5 h6
  rw [one_div] at h6
  rcases hq with rfl | rfl | rfl | rfl <;> fin_cases c <;> simp <;> assumption

example (hf : IsRounding 24 (-149) fl) : evaluateFl fl (fun x n => fl (x ^ n)) cubic 1 = .ok ![4, 1 / 2] :=
  (C123_ends hf (isPow_rounded hf (by norm_num) (by norm_num)) (by norm_num) (by norm_num) cubic (by decide) (by decide) cubic_float).2

example (hf : IsRounding 24 (-149) fl) : ∃ q, evaluateFl fl (fun x n => fl (x ^ n)) cubic (1 / 4 : ℚ) = .ok q ∧
    |q 0 - curve cubic (1 / 4 : ℚ) 0| ≤ 4 * ((3 : ℕ) + 3) * unit 24 * 4 + 2 * ((3 : ℕ) + 1) * 2 ^ (-149 : ℤ) :=
  C123_curve hf (isPow_rounded hf (by norm_num) (by norm_num)) (by norm_num) (by norm_num) cubic 3 rfl (by norm_num) (by norm_num) (1 / 4) ⟨1, -2, by norm_num, by norm_num, by norm_num⟩ (by norm_num)
    (by norm_num) 0 4 (by intro q hq; simp only [cubic, List.mem_cons, List.not_mem_nil, or_false] at hq; rcases hq with rfl | rfl | rfl | rfl <;> norm_num)

example (hf : IsRounding 24 (-149) fl) : ∃ x, leftPatch.evalFl fl (fun x n => fl (x ^ n)) (1 / 4 : ℚ) (1 / 2 : ℚ) = .ok x ∧
    |x () - patch leftPatch.order leftPatch.get (1 / 4 : ℚ) (1 / 2 : ℚ) ()| ≤
      (2 * ((leftPatch.order : ℚ) + 1) ^ 2 + 6 * (leftPatch.order + 5)) * unit 24 * 1 + 2 * ((leftPatch.order : ℚ) + 1) ^ 2 * 2 ^ (-149 : ℤ) :=
  C123_patch hf (isPow_rounded hf (by norm_num) (by norm_num)) (by norm_num) (by norm_num) leftPatch (by decide) (by decide) (1 / 4) (1 / 2) ⟨1, -2, by norm_num, by norm_num, by norm_num⟩ (by norm_num)
    (by norm_num) ⟨1, -1, by norm_num, by norm_num, by norm_num⟩ (by norm_num) (by norm_num) () 1 (by
      intro i hi j hj
      have hi' : i = 0 ∨ i = 1 := by simp only [leftPatch] at hi; omega
      have hj' : j = 0 ∨ j = 1 := by simp only [leftPatch] at hj; omega
      rcases hi' with rfl | rfl <;> rcases hj' with rfl | rfl <;> simp [Patch.get, Patch.getIndex, w32, leftPatch])

end Geom.Bezier
