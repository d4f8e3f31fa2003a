import Verif.Spec.BSplineFloat
import Verif.Props.AABBFloat
import Verif.Props.Spline
import Mathlib.Tactic.GCongr
import Mathlib.Tactic.FinCases

/-
  C121: B-splines in floating-point arithmetic.
-/
set_option autoImplicit false
set_option linter.unusedSectionVars false

namespace Geom.Spline
open Spec Finset Geom.Float

variable {ι : Type} {p : ℕ} {emin : ℤ} {fl : ℚ → ℚ} {x : ℤ → ℚ}

theorem zero_float : (0 : ℚ) ∈ Floats p emin := ⟨0, emin, by simp, le_rfl, by simp⟩

theorem fl_zero (hf : IsRounding p emin fl) : fl 0 = 0 := hf.fix 0 zero_float

theorem fl_nonneg (hf : IsRounding p emin fl) {a : ℚ} (h : 0 ≤ a) : 0 ≤ fl a := by
  have := hf.mono h
  rwa [fl_zero hf] at this

theorem fl_one (hf : IsRounding p emin fl) (hp : 1 ≤ p) (he : emin ≤ 0) : fl 1 = 1 := by
  refine hf.fix 1 ?_
  have := int_mem (p := p) (emin := emin) (k := 1) hp he (by simpa using one_le_pow₀ (M₀ := ℤ) one_le_two)
  simpa using this

theorem unit_pos (p : ℕ) : 0 < unit p := two_zpow_pos _

/-- A weight is zero outside of its support. -/
theorem basisFl_zero (hf : IsRounding p emin fl) (hx : Monotone x) (q : ℕ) (j : ℤ) (t : ℚ) (h : t < x j ∨ x (j + q + 1) ≤ t) : basisFl fl x q j t = 0 := by
  induction q generalizing j with
  | zero =>
    simp only [basisFl]
    rw [if_neg]
    rintro ⟨h1, h2⟩
    simp only [Nat.cast_zero, add_zero] at h
    rcases h with h | h
    · exact absurd h1 (not_le.2 h)
    · exact absurd h2 (not_lt.2 h)
  | succ q ih =>
    simp only [basisFl]
    have e1 : basisFl fl x q j t = 0 := by
      apply ih
      rcases h with h | h
      · exact .inl h
      · exact .inr ((hx (by push_cast; omega)).trans h)
    have e2 : basisFl fl x q (j + 1) t = 0 := by
      apply ih
      rcases h with h | h
      · exact .inl (h.trans_le (hx (by omega)))
      · refine .inr (le_trans (le_of_eq ?_) h)
        congr 1
        push_cast
        ring
    rw [e1, e2]
    simp [fl_zero hf]

/-- Weights are not negative. -/
theorem basisFl_nonneg (hf : IsRounding p emin fl) (hx : Monotone x) (q : ℕ) (j : ℤ) (t : ℚ) : 0 ≤ basisFl fl x q j t := by
  induction q generalizing j with
  | zero => simp only [basisFl]; split_ifs <;> norm_num
  | succ q ih =>
    by_cases h : t < x j ∨ x (j + (q + 1 : ℕ) + 1) ≤ t
    · rw [basisFl_zero hf hx _ _ _ h]
    · push Not at h
      simp only [basisFl]
      refine fl_nonneg hf (add_nonneg ?_ ?_)
      · split_ifs with hd
        · exact fl_nonneg hf (mul_nonneg (fl_nonneg hf (div_nonneg (fl_nonneg hf (by linarith [h.1])) hd.le)) (ih _))
        · exact le_refl _
      · split_ifs with hd
        · exact fl_nonneg hf (mul_nonneg (fl_nonneg hf (div_nonneg (fl_nonneg hf (by linarith [h.2])) hd.le)) (ih _))
        · exact le_refl _

theorem basisFl_float (hf : IsRounding p emin fl) (hp : 1 ≤ p) (he : emin ≤ 0) (q : ℕ) (j : ℤ) (t : ℚ) : basisFl fl x q j t ∈ Floats p emin := by
  cases q with
  | zero =>
    simp only [basisFl]
    split_ifs
    · have := hf.mem 1
      rwa [fl_one hf hp he] at this
    · exact zero_float
  | succ q => exact hf.mem _

/-- The exact weight is at most one. -/
theorem basis_le_one (hx : Monotone x) (q : ℕ) (j : ℤ) (t : ℚ) : basis x q j t ≤ 1 := by
  by_cases h : t < x j ∨ x (j + q + 1) ≤ t
  · rw [basis_zero hx _ _ _ h]; norm_num
  push Not at h
  have find : ∀ n : ℕ, t < x (j + n) → ∃ m : ℕ, m < n ∧ x (j + m) ≤ t ∧ t < x (j + m + 1) := by
    intro n
    induction n with
    | zero => intro hn; simp only [Nat.cast_zero, add_zero] at hn; exact absurd h.1 (not_le.2 hn)
    | succ n ih =>
      intro hn
      rcases lt_or_ge t (x (j + n)) with c | c
      · obtain ⟨m, hm, r⟩ := ih c
        exact ⟨m, by omega, r⟩
      · exact ⟨n, by omega, c, by rw [show j + (n : ℤ) + 1 = j + (n + 1 : ℕ) by push_cast; ring]; exact hn⟩
  obtain ⟨m, hm, h1, h2⟩ := find (q + 1) (by rw [show j + ((q + 1 : ℕ) : ℤ) = j + q + 1 by push_cast; ring]; exact h.2)
  have s := basis_sum hx (j + m) t h1 h2 q
  have hmem : q - m ∈ range (q + 1) := mem_range.2 (by omega)
  have := single_le_sum (f := fun i : ℕ => basis x q (j + m - q + i) t) (fun i _ => basis_nonneg hx _ _ _) hmem
  simp only [s] at this
  rwa [show j + (m : ℤ) - q + (q - m : ℕ) = j by omega] at this

/-! One step of the recursion. -/

/-- The quotient of two rounded differences. -/
theorem ratio_near {u η n N d D a : ℚ} (hu0 : 0 ≤ u) (hu : u < 1) (hn : 0 ≤ n) (hd : 0 < d) (hN : |N - n| ≤ u * n) (hD : |D - d| ≤ u * d) (ha : |a - N / D| ≤ u * |N / D| + η) :
    (1 - u) ^ 3 * (n / d) - η ≤ a ∧ a ≤ n / d / (1 - u) ^ 3 + η := by
  have hg : 0 < 1 - u := by linarith
  obtain ⟨n1, n2⟩ := abs_le.1 hN
  obtain ⟨d1, d2⟩ := abs_le.1 hD
  have hD0 : 0 < D := by nlinarith
  have hN0 : 0 ≤ N := by nlinarith
  have hr0 : 0 ≤ N / D := div_nonneg hN0 hD0.le
  rw [abs_of_nonneg hr0] at ha
  obtain ⟨a1, a2⟩ := abs_le.1 ha
  have hq0 : 0 ≤ n / d := div_nonneg hn hd.le
  have lo : (1 - u) ^ 2 * (n / d) ≤ N / D := by
    rw [le_div_iff₀ hD0]
    have e : (1 - u) ^ 2 * (n / d) * D ≤ (1 - u) ^ 2 * (n / d) * ((1 + u) * d) := mul_le_mul_of_nonneg_left (by linarith) (by positivity)
    have e2 : (1 - u) ^ 2 * (n / d) * ((1 + u) * d) = (1 - u) * ((1 - u) * (1 + u)) * n := by field_simp
    have e3 : (1 - u) * ((1 - u) * (1 + u)) * n ≤ (1 - u) * 1 * n := by gcongr; nlinarith [sq_nonneg u]
    nlinarith
  have hi : N / D ≤ n / d * (1 + u) / (1 - u) := by
    rw [div_le_div_iff₀ hD0 hg]
    have e : n / d * (1 + u) * ((1 - u) * d) ≤ n / d * (1 + u) * D := mul_le_mul_of_nonneg_left (by linarith) (by positivity)
    have e2 : n / d * (1 + u) * ((1 - u) * d) = (1 + u) * n * (1 - u) := by field_simp
    have e3 : N * (1 - u) ≤ (1 + u) * n * (1 - u) := mul_le_mul_of_nonneg_right (by linarith) hg.le
    linarith
  constructor
  · have : (1 - u) * ((1 - u) ^ 2 * (n / d)) ≤ (1 - u) * (N / D) := mul_le_mul_of_nonneg_left lo hg.le
    nlinarith
  · have h1 : a ≤ (1 + u) * (N / D) + η := by linarith
    have h2 : (1 + u) * (N / D) ≤ (1 + u) * (n / d * (1 + u) / (1 - u)) := mul_le_mul_of_nonneg_left hi (by linarith)
    have h3 : (1 + u) * (n / d * (1 + u) / (1 - u)) ≤ n / d / (1 - u) ^ 3 := by
      rw [le_div_iff₀ (by positivity)]
      have e : (1 + u) * (n / d * (1 + u) / (1 - u)) * (1 - u) ^ 3 = n / d * ((1 + u) * (1 - u)) ^ 2 := by field_simp
      rw [e]
      have : ((1 + u) * (1 - u)) ^ 2 ≤ 1 := pow_le_one₀ (by nlinarith) (by nlinarith [sq_nonneg u])
      nlinarith
    linarith

/-- A rounded product of a quotient and a weight. -/
theorem term_near {u η κ a A B C r : ℚ} {e : ℕ} (hu0 : 0 ≤ u) (hη : 0 ≤ η) (hκ : 0 ≤ κ) (hg : 3 / 4 ≤ (1 - u) ^ (e + 2)) (hu : u < 1) (hA0 : 0 ≤ A) (hA1 : A ≤ 1)
    (hA : (1 - u) ^ 3 * a - η ≤ A ∧ A ≤ a / (1 - u) ^ 3 + η) (hB0 : 0 ≤ B) (hB1 : B ≤ 1) (hC0 : 0 ≤ C)
    (hC : (1 - u) ^ e * B - κ ≤ C ∧ C ≤ B / (1 - u) ^ e + κ) (hr : |r - A * C| ≤ u * |A * C| + η) :
    (1 - u) ^ (e + 4) * (a * B) - (κ + 2 * η) ≤ r ∧ r ≤ a * B / (1 - u) ^ (e + 4) + (4 / 3 * κ + 7 / 3 * η) := by
  have hg0 : 0 < 1 - u := by linarith
  generalize hgg : 1 - u = g at *
  have hg1 : g ≤ 1 := by linarith
  have hu' : u = 1 - g := by linarith
  subst hu'
  have hAC : 0 ≤ A * C := mul_nonneg hA0 hC0
  rw [abs_of_nonneg hAC] at hr
  obtain ⟨r1, r2⟩ := abs_le.1 hr
  have hge : 0 < g ^ e := by positivity
  have hge1 : g ^ e ≤ 1 := pow_le_one₀ hg0.le hg1
  constructor
  · have h1 : A * (g ^ e * B - κ) ≤ A * C := mul_le_mul_of_nonneg_left hC.1 hA0
    have h2 : (g ^ 3 * a - η) * (g ^ e * B) ≤ A * (g ^ e * B) := mul_le_mul_of_nonneg_right hA.1 (by positivity)
    have h3 : A * κ ≤ κ := by nlinarith
    have h4 : η * (g ^ e * B) ≤ η := by
      have : g ^ e * B ≤ 1 := by nlinarith
      nlinarith
    have h5 : g ^ 3 * g ^ e * (a * B) - η - κ ≤ A * C := by nlinarith
    have h6 : g * (g ^ 3 * g ^ e * (a * B) - η - κ) ≤ g * (A * C) := mul_le_mul_of_nonneg_left h5 hg0.le
    have h7 : g * (η + κ) ≤ η + κ := by nlinarith
    have h8 : g ^ (e + 4) * (a * B) = g * (g ^ 3 * g ^ e * (a * B)) := by ring
    rw [h8]
    nlinarith
  · have i1 : 1 / g ^ (e + 1) ≤ 4 / 3 := by
      rw [div_le_iff₀ (by positivity)]
      have : g ^ (e + 2) ≤ g ^ (e + 1) := pow_le_pow_of_le_one hg0.le hg1 (by omega)
      linarith
    have i2 : 1 / g ≤ 4 / 3 := by
      rw [div_le_iff₀ hg0]
      have : g ^ (e + 2) ≤ g ^ 1 := pow_le_pow_of_le_one hg0.le hg1 (by omega)
      rw [pow_one] at this
      linarith
    have h0 : r ≤ A * C / g + η := by
      have : (1 + (1 - g)) * (A * C) ≤ A * C / g := by
        rw [le_div_iff₀ hg0]
        nlinarith [sq_nonneg (1 - g), mul_nonneg hAC (sq_nonneg (1 - g))]
      linarith
    have h1 : A * C ≤ A * (B / g ^ e + κ) := mul_le_mul_of_nonneg_left hC.2 hA0
    have h2 : A * (B / g ^ e) ≤ (a / g ^ 3 + η) * (B / g ^ e) := mul_le_mul_of_nonneg_right hA.2 (by positivity)
    have h3 : A * κ ≤ κ := by nlinarith
    have h4 : A * C / g ≤ ((a / g ^ 3 + η) * (B / g ^ e) + κ) / g := by
      refine div_le_div_of_nonneg_right ?_ hg0.le
      linarith
    have h5 : ((a / g ^ 3 + η) * (B / g ^ e) + κ) / g = a * B / g ^ (e + 4) + (η * B) * (1 / g ^ (e + 1)) + κ * (1 / g) := by
      field_simp
      ring
    have h6 : η * B * (1 / g ^ (e + 1)) ≤ η * (4 / 3) := by
      have : η * B ≤ η := by nlinarith
      exact mul_le_mul this i1 (by positivity) hη
    have h7 : κ * (1 / g) ≤ κ * (4 / 3) := mul_le_mul_of_nonneg_left i2 hκ
    rw [h5] at h4
    linarith

/-- A rounded sum. -/
theorem sum_near {u η κ X Y r s S : ℚ} {e : ℕ} (hu0 : 0 ≤ u) (hη : 0 ≤ η) (hκ : 0 ≤ κ) (hg : 3 / 4 ≤ (1 - u) ^ (e + 2)) (hu : u < 1) (hr0 : 0 ≤ r) (hs0 : 0 ≤ s)
    (hr : (1 - u) ^ (e + 4) * X - (κ + 2 * η) ≤ r ∧ r ≤ X / (1 - u) ^ (e + 4) + (4 / 3 * κ + 7 / 3 * η))
    (hs : (1 - u) ^ (e + 4) * Y - (κ + 2 * η) ≤ s ∧ s ≤ Y / (1 - u) ^ (e + 4) + (4 / 3 * κ + 7 / 3 * η)) (hS : |S - (r + s)| ≤ u * |r + s|) :
    (1 - u) ^ (e + 5) * (X + Y) - (4 * κ + 7 * η) ≤ S ∧ S ≤ (X + Y) / (1 - u) ^ (e + 5) + (4 * κ + 7 * η) := by
  have hg0 : 0 < 1 - u := by linarith
  generalize hgg : 1 - u = g at *
  have hg1 : g ≤ 1 := by linarith
  have hu' : u = 1 - g := by linarith
  subst hu'
  have hrs : 0 ≤ r + s := add_nonneg hr0 hs0
  rw [abs_of_nonneg hrs] at hS
  obtain ⟨S1, S2⟩ := abs_le.1 hS
  constructor
  · have h1 : g * (g ^ (e + 4) * (X + Y) - 2 * (κ + 2 * η)) ≤ g * (r + s) := mul_le_mul_of_nonneg_left (by linarith [hr.1, hs.1]) hg0.le
    have h2 : g ^ (e + 5) * (X + Y) = g * (g ^ (e + 4) * (X + Y)) := by ring
    have h3 : g * (2 * (κ + 2 * η)) ≤ 2 * (κ + 2 * η) := by nlinarith
    rw [h2]
    nlinarith
  · have i2 : 1 / g ≤ 4 / 3 := by
      rw [div_le_iff₀ hg0]
      have : g ^ (e + 2) ≤ g ^ 1 := pow_le_pow_of_le_one hg0.le hg1 (by omega)
      rw [pow_one] at this
      linarith
    have h0 : S ≤ (r + s) / g := by
      have : (1 + (1 - g)) * (r + s) ≤ (r + s) / g := by
        rw [le_div_iff₀ hg0]
        nlinarith [sq_nonneg (1 - g), mul_nonneg hrs (sq_nonneg (1 - g))]
      linarith
    have h1 : (r + s) / g ≤ ((X + Y) / g ^ (e + 4) + 2 * (4 / 3 * κ + 7 / 3 * η)) / g := by
      refine div_le_div_of_nonneg_right ?_ hg0.le
      rw [add_div]
      linarith [hr.2, hs.2]
    have h2 : ((X + Y) / g ^ (e + 4) + 2 * (4 / 3 * κ + 7 / 3 * η)) / g = (X + Y) / g ^ (e + 5) + 2 * (4 / 3 * κ + 7 / 3 * η) * (1 / g) := by
      field_simp
      ring
    have h3 : 2 * (4 / 3 * κ + 7 / 3 * η) * (1 / g) ≤ 2 * (4 / 3 * κ + 7 / 3 * η) * (4 / 3) := mul_le_mul_of_nonneg_left i2 (by positivity)
    linarith

/-- One of the two terms of a weight: zero, or with a quotient between zero and one. -/
theorem step_term (hf : IsRounding p emin fl) (hp : 2 ≤ p) (he : emin ≤ 0) {κ n d B C : ℚ} {e : ℕ} (hκ : 0 ≤ κ) (hg : 3 / 4 ≤ (1 - unit p) ^ (e + 2)) (hu : unit p < 1)
    (hn : |fl n - n| ≤ unit p * |n|) (hd : |fl d - d| ≤ unit p * |d|) (h : (B = 0 ∧ C = 0) ∨ (0 ≤ n ∧ n ≤ d ∧ 0 < d)) (hB0 : 0 ≤ B) (hB1 : B ≤ 1) (hC0 : 0 ≤ C)
    (hC : (1 - unit p) ^ e * B - κ ≤ C ∧ C ≤ B / (1 - unit p) ^ e + κ) :
    0 ≤ (if 0 < fl d then fl (fl (fl n / fl d) * C) else 0) ∧
    (1 - unit p) ^ (e + 4) * (if 0 < d then n / d * B else 0) - (κ + 2 * 2 ^ emin) ≤ (if 0 < fl d then fl (fl (fl n / fl d) * C) else 0) ∧
    (if 0 < fl d then fl (fl (fl n / fl d) * C) else 0) ≤ (if 0 < d then n / d * B else 0) / (1 - unit p) ^ (e + 4) + (4 / 3 * κ + 7 / 3 * 2 ^ emin) := by
  have hη := (two_zpow_pos emin).le
  rcases h with ⟨rfl, rfl⟩ | ⟨h1, h2, h3⟩
  · simp only [mul_zero, fl_zero hf, ite_self, zero_div]
    refine ⟨le_rfl, ?_, ?_⟩
    · linarith
    · positivity
  · have hu0 := (unit_pos p).le
    have hD : 0 < fl d := by
      rw [abs_of_pos h3] at hd
      have := (abs_le.1 hd).1
      nlinarith
    rw [if_pos hD, if_pos h3]
    rw [abs_of_nonneg h1] at hn
    rw [abs_of_pos h3] at hd
    have hN0 := fl_nonneg hf h1
    have hA0 : 0 ≤ fl (fl n / fl d) := fl_nonneg hf (div_nonneg hN0 hD.le)
    have hA1 : fl (fl n / fl d) ≤ 1 := by
      rw [← fl_one hf (by omega) he]
      exact hf.mono ((div_le_one hD).2 (hf.mono h2))
    have hA := ratio_near hu0 hu h1 h3 hn hd (round_any hf (by omega) (fl n / fl d))
    exact ⟨fl_nonneg hf (mul_nonneg hA0 hC0), term_near hu0 hη hκ hg hu hA0 hA1 hA hB0 hB1 hC0 hC (round_any hf (by omega) _)⟩

theorem round_add (hf : IsRounding p emin fl) (hp : 1 ≤ p) {y z : ℚ} (hy : y ∈ Floats p emin) (hz : z ∈ Floats p emin) : |fl (y + z) - (y + z)| ≤ unit p * |y + z| := by
  have := round_sub hf hp hy (neg_mem hz)
  rwa [sub_neg_eq_add] at this

/-- The error of the weights by underflow. -/
def under (emin : ℤ) (q : ℕ) : ℚ := 3 * (4 ^ q - 1) * 2 ^ emin

theorem under_nonneg (emin : ℤ) (q : ℕ) : 0 ≤ under emin q := by
  have h : (1 : ℚ) ≤ 4 ^ q := one_le_pow₀ (by norm_num)
  have := two_zpow_pos emin
  unfold under
  have : 0 ≤ (4 : ℚ) ^ q - 1 := by linarith
  positivity

theorem under_succ (emin : ℤ) (q : ℕ) : 4 * under emin q + 7 * 2 ^ emin ≤ under emin (q + 1) := by
  have := two_zpow_pos emin
  unfold under
  rw [pow_succ]
  nlinarith

theorem pow_lower {u : ℚ} (hu : u ≤ 1) (n : ℕ) : 1 - n * u ≤ (1 - u) ^ n := by
  have := one_add_mul_le_pow (a := -u) (by linarith) n
  rw [← sub_eq_add_neg] at this
  linarith

theorem basisFl_near (hf : IsRounding p emin fl) (hp : 2 ≤ p) (he : emin ≤ 0) (hx : Monotone x) (hxf : ∀ i, x i ∈ Floats p emin) {t : ℚ} (ht : t ∈ Floats p emin) (q : ℕ)
    (hq : 20 * q * unit p ≤ 1) (hu : unit p < 1) (j : ℤ) :
    (1 - unit p) ^ (5 * q) * basis x q j t - under emin q ≤ basisFl fl x q j t ∧ basisFl fl x q j t ≤ basis x q j t / (1 - unit p) ^ (5 * q) + under emin q := by
  induction q generalizing j with
  | zero => simp [basis, basisFl, under]
  | succ q ih =>
    have hu0 := (unit_pos p).le
    have hq' : 20 * (q : ℚ) * unit p ≤ 1 := by push_cast at hq; nlinarith
    have ih := ih hq'
    have hκ := under_nonneg emin q
    have hη := (two_zpow_pos emin).le
    by_cases hout : t < x j ∨ x (j + (q + 1 : ℕ) + 1) ≤ t
    · rw [basisFl_zero hf hx _ _ _ hout, basis_zero hx _ _ _ hout]
      have := under_nonneg emin (q + 1)
      simp only [mul_zero, zero_div]
      exact ⟨by linarith, by linarith⟩
    push Not at hout
    have hg : 3 / 4 ≤ (1 - unit p) ^ (5 * q + 2) := by
      refine le_trans ?_ (pow_lower hu.le _)
      push_cast at hq ⊢
      nlinarith
    have t1 := step_term (fl := fl) (κ := under emin q) (n := t - x j) (d := x (j + (q + 1 : ℕ)) - x j) (B := basis x q j t) (C := basisFl fl x q j t) (e := 5 * q) hf hp he hκ hg hu
      (round_sub hf (by omega) ht (hxf _)) (round_sub hf (by omega) (hxf _) (hxf _))
      (by
        rcases le_or_gt (x (j + (q + 1 : ℕ))) t with c | c
        · left
          have c' : x (j + q + 1) ≤ t := by rwa [show j + (q : ℤ) + 1 = j + (q + 1 : ℕ) by push_cast; ring]
          exact ⟨basis_zero hx _ _ _ (.inr c'), basisFl_zero hf hx _ _ _ (.inr c')⟩
        · right
          exact ⟨by linarith [hout.1], by linarith, by linarith [hout.1]⟩)
      (basis_nonneg hx _ _ _) (basis_le_one hx _ _ _) (basisFl_nonneg hf hx _ _ _) (ih j)
    have t2 := step_term (fl := fl) (κ := under emin q) (n := x (j + (q + 1 : ℕ) + 1) - t) (d := x (j + (q + 1 : ℕ) + 1) - x (j + 1)) (B := basis x q (j + 1) t)
      (C := basisFl fl x q (j + 1) t) (e := 5 * q) hf hp he hκ hg hu
      (round_sub hf (by omega) (hxf _) ht) (round_sub hf (by omega) (hxf _) (hxf _))
      (by
        rcases lt_or_ge t (x (j + 1)) with c | c
        · left
          exact ⟨basis_zero hx _ _ _ (.inl c), basisFl_zero hf hx _ _ _ (.inl c)⟩
        · right
          exact ⟨by linarith [hout.2], by linarith, by linarith [hout.2]⟩)
      (basis_nonneg hx _ _ _) (basis_le_one hx _ _ _) (basisFl_nonneg hf hx _ _ _) (ih (j + 1))
    have m1 : (if 0 < fl (x (j + (q + 1 : ℕ)) - x j) then fl (fl (fl (t - x j) / fl (x (j + (q + 1 : ℕ)) - x j)) * basisFl fl x q j t) else 0) ∈ Floats p emin := by
      split_ifs
      · exact hf.mem _
      · exact zero_float
    have m2 : (if 0 < fl (x (j + (q + 1 : ℕ) + 1) - x (j + 1)) then
        fl (fl (fl (x (j + (q + 1 : ℕ) + 1) - t) / fl (x (j + (q + 1 : ℕ) + 1) - x (j + 1))) * basisFl fl x q (j + 1) t) else 0) ∈ Floats p emin := by
      split_ifs
      · exact hf.mem _
      · exact zero_float
    have r := sum_near hu0 hη hκ hg hu t1.1 t2.1 t1.2 t2.2 (round_add hf (by omega) m1 m2)
    have hs := under_succ emin q
    rw [show 5 * (q + 1) = 5 * q + 5 by ring]
    simp only [basis, basisFl]
    exact ⟨by linarith [r.1], by linarith [r.2]⟩

theorem inv_pow {u : ℚ} (hu0 : 0 ≤ u) (hu : u < 1) {n : ℕ} (hn : 4 * n * u ≤ 1) : 1 / (1 - u) ^ n ≤ 1 + 4 / 3 * (n * u) := by
  have h := pow_lower hu.le n
  have hpos : 0 < 1 - n * u := by nlinarith
  have hnu : 0 ≤ n * u := by positivity
  refine (one_div_le_one_div_of_le hpos h).trans ?_
  rw [div_le_iff₀ hpos]
  nlinarith

/-- The error of a weight. -/
theorem weight_error (hf : IsRounding p emin fl) (hp : 2 ≤ p) (he : emin ≤ 0) (hx : Monotone x) (hxf : ∀ i, x i ∈ Floats p emin) {t : ℚ} (ht : t ∈ Floats p emin) (q : ℕ)
    (hq : 20 * q * unit p ≤ 1) (j : ℤ) : |basisFl fl x q j t - basis x q j t| ≤ 7 * q * unit p * basis x q j t + 4 ^ (q + 1) * 2 ^ emin := by
  have hu : unit p < 1 := by
    unfold unit
    rw [← zpow_zero (2 : ℚ)]
    exact zpow_lt_zpow_right₀ (by norm_num) (by omega)
  have hu0 := (unit_pos p).le
  obtain ⟨h1, h2⟩ := basisFl_near hf hp he hx hxf ht q hq hu j
  have hB := basis_nonneg hx q j t
  have hκ : under emin q ≤ 4 ^ (q + 1) * 2 ^ emin := by
    have := two_zpow_pos emin
    have h4 : (0 : ℚ) < 4 ^ q := by positivity
    unfold under
    rw [pow_succ]
    nlinarith
  have a := pow_lower hu.le (5 * q)
  have b := inv_pow hu0 hu (n := 5 * q) (by push_cast; nlinarith)
  push_cast at a b
  have hqu : 0 ≤ (q : ℚ) * unit p := by positivity
  have a' := mul_le_mul_of_nonneg_right a hB
  have b' := mul_le_mul_of_nonneg_right b hB
  have e : basis x q j t / (1 - unit p) ^ (5 * q) = 1 / (1 - unit p) ^ (5 * q) * basis x q j t := by ring
  rw [e] at h2
  have c := mul_nonneg hqu hB
  rw [abs_le]
  constructor <;> nlinarith

/-! Curve. -/

/-- The weight of the point with the index `i`. -/
def weightFl (fl : ℚ → ℚ) (s : Spline ℚ (ι → ℚ)) (t : ℚ) (i : ℕ) : ℚ := basisFl fl (interval s.points) s.order.toNat (i - s.order) t

/-- The rounded sum of the first points. -/
def partialFl (fl : ℚ → ℚ) (s : Spline ℚ (ι → ℚ)) (t : ℚ) (c : ι) : ℕ → ℚ
  | 0 => 0
  | n + 1 => fl (partialFl fl s t c n + fl (pt s n c * weightFl fl s t n))

theorem evaluateFl_eq (fl : ℚ → ℚ) (s : Spline ℚ (ι → ℚ)) (t : ℚ) (c : ι) : evaluateFl fl s t c = partialFl fl s t c s.points.length := by
  unfold evaluateFl
  split_ifs with h
  · rw [List.isEmpty_iff.1 h]; rfl
  · have key : ∀ n ≤ s.points.length, (s.points.take n).foldl (fun (a : (ι → ℚ) × ℤ) p =>
        (fun c => fl (a.1 c + fl (p.point c * basisFl fl (interval s.points) s.order.toNat a.2 t)), a.2 + 1)) (0, -s.order) =
        (fun c => partialFl fl s t c n, -s.order + n) := by
      intro n
      induction n with
      | zero => intro _; simp only [List.take_zero, List.foldl_nil, Nat.cast_zero, add_zero]; rfl
      | succ n ih =>
        intro hn
        have e : s.points.take (n + 1) = s.points.take n ++ [s.points[n]'(by omega)] := (List.take_append_getElem (by omega)).symm
        rw [e, List.foldl_append, ih (by omega), List.foldl_cons, List.foldl_nil]
        refine Prod.ext ?_ ?_
        · funext c
          simp only [partialFl, weightFl, pt, List.getElem?_eq_getElem (show n < s.points.length by omega), Option.map_some, Option.getD_some, neg_add_eq_sub]
        · push_cast; ring
    have := key s.points.length le_rfl
    rw [List.take_length] at this
    rw [this]

theorem interval_float {s : Spline ℚ (ι → ℚ)} (h : FloatSpline p emin s) (h0 : 0 < s.points.length) (i : ℤ) : interval s.points i ∈ Floats p emin := by
  rw [interval_eq]
  exact h.knots _ (C74_in_range _ h0 _)

/-- The support of a weight. -/
theorem near_iff (s : Spline ℚ (ι → ℚ)) (ho : 0 ≤ s.order) (t : ℚ) (i : ℕ) (hi : i < s.points.length) :
    Near s t i ↔ ¬ (t < interval s.points (i - s.order) ∨ interval s.points (i - s.order + s.order.toNat + 1) ≤ t) := by
  rw [interval_eq, interval_eq]
  have e1 : idx s.points.length (i - s.order) = i - s.order.toNat := by
    unfold idx
    split_ifs <;> omega
  have e2 : idx s.points.length (i - s.order + s.order.toNat + 1) = min (i + 1) (s.points.length - 1) := by
    unfold idx
    split_ifs <;> omega
  rw [e1, e2, Near]
  push Not
  rfl

theorem weightFl_zero (hf : IsRounding p emin fl) {s : Spline ℚ (ι → ℚ)} (hs : Sorted s) (ho : 0 ≤ s.order) (t : ℚ) (i : ℕ) (hi : i < s.points.length) (h : ¬ Near s t i) :
    weightFl fl s t i = 0 := by
  rw [near_iff s ho t i hi, not_not] at h
  exact basisFl_zero hf (interval_mono hs (by omega)) _ _ _ h

theorem weight_zero {s : Spline ℚ (ι → ℚ)} (hs : Sorted s) (ho : 0 ≤ s.order) (t : ℚ) (i : ℕ) (hi : i < s.points.length) (h : ¬ Near s t i) : weight s t i = 0 := by
  rw [near_iff s ho t i hi, not_not] at h
  exact basis_zero (interval_mono hs (by omega)) _ _ _ h

/-- C121: in each rounding mode, the value depends on the knots and on the points near the parameter only. -/
theorem C121_local (hf : IsRounding p emin fl) (s r : Spline ℚ (ι → ℚ)) (hs : Sorted s) (ho : 0 ≤ s.order) (hr : r.order = s.order) (hn : r.points.length = s.points.length)
    (hk : ∀ i < s.points.length, knot r i = knot s i) (t : ℚ) (hp : ∀ i < s.points.length, Near s t i → pt r i = pt s i) : evaluateFl fl r t = evaluateFl fl s t := by
  funext c
  rw [evaluateFl_eq, evaluateFl_eq, hn]
  have hw : ∀ i < s.points.length, weightFl fl r t i = weightFl fl s t i := by
    intro i hi
    unfold weightFl
    rw [hr]
    congr 1
    funext j
    rw [interval_eq, interval_eq, hn]
    exact hk _ (C74_in_range _ (by omega) _)
  have key : ∀ n ≤ s.points.length, partialFl fl r t c n = partialFl fl s t c n := by
    intro n
    induction n with
    | zero => intro _; rfl
    | succ n ih =>
      intro hn'
      simp only [partialFl]
      rw [ih (by omega), hw n (by omega)]
      by_cases h : Near s t n
      · rw [hp n (by omega) h]
      · rw [weightFl_zero hf hs ho t n (by omega) h, mul_zero, mul_zero]
  exact key _ le_rfl

open Classical in
/-- At most `order + 1` points are near. -/
theorem near_count (s : Spline ℚ (ι → ℚ)) (hs : Sorted s) (t : ℚ) : #{i ∈ range s.points.length | Near s t i} ≤ s.order.toNat + 1 := by
  rcases Finset.eq_empty_or_nonempty {i ∈ range s.points.length | Near s t i} with h | h
  · rw [h]; simp
  obtain ⟨m, hm, hmin⟩ := Finset.exists_min_image _ id h
  rw [mem_filter, mem_range] at hm
  have hsub : {i ∈ range s.points.length | Near s t i} ⊆ Ico m (m + (s.order.toNat + 1)) := by
    intro i hi
    have hle := hmin i hi
    rw [mem_filter, mem_range] at hi
    simp only [id] at hle
    rw [mem_Ico]
    refine ⟨hle, ?_⟩
    by_contra hc
    have a := hm.2.2
    have b := hi.2.1
    have := hs (min (m + 1) (s.points.length - 1)) (i - s.order.toNat) (by omega) (by omega)
    linarith
  refine (card_le_card hsub).trans ?_
  rw [Nat.card_Ico]
  omega

open Classical in
/-- The rounding errors of the additions. -/
theorem partialFl_error (hf : IsRounding p emin fl) (hp : 1 ≤ p) {s : Spline ℚ (ι → ℚ)} (hs : Sorted s) (ho : 0 ≤ s.order) (t : ℚ) (c : ι) (n : ℕ) (hn : n ≤ s.points.length) :
    partialFl fl s t c n ∈ Floats p emin ∧
    |partialFl fl s t c n - ∑ i ∈ range n, fl (pt s i c * weightFl fl s t i)| ≤
      ((1 + unit p) ^ #{i ∈ range n | Near s t i} - 1) * ∑ i ∈ range n, |fl (pt s i c * weightFl fl s t i)| := by
  have hu0 := (unit_pos p).le
  induction n with
  | zero => exact ⟨zero_float, by simp [partialFl]⟩
  | succ n ih =>
    obtain ⟨i1, i2⟩ := ih (by omega)
    simp only [partialFl]
    refine ⟨hf.mem _, ?_⟩
    rw [sum_range_succ, sum_range_succ, range_add_one, filter_insert]
    by_cases h : Near s t n
    · rw [if_pos h, card_insert_of_notMem (by simp), pow_succ]
      have ha := round_add hf hp i1 (hf.mem (pt s n c * weightFl fl s t n))
      set y := fl (pt s n c * weightFl fl s t n) with hy
      set S := ∑ i ∈ range n, fl (pt s i c * weightFl fl s t i) with hS
      set A := ∑ i ∈ range n, |fl (pt s i c * weightFl fl s t i)| with hA
      have hSA : |S| ≤ A := abs_sum_le_sum_abs _ _
      set P := partialFl fl s t c n
      set G := (1 + unit p) ^ #{i ∈ range n | Near s t i}
      have hG : 1 ≤ G := one_le_pow₀ (by linarith)
      have t1 : |fl (P + y) - (S + y)| ≤ |fl (P + y) - (P + y)| + |P - S| := by
        have := abs_add_le (fl (P + y) - (P + y)) (P - S)
        rwa [show fl (P + y) - (P + y) + (P - S) = fl (P + y) - (S + y) by ring] at this
      have t2 : |P + y| ≤ |P - S| + |S| + |y| := by
        have a1 := abs_add_le (P - S + S) y
        have a2 := abs_add_le (P - S) S
        rw [sub_add_cancel] at a1 a2
        linarith
      have hy0 := abs_nonneg y
      have t3 : unit p * |P + y| ≤ unit p * (G * A + |y|) := by
        refine mul_le_mul_of_nonneg_left ?_ hu0
        nlinarith
      have t4 : 0 ≤ (G - 1) * |y| := mul_nonneg (by linarith) hy0
      have t5 : 0 ≤ (G - 1) * unit p * |y| := mul_nonneg (mul_nonneg (by linarith) hu0) hy0
      nlinarith
    · rw [if_neg h, weightFl_zero hf hs ho t n (by omega) h, mul_zero, fl_zero hf, add_zero, hf.fix _ i1]
      simpa using i2

theorem pow_upper {u : ℚ} (hu0 : 0 ≤ u) (hu : u < 1) {n : ℕ} (hn : 4 * n * u ≤ 1) : (1 + u) ^ n ≤ 1 + 4 / 3 * (n * u) := by
  refine le_trans ?_ (inv_pow hu0 hu hn)
  rw [le_div_iff₀ (pow_pos (by linarith) _), ← mul_pow]
  exact pow_le_one₀ (by nlinarith) (by nlinarith [sq_nonneg u])

theorem unit_lt_one (hp : 2 ≤ p) : unit p < 1 := by
  unfold unit
  rw [← zpow_zero (2 : ℚ)]
  exact zpow_lt_zpow_right₀ (by norm_num) (by omega)

/-- The weights are near the exact ones. -/
theorem weightFl_error (hf : IsRounding p emin fl) (hp : 2 ≤ p) (he : emin ≤ 0) {s : Spline ℚ (ι → ℚ)} (hs : Sorted s) (hfs : FloatSpline p emin s) (q : ℕ) (hq : s.order = q)
    (h1 : 20 * q * unit p ≤ 1) {t : ℚ} (ht : t ∈ Floats p emin) (i : ℕ) (hi : i < s.points.length) :
    |weightFl fl s t i - weight s t i| ≤ 7 * q * unit p * weight s t i + 4 ^ (q + 1) * 2 ^ emin := by
  unfold weightFl weight
  rw [hq, Int.toNat_natCast]
  exact weight_error hf hp he (interval_mono hs (by omega)) (interval_float hfs (by omega)) ht q h1 _

/-- The final estimate. -/
theorem total_error {M Q u q' A D e1 e2 η X Y Z c : ℚ} (hM : 0 ≤ M) (hu0 : 0 ≤ u) (hη : 0 ≤ η) (hQ : Q = q' * u + u) (hq : 0 ≤ q') (hQ1 : 20 * Q ≤ 1) (hA0 : 0 ≤ A)
    (h1 : |X - Y| ≤ e1 * A) (he : e1 ≤ 4 / 3 * Q) (hA : A ≤ M * ((1 + u) * D) + c * η) (hD : D ≤ 1 + 7 * q' * u + u) (hD0 : 0 ≤ D) (hc : 0 ≤ c)
    (h2 : |Y - Z| ≤ e2) (he2 : e2 ≤ M * (u * D + 7 * q' * u + u) + c * η) : |X - Z| ≤ 9 * Q * M + 2 * c * η := by
  have t : |X - Z| ≤ |X - Y| + |Y - Z| := abs_sub_le _ _ _
  have hqu : 0 ≤ q' * u := by positivity
  have hQ0 : 0 ≤ Q := by linarith
  have huQ : u ≤ 1 / 20 := by linarith
  have hD2 : D ≤ 27 / 20 := by nlinarith
  have a1 : e1 * A ≤ 4 / 3 * Q * A := mul_le_mul_of_nonneg_right he hA0
  have hcη : 0 ≤ c * η := by positivity
  have a2 : (1 + u) * D ≤ 21 / 20 * (27 / 20) := mul_le_mul (by linarith) hD2 hD0 (by norm_num)
  have a3 : A ≤ M * (21 / 20 * (27 / 20)) + c * η := hA.trans (by linarith [mul_le_mul_of_nonneg_left a2 hM])
  have a4 : 4 / 3 * Q * A ≤ 4 / 3 * Q * (M * (21 / 20 * (27 / 20)) + c * η) := mul_le_mul_of_nonneg_left a3 (by positivity)
  have a5 : Q * (c * η) ≤ 1 / 20 * (c * η) := mul_le_mul_of_nonneg_right (by linarith) hcη
  have a6 : u * D ≤ u * (27 / 20) := mul_le_mul_of_nonneg_left hD2 hu0
  have a7 : u * D + 7 * q' * u + u ≤ 7 * Q - 4 * u := by nlinarith
  have a8 : M * (u * D + 7 * q' * u + u) ≤ M * (7 * Q) := mul_le_mul_of_nonneg_left (by linarith) hM
  have a9 : 0 ≤ Q * M := by positivity
  nlinarith

open Classical in
/-- C121: with an order up to a twentieth of the precision, the error of each coordinate is at most `9 (order + 1)` units of the greatest coordinate of the near points (and underflow). -/
theorem C121_accuracy (hf : IsRounding p emin fl) (hp : 2 ≤ p) (he : emin ≤ 0) (s : Spline ℚ (ι → ℚ)) (hs : Sorted s) (hfs : FloatSpline p emin s) (q : ℕ) (hq : s.order = q)
    (h1 : 20 * (q + 1) * unit p ≤ 1) (h2 : (q + 1) * 4 ^ (q + 1) * 2 ^ emin ≤ unit p) (t : ℚ) (ht : t ∈ Floats p emin) (c : ι) (M : ℚ) (hM0 : 0 ≤ M)
    (hM : ∀ i < s.points.length, Near s t i → |pt s i c| ≤ M) :
    |evaluateFl fl s t c - evaluate s t c| ≤ 9 * ((q + 1) * unit p) * M + 2 * (q + 1) * 2 ^ emin := by
  have hu0 := (unit_pos p).le
  have hu := unit_lt_one hp
  have hη := (two_zpow_pos emin).le
  have ho : 0 ≤ s.order := by omega
  set n := s.points.length with hn
  rcases Nat.eq_zero_or_pos n with h0 | h0
  · have hnil : s.points = [] := List.length_eq_zero_iff.1 (by omega)
    unfold evaluateFl evaluate
    rw [hnil]
    simp only [List.isEmpty_nil, if_true, sub_self, abs_zero]
    positivity
  have hm := interval_mono hs (show 0 < s.points.length by omega)
  have hq0 : (0 : ℚ) ≤ q := by positivity
  have h1' : 20 * (q : ℚ) * unit p ≤ 1 := by nlinarith
  set κ : ℚ := 4 ^ (q + 1) * 2 ^ emin with hκ
  have hκ0 : 0 ≤ κ := by positivity
  -- numbers of near points
  have hcount : (#{i ∈ range n | Near s t i} : ℚ) ≤ q + 1 := by
    have := near_count s hs t
    rw [hq, Int.toNat_natCast] at this
    exact_mod_cast this
  have hind : ∀ z : ℚ, 0 ≤ z → ∑ i ∈ range n, (if Near s t i then z else 0) ≤ (q + 1) * z := by
    intro z hz
    rw [← sum_filter, sum_const, nsmul_eq_mul]
    exact mul_le_mul_of_nonneg_right hcount hz
  -- weights
  have hw0 : ∀ i, 0 ≤ weight s t i := fun i => basis_nonneg hm _ _ _
  have hv0 : ∀ i, 0 ≤ weightFl fl s t i := fun i => basisFl_nonneg hf hm _ _ _
  have hvw : ∀ i ∈ range n, |weightFl fl s t i - weight s t i| ≤ 7 * q * unit p * weight s t i + if Near s t i then κ else 0 := by
    intro i hi
    have hi := mem_range.1 hi
    by_cases hc : Near s t i
    · rw [if_pos hc]
      exact weightFl_error hf hp he hs hfs q hq h1' ht i hi
    · rw [if_neg hc, weight_zero hs ho t i hi hc, weightFl_zero hf hs ho t i hi hc]
      simp
  have hws := weight_sum_le s hs ho t
  have hD : ∑ i ∈ range n, weightFl fl s t i ≤ 1 + 7 * q * unit p + unit p := by
    have a : ∀ i ∈ range n, weightFl fl s t i ≤ (1 + 7 * q * unit p) * weight s t i + if Near s t i then κ else 0 := by
      intro i hi
      have := (abs_le.1 (hvw i hi)).2
      linarith
    refine (sum_le_sum a).trans ?_
    rw [sum_add_distrib, ← mul_sum]
    have b := hind κ hκ0
    have c1 : (1 + 7 * q * unit p) * ∑ i ∈ range n, weight s t i ≤ (1 + 7 * q * unit p) * 1 := mul_le_mul_of_nonneg_left hws (by positivity)
    have d : (q + 1) * κ ≤ unit p := by rw [hκ, ← mul_assoc]; exact h2
    linarith
  -- terms
  have hpM : ∀ i ∈ range n, ∀ z : ℚ, 0 ≤ z → (¬ Near s t i → z = 0) → |pt s i c| * z ≤ M * z := by
    intro i hi z hz hzz
    by_cases hc : Near s t i
    · exact mul_le_mul_of_nonneg_right (hM i (mem_range.1 hi) hc) hz
    · rw [hzz hc]; simp
  have hterm : ∀ i ∈ range n, |fl (pt s i c * weightFl fl s t i) - pt s i c * weightFl fl s t i| ≤ M * (unit p * weightFl fl s t i) + if Near s t i then 2 ^ emin else 0 := by
    intro i hi
    by_cases hc : Near s t i
    · rw [if_pos hc]
      have a := round_any hf (by omega) (pt s i c * weightFl fl s t i)
      rw [abs_mul, abs_of_nonneg (hv0 i)] at a
      have b := hpM i hi (unit p * weightFl fl s t i) (mul_nonneg hu0 (hv0 i)) (fun h => absurd hc h)
      have e : (2 : ℚ) ^ (1 - (p : ℤ)) = unit p := rfl
      rw [e] at a
      linarith
    · rw [if_neg hc, weightFl_zero hf hs ho t i (mem_range.1 hi) hc, mul_zero, fl_zero hf]
      simp
  have hA : ∑ i ∈ range n, |fl (pt s i c * weightFl fl s t i)| ≤ M * ((1 + unit p) * ∑ i ∈ range n, weightFl fl s t i) + (q + 1) * 2 ^ emin := by
    have a : ∀ i ∈ range n, |fl (pt s i c * weightFl fl s t i)| ≤ M * (1 + unit p) * weightFl fl s t i + if Near s t i then 2 ^ emin else 0 := by
      intro i hi
      have b := hterm i hi
      have d := hpM i hi (weightFl fl s t i) (hv0 i) (fun h => weightFl_zero hf hs ho t i (mem_range.1 hi) h)
      have e := abs_sub_abs_le_abs_sub (fl (pt s i c * weightFl fl s t i)) (pt s i c * weightFl fl s t i)
      rw [abs_mul (pt s i c), abs_of_nonneg (hv0 i)] at e
      linarith
    refine (sum_le_sum a).trans ?_
    rw [sum_add_distrib, ← mul_sum, mul_assoc]
    linarith [hind _ hη]
  have hB : |∑ i ∈ range n, fl (pt s i c * weightFl fl s t i) - evaluate s t c| ≤
      ∑ i ∈ range n, (M * (unit p * weightFl fl s t i + 7 * q * unit p * weight s t i) + ((if Near s t i then M * κ else 0) + if Near s t i then 2 ^ emin else 0)) := by
    rw [evaluate_eq, Finset.sum_apply, ← sum_sub_distrib]
    refine (abs_sum_le_sum_abs _ _).trans (sum_le_sum fun i hi => ?_)
    rw [Pi.smul_apply, smul_eq_mul]
    have b := hterm i hi
    have d := hpM i hi _ (abs_nonneg (weightFl fl s t i - weight s t i))
      (fun h => by rw [weight_zero hs ho t i (mem_range.1 hi) h, weightFl_zero hf hs ho t i (mem_range.1 hi) h]; simp)
    rw [← abs_mul] at d
    have e := mul_le_mul_of_nonneg_left (hvw i hi) hM0
    have g := abs_sub_le (fl (pt s i c * weightFl fl s t i)) (pt s i c * weightFl fl s t i) (weight s t i * pt s i c)
    rw [show pt s i c * weightFl fl s t i - weight s t i * pt s i c = pt s i c * (weightFl fl s t i - weight s t i) by ring] at g
    rw [mul_add, mul_ite, mul_zero] at e
    linarith
  have hC : ∑ i ∈ range n, (M * (unit p * weightFl fl s t i + 7 * q * unit p * weight s t i) + ((if Near s t i then M * κ else 0) + if Near s t i then 2 ^ emin else 0)) ≤
      M * (unit p * (∑ i ∈ range n, weightFl fl s t i) + 7 * q * unit p + unit p) + (q + 1) * 2 ^ emin := by
    rw [sum_add_distrib, ← mul_sum, sum_add_distrib, ← mul_sum, ← mul_sum, sum_add_distrib]
    have a := hind _ hη
    have b := hind (M * κ) (by positivity)
    have d : (q + 1) * κ ≤ unit p := by rw [hκ, ← mul_assoc]; exact h2
    have d' := mul_le_mul_of_nonneg_left d hM0
    have e : 7 * q * unit p * ∑ i ∈ range n, weight s t i ≤ 7 * q * unit p * 1 := mul_le_mul_of_nonneg_left hws (by positivity)
    have e' := mul_le_mul_of_nonneg_left e hM0
    nlinarith
  have hE := (partialFl_error (ι := ι) hf (by omega) hs ho t c n le_rfl).2
  rw [evaluateFl_eq]
  have hpow : (1 + unit p) ^ #{i ∈ range n | Near s t i} - 1 ≤ 4 / 3 * ((q + 1) * unit p) := by
    have a : (1 + unit p) ^ #{i ∈ range n | Near s t i} ≤ (1 + unit p) ^ (q + 1) := pow_le_pow_right₀ (by linarith) (by exact_mod_cast hcount)
    have b := pow_upper hu0 hu (n := q + 1) (by push_cast; nlinarith)
    push_cast at b
    linarith
  have := total_error (M := M) (Q := (q + 1) * unit p) (u := unit p) (q' := q) (η := 2 ^ emin) (c := q + 1) (D := ∑ i ∈ range n, weightFl fl s t i) hM0 hu0 hη (by ring) hq0
    (by linarith) (sum_nonneg fun i _ => abs_nonneg _) hE hpow hA hD (sum_nonneg fun i _ => hv0 i) (by positivity) hB hC
  exact this

/-- C121: near coordinates which are not less give a value which is not less, in each rounding mode. -/
theorem C121_monotone (hf : IsRounding p emin fl) (s r : Spline ℚ (ι → ℚ)) (hs : Sorted s) (ho : 0 ≤ s.order) (hr : r.order = s.order) (hn : r.points.length = s.points.length)
    (hk : ∀ i < s.points.length, knot r i = knot s i) (t : ℚ) (c : ι) (hp : ∀ i < s.points.length, Near s t i → pt s i c ≤ pt r i c) : evaluateFl fl s t c ≤ evaluateFl fl r t c := by
  rw [evaluateFl_eq, evaluateFl_eq, hn]
  have hw : ∀ i < s.points.length, weightFl fl r t i = weightFl fl s t i := by
    intro i hi
    unfold weightFl
    rw [hr]
    congr 1
    funext j
    rw [interval_eq, interval_eq, hn]
    exact hk _ (C74_in_range _ (by omega) _)
  have key : ∀ n ≤ s.points.length, partialFl fl s t c n ≤ partialFl fl r t c n := by
    intro n
    induction n with
    | zero => intro _; exact le_rfl
    | succ n ih =>
      intro hn'
      simp only [partialFl]
      rw [hw n (by omega)]
      refine hf.mono (add_le_add (ih (by omega)) (hf.mono ?_))
      by_cases h : Near s t n
      · exact mul_le_mul_of_nonneg_right (hp n (by omega) h) (basisFl_nonneg hf (interval_mono hs (by omega)) _ _ _)
      · rw [weightFl_zero hf hs ho t n (by omega) h, mul_zero, mul_zero]
  exact key _ le_rfl

/-- C121: as in exact arithmetic (C74), from the last knot on the value is zero. -/
theorem C121_end (hf : IsRounding p emin fl) (s : Spline ℚ (ι → ℚ)) (hs : Sorted s) (ho : 0 ≤ s.order) (t : ℚ) (ht : knot s (s.points.length - 1) ≤ t) : evaluateFl fl s t = 0 := by
  funext c
  rw [evaluateFl_eq]
  have key : ∀ n ≤ s.points.length, partialFl fl s t c n = 0 := by
    intro n
    induction n with
    | zero => intro _; rfl
    | succ n ih =>
      intro hn
      simp only [partialFl]
      rw [ih (by omega), weightFl_zero hf hs ho t n (by omega), mul_zero, fl_zero hf, add_zero, fl_zero hf]
      intro h
      exact absurd (h.2.trans_le (hs _ _ (by omega) (by omega))) (not_lt.2 ht)
  exact key _ le_rfl

/-- With all the weight on one point the value is this point. -/
theorem evaluateFl_single (hf : IsRounding p emin fl) {s : Spline ℚ (ι → ℚ)} (hfs : FloatSpline p emin s) {t : ℚ} {k : ℕ} (hk : k < s.points.length)
    (hw : ∀ i < s.points.length, weightFl fl s t i = if i = k then 1 else 0) : evaluateFl fl s t = pt s k := by
  funext c
  rw [evaluateFl_eq]
  have key : ∀ n ≤ s.points.length, partialFl fl s t c n = if k < n then pt s k c else 0 := by
    intro n
    induction n with
    | zero => intro _; simp [partialFl]
    | succ n ih =>
      intro hn
      simp only [partialFl]
      rw [ih (by omega), hw n (by omega)]
      rcases lt_trichotomy k n with h | h | h
      · rw [if_pos h, if_neg (by omega), if_pos (by omega), mul_zero, fl_zero hf, add_zero, hf.fix _ (hfs.points k hk c)]
      · subst h
        rw [if_neg (by omega), if_pos rfl, if_pos (by omega), mul_one, hf.fix _ (hfs.points k hk c), zero_add, hf.fix _ (hfs.points k hk c)]
      · rw [if_neg (by omega), if_neg (by omega), if_neg (by omega), mul_zero, fl_zero hf, add_zero, fl_zero hf]
  rw [key _ le_rfl, if_pos hk]

theorem fl_pos (hf : IsRounding p emin fl) (hp : 2 ≤ p) {y z : ℚ} (hy : y ∈ Floats p emin) (hz : z ∈ Floats p emin) (h : z < y) : 0 < fl (y - z) := by
  have a := round_sub hf (by omega) hy hz
  have e : (2 : ℚ) ^ (1 - (p : ℤ)) = unit p := rfl
  rw [e, abs_of_pos (by linarith : 0 < y - z)] at a
  have := (abs_le.1 a).1
  have hu := unit_lt_one hp
  nlinarith

/-- C121: the curve begins exactly at the first point. -/
theorem C121_start (hf : IsRounding p emin fl) (hp : 2 ≤ p) (he : emin ≤ 0) (s : Spline ℚ (ι → ℚ)) (hs : Sorted s) (hfs : FloatSpline p emin s) (ho : 0 ≤ s.order)
    (h1 : 1 < s.points.length) (h : knot s 0 < knot s 1) : evaluateFl fl s (knot s 0) = pt s 0 := by
  refine evaluateFl_single hf hfs (by omega) fun i hi => ?_
  have low : ∀ j : ℤ, j ≤ 0 → interval s.points j = knot s 0 := by
    intro j hj
    rw [interval_eq]
    congr 1
    unfold idx
    split_ifs <;> omega
  have one : interval s.points 1 = knot s 1 := interval_nat s 1 h1
  have hm := interval_mono hs (show 0 < s.points.length by omega)
  have high : ∀ j : ℤ, 0 < j → knot s 0 < interval s.points j := by
    intro j hj
    refine h.trans_le ?_
    rw [← one]
    exact hm (by omega)
  have hpos : 0 < fl (knot s 1 - knot s 0) := fl_pos hf hp (hfs.knots 1 h1) (hfs.knots 0 (by omega)) h
  have key : ∀ (q : ℕ) (j : ℤ), basisFl fl (interval s.points) q j (knot s 0) = if j + q = 0 then 1 else 0 := by
    intro q
    induction q with
    | zero =>
      intro j
      simp only [basisFl, Nat.cast_zero, add_zero]
      rcases lt_trichotomy j 0 with c | c | c
      · rw [if_neg (by rw [low (j + 1) (by omega)]; exact fun hh => lt_irrefl _ hh.2), if_neg (by omega)]
      · subst c
        rw [if_pos ⟨(low 0 le_rfl).le, high _ (by norm_num)⟩, if_pos rfl]
      · rw [if_neg (fun hh => absurd hh.1 (not_le.2 (high j c))), if_neg (by omega)]
    | succ q ih =>
      intro j
      simp only [basisFl]
      have r1 : (if 0 < fl (interval s.points (j + (q + 1 : ℕ)) - interval s.points j) then
          fl (fl (fl (knot s 0 - interval s.points j) / fl (interval s.points (j + (q + 1 : ℕ)) - interval s.points j)) * basisFl fl (interval s.points) q j (knot s 0)) else 0) = 0 := by
        rw [ih]
        split_ifs with c d
        · rw [low j (by omega), sub_self, fl_zero hf, zero_div, fl_zero hf, zero_mul, fl_zero hf]
        · rw [mul_zero, fl_zero hf]
        · rfl
      rw [r1, ih, zero_add]
      by_cases d : j + (q + 1 : ℕ) = 0
      · rw [if_pos (by push_cast at d; omega : j + 1 + (q : ℤ) = 0), if_pos d, d, low (j + 1) (by push_cast at d; omega)]
        norm_num only
        rw [one, if_pos hpos, div_self hpos.ne', fl_one hf (by omega) he, mul_one, fl_one hf (by omega) he, fl_one hf (by omega) he]
      · rw [if_neg (by push_cast at d; omega : ¬ j + 1 + (q : ℤ) = 0), if_neg d, mul_zero, fl_zero hf, ite_self, fl_zero hf]
  unfold weightFl
  rw [key]
  congr 1
  rw [eq_iff_iff]
  omega

/-- C121: a spline of order one passes exactly through its points (but the last one, see `C121_end`). -/
theorem C121_knot (hf : IsRounding p emin fl) (hp : 2 ≤ p) (he : emin ≤ 0) (s : Spline ℚ (ι → ℚ)) (hs : Sorted s) (hfs : FloatSpline p emin s) (hq : s.order = 1) (k : ℕ)
    (hk : k + 1 < s.points.length) (h : knot s k < knot s (k + 1)) : evaluateFl fl s (knot s k) = pt s k := by
  have hm := interval_mono hs (show 0 < s.points.length by omega)
  have e0 : interval s.points k = knot s k := interval_nat s k (by omega)
  have e1 : interval s.points (k + 1) = knot s (k + 1) := by
    rw [show (k : ℤ) + 1 = ((k + 1 : ℕ) : ℤ) by push_cast; ring, interval_nat _ _ hk]
  have hpos : 0 < fl (knot s (k + 1) - knot s k) := fl_pos hf hp (hfs.knots _ hk) (hfs.knots k (by omega)) h
  have b0 : ∀ j : ℤ, basisFl fl (interval s.points) 0 j (knot s k) = if j = k then 1 else 0 := by
    intro j
    simp only [basisFl]
    rcases lt_trichotomy j k with c | c | c
    · rw [if_neg, if_neg (by omega)]
      rintro ⟨-, c2⟩
      have := hm (show j + 1 ≤ k by omega)
      linarith
    · rw [if_pos c, c, e0, e1, if_pos ⟨le_rfl, h⟩]
    · rw [if_neg, if_neg (by omega)]
      rintro ⟨c1, -⟩
      have := hm (show (k : ℤ) + 1 ≤ j by omega)
      linarith
  refine evaluateFl_single hf hfs (by omega) fun i hi => ?_
  rw [weightFl, hq, show (1 : ℤ).toNat = 0 + 1 from rfl]
  simp only [basisFl.eq_2, b0]
  rw [show ((0 + 1 : ℕ) : ℤ) = 1 by norm_num, sub_add_cancel]
  have r1 : (if 0 < fl (interval s.points i - interval s.points (i - 1)) then
      fl (fl (fl (knot s k - interval s.points (i - 1)) / fl (interval s.points i - interval s.points (i - 1))) * if (i : ℤ) - 1 = k then 1 else 0) else 0) = 0 := by
    split_ifs with c d
    · rw [d, e0, sub_self, fl_zero hf, zero_div, fl_zero hf, zero_mul, fl_zero hf]
    · rw [mul_zero, fl_zero hf]
    · rfl
  rw [r1, zero_add]
  by_cases d : i = k
  · subst d
    rw [e0, e1, if_pos hpos, if_pos rfl, if_pos rfl, div_self hpos.ne', fl_one hf (by omega) he, mul_one, fl_one hf (by omega) he, fl_one hf (by omega) he]
  · rw [if_neg (show ¬ (i : ℤ) = k by omega), mul_zero, fl_zero hf, ite_self, fl_zero hf, if_neg d]

/-- In exact arithmetic the value is between the near points. -/
theorem hull_coord (s : Spline ℚ (ι → ℚ)) (hs : Sorted s) (q : ℕ) (hq : s.order = q) (hq1 : 1 ≤ q) (hqn : q < s.points.length) (t : ℚ) (h0 : knot s 0 ≤ t)
    (ht : t < knot s (s.points.length - q)) (c : ι)
    (lo hi : ℚ) (hM : ∀ i < s.points.length, Near s t i → lo ≤ pt s i c ∧ pt s i c ≤ hi) : lo ≤ evaluate s t c ∧ evaluate s t c ≤ hi := by
  obtain ⟨k, hk, k1, k2⟩ := find_knot s t _ h0 ht
  have hk1 : k + 1 < s.points.length := by omega
  · have hm := interval_mono hs (show 0 < s.points.length by omega)
    have hw := weight_sum_window s hs q hq t k hk1 k1 k2
    have hnear : ∀ m ∈ range (q + 1), lo ≤ pt s (k + m) c ∧ pt s (k + m) c ≤ hi := by
      intro m hm'
      have hm' := mem_range.1 hm'
      refine hM (k + m) (by omega) ⟨?_, ?_⟩
      · rw [hq, Int.toNat_natCast]
        exact (hs _ _ (by omega) (by omega)).trans k1
      · exact k2.trans_le (hs _ _ (by omega) (by omega))
    have hw0 : ∀ m, 0 ≤ weight s t (k + m) := fun m => basis_nonneg hm _ _ _
    have e : evaluate s t c = ∑ m ∈ range (q + 1), weight s t (k + m) * pt s (k + m) c := by
      rw [evaluate_eq, sum_window s hs q hq t k (by omega) hk1 k1 k2, Finset.sum_apply]
      rfl
    rw [e]
    constructor
    · calc lo = ∑ m ∈ range (q + 1), weight s t (k + m) * lo := by rw [← sum_mul, hw, one_mul]
        _ ≤ _ := sum_le_sum fun m hm' => mul_le_mul_of_nonneg_left (hnear m hm').1 (hw0 m)
    · calc _ ≤ ∑ m ∈ range (q + 1), weight s t (k + m) * hi := sum_le_sum fun m hm' => mul_le_mul_of_nonneg_left (hnear m hm').2 (hw0 m)
        _ = hi := by rw [← sum_mul, hw, one_mul]

/-- C121: before the knot `n - order` the value stays between the near points, up to the error. -/
theorem C121_hull (hf : IsRounding p emin fl) (hp : 2 ≤ p) (he : emin ≤ 0) (s : Spline ℚ (ι → ℚ)) (hs : Sorted s) (hfs : FloatSpline p emin s) (q : ℕ) (hq : s.order = q) (hq1 : 1 ≤ q)
    (hqn : q < s.points.length) (h1 : 20 * (q + 1) * unit p ≤ 1) (h2 : (q + 1) * 4 ^ (q + 1) * 2 ^ emin ≤ unit p) (t : ℚ) (ht : t ∈ Floats p emin) (h0 : knot s 0 ≤ t)
    (ht' : t < knot s (s.points.length - q)) (c : ι) (lo hi : ℚ) (hM : ∀ i < s.points.length, Near s t i → lo ≤ pt s i c ∧ pt s i c ≤ hi) :
    lo - (9 * ((q + 1) * unit p) * max |lo| |hi| + 2 * (q + 1) * 2 ^ emin) ≤ evaluateFl fl s t c ∧
    evaluateFl fl s t c ≤ hi + (9 * ((q + 1) * unit p) * max |lo| |hi| + 2 * (q + 1) * 2 ^ emin) := by
  have a := C121_accuracy hf hp he s hs hfs q hq h1 h2 t ht c (max |lo| |hi|) (le_max_of_le_left (abs_nonneg _))
    (fun i hi' hn => by
      obtain ⟨x1, x2⟩ := hM i hi' hn
      exact abs_le_max_abs_abs x1 x2)
  have hmem := hull_coord s hs q hq hq1 hqn t h0 ht' c lo hi hM
  have b := abs_le.1 a
  exact ⟨by linarith [hmem.1, b.1], by linarith [hmem.2, b.2]⟩

/-! A spline of order three. -/

/-- A curve in the plane with six points. -/
def planeSpline : Spline ℚ (Fin 2 → ℚ) :=
  ⟨[⟨![0, 1], 0⟩, ⟨![1, 3], 1⟩, ⟨![2, 2], 2⟩, ⟨![4, 2], 3⟩, ⟨![4, 0], 4⟩, ⟨![6, 1], 5⟩], 3⟩

theorem plane_sorted : Sorted planeSpline := by
  intro i j hij hj
  have hj' : j < 6 := hj
  interval_cases j <;> interval_cases i <;> norm_num [knot, planeSpline]

theorem plane_float : FloatSpline 24 (-149) planeSpline where
  knots i hi := by
    have hi' : i < 6 := hi
    interval_cases i <;> simp only [knot, planeSpline, List.getElem?_cons_zero, List.getElem?_cons_succ, Option.map_some, Option.getD_some]
    exacts [⟨0, 0, by norm_num, by norm_num, by norm_num⟩, ⟨1, 0, by norm_num, by norm_num, by norm_num⟩, ⟨2, 0, by norm_num, by norm_num, by norm_num⟩,
      ⟨3, 0, by norm_num, by norm_num, by norm_num⟩, ⟨4, 0, by norm_num, by norm_num, by norm_num⟩, ⟨5, 0, by norm_num, by norm_num, by norm_num⟩]
  points i hi c := by
    have hi' : i < 6 := hi
    have nat : ∀ k : ℕ, k < 8 → (k : ℚ) ∈ Floats 24 (-149) := fun k hk => ⟨k, 0, by rw [abs_of_nonneg (by positivity)]; omega, by norm_num, by simp⟩
    have h0 := nat 0 (by norm_num)
    have h1 := nat 1 (by norm_num)
    have h2 := nat 2 (by norm_num)
    have h3 := nat 3 (by norm_num)
    have h4 := nat 4 (by norm_num)
    have h6 := nat 6 (by norm_num)
    push_cast at h0 h1 h2 h3 h4 h6
    interval_cases i <;> fin_cases c <;> simp [pt, planeSpline] <;> assumption

/-- With `float` the error at 5/2 is at most `9 * 4 * 2^-23 * 6`, as no coordinate is greater than six. -/
example : |evaluateFl (nearest 24 (-149)) planeSpline (5 / 2) 0 - evaluate planeSpline (5 / 2) 0| ≤ 9 * ((3 + 1) * unit 24) * 6 + 2 * (3 + 1) * 2 ^ (-149 : ℤ) :=
  C121_accuracy (nearest_isNearest (by norm_num)).toIsRounding (by norm_num) (by norm_num) planeSpline plane_sorted plane_float 3 rfl (by norm_num [unit]) (by norm_num [unit]) (5 / 2)
    ⟨5, -1, by norm_num, by norm_num, by norm_num⟩ 0 6 (by norm_num) (by
      intro i hi _
      have hi' : i < 6 := hi
      interval_cases i <;> norm_num [pt, planeSpline])

example : 0 ≤ evaluateFl (nearest 24 (-149)) planeSpline (5 / 2) 1 + (9 * ((3 + 1) * unit 24) * max |0| |3| + 2 * (3 + 1) * 2 ^ (-149 : ℤ)) := by
  have := (C121_hull (nearest_isNearest (p := 24) (emin := -149) (by norm_num)).toIsRounding (by norm_num) (by norm_num) planeSpline plane_sorted plane_float 3 rfl (by norm_num)
    (by norm_num [planeSpline]) (by norm_num [unit]) (by norm_num [unit]) (5 / 2) ⟨5, -1, by norm_num, by norm_num, by norm_num⟩ (by norm_num [knot, planeSpline])
    (by norm_num [knot, planeSpline]) 1 0 3 (by
      intro i hi _
      have hi' : i < 6 := hi
      interval_cases i <;> norm_num [pt, planeSpline])).1
  push_cast at this
  linarith

example : Near planeSpline (5 / 2) 3 := by
  norm_num [Near, knot, planeSpline]

/-- The same curve with another point at the index one. -/
def movedSpline (v : Fin 2 → ℚ) : Spline ℚ (Fin 2 → ℚ) :=
  ⟨[⟨![0, 1], 0⟩, ⟨v, 1⟩, ⟨![2, 2], 2⟩, ⟨![4, 2], 3⟩, ⟨![4, 0], 4⟩, ⟨![6, 1], 5⟩], 3⟩

theorem moved_knot (v : Fin 2 → ℚ) (i : ℕ) (hi : i < planeSpline.points.length) : knot (movedSpline v) i = knot planeSpline i := by
  have hi' : i < 6 := hi
  interval_cases i <;> norm_num [knot, planeSpline, movedSpline]

theorem moved_pt (v : Fin 2 → ℚ) (i : ℕ) (hi : i < planeSpline.points.length) (h1 : i ≠ 1) : pt (movedSpline v) i = pt planeSpline i := by
  have hi' : i < 6 := hi
  interval_cases i
  · norm_num [pt, planeSpline, movedSpline]
  · exact absurd rfl h1
  all_goals norm_num [pt, planeSpline, movedSpline]

/-- Moving the point with the index one changes nothing at 9/2, and moving it to the right moves no point of the curve to the left. -/
example (hf : IsRounding 24 (-149) fl) (v : Fin 2 → ℚ) : evaluateFl fl (movedSpline v) (9 / 2) = evaluateFl fl planeSpline (9 / 2) := by
  refine C121_local hf planeSpline (movedSpline v) plane_sorted (by norm_num [planeSpline]) rfl rfl (moved_knot v) (9 / 2) fun i hi hn => moved_pt v i hi ?_
  rintro rfl
  norm_num [Near, knot, planeSpline] at hn

example (hf : IsRounding 24 (-149) fl) (v : Fin 2 → ℚ) (hv : 1 ≤ v 0) (t : ℚ) : evaluateFl fl planeSpline t 0 ≤ evaluateFl fl (movedSpline v) t 0 := by
  refine C121_monotone hf planeSpline (movedSpline v) plane_sorted (by norm_num [planeSpline]) rfl rfl (moved_knot v) t 0 fun i hi _ => ?_
  rcases eq_or_ne i 1 with rfl | h
  · simpa [pt, planeSpline, movedSpline] using hv
  · rw [moved_pt v i hi h]

example : evaluateFl (nearest 24 (-149)) { planeSpline with order := 1 } 3 = ![4, 2] :=
  C121_knot (nearest_isNearest (p := 24) (emin := -149) (by norm_num)).toIsRounding (by norm_num) (by norm_num) { planeSpline with order := 1 } plane_sorted ⟨plane_float.knots, plane_float.points⟩ rfl 3
    (by norm_num [planeSpline]) (by norm_num [knot, planeSpline])

example : evaluateFl (nearest 24 (-149)) planeSpline 5 = 0 :=
  C121_end (nearest_isNearest (p := 24) (emin := -149) (by norm_num)).toIsRounding planeSpline plane_sorted (by norm_num [planeSpline]) 5 (by norm_num [knot, planeSpline])

example : evaluateFl (nearest 24 (-149)) planeSpline 0 = ![0, 1] :=
  C121_start (nearest_isNearest (by norm_num)).toIsRounding (by norm_num) (by norm_num) planeSpline plane_sorted plane_float (by norm_num [planeSpline]) (by norm_num [planeSpline])
    (by norm_num [knot, planeSpline])

end Geom.Spline
