import Verif.Model.SplineFloat
import Verif.Base.Float
import Mathlib.Tactic.NormNum

/-!
# Uniform splines with rounding (property C100)
-/
set_option linter.unusedSectionVars false
set_option autoImplicit false

namespace Geom.UniformSpline.Props
open Geom.UniformSpline Geom.Float

variable {p : ℕ} {emin : ℤ} {fl : ℚ → ℚ} {α β : Type}

/-- The greatest float below one. -/
theorem le_pred_one (hp : 1 ≤ p) {t : ℚ} (ht : t ∈ Floats p emin) (h1 : t < 1) : t ≤ 1 - 2 ^ (-(p : ℤ)) := by
  have hu := two_zpow_pos (-(p : ℤ))
  have hle : (2 : ℚ) ^ (-(p : ℤ)) ≤ 1 / 2 := by
    calc (2 : ℚ) ^ (-(p : ℤ)) ≤ 2 ^ (-1 : ℤ) := zpow_le_zpow_right₀ (by norm_num) (by omega)
      _ = 1 / 2 := by norm_num
  rcases lt_or_ge t (1 / 2) with h | h
  · linarith
  · have eh : (2 : ℚ) ^ ((p : ℤ) + (-1 - p)) = 1 / 2 := by
      rw [show (p : ℤ) + (-1 - p) = -1 by ring]; norm_num
    obtain ⟨j, hj⟩ := multiple_of_le (k := -1 - p) ht (by rw [eh, abs_of_pos (by linarith)]; exact h)
    rw [show (-1 - (p : ℤ)) + 1 = -p by ring] at hj
    have e1 : (1 : ℚ) = ((2 ^ p : ℤ) : ℚ) * 2 ^ (-(p : ℤ)) := by
      push_cast
      rw [zpow_neg, zpow_natCast]
      exact (mul_inv_cancel₀ (by positivity)).symm
    rw [hj] at h1 ⊢
    have h2 : (j : ℚ) < ((2 ^ p : ℤ) : ℚ) := lt_of_mul_lt_mul_right (by rw [← e1]; exact h1) hu.le
    have h3 : j + 1 ≤ 2 ^ p := by have : j < 2 ^ p := by exact_mod_cast h2
                                  omega
    have h4 : ((j : ℚ) + 1) ≤ ((2 ^ p : ℤ) : ℚ) := by exact_mod_cast h3
    have := mul_le_mul_of_nonneg_right h4 hu.le
    rw [← e1] at this
    linarith

/-- The number of polynomials, rounded and multiplied by a parameter below one, is rounded to less than the number of polynomials. -/
theorem index_lt (hf : IsNearest p emin fl) (hp : 1 ≤ p) (he : emin ≤ -(p : ℤ)) {n : ℕ} (hn : 1 ≤ n) {t : ℚ} (ht : t ∈ Floats p emin) (h1 : t < 1) :
    fl (t * fl n) < n := by
  have hr := hf.toIsRounding
  have hone : (1 : ℚ) ∈ Floats p emin := by
    have := int_mem (p := p) (emin := emin) (k := 1) hp (by omega) (by rw [abs_one]; exact one_le_pow₀ (by norm_num))
    simpa using this
  have hn1 : (1 : ℚ) ≤ n := by exact_mod_cast hn
  have hy1 : 1 ≤ fl n := by have := hr.mono hn1; rwa [hr.fix _ hone] at this
  have hym := hr.mem (n : ℚ)
  have hnear := hf.near (n : ℚ)
  generalize fl (n : ℚ) = y at *
  have htp := le_pred_one hp ht h1
  have hty : t * y ≤ y - y * 2 ^ (-(p : ℤ)) := by
    have := mul_le_mul_of_nonneg_right htp (by linarith : 0 ≤ y)
    linarith
  have hty1 : t * y ≤ y := by
    have := mul_le_mul_of_nonneg_right h1.le (by linarith : 0 ≤ y)
    linarith
  by_contra hc
  rw [not_lt] at hc
  have hz := hr.mem (t * y)
  have hzy : fl (t * y) ≤ y := by have := hr.mono hty1; rwa [hr.fix _ hym] at this
  rcases hzy.lt_or_eq with h | h
  · -- a float between the number and its rounding
    have := hnear _ hz
    rw [abs_of_nonneg (by linarith), abs_of_nonneg (by linarith)] at this
    linarith
  · -- the product is rounded to y: there is a nearer float
    have hy0 : 0 < y := by linarith
    have l1 := Int.zpow_log_le_self (R := ℚ) (b := 2) (by norm_num) hy0
    have l2 := Int.lt_zpow_succ_log_self (R := ℚ) (b := 2) (by norm_num) y
    push_cast at l1 l2
    have hk0 : 0 ≤ Int.log 2 y := by
      by_contra hneg
      have : (2 : ℚ) ^ (Int.log 2 y + 1) ≤ 2 ^ (0 : ℤ) := zpow_le_zpow_right₀ (by norm_num) (by omega)
      rw [zpow_zero] at this
      linarith
    generalize Int.log 2 y = k at *
    have eu : (2 : ℚ) ^ (k - p + 1) = 2 * 2 ^ (k - p) := by rw [zpow_add₀ (by norm_num)]; ring
    have ek : (2 : ℚ) ^ k = 2 ^ p * 2 ^ (k - p) := by
      rw [← zpow_natCast, ← zpow_add₀ (by norm_num)]; congr 1; ring
    have ek1 : (2 : ℚ) ^ (k + 1) = 2 ^ p * (2 * 2 ^ (k - p)) := by rw [zpow_add₀ (by norm_num), ek]; ring
    have eyp : (2 : ℚ) ^ k * 2 ^ (-(p : ℤ)) = 2 ^ (k - p) := by rw [← zpow_add₀ (by norm_num)]; congr 1
    have hu := two_zpow_pos (k - p)
    have hup := two_zpow_pos (-(p : ℤ))
    rcases l1.lt_or_eq with l | l
    · obtain ⟨j, hj⟩ := multiple_of_le (k := k - p) hym (by rw [abs_of_pos hy0, show (p : ℤ) + (k - p) = k by ring]; exact l1)
      have hjp : (j : ℚ) < ((2 ^ p : ℤ) : ℚ) := by
        rw [hj, eu, ek1] at l2
        push_cast
        exact lt_of_mul_lt_mul_right l2 (by linarith)
      have hj0 : (0 : ℚ) < j := by
        by_contra hneg
        have := mul_nonpos_of_nonpos_of_nonneg (not_lt.1 hneg) (two_zpow_pos (k - p + 1)).le
        linarith
      have hjp' : j < 2 ^ p := by exact_mod_cast hjp
      have hj0' : 0 < j := by exact_mod_cast hj0
      have hw : ((j - 1 : ℤ) : ℚ) * 2 ^ (k - p + 1) ∈ Floats p emin :=
        ⟨j - 1, k - p + 1, by rw [abs_of_nonneg (by omega)]; omega, by omega, rfl⟩
      have hlt : t * y < y - 2 ^ (k - p) := by
        have := mul_lt_mul_of_pos_right l hup
        rw [eyp] at this
        linarith
      have := hf.near (t * y) _ hw
      rw [h, abs_of_nonneg (by linarith)] at this
      have ew : ((j - 1 : ℤ) : ℚ) * 2 ^ (k - p + 1) = y - 2 * 2 ^ (k - p) := by rw [hj, eu]; push_cast; ring
      rw [ew] at this
      have h5 : |y - 2 * 2 ^ (k - p) - t * y| < y - t * y := by
        rw [abs_lt]; constructor <;> linarith
      linarith
    · -- a power of two: the float below it is not less than the product
      have hw : ((2 ^ p - 1 : ℤ) : ℚ) * 2 ^ (k - p) ∈ Floats p emin := by
        refine ⟨2 ^ p - 1, k - p, ?_, by omega, rfl⟩
        have : (1 : ℤ) ≤ 2 ^ p := one_le_pow₀ (by norm_num)
        rw [abs_of_nonneg (by omega)]; omega
      have ew : ((2 ^ p - 1 : ℤ) : ℚ) * 2 ^ (k - p) = y - 2 ^ (k - p) := by rw [← l, ek]; push_cast; ring
      have hle : t * y ≤ y - 2 ^ (k - p) := by
        rw [← l, eyp] at hty
        rw [← l]; exact hty
      rw [ew] at hw
      have := hr.mono hle
      rw [hr.fix _ hw, h] at this
      linarith

theorem frac_mem (hp : 1 ≤ p) (he : emin ≤ 0) {x : ℚ} (hx : x ∈ Floats p emin) (h0 : 0 ≤ x) : x - ⌊x⌋ ∈ Floats p emin := by
  rcases le_or_gt ((2 : ℚ) ^ p) x with h | h
  · obtain ⟨j, hj⟩ := multiple_of_le (k := 0) hx (by rw [add_zero, zpow_natCast, abs_of_nonneg h0]; exact h)
    have e : x = ((j * 2 : ℤ) : ℚ) := by rw [hj]; push_cast; norm_num
    rw [e, Int.floor_intCast, sub_self]
    exact ⟨0, 0, by simp, he, by simp⟩
  · have key : ∀ j : ℕ, (j : ℤ) ≤ ⌊x⌋ → x - j ∈ Floats p emin := by
      intro j
      induction j with
      | zero => intro _; simpa using hx
      | succ j ih =>
        intro hj
        have h1 : (((j + 1 : ℕ) : ℤ) : ℚ) ≤ x := Int.le_floor.1 hj
        push_cast at h1 hj
        have hj0 : (0 : ℚ) ≤ j := Nat.cast_nonneg j
        have := sub_one_mem hp he (ih (by omega)) (by linarith) (by linarith)
        have e : x - ((j + 1 : ℕ) : ℚ) = x - j - 1 := by push_cast; ring
        rw [e]; exact this
    have hf0 := Int.floor_nonneg.2 h0
    have := key ⌊x⌋.toNat (by omega)
    have e : ((⌊x⌋.toNat : ℕ) : ℚ) = ((⌊x⌋ : ℤ) : ℚ) := by
      have : ((⌊x⌋.toNat : ℕ) : ℤ) = ⌊x⌋ := Int.toNat_of_nonneg hf0
      exact_mod_cast this
    rwa [e] at this

/-- Without rounding this is the model of the exact `Evaluate`. -/
theorem evaluateFl_id {d : ℕ} (ps : List (Polynomial ℚ d)) (t : ℚ) : evaluateFl id Polynomial.evaluate 0 ps t = evaluate ps t := by
  unfold evaluateFl evaluate
  simp only [id]
  split_ifs
  · cases ps.head? <;> rfl
  · cases ps.getLast? <;> rfl
  · cases ps[⌊t * (ps.length : ℚ)⌋.toNat]? <;> rfl
  · rfl

/-- `Evaluate` is defined with rounding to the nearest, for each number of polynomials (also if it is not a float): for a float parameter inside of
(0, 1) the result is a polynomial of the spline at a parameter in [0, 1), and index and parameter together are the rounded product, without
a further error. -/
theorem C100_defined (hf : IsNearest p emin fl) (hp : 1 ≤ p) (he : emin ≤ -(p : ℤ)) (ev : α → ℚ → β) (zero : β) (ps : List α) (hps : ps ≠ []) (t : ℚ)
    (ht : t ∈ Floats p emin) (h0 : 0 < t) (h1 : t < 1) :
    ∃ (i : ℕ) (hi : i < ps.length) (u : ℚ), 0 ≤ u ∧ u < 1 ∧ (i : ℚ) + u = fl (t * fl ps.length) ∧ evaluateFl fl ev zero ps t = .ok (ev ps[i] u) := by
  have hr := hf.toIsRounding
  have hlen : 1 ≤ ps.length := List.length_pos_iff.2 hps
  have hlt := index_lt hf hp he hlen ht h1
  have hz := hr.fix 0 ⟨0, 0, by simp, by omega, by simp⟩
  have hn0 : 0 ≤ fl (ps.length : ℚ) := hz ▸ hr.mono (by positivity)
  have hx0 : 0 ≤ fl (t * fl (ps.length : ℚ)) := hz ▸ hr.mono (mul_nonneg h0.le hn0)
  have hfrac := frac_mem hp (by omega) (hr.mem (t * fl (ps.length : ℚ))) hx0
  unfold evaluateFl
  rw [if_pos hps, if_neg (not_le.2 h0), if_neg (not_le.2 h1)]
  dsimp only
  rw [hr.fix _ hfrac]
  generalize fl (t * fl (ps.length : ℚ)) = x at *
  have hf0 := Int.floor_nonneg.2 hx0
  have hfl : ⌊x⌋ < (ps.length : ℤ) := by rw [Int.floor_lt]; exact_mod_cast hlt
  have hi : ⌊x⌋.toNat < ps.length := by omega
  refine ⟨⌊x⌋.toNat, hi, x - ⌊x⌋, ?_, ?_, ?_, ?_⟩
  · linarith [Int.floor_le x]
  · linarith [Int.lt_floor_add_one x]
  · have : ((⌊x⌋.toNat : ℕ) : ℤ) = ⌊x⌋ := Int.toNat_of_nonneg hf0
    have e : ((⌊x⌋.toNat : ℕ) : ℚ) = ((⌊x⌋ : ℤ) : ℚ) := by exact_mod_cast this
    rw [e]; ring
  · rw [List.getElem?_eq_getElem hi]

/-- Outside of (0, 1) the result is the first polynomial at 0 or the last at 1, without rounding of the parameter; a spline without polynomials gives zero. -/
theorem C100_ends (fl : ℚ → ℚ) (ev : α → ℚ → β) (zero : β) (t : ℚ) :
    (∀ (a : α) (l : List α), t ≤ 0 → evaluateFl fl ev zero (a :: l) t = .ok (ev a 0)) ∧
    (∀ (l : List α) (a : α), 1 ≤ t → evaluateFl fl ev zero (l ++ [a]) t = .ok (ev a 1)) ∧ evaluateFl fl ev zero [] t = .ok zero := by
  refine ⟨fun a l h => ?_, fun l a h => ?_, ?_⟩
  · simp [evaluateFl, h]
  · simp [evaluateFl, h, show ¬ t ≤ 0 by linarith]
  · simp [evaluateFl]

/-- The error of index and parameter: half a unit in the last place of the number of polynomials, if there are at most `2 ^ k` with `k ≤ p`. -/
theorem C100_accuracy (hf : IsNearest p emin fl) (hp : 1 ≤ p) (he : emin ≤ -(p : ℤ)) (n k : ℕ) (hk : k ≤ p) (hn : n ≤ 2 ^ k) (t : ℚ) (h0 : 0 < t) (h1 : t < 1) :
    |fl (t * fl n) - t * n| ≤ 2 ^ ((k : ℤ) - p) / 2 := by
  have hr := hf.toIsRounding
  have hnq : (n : ℚ) ≤ 2 ^ k := by exact_mod_cast hn
  have hm : (n : ℚ) ∈ Floats p emin := by
    have := int_mem (p := p) (emin := emin) (k := n) hp (by omega) (by
      rw [abs_of_nonneg (by positivity)]
      exact (by exact_mod_cast hn : (n : ℤ) ≤ 2 ^ k).trans (pow_le_pow_right₀ (by norm_num) hk))
    simpa using this
  rw [hr.fix _ hm]
  refine near_error hf hp ?_ (by omega)
  rw [zpow_natCast, abs_of_nonneg (by positivity)]
  have := mul_le_mul_of_nonneg_right h1.le (Nat.cast_nonneg (α := ℚ) n)
  linarith

/-- Rounding does not change the order of points on the spline, in any mode. -/
theorem C100_monotone (hf : IsRounding p emin fl) (he : emin ≤ 0) (n : ℕ) (s t : ℚ) (h : s ≤ t) : fl (s * fl n) ≤ fl (t * fl n) := by
  have hz := hf.fix 0 ⟨0, 0, by simp, he, by simp⟩
  have hn0 : 0 ≤ fl (n : ℚ) := hz ▸ hf.mono (by positivity)
  exact hf.mono (mul_le_mul_of_nonneg_right h hn0)

/-- Rounding to the nearest is needed: with upward rounding in single precision the last parameter below one reads beyond the end of three polynomials. -/
theorem C100_upward_refuted (hf : IsRounding 24 (-149) fl) (hup : ∀ x, x ≤ fl x) (ev : α → ℚ → β) (zero : β) (a b c : α) :
    (1 - 2 ^ (-24 : ℤ) : ℚ) ∈ Floats 24 (-149) ∧ (0 : ℚ) < 1 - 2 ^ (-24 : ℤ) ∧ (1 - 2 ^ (-24 : ℤ) : ℚ) < 1 ∧ evaluateFl fl ev zero [a, b, c] (1 - 2 ^ (-24 : ℤ)) = .ub := by
  have e24 : (2 : ℚ) ^ (-24 : ℤ) = 1 / 16777216 := by norm_num [zpow_neg]
  refine ⟨⟨2 ^ 24 - 1, -24, by norm_num, by norm_num, by rw [e24]; norm_num⟩, by rw [e24]; norm_num, by rw [e24]; norm_num, ?_⟩
  have h3 : (3 : ℚ) ∈ Floats 24 (-149) := ⟨3, 0, by norm_num, by norm_num, by norm_num⟩
  have hx : fl ((1 - 2 ^ (-24 : ℤ)) * 3) = 3 := by
    rw [e24]
    have g1 := hup ((1 - 1 / 16777216) * 3)
    have g2 := hf.mono (show ((1 : ℚ) - 1 / 16777216) * 3 ≤ 3 by norm_num)
    rw [hf.fix _ h3] at g2
    have e2 : (2 : ℚ) ^ (((24 : ℕ) : ℤ) + (-23)) = 2 := by norm_num
    obtain ⟨j, hj⟩ := multiple_of_le (k := -23) (hf.mem ((1 - 1 / 16777216) * 3)) (by
      rw [e2, abs_of_pos (by linarith)]; linarith)
    have e22 : (2 : ℚ) ^ ((-23 : ℤ) + 1) = 1 / 4194304 := by norm_num [zpow_neg]
    rw [e22] at hj
    rw [hj] at g1 g2
    have a1 : (12582911 : ℚ) < j := by linarith
    have a2 : (j : ℚ) ≤ 12582912 := by linarith
    have a1' : (12582911 : ℤ) < j := by exact_mod_cast a1
    have a2' : j ≤ (12582912 : ℤ) := by exact_mod_cast a2
    have : j = 12582912 := by omega
    rw [hj, this]
    norm_num
  unfold evaluateFl
  rw [if_pos (by simp), if_neg (by rw [e24]; norm_num), if_neg (by rw [e24]; norm_num)]
  have e3 : (([a, b, c] : List α).length : ℚ) = 3 := by norm_num
  simp only [e3, hf.fix _ h3, hx]
  have e4 : ⌊(3 : ℚ)⌋ = 3 := by norm_num
  rw [e4]
  rfl

/-- The hypotheses of `C100_defined`: three polynomials and the last parameter below one, in single precision. -/
example : IsNearest 24 (-149) (nearest 24 (-149)) ∧ (1 - 2 ^ (-24 : ℤ) : ℚ) ∈ Floats 24 (-149) ∧ ([1, 2, 3] : List ℕ) ≠ [] := by
  refine ⟨nearest_isNearest (by norm_num), ⟨2 ^ 24 - 1, -24, by norm_num, by norm_num, ?_⟩, by simp⟩
  norm_num [zpow_neg]

/-- The hypotheses of `C100_upward_refuted`. -/
example : IsRounding 24 (-149) (up 24 (-149)) ∧ ∀ x, x ≤ up 24 (-149) x := ⟨up_rounding (by norm_num), le_up⟩

/-! The theorems in single precision. -/

example := C100_defined (nearest_isNearest (p := 24) (emin := -149) (by norm_num)) (by norm_num) (by norm_num) (fun (n : ℕ) (u : ℚ) => (n, u)) (0, 0) [1, 2, 3]
  (by simp) (3 / 4) ⟨3, -2, by norm_num, by norm_num, by norm_num⟩ (by norm_num) (by norm_num)
example := (C100_ends (nearest 24 (-149)) (fun (n : ℕ) (u : ℚ) => (n, u)) (0, 0) (-1)).1 1 [2, 3] (by norm_num)
example := C100_accuracy (nearest_isNearest (p := 24) (emin := -149) (by norm_num)) (by norm_num) (by norm_num) 1000 10 (by norm_num) (by norm_num) (3 / 4)
  (by norm_num) (by norm_num)
example := C100_monotone (nearest_isNearest (p := 24) (emin := -149) (by norm_num)).toIsRounding (by norm_num) 1000 (1 / 2) (3 / 4) (by norm_num)

end Geom.UniformSpline.Props
