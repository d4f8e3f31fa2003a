import Mathlib.Data.Int.Log
import Mathlib.Data.Rat.Floor
import Mathlib.Tactic.Linarith
import Mathlib.Tactic.Ring
import Mathlib.Tactic.Positivity
import Mathlib.Tactic.FieldSimp
import Mathlib.Tactic.LinearCombination
import Mathlib.Algebra.Order.Round

/-
  Floating-point numbers (binary, with a given precision), without overflow, infinities and NaN. Numbers are rationals; the operations of the
  machine are the exact ones followed by a rounding. A rounding is any monotone function that maps to floats and leaves floats
  alone, so each statement about it holds for all rounding modes; statements about rounding to the nearest hold for each choice in the middle.
-/
set_option autoImplicit false

namespace Geom.Float

/-- The numbers `m * 2 ^ e` with at most `p` bits and the least exponent `emin`, subnormal numbers included. `float` has p = 24 and
emin = -149, `double` has p = 53 and emin = -1074. -/
def Floats (p : ℕ) (emin : ℤ) : Set ℚ := {x | ∃ m e : ℤ, |m| < 2 ^ p ∧ emin ≤ e ∧ x = m * (2 : ℚ) ^ e}

/-- A rounding to the floats, in any mode. -/
structure IsRounding (p : ℕ) (emin : ℤ) (fl : ℚ → ℚ) : Prop where
  mem : ∀ x, fl x ∈ Floats p emin
  fix : ∀ x ∈ Floats p emin, fl x = x
  mono : Monotone fl

/-- A rounding to the nearest float. -/
structure IsNearest (p : ℕ) (emin : ℤ) (fl : ℚ → ℚ) : Prop extends IsRounding p emin fl where
  near : ∀ x, ∀ z ∈ Floats p emin, |fl x - x| ≤ |z - x|

variable {p : ℕ} {emin : ℤ}

theorem two_zpow_pos (e : ℤ) : (0 : ℚ) < 2 ^ e := zpow_pos (by norm_num) e

theorem neg_mem {x : ℚ} (h : x ∈ Floats p emin) : -x ∈ Floats p emin := by
  obtain ⟨m, e, h1, h2, rfl⟩ := h
  exact ⟨-m, e, by rwa [abs_neg], h2, by push_cast; ring⟩

/-- Multiples of a power of two up to `2 ^ p` times this power. -/
theorem mem_of_le {k e : ℤ} (hp : 1 ≤ p) (he : emin ≤ e) (hk : |k| ≤ 2 ^ p) : (k : ℚ) * 2 ^ e ∈ Floats p emin := by
  rcases hk.lt_or_eq with h | h
  · exact ⟨k, e, h, he, rfl⟩
  · obtain ⟨q, rfl⟩ : ∃ q, p = q + 1 := ⟨p - 1, by omega⟩
    rcases abs_eq (by positivity : (0 : ℤ) ≤ 2 ^ (q + 1)) |>.1 h with h | h
    · refine ⟨2 ^ q, e + 1, ?_, by omega, ?_⟩
      · rw [abs_of_pos (by positivity)]; exact pow_lt_pow_right₀ (by norm_num) (by omega)
      · rw [h, zpow_add₀ (by norm_num)]; push_cast; ring
    · refine ⟨-2 ^ q, e + 1, ?_, by omega, ?_⟩
      · rw [abs_neg, abs_of_pos (by positivity)]; exact pow_lt_pow_right₀ (by norm_num) (by omega)
      · rw [h, zpow_add₀ (by norm_num)]; push_cast; ring

/-- Integers up to `2 ^ p`. -/
theorem int_mem {k : ℤ} (hp : 1 ≤ p) (he : emin ≤ 0) (hk : |k| ≤ 2 ^ p) : (k : ℚ) ∈ Floats p emin := by
  have := mem_of_le (p := p) (emin := emin) (k := k) (e := 0) hp he hk
  simpa using this

/-- Floats of at least `2 ^ (p + k)` are multiples of `2 ^ (k + 1)`. -/
theorem multiple_of_le {x : ℚ} {k : ℤ} (hx : x ∈ Floats p emin) (h : (2 : ℚ) ^ ((p : ℤ) + k) ≤ |x|) : ∃ j : ℤ, x = j * (2 : ℚ) ^ (k + 1) := by
  obtain ⟨m, e, h1, -, rfl⟩ := hx
  have hm : (|m| : ℚ) < 2 ^ p := by exact_mod_cast h1
  have h2 : (2 : ℚ) ^ ((p : ℤ) + k) < 2 ^ ((p : ℤ) + e) := by
    calc (2 : ℚ) ^ ((p : ℤ) + k) ≤ |(m : ℚ) * 2 ^ e| := h
      _ = |(m : ℚ)| * 2 ^ e := by rw [abs_mul, abs_of_pos (two_zpow_pos e)]
      _ < 2 ^ p * 2 ^ e := mul_lt_mul_of_pos_right hm (two_zpow_pos e)
      _ = 2 ^ ((p : ℤ) + e) := by rw [zpow_add₀ (by norm_num), zpow_natCast]
  have h3 : k + 1 ≤ e := by
    have := (zpow_lt_zpow_iff_right₀ (by norm_num : (1 : ℚ) < 2)).1 h2
    omega
  obtain ⟨d, rfl⟩ : ∃ d : ℕ, e = (k + 1) + d := ⟨(e - (k + 1)).toNat, by omega⟩
  refine ⟨m * 2 ^ d, ?_⟩
  rw [zpow_add₀ (by norm_num)]
  push_cast
  rw [zpow_natCast]
  ring

/-- Subtracting one is exact from one to `2 ^ p`. -/
theorem sub_one_mem (hp : 1 ≤ p) (he : emin ≤ 0) {x : ℚ} (hx : x ∈ Floats p emin) (h1 : 1 ≤ x) (h2 : x ≤ 2 ^ p) : x - 1 ∈ Floats p emin := by
  obtain ⟨m, e, hm, hme, rfl⟩ := hx
  rcases le_or_gt e 0 with h | h
  · obtain ⟨d, rfl⟩ : ∃ d : ℕ, e = -d := ⟨(-e).toNat, by omega⟩
    have hd : (2 : ℚ) ^ (-(d : ℤ)) * 2 ^ d = 1 := by rw [zpow_neg, zpow_natCast]; exact inv_mul_cancel₀ (by positivity)
    have hdm : (2 : ℚ) ^ d ≤ m := by
      have h3 : (1 : ℚ) * 2 ^ d ≤ m * 2 ^ (-(d : ℤ)) * 2 ^ d := mul_le_mul_of_nonneg_right h1 (by positivity)
      rw [mul_assoc, hd] at h3
      linarith
    have hdm' : (2 : ℤ) ^ d ≤ m := by exact_mod_cast hdm
    have hd0 : (0 : ℤ) < 2 ^ d := by positivity
    refine ⟨m - 2 ^ d, -d, ?_, hme, ?_⟩
    · rw [abs_of_nonneg (by linarith)]
      have := le_abs_self m
      linarith
    · push_cast
      linear_combination hd
  · obtain ⟨d, rfl⟩ : ∃ d : ℕ, e = d := ⟨e.toNat, by omega⟩
    have e1 : (m : ℚ) * 2 ^ (d : ℤ) - 1 = ((m * 2 ^ d - 1 : ℤ) : ℚ) := by rw [zpow_natCast]; push_cast; ring
    rw [e1] at *
    refine int_mem hp he ?_
    rw [zpow_natCast] at h1 h2
    have h1' : 1 ≤ m * 2 ^ d := by exact_mod_cast h1
    have h2' : m * 2 ^ d ≤ 2 ^ p := by exact_mod_cast h2
    rw [abs_of_nonneg (by linarith)]
    linarith

/-- Rounding to the nearest: the error for numbers up to `2 ^ k`. -/
theorem near_error {fl : ℚ → ℚ} (hf : IsNearest p emin fl) (hp : 1 ≤ p) {x : ℚ} {k : ℤ} (hx : |x| ≤ 2 ^ k) (he : emin ≤ k - p) :
    |fl x - x| ≤ 2 ^ (k - p) / 2 := by
  have hu := two_zpow_pos (k - p)
  have hr := abs_sub_round (x / 2 ^ (k - (p : ℤ)))
  have hq : |x / 2 ^ (k - (p : ℤ))| ≤ 2 ^ p := by
    rw [abs_div, abs_of_pos hu, div_le_iff₀ hu, ← zpow_natCast, ← zpow_add₀ (by norm_num)]
    simpa using hx
  have hj : |round (x / 2 ^ (k - (p : ℤ)))| ≤ 2 ^ p := by
    have h1 : |((round (x / 2 ^ (k - (p : ℤ))) : ℤ) : ℚ)| ≤ 2 ^ p + 1 / 2 := by
      have := abs_sub_abs_le_abs_sub ((round (x / 2 ^ (k - (p : ℤ))) : ℤ) : ℚ) (x / 2 ^ (k - (p : ℤ)))
      rw [abs_sub_comm] at this
      linarith
    have h2 : |((round (x / 2 ^ (k - (p : ℤ))) : ℤ) : ℚ)| < ((2 ^ p + 1 : ℤ) : ℚ) := by push_cast; linarith
    have h3 : |round (x / 2 ^ (k - (p : ℤ)))| < 2 ^ p + 1 := by exact_mod_cast h2
    linarith
  refine (hf.near x _ (mem_of_le hp he hj)).trans ?_
  have e1 : ((round (x / 2 ^ (k - (p : ℤ))) : ℤ) : ℚ) * 2 ^ (k - (p : ℤ)) - x =
      -((x / 2 ^ (k - (p : ℤ)) - round (x / 2 ^ (k - (p : ℤ)))) * 2 ^ (k - (p : ℤ))) := by
    field_simp
    ring
  rw [e1, abs_neg, abs_mul, abs_of_pos hu]
  have := mul_le_mul_of_nonneg_right hr hu.le
  linarith

/-! There are roundings. -/

/-- The exponent of the floats around a number. -/
def expo (p : ℕ) (emin : ℤ) (x : ℚ) : ℤ := max emin (Int.log 2 |x| + 1 - p)

/-- The greatest float that is not greater. -/
def down (p : ℕ) (emin : ℤ) (x : ℚ) : ℚ := (⌊x / 2 ^ expo p emin x⌋ : ℤ) * (2 : ℚ) ^ expo p emin x

theorem abs_lt_expo (x : ℚ) : |x| < 2 ^ ((p : ℤ) + expo p emin x) := by
  have h := Int.lt_zpow_succ_log_self (R := ℚ) (b := 2) (by norm_num) |x|
  push_cast at h
  refine h.trans_le (zpow_le_zpow_right₀ (by norm_num) ?_)
  have := le_max_right emin (Int.log 2 |x| + 1 - p)
  simp only [expo]
  omega

theorem down_le (x : ℚ) : down p emin x ≤ x := by
  have h := two_zpow_pos (expo p emin x)
  calc down p emin x ≤ x / 2 ^ expo p emin x * 2 ^ expo p emin x := mul_le_mul_of_nonneg_right (Int.floor_le _) h.le
    _ = x := div_mul_cancel₀ x h.ne'

theorem down_mem (hp : 1 ≤ p) (x : ℚ) : down p emin x ∈ Floats p emin := by
  refine mem_of_le hp (le_max_left _ _) ?_
  have h := two_zpow_pos (expo p emin x)
  have h1 : |x / 2 ^ expo p emin x| < 2 ^ p := by
    rw [abs_div, abs_of_pos h, div_lt_iff₀ h, ← zpow_natCast, ← zpow_add₀ (by norm_num)]
    exact abs_lt_expo x
  obtain ⟨h2, h3⟩ := abs_lt.1 h1
  rw [abs_le]
  constructor
  · rw [Int.le_floor]; push_cast; exact h2.le
  · have : ⌊x / 2 ^ expo p emin x⌋ < 2 ^ p := by rw [Int.floor_lt]; push_cast; exact h3
    exact this.le

theorem le_down (hp : 1 ≤ p) {x y : ℚ} (hy : y ∈ Floats p emin) (h : y ≤ x) : y ≤ down p emin x := by
  obtain ⟨m, e, h1, h2, rfl⟩ := hy
  have hpos := two_zpow_pos (expo p emin x)
  have key : ∀ k : ℤ, (k : ℚ) * 2 ^ expo p emin x ≤ x → (k : ℚ) * 2 ^ expo p emin x ≤ down p emin x := by
    intro k hk
    refine mul_le_mul_of_nonneg_right ?_ hpos.le
    exact_mod_cast Int.le_floor.2 ((le_div_iff₀ hpos).2 hk)
  by_cases he : expo p emin x ≤ e
  · obtain ⟨d, hd⟩ : ∃ d : ℕ, e = expo p emin x + d := ⟨(e - expo p emin x).toNat, by omega⟩
    have e1 : (m : ℚ) * 2 ^ e = ((m * 2 ^ d : ℤ) : ℚ) * 2 ^ expo p emin x := by
      rw [hd, zpow_add₀ (by norm_num), zpow_natCast]; push_cast; ring
    rw [e1] at h ⊢
    exact key _ h
  · -- a smaller exponent: the number is nearer to zero than the power of two below x
    have hex : expo p emin x = Int.log 2 |x| + 1 - p := by
      simp only [expo] at he ⊢
      omega
    have hm : |(m : ℚ) * 2 ^ e| < 2 ^ Int.log 2 |x| := by
      have hm' : (|m| : ℚ) < 2 ^ p := by exact_mod_cast h1
      calc |(m : ℚ) * 2 ^ e| = |(m : ℚ)| * 2 ^ e := by rw [abs_mul, abs_of_pos (two_zpow_pos e)]
        _ < 2 ^ p * 2 ^ e := mul_lt_mul_of_pos_right hm' (two_zpow_pos e)
        _ = 2 ^ ((p : ℤ) + e) := by rw [zpow_add₀ (by norm_num), zpow_natCast]
        _ ≤ 2 ^ Int.log 2 |x| := zpow_le_zpow_right₀ (by norm_num) (by omega)
    rcases lt_trichotomy x 0 with hx | hx | hx
    · have := Int.zpow_log_le_self (R := ℚ) (b := 2) (by norm_num) (abs_pos.2 hx.ne)
      push_cast at this
      rw [abs_of_neg hx] at this
      have := (abs_lt.1 hm).1
      rw [abs_of_neg hx] at this
      linarith
    · subst hx
      have := key 0 (by simp)
      refine h.trans ?_
      simpa using this
    · have h3 := Int.zpow_log_le_self (R := ℚ) (b := 2) (by norm_num) (abs_pos.2 hx.ne')
      push_cast at h3
      rw [abs_of_pos hx] at h3 hm
      obtain ⟨q, hq⟩ : ∃ q, p = q + 1 := ⟨p - 1, by omega⟩
      have e2 : (2 : ℚ) ^ Int.log 2 x = ((2 ^ q : ℤ) : ℚ) * 2 ^ expo p emin x := by
        rw [hex, abs_of_pos hx]
        push_cast
        rw [← zpow_natCast, ← zpow_add₀ (by norm_num)]
        congr 1
        omega
      rw [e2] at h3 hm
      exact ((le_abs_self _).trans hm.le).trans (key _ h3)

/-- The least float that is not less. -/
def up (p : ℕ) (emin : ℤ) (x : ℚ) : ℚ := -down p emin (-x)

theorem le_up (x : ℚ) : x ≤ up p emin x := by have := down_le (p := p) (emin := emin) (-x); simp only [up]; linarith

theorem up_mem (hp : 1 ≤ p) (x : ℚ) : up p emin x ∈ Floats p emin := neg_mem (down_mem hp _)

theorem up_le (hp : 1 ≤ p) {x y : ℚ} (hy : y ∈ Floats p emin) (h : x ≤ y) : up p emin x ≤ y := by
  have := le_down hp (neg_mem hy) (neg_le_neg h)
  simp only [up]; linarith

theorem down_rounding (hp : 1 ≤ p) : IsRounding p emin (down p emin) where
  mem := down_mem hp
  fix x hx := le_antisymm (down_le x) (le_down hp hx le_rfl)
  mono x _ h := le_down hp (down_mem hp x) ((down_le x).trans h)

theorem up_rounding (hp : 1 ≤ p) : IsRounding p emin (up p emin) where
  mem := up_mem hp
  fix x hx := le_antisymm (up_le hp hx le_rfl) (le_up x)
  mono _ y h := up_le hp (up_mem hp y) (h.trans (le_up y))

/-- The nearest float, the smaller one in the middle. -/
def nearest (p : ℕ) (emin : ℤ) (x : ℚ) : ℚ := if x - down p emin x ≤ up p emin x - x then down p emin x else up p emin x

theorem nearest_isNearest (hp : 1 ≤ p) : IsNearest p emin (nearest p emin) where
  mem x := by unfold nearest; split_ifs; exacts [down_mem hp x, up_mem hp x]
  fix x hx := by unfold nearest; rw [(down_rounding hp).fix x hx, (up_rounding hp).fix x hx, ite_self]
  mono x y h := by
    have hd := (down_rounding (emin := emin) hp).mono h
    have hu := (up_rounding (emin := emin) hp).mono h
    have a1 := down_le (p := p) (emin := emin) x
    have a2 := le_up (p := p) (emin := emin) x
    have b1 := down_le (p := p) (emin := emin) y
    have b2 := le_up (p := p) (emin := emin) y
    unfold nearest
    split_ifs with h1 h2 h2
    · exact hd
    · linarith
    · by_contra hlt
      rw [not_le] at hlt
      -- up x is above down y
      have hy : y < up p emin x := by
        by_contra hc
        exact absurd (le_down hp (up_mem hp x) (not_lt.1 hc)) (not_le.2 hlt)
      have hu' : up p emin y ≤ up p emin x := up_le hp (up_mem hp x) hy.le
      have hd' : down p emin y < x := by
        by_contra hc
        exact absurd (up_le hp (down_mem hp y) (not_lt.1 hc)) (not_le.2 hlt)
      have hd'' : down p emin y ≤ down p emin x := le_down hp (down_mem hp y) hd'.le
      linarith
    · exact hu
  near x z hz := by
    have a1 := down_le (p := p) (emin := emin) x
    have a2 := le_up (p := p) (emin := emin) x
    rcases le_total z x with h | h
    · have := le_down hp hz h
      rw [abs_of_nonpos (sub_nonpos.2 h)]
      unfold nearest
      split_ifs with h1
      · rw [abs_of_nonpos (sub_nonpos.2 a1)]; linarith
      · rw [abs_of_nonneg (sub_nonneg.2 a2)]; linarith
    · have := up_le hp hz h
      rw [abs_of_nonneg (sub_nonneg.2 h)]
      unfold nearest
      split_ifs with h1
      · rw [abs_of_nonpos (sub_nonpos.2 a1)]; linarith
      · rw [abs_of_nonneg (sub_nonneg.2 a2)]; linarith

/-- Single precision. -/
example : IsNearest 24 (-149) (nearest 24 (-149)) := nearest_isNearest (by norm_num)

end Geom.Float
