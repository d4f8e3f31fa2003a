import Verif.Model.GridFloat
import Verif.Props.AABBFloat
import Mathlib.Data.Nat.Log

/-
  C110: coordinates of grids in floating-point arithmetic.
-/
set_option autoImplicit false
set_option linter.unusedSectionVars false

namespace Geom.Gen
open Geom.Float

variable {p : ℕ} {emin : ℤ} {fl : ℚ → ℚ}

theorem cast_fl (hf : IsNearest p emin fl) (hp : 1 ≤ p) (he : emin ≤ 0) {n : ℕ} (hn : n ≤ 2 ^ p) : fl n = n := by
  have := int_mem (p := p) (emin := emin) (k := n) hp he (by rw [abs_of_nonneg (by positivity)]; exact_mod_cast hn)
  exact hf.fix _ (by simpa using this)

/-- The reciprocal: its error times the number is less than half of the distance to the next float after one. -/
theorem recip (hf : IsNearest p emin fl) (hp : 1 ≤ p) (he : emin ≤ -2 * p) {n : ℕ} (h1 : 1 ≤ n) (hn : n ≤ 2 ^ p) :
    0 < fl (1 / n) ∧ n * fl (1 / n) < 1 + 2 ^ (-(p : ℤ)) ∧ 1 - 2 ^ (-(p : ℤ)) ≤ n * fl (1 / n) ∧ |fl (1 / n) - 1 / n| * n ≤ 2 ^ (-(p : ℤ)) := by
  have hu := two_zpow_pos (-(p : ℤ))
  have n0 : (0 : ℚ) < n := by exact_mod_cast h1
  obtain ⟨m, hm1, hm2⟩ : ∃ m : ℕ, n ≤ 2 ^ m ∧ 2 ^ m < 2 * n := by
    refine ⟨Nat.clog 2 n, Nat.le_pow_clog (by norm_num) n, ?_⟩
    rcases Nat.lt_or_ge 1 n with h | h
    · have := Nat.pow_pred_clog_lt_self (b := 2) (by norm_num) h
      have hc : 0 < Nat.clog 2 n := Nat.clog_pos (by norm_num) h
      obtain ⟨k, hk⟩ : ∃ k, Nat.clog 2 n = k + 1 := ⟨Nat.clog 2 n - 1, by omega⟩
      rw [hk, Nat.pred_succ] at this
      rw [hk, pow_succ]; omega
    · obtain rfl : n = 1 := by omega
      simp
  have hmp : m ≤ p := by
    by_contra hc
    have h3 : 2 ^ (p + 1) ≤ 2 ^ m := Nat.pow_le_pow_right (by norm_num) (by omega)
    have h4 : 2 ^ (p + 1) = 2 * 2 ^ p := by rw [pow_succ]; ring
    omega
  have q1 : (n : ℚ) ≤ 2 ^ m := by exact_mod_cast hm1
  have q2 : (2 : ℚ) ^ m < 2 * n := by exact_mod_cast hm2
  have hle : |(1 : ℚ) / n| ≤ 2 ^ (1 - (m : ℤ)) := by
    rw [abs_of_pos (by positivity), div_le_iff₀ n0, zpow_sub₀ (by norm_num), zpow_one, zpow_natCast, div_mul_eq_mul_div,
      le_div_iff₀ (by positivity)]
    linarith
  have herr := near_error hf hp hle (by omega)
  have e1 : (2 : ℚ) ^ (1 - (m : ℤ) - p) / 2 = 2 ^ (-(p : ℤ)) / 2 ^ m := by
    rw [show (1 : ℤ) - m - p = 1 + (-(p : ℤ)) - m by ring, zpow_sub₀ (by norm_num), zpow_add₀ (by norm_num), zpow_one, zpow_natCast]
    ring
  rw [e1] at herr
  have herr' : |fl (1 / n) - 1 / n| * 2 ^ m ≤ 2 ^ (-(p : ℤ)) := by
    rwa [← le_div_iff₀ (by positivity)]
  have hfin : |fl (1 / n) - 1 / n| * n ≤ 2 ^ (-(p : ℤ)) := (mul_le_mul_of_nonneg_left q1 (abs_nonneg _)).trans herr'
  have hn1 : (1 : ℚ) / n * n = 1 := div_mul_cancel₀ 1 n0.ne'
  have l1 : n * fl (1 / n) - 1 = (fl (1 / n) - 1 / n) * n := by rw [sub_mul, hn1]; ring
  have habs := abs_le.1 (show |(fl (1 / n) - 1 / n) * (n : ℚ)| ≤ 2 ^ (-(p : ℤ)) by rw [abs_mul, abs_of_pos n0]; exact hfin)
  refine ⟨?_, ?_, by linarith [habs.1], hfin⟩
  · have m1 : (2 : ℚ) ^ (-(p : ℤ)) ∈ Floats p emin := by
      have := mem_of_le (p := p) (emin := emin) (k := 1) (e := -p) hp (by omega) (by rw [abs_one]; exact one_le_pow₀ (by norm_num))
      simpa using this
    have : (2 : ℚ) ^ (-(p : ℤ)) ≤ 1 / n := by
      rw [zpow_neg, zpow_natCast, ← one_div]
      exact one_div_le_one_div_of_le n0 (by exact_mod_cast hn)
    have := hf.mono this
    rw [hf.fix _ m1] at this
    linarith
  · rcases hm1.lt_or_eq with hlt | heq
    · have q3 : (n : ℚ) < 2 ^ m := by exact_mod_cast hlt
      rcases eq_or_ne (fl (1 / (n : ℚ)) - 1 / n) 0 with h0 | h0
      · rw [h0, zero_mul] at l1; linarith
      · have := mul_lt_mul_of_pos_left q3 (abs_pos.2 h0)
        have := le_abs_self ((fl (1 / n) - 1 / n) * (n : ℚ))
        rw [abs_mul, abs_of_pos n0] at this
        linarith
    · have ex : fl (1 / n) = 1 / n := by
        refine hf.fix _ ⟨1, -m, by rw [abs_one]; exact one_lt_pow₀ (by norm_num) (by omega), by omega, ?_⟩
        rw [heq, zpow_neg, zpow_natCast]
        push_cast
        ring
      rw [ex, mul_comm, hn1]; linarith

theorem fl_le_one (hf : IsNearest p emin fl) (hp : 1 ≤ p) (he : emin ≤ -2 * p) {x : ℚ} (hx : x < 1 + 2 ^ (-(p : ℤ))) : fl x ≤ 1 := by
  have m1 : (1 : ℚ) ∈ Floats p emin := by
    have := int_mem (p := p) (emin := emin) (k := 1) hp (by omega) (by rw [abs_one]; exact one_le_pow₀ (by norm_num))
    simpa using this
  rcases le_total x 1 with h | h
  · have := hf.mono h
    rwa [hf.fix _ m1] at this
  · obtain ⟨q, rfl⟩ : ∃ q, p = q + 1 := ⟨p - 1, by omega⟩
    have e : ((2 ^ q : ℤ) : ℚ) * 2 ^ (-(q : ℤ)) = 1 := by
      push_cast; rw [zpow_neg, zpow_natCast]; exact mul_inv_cancel₀ (by positivity)
    have e2 : (2 : ℚ) ^ (-((q + 1 : ℕ) : ℤ)) = 2 ^ (-(q : ℤ)) / 2 := by
      push_cast
      rw [neg_add, zpow_add₀ (by norm_num)]
      norm_num
      ring
    have := nearest_down hf hp (k := 2 ^ q) (e := -q) (x := x) (by push_cast at he; omega) (by simp) (pow_lt_pow_right₀ (by norm_num) (by omega))
      (by rw [e]; exact h) (by rw [e]; rw [e2] at hx; linarith)
    rw [this, e]

/-- C110: the coordinates start with 0, do not exceed 1 and increase; their error is at most the distance of two floats below 1, twice. -/
theorem C110_range (hf : IsNearest p emin fl) (hp : 1 ≤ p) (he : emin ≤ -2 * p) {n : ℕ} (h1 : 1 ≤ n) (hn : n ≤ 2 ^ p) :
    gridFl fl n 0 = 0 ∧ (∀ i j, i ≤ j → j ≤ n → gridFl fl n i ≤ gridFl fl n j) ∧
    ∀ j ≤ n, 0 ≤ gridFl fl n j ∧ gridFl fl n j ≤ 1 ∧ |gridFl fl n j - j / n| ≤ 2 * 2 ^ (-(p : ℤ)) := by
  obtain ⟨hpos, hlt, -, herr⟩ := recip hf hp he h1 hn
  have hu := two_zpow_pos (-(p : ℤ))
  have n0 : (0 : ℚ) < n := by exact_mod_cast h1
  have eq : ∀ j ≤ n, gridFl fl n j = fl (fl (1 / n) * j) := fun j hj => by
    unfold gridFl
    rw [cast_fl hf hp (by omega) hn, cast_fl hf hp (by omega) (hj.trans hn)]
  have f0 : fl 0 = 0 := hf.fix 0 ⟨0, emin, by simp, le_rfl, by simp⟩
  have z0 : gridFl fl n 0 = 0 := by rw [eq 0 (by omega)]; simp [f0]
  have mono : ∀ i j, i ≤ j → j ≤ n → gridFl fl n i ≤ gridFl fl n j := fun i j hij hj => by
    rw [eq i (hij.trans hj), eq j hj]
    exact hf.mono (mul_le_mul_of_nonneg_left (by exact_mod_cast hij) hpos.le)
  refine ⟨z0, mono, fun j hj => ⟨?_, ?_, ?_⟩⟩
  · rw [← z0]; exact mono 0 j (by omega) hj
  · refine (mono j n hj le_rfl).trans ?_
    rw [eq n le_rfl, mul_comm]
    exact fl_le_one hf hp he hlt
  · have hjn : (j : ℚ) ≤ n := by exact_mod_cast hj
    have a : |fl (1 / n) * j - j / n| ≤ 2 ^ (-(p : ℤ)) := by
      have e : fl (1 / n) * j - j / n = (fl (1 / n) - 1 / n) * j := by ring
      rw [e, abs_mul, abs_of_nonneg (by positivity : (0 : ℚ) ≤ j)]
      exact (mul_le_mul_of_nonneg_left hjn (abs_nonneg _)).trans herr
    have b : |fl (fl (1 / n) * j) - fl (1 / n) * j| ≤ 2 ^ (-(p : ℤ)) := by
      have hx : |fl (1 / (n : ℚ)) * j| ≤ 2 ^ (1 : ℤ) := by
        rw [abs_of_nonneg (by positivity)]
        have h3 := mul_le_mul_of_nonneg_left hjn hpos.le
        have h4 : (2 : ℚ) ^ (-(p : ℤ)) ≤ 1 := by
          rw [zpow_neg, zpow_natCast]; exact inv_le_one_of_one_le₀ (one_le_pow₀ (by norm_num))
        rw [zpow_one]; linarith
      have := near_error hf hp hx (by omega)
      have e : (2 : ℚ) ^ (1 - (p : ℤ)) = 2 * 2 ^ (-(p : ℤ)) := by rw [sub_eq_add_neg, zpow_add₀ (by norm_num), zpow_one]
      rw [e] at this
      linarith
    rw [eq j hj]
    have := abs_add_le (fl (fl (1 / n) * j) - fl (1 / n) * j) (fl (1 / n) * j - j / n)
    rw [sub_add_sub_cancel] at this
    linarith

/-- C110: different columns have different coordinates, unless there are very many. -/
theorem C110_strict (hf : IsNearest p emin fl) (hp : 1 ≤ p) (he : emin ≤ -2 * p) {n : ℕ} (h1 : 1 ≤ n) (hn : 8 * n ≤ 2 ^ p) (i j : ℕ) (hij : i < j) (hj : j ≤ n) :
    gridFl fl n i < gridFl fl n j := by
  have hi := ((C110_range hf hp he h1 (by omega)).2.2 i (by omega)).2.2
  have hj' := ((C110_range hf hp he h1 (by omega)).2.2 j hj).2.2
  have n0 : (0 : ℚ) < n := by exact_mod_cast h1
  have d : (i : ℚ) / n + 1 / n ≤ j / n := by
    rw [← add_div]
    exact div_le_div_of_nonneg_right (by exact_mod_cast hij) n0.le
  have e : (8 : ℚ) * 2 ^ (-(p : ℤ)) ≤ 1 / n := by
    rw [zpow_neg, zpow_natCast, le_div_iff₀ n0, mul_assoc, mul_comm ((2 ^ p : ℚ)⁻¹), ← mul_assoc, ← div_eq_mul_inv, div_le_one (by positivity)]
    exact_mod_cast hn
  have hu := two_zpow_pos (-(p : ℤ))
  have := (abs_le.1 hi).2
  have := (abs_le.1 hj').1
  linarith

/-- C110: the last coordinate is one or the float below one. -/
theorem C110_last_partial (hf : IsNearest p emin fl) (hp : 1 ≤ p) (he : emin ≤ -2 * p) {n : ℕ} (h1 : 1 ≤ n) (hn : n ≤ 2 ^ p) :
    gridFl fl n n = 1 ∨ gridFl fl n n = 1 - 2 ^ (-(p : ℤ)) := by
  obtain ⟨-, -, hge, -⟩ := recip hf hp he h1 hn
  have hle := ((C110_range hf hp he h1 hn).2.2 n le_rfl).2.1
  have hu := two_zpow_pos (-(p : ℤ))
  have hp1 : (2 : ℚ) ^ p * 2 ^ (-(p : ℤ)) = 1 := by rw [zpow_neg, zpow_natCast]; exact mul_inv_cancel₀ (by positivity)
  have eq : gridFl fl n n = fl (n * fl (1 / n)) := by
    unfold gridFl
    rw [cast_fl hf hp (by omega) hn, mul_comm]
  have mm : (1 : ℚ) - 2 ^ (-(p : ℤ)) ∈ Floats p emin := by
    have := mem_of_le (p := p) (emin := emin) (k := 2 ^ p - 1) (e := -p) hp (by omega) (by
      have : (1 : ℤ) ≤ 2 ^ p := one_le_pow₀ (by norm_num)
      rw [abs_of_nonneg (by linarith)]; linarith)
    push_cast at this
    rwa [sub_mul, hp1, one_mul] at this
  have hlow : 1 - 2 ^ (-(p : ℤ)) ≤ gridFl fl n n := by
    rw [eq, ← hf.fix _ mm]; exact hf.mono hge
  have hmem : gridFl fl n n ∈ Floats p emin := hf.mem _
  have half : (2 : ℚ) ^ ((p : ℤ) + (-p - 1)) ≤ |gridFl fl n n| := by
    have h2 : (2 : ℚ) ^ (-(p : ℤ)) ≤ 1 / 2 := by
      obtain ⟨q, rfl⟩ : ∃ q, p = q + 1 := ⟨p - 1, by omega⟩
      rw [zpow_neg, zpow_natCast, pow_succ, mul_inv]
      have : ((2 : ℚ) ^ q)⁻¹ ≤ 1 := inv_le_one_of_one_le₀ (one_le_pow₀ (by norm_num))
      linarith
    rw [abs_of_nonneg (by linarith), show (p : ℤ) + (-p - 1) = -1 by ring]
    norm_num
    linarith
  obtain ⟨j, hj⟩ := multiple_of_le hmem half
  rw [show -(p : ℤ) - 1 + 1 = -p by ring] at hj
  rw [hj] at hle hlow ⊢
  have b1 : (j : ℚ) ≤ 2 ^ p := by
    by_contra hc
    rw [not_le] at hc
    have := mul_lt_mul_of_pos_right hc hu
    linarith
  have b2 : (2 : ℚ) ^ p - 1 ≤ j := by
    by_contra hc
    rw [not_le] at hc
    have := mul_lt_mul_of_pos_right hc hu
    rw [sub_mul, hp1, one_mul] at this
    linarith
  have b1' : j ≤ 2 ^ p := by exact_mod_cast b1
  have b2' : 2 ^ p - 1 ≤ j := by exact_mod_cast b2
  rcases b1'.lt_or_eq with h | h
  · right
    have : j = 2 ^ p - 1 := by omega
    rw [this]; push_cast; rw [sub_mul, hp1, one_mul]
  · left
    rw [h]; push_cast; exact hp1

/-- C110: all coordinates are exact if the number of segments is a power of two. -/
theorem C110_power (hf : IsNearest p emin fl) (hp : 1 ≤ p) (he : emin ≤ -2 * p) {m : ℕ} (hm : m ≤ p) (j : ℕ) (hj : j ≤ 2 ^ m) :
    gridFl fl (2 ^ m) j = j / 2 ^ m := by
  have h2 : 2 ^ m ≤ 2 ^ p := Nat.pow_le_pow_right (by norm_num) hm
  unfold gridFl
  rw [cast_fl hf hp (by omega) h2, cast_fl hf hp (by omega) (hj.trans h2)]
  have ex : fl (1 / ((2 ^ m : ℕ) : ℚ)) = 2 ^ (-(m : ℤ)) := by
    have e : 1 / ((2 ^ m : ℕ) : ℚ) = 2 ^ (-(m : ℤ)) := by push_cast; rw [zpow_neg, zpow_natCast, one_div]
    rw [e]
    exact hf.fix _ ⟨1, -m, by rw [abs_one]; exact one_lt_pow₀ (by norm_num) (by omega), by omega, by simp⟩
  rw [ex]
  have e2 : (2 : ℚ) ^ (-(m : ℤ)) * j = j / 2 ^ m := by rw [zpow_neg, zpow_natCast]; ring
  have := mem_of_le (p := p) (emin := emin) (k := j) (e := -m) hp (by omega) (by rw [abs_of_nonneg (by positivity)]; exact_mod_cast hj.trans h2)
  rw [hf.fix _ (by rw [mul_comm]; simpa using this), e2]

/-- C110: a face of a cuboid starts at the side of the box and does not reach beyond the opposite one. -/
theorem C110_face (hf : IsNearest p emin fl) (hp : 1 ≤ p) (he : emin ≤ -2 * p) {n : ℕ} (h1 : 1 ≤ n) (hn : n ≤ 2 ^ p) {size : ℚ} (hs : 0 ≤ size)
    (hm : size / 2 ∈ Floats p emin) :
    faceFl fl size n 0 = -(size / 2) ∧ (∀ i j, i ≤ j → j ≤ n → faceFl fl size n i ≤ faceFl fl size n j) ∧
    (∀ j ≤ n, -(size / 2) ≤ faceFl fl size n j ∧ faceFl fl size n j ≤ size / 2) ∧ (gridFl fl n n = 1 → faceFl fl size n n = size / 2) := by
  obtain ⟨z0, mono, hr⟩ := C110_range hf hp he h1 hn
  have f0 : fl 0 = 0 := hf.fix 0 ⟨0, emin, by simp, le_rfl, by simp⟩
  have hsize : size ∈ Floats p emin := by
    obtain ⟨m, e, h1, h2, h3⟩ := hm
    refine ⟨m, e + 1, h1, by omega, ?_⟩
    rw [zpow_add₀ (by norm_num), zpow_one]
    linarith
  have first : faceFl fl size n 0 = -(size / 2) := by
    unfold faceFl
    rw [z0, mul_zero, f0, hf.fix _ hm, zero_sub, hf.fix _ (neg_mem hm)]
  have fm : ∀ i j, i ≤ j → j ≤ n → faceFl fl size n i ≤ faceFl fl size n j := fun i j hij hj =>
    hf.mono (sub_le_sub_right (hf.mono (mul_le_mul_of_nonneg_left (mono i j hij hj) hs)) _)
  refine ⟨first, fm, fun j hj => ⟨by rw [← first]; exact fm 0 j (by omega) hj, ?_⟩, fun hg => ?_⟩
  · have a : fl (size * gridFl fl n j) ≤ size := by
      have := hf.mono (show size * gridFl fl n j ≤ size from mul_le_of_le_one_right hs (hr j hj).2.1)
      rwa [hf.fix _ hsize] at this
    unfold faceFl
    rw [hf.fix _ hm]
    have := hf.mono (show fl (size * gridFl fl n j) - size / 2 ≤ size / 2 by linarith)
    rwa [hf.fix _ hm] at this
  · unfold faceFl
    rw [hg, mul_one, hf.fix _ hsize, hf.fix _ hm, sub_half, hf.fix _ hm]

/-- C110: which of the two the last coordinate is depends on the rounding of the reciprocal. -/
theorem C110_last (hf : IsNearest p emin fl) (hp : 1 ≤ p) (he : emin ≤ -2 * p) {n : ℕ} (h1 : 1 ≤ n) (hn : n ≤ 2 ^ p) :
    (1 - 2 ^ (-(p : ℤ)) / 2 < n * fl (1 / n) → gridFl fl n n = 1) ∧
    (n * fl (1 / n) < 1 - 2 ^ (-(p : ℤ)) / 2 → gridFl fl n n = 1 - 2 ^ (-(p : ℤ))) ∧
    (n * fl (1 / n) = 1 - 2 ^ (-(p : ℤ)) / 2 → gridFl fl n n = fl (1 - 2 ^ (-(p : ℤ)) / 2)) := by
  have hu := two_zpow_pos (-(p : ℤ))
  have eq : gridFl fl n n = fl (n * fl (1 / n)) := by
    unfold gridFl
    rw [cast_fl hf hp (by omega) hn, mul_comm]
  have m1 : (1 : ℚ) ∈ Floats p emin := by
    have := int_mem (p := p) (emin := emin) (k := 1) hp (by omega) (by rw [abs_one]; exact one_le_pow₀ (by norm_num))
    simpa using this
  have m2 : (1 : ℚ) - 2 ^ (-(p : ℤ)) ∈ Floats p emin := by
    have hp1 : (2 : ℚ) ^ p * 2 ^ (-(p : ℤ)) = 1 := by rw [zpow_neg, zpow_natCast]; exact mul_inv_cancel₀ (by positivity)
    have := mem_of_le (p := p) (emin := emin) (k := 2 ^ p - 1) (e := -p) hp (by omega) (by
      have : (1 : ℤ) ≤ 2 ^ p := one_le_pow₀ (by norm_num)
      rw [abs_of_nonneg (by linarith)]; linarith)
    push_cast at this
    rwa [sub_mul, hp1, one_mul] at this
  obtain ⟨-, -, hge, -⟩ := recip hf hp he h1 hn
  have n1 := hf.near (n * fl (1 / n)) 1 m1
  have n2 := hf.near (n * fl (1 / n)) _ m2
  have tie : n * fl (1 / n) = 1 - 2 ^ (-(p : ℤ)) / 2 → gridFl fl n n = fl (1 - 2 ^ (-(p : ℤ)) / 2) := fun h => by rw [eq, h]
  rw [← eq] at n1 n2
  suffices hh : (1 - 2 ^ (-(p : ℤ)) / 2 < n * fl (1 / n) → gridFl fl n n = 1) ∧
    (n * fl (1 / n) < 1 - 2 ^ (-(p : ℤ)) / 2 → gridFl fl n n = 1 - 2 ^ (-(p : ℤ))) from ⟨hh.1, hh.2, tie⟩
  rcases C110_last_partial hf hp he h1 hn with k | k <;> rw [k] at n1 n2 ⊢
  · refine ⟨fun _ => rfl, fun h => ?_⟩
    rw [abs_of_nonneg (by linarith), abs_of_nonpos (by linarith)] at n2
    linarith
  · refine ⟨fun h => ?_, fun _ => rfl⟩
    rw [abs_of_nonpos (by linarith)] at n1
    rcases le_total (n * fl (1 / (n : ℚ))) 1 with h3 | h3
    · rw [abs_of_nonneg (by linarith)] at n1
      linarith
    · rw [abs_of_nonpos (by linarith)] at n1
      linarith

/-- C110: the second texture coordinates are between zero and one, decrease from one, and end at the distance of the last coordinate from
one. -/
theorem C110_tex (hf : IsNearest p emin fl) (hp : 1 ≤ p) (he : emin ≤ -2 * p) {n : ℕ} (h1 : 1 ≤ n) (hn : n ≤ 2 ^ p) :
    texFl fl n 0 = 1 ∧ (∀ i j, i ≤ j → j ≤ n → texFl fl n j ≤ texFl fl n i) ∧ (∀ i ≤ n, 0 ≤ texFl fl n i ∧ texFl fl n i ≤ 1) ∧
    texFl fl n n = 1 - gridFl fl n n := by
  obtain ⟨z0, mono, hr⟩ := C110_range hf hp he h1 hn
  have f0 : fl 0 = 0 := hf.fix 0 ⟨0, emin, by simp, le_rfl, by simp⟩
  have f1 : fl 1 = 1 := hf.fix 1 ⟨1, 0, by rw [abs_one]; exact one_lt_pow₀ (by norm_num) (by omega), by omega, by simp⟩
  have t0 : texFl fl n 0 = 1 := by unfold texFl; rw [z0, sub_zero, f1]
  have anti : ∀ i j, i ≤ j → j ≤ n → texFl fl n j ≤ texFl fl n i := fun i j h h' =>
    hf.mono (sub_le_sub_left (mono i j h h') 1)
  refine ⟨t0, anti, fun i hi => ⟨?_, t0 ▸ anti 0 i (by omega) hi⟩, ?_⟩
  · rw [← f0]
    exact hf.mono (by linarith [(hr i hi).2.1])
  · unfold texFl
    rcases C110_last_partial hf hp he h1 hn with k | k <;> rw [k]
    · rw [sub_self, f0]
    · rw [sub_sub_cancel]
      exact hf.fix _ ⟨1, -p, by rw [abs_one]; exact one_lt_pow₀ (by norm_num) (by omega), by omega, by simp⟩

/-- Rounding to the nearest, above the middle between two neighbours. -/
theorem nearest_up (hf : IsNearest p emin fl) (hp : 1 ≤ p) {k e : ℤ} (he : emin ≤ e) (h1 : 2 ^ (p - 1) < k) (h2 : k ≤ 2 ^ p) {x : ℚ} (hz : x ≤ k * 2 ^ e)
    (hx : k * 2 ^ e - x < 2 ^ e / 2) : fl x = k * 2 ^ e := by
  have hu := two_zpow_pos e
  have hk1 : (1 : ℤ) ≤ 2 ^ (p - 1) := one_le_pow₀ (by norm_num)
  have m1 : (k : ℚ) * 2 ^ e ∈ Floats p emin := mem_of_le hp he (by rw [abs_of_nonneg (by linarith)]; exact h2)
  have m2 : ((k - 1 : ℤ) : ℚ) * 2 ^ e ∈ Floats p emin := mem_of_le hp he (by rw [abs_of_nonneg (by linarith)]; linarith)
  have l1 : fl x ≤ (k : ℚ) * 2 ^ e := by rw [← hf.fix _ m1]; exact hf.mono hz
  have l2 : ((k - 1 : ℤ) : ℚ) * 2 ^ e ≤ fl x := by rw [← hf.fix _ m2]; refine hf.mono ?_; push_cast; linarith
  have big : (2 : ℚ) ^ ((p : ℤ) + (e - 1)) ≤ |fl x| := by
    have hk : (2 : ℚ) ^ (p - 1) ≤ ((k - 1 : ℤ) : ℚ) := by
      have : (2 : ℤ) ^ (p - 1) ≤ k - 1 := by omega
      exact_mod_cast this
    rw [show (p : ℤ) + (e - 1) = ((p - 1 : ℕ) : ℤ) + e by omega, zpow_add₀ (by norm_num), zpow_natCast]
    exact ((mul_le_mul_of_nonneg_right hk hu.le).trans l2).trans (le_abs_self _)
  obtain ⟨j, hj⟩ := multiple_of_le (hf.mem x) big
  rw [sub_add_cancel] at hj
  rw [hj] at l1 l2 ⊢
  have j1 : j ≤ k := by exact_mod_cast le_of_mul_le_mul_right l1 hu
  have j2 : k - 1 ≤ j := by exact_mod_cast le_of_mul_le_mul_right l2 hu
  rcases eq_or_lt_of_le j2 with e1 | e1
  · have := hf.near x _ m1
    rw [hj, ← e1, abs_of_nonpos (by push_cast; linarith), abs_of_nonneg (by linarith)] at this
    push_cast at this
    linarith
  · rw [show j = k by omega]

/-- Whether the float next to the reciprocal of the number is greater or near enough. -/
def lastCheck (p n : ℕ) : Bool :=
  let m := Nat.log2 n
  let k : ℤ := (2 ^ (m + p) + n / 2) / n
  decide (m ≤ p) && decide (k ≤ 2 ^ p) &&
    (decide (2 ^ (m + p) ≤ n * k ∧ (n * k - 2 ^ (m + p)) * 2 < n ∧ 2 ^ (p - 1) < k) || decide (|n * k - 2 ^ (m + p)| * 2 ≤ 2 ^ m ∧ 0 ≤ k))

theorem lastCheck_spec (hf : IsNearest p emin fl) (hp : 1 ≤ p) (he : emin ≤ -2 * p) {n : ℕ} (h1 : 1 ≤ n) (hn : n ≤ 2 ^ p) (ht : fl (1 - 2 ^ (-(p : ℤ)) / 2) = 1)
    (h : lastCheck p n = true) : gridFl fl n n = 1 := by
  simp only [lastCheck, Bool.and_eq_true, Bool.or_eq_true, decide_eq_true_eq] at h
  generalize Nat.log2 n = m at h
  generalize ((2 ^ (m + p) + (n : ℤ) / 2) / n : ℤ) = k at h
  obtain ⟨⟨hm, hk⟩, h⟩ := h
  have n0 : (0 : ℚ) < n := by exact_mod_cast h1
  have hu := two_zpow_pos (-(p : ℤ))
  have hn1 : (n : ℚ) * (1 / n) = 1 := mul_one_div_cancel n0.ne'
  have ez : (2 : ℚ) ^ (-((m : ℤ) + p)) = (2 ^ (m + p))⁻¹ := by rw [zpow_neg, ← Nat.cast_add, zpow_natCast]
  suffices hh : 1 - 2 ^ (-(p : ℤ)) / 2 ≤ n * fl (1 / n) by
    rcases hh.lt_or_eq with hh | hh
    · exact (C110_last hf hp he h1 hn).1 hh
    · rw [(C110_last hf hp he h1 hn).2.2 hh.symm, ht]
  rcases h with ⟨h2, h3, h4⟩ | ⟨h2, h3⟩
  · have q2 : (2 : ℚ) ^ (m + p) ≤ n * k := by exact_mod_cast h2
    have q3 : (n * k - 2 ^ (m + p)) * 2 < (n : ℚ) := by exact_mod_cast h3
    have := nearest_up hf hp (k := k) (e := -(m + p)) (x := 1 / n) (by omega) h4 hk (by
      rw [ez, ← div_eq_mul_inv, div_le_div_iff₀ n0 (by positivity)]
      linarith) (by
      rw [ez, ← div_eq_mul_inv, div_sub_div _ _ (by positivity) n0.ne', div_lt_iff₀ (by positivity)]
      have : ((2 : ℚ) ^ (m + p))⁻¹ / 2 * (2 ^ (m + p) * n) = n / 2 := by field_simp
      rw [this]; linarith)
    rw [this, ez, ← mul_assoc, ← div_eq_mul_inv, le_div_iff₀ (by positivity)]
    have := mul_pos hu (show (0 : ℚ) < 2 ^ (m + p) by positivity)
    linarith
  · have near := mul_le_mul_of_nonneg_left (hf.near (1 / n) _ (mem_of_le (k := k) (e := -(m + p)) hp (by omega) (by rwa [abs_of_nonneg h3]))) n0.le
    have e : ∀ y : ℚ, n * |y - 1 / n| = |n * y - 1| := fun y => by
      rw [← abs_of_pos n0, ← abs_mul, abs_of_pos n0, mul_sub, hn1]
    rw [e, e] at near
    have h3 : |(n : ℚ) * k - 2 ^ (m + p)| * 2 ≤ 2 ^ m := by exact_mod_cast h2
    have e : (n : ℚ) * (k * 2 ^ (-((m : ℤ) + p))) - 1 = (n * k - 2 ^ (m + p)) * (2 ^ (m + p))⁻¹ := by
      rw [sub_mul, mul_inv_cancel₀ (by positivity), ez]
      ring
    have lt : |(n : ℚ) * (k * 2 ^ (-((m : ℤ) + p))) - 1| ≤ 2 ^ (-(p : ℤ)) / 2 := by
      rw [e, abs_mul, abs_of_pos (by positivity : (0 : ℚ) < (2 ^ (m + p))⁻¹), ← div_eq_mul_inv, div_le_iff₀ (by positivity), zpow_neg, zpow_natCast]
      have : ((2 : ℚ) ^ p)⁻¹ / 2 * 2 ^ (m + p) = 2 ^ m / 2 := by rw [pow_add]; field_simp
      rw [this]
      linarith
    have := abs_le.1 (near.trans lt)
    linarith

/-- C110: with `float` the last coordinate is one for up to 40 segments, if the middle of 1 and the float below is rounded to 1, as in
rounding half to even. -/
theorem C110_float (hf : IsNearest 24 (-149) fl) (ht : fl (1 - 2 ^ (-24 : ℤ) / 2) = 1) (n : ℕ) (h1 : 1 ≤ n) (h2 : n ≤ 40) : gridFl fl n n = 1 := by
  refine lastCheck_spec hf (by norm_num) (by norm_num) h1 (by norm_num; omega) (by simpa using ht) ?_
  have : ∀ k : Fin 40, lastCheck 24 (k.val + 1) = true := by decide +kernel
  have := this ⟨n - 1, by omega⟩
  rwa [Nat.sub_add_cancel h1] at this

/-- C110: with `double` the last coordinate is one for up to 48 segments, with the same assumption. -/
theorem C110_double (hf : IsNearest 53 (-1074) fl) (ht : fl (1 - 2 ^ (-53 : ℤ) / 2) = 1) (n : ℕ) (h1 : 1 ≤ n) (h2 : n ≤ 48) : gridFl fl n n = 1 := by
  refine lastCheck_spec hf (by norm_num) (by norm_num) h1 (by norm_num; omega) (by simpa using ht) ?_
  have : ∀ k : Fin 48, lastCheck 53 (k.val + 1) = true := by decide +kernel
  have := this ⟨n - 1, by omega⟩
  rwa [Nat.sub_add_cancel h1] at this

/-- C110: with `float` and 41 segments the last column of a cuboid of size 1 is not at the side of the box, and its texture coordinate is
not 1. -/
theorem C110_float_refuted (hf : IsNearest 24 (-149) fl) : gridFl fl 41 41 = 1 - 2 ^ (-24 : ℤ) ∧ faceFl fl 1 41 41 = 1 / 2 - 2 ^ (-24 : ℤ) := by
  have e : gridFl fl 41 41 = 1 - 2 ^ (-24 : ℤ) := by
    unfold gridFl
    rw [cast_fl hf (by norm_num) (by norm_num) (by norm_num)]
    have e : fl (1 / (41 : ℕ)) = (13094412 : ℤ) * 2 ^ (-29 : ℤ) :=
      nearest_down hf (by norm_num) (by norm_num) (by norm_num) (by norm_num) (by norm_num) (by norm_num)
    rw [e, nearest_down hf (k := 2 ^ 24 - 1) (e := -24) (by norm_num) (by norm_num) (by norm_num) (by norm_num) (by norm_num) (by norm_num)]
    norm_num
  refine ⟨e, ?_⟩
  unfold faceFl
  have m1 : (1 : ℚ) - 2 ^ (-24 : ℤ) ∈ Floats 24 (-149) := ⟨2 ^ 24 - 1, -24, by norm_num, by norm_num, by norm_num⟩
  have m2 : (1 : ℚ) / 2 ∈ Floats 24 (-149) := ⟨1, -1, by norm_num, by norm_num, by norm_num⟩
  have m3 : (1 : ℚ) - 2 ^ (-24 : ℤ) - 1 / 2 ∈ Floats 24 (-149) := ⟨2 ^ 23 - 1, -24, by norm_num, by norm_num, by norm_num⟩
  rw [e, one_mul, hf.fix _ m1, hf.fix _ m2, hf.fix _ m3]
  norm_num

/-- C110: the same with `double` and 49 segments. -/
theorem C110_double_refuted (hf : IsNearest 53 (-1074) fl) : gridFl fl 49 49 = 1 - 2 ^ (-53 : ℤ) ∧ faceFl fl 1 49 49 = 1 / 2 - 2 ^ (-53 : ℤ) := by
  have e : gridFl fl 49 49 = 1 - 2 ^ (-53 : ℤ) := by
    unfold gridFl
    rw [cast_fl hf (by norm_num) (by norm_num) (by norm_num)]
    have e : fl (1 / (49 : ℕ)) = (5882252574524729 : ℤ) * 2 ^ (-58 : ℤ) :=
      nearest_down hf (by norm_num) (by norm_num) (by norm_num) (by norm_num) (by norm_num) (by norm_num)
    rw [e, nearest_down hf (k := 2 ^ 53 - 1) (e := -53) (by norm_num) (by norm_num) (by norm_num) (by norm_num) (by norm_num) (by norm_num)]
    norm_num
  refine ⟨e, ?_⟩
  unfold faceFl
  have m1 : (1 : ℚ) - 2 ^ (-53 : ℤ) ∈ Floats 53 (-1074) := ⟨2 ^ 53 - 1, -53, by norm_num, by norm_num, by norm_num⟩
  have m2 : (1 : ℚ) / 2 ∈ Floats 53 (-1074) := ⟨1, -1, by norm_num, by norm_num, by norm_num⟩
  have m3 : (1 : ℚ) - 2 ^ (-53 : ℤ) - 1 / 2 ∈ Floats 53 (-1074) := ⟨2 ^ 52 - 1, -53, by norm_num, by norm_num, by norm_num⟩
  rw [e, one_mul, hf.fix _ m1, hf.fix _ m2, hf.fix _ m3]
  norm_num

/-- The hypotheses hold for `float`, 100 segments and size 3. -/
example : IsNearest 24 (-149) (nearest 24 (-149)) ∧ (-149 : ℤ) ≤ -2 * (24 : ℕ) ∧ 8 * 100 ≤ 2 ^ 24 ∧ (3 / 2 : ℚ) ∈ Floats 24 (-149) :=
  ⟨nearest_isNearest (by norm_num), by norm_num, by norm_num, ⟨3, -1, by norm_num, by norm_num, by norm_num⟩⟩

/-- Rounding to the nearest, the greater one in the middle. -/
theorem half_up (hp : 1 ≤ p) : IsNearest p emin fun x => -nearest p emin (-x) where
  mem x := neg_mem ((nearest_isNearest hp).mem _)
  fix x hx := by rw [(nearest_isNearest hp).fix _ (neg_mem hx), neg_neg]
  mono x y h := neg_le_neg ((nearest_isNearest hp).mono (neg_le_neg h))
  near x z hz := by
    have := (nearest_isNearest hp).near (-x) _ (neg_mem hz)
    rw [← abs_neg (-nearest p emin (-x) - x), ← abs_neg (z - x)]
    simpa [sub_eq_add_neg, add_comm] using this

/-- It has the property that is assumed for the middle below one. -/
theorem half_up_float : -nearest 24 (-149) (-(1 - 2 ^ (-24 : ℤ) / 2)) = 1 := by
  have hf := half_up (p := 24) (emin := -149) (by norm_num)
  have key : ∀ y ∈ Floats 24 (-149), 1 / 2 ≤ |y| → ∃ j : ℤ, y = j * 2 ^ (-24 : ℤ) := fun y hy h => by
    obtain ⟨j, hj⟩ := multiple_of_le (k := -25) hy (by norm_num; linarith)
    exact ⟨j, by simpa using hj⟩
  set x : ℚ := -(1 - 2 ^ (-24 : ℤ) / 2) with hx
  have hx' : x = -(2 ^ 25 - 1) / 2 ^ 25 := by rw [hx]; norm_num
  have d1 : -1 ≤ down 24 (-149) x := le_down (by norm_num) ⟨-1, 0, by norm_num, by norm_num, by norm_num⟩ (by rw [hx']; norm_num)
  have d2 := down_le (p := 24) (emin := -149) x
  have hd : down 24 (-149) x = -1 := by
    obtain ⟨j, hj⟩ := key _ (down_mem (by norm_num) x) (by rw [abs_of_nonpos (by rw [hx'] at d2; norm_num at d2 ⊢; linarith)]; rw [hx'] at d2; norm_num at d2 ⊢; linarith)
    rw [hj] at d1 d2 ⊢
    rw [hx'] at d2
    norm_num at d1 d2 ⊢
    have a : (-16777216 : ℚ) ≤ j := by linarith
    have b : (j : ℚ) < -16777215 := by linarith
    have a' : -16777216 ≤ j := by exact_mod_cast a
    have b' : j < -16777215 := by exact_mod_cast b
    obtain rfl : j = -16777216 := by omega
    norm_num
  have u1 : up 24 (-149) x ≥ x := le_up x
  have u2 : up 24 (-149) x ≥ -1 + 2 ^ (-24 : ℤ) := by
    by_contra hc
    rw [not_le] at hc
    obtain ⟨j, hj⟩ := key _ (up_mem (by norm_num) x) (by rw [abs_of_nonpos (by norm_num at hc ⊢; linarith)]; norm_num at hc ⊢; linarith)
    rw [hj] at u1 hc
    rw [hx'] at u1
    norm_num at u1 hc
    have a : (-16777216 : ℚ) < j := by linarith
    have b : (j : ℚ) < -16777215 := by linarith
    have a' : -16777216 < j := by exact_mod_cast a
    have b' : j < -16777215 := by exact_mod_cast b
    omega
  unfold nearest
  rw [if_pos, hd]
  · norm_num
  · rw [hd]
    generalize up 24 (-149) x = U at *
    rw [hx']
    norm_num at u2 ⊢
    linarith

/-- The theorems for `float`, 100 segments and size 3. -/
example := C110_range (nearest_isNearest (p := 24) (emin := -149) (by norm_num)) (by norm_num) (by norm_num) (n := 100) (by norm_num) (by norm_num)
example := C110_strict (nearest_isNearest (p := 24) (emin := -149) (by norm_num)) (by norm_num) (by norm_num) (n := 100) (by norm_num) (by norm_num)
  41 42 (by norm_num) (by norm_num)
example := C110_last_partial (nearest_isNearest (p := 24) (emin := -149) (by norm_num)) (by norm_num) (by norm_num) (n := 41) (by norm_num) (by norm_num)
example := C110_power (nearest_isNearest (p := 24) (emin := -149) (by norm_num)) (by norm_num) (by norm_num) (m := 7) (by norm_num) 100 (by norm_num)
example := C110_face (nearest_isNearest (p := 24) (emin := -149) (by norm_num)) (by norm_num) (by norm_num) (n := 100) (by norm_num) (by norm_num)
  (size := 3) (by norm_num) ⟨3, -1, by norm_num, by norm_num, by norm_num⟩
example := C110_last (nearest_isNearest (p := 24) (emin := -149) (by norm_num)) (by norm_num) (by norm_num) (n := 41) (by norm_num) (by norm_num)
example := C110_tex (nearest_isNearest (p := 24) (emin := -149) (by norm_num)) (by norm_num) (by norm_num) (n := 100) (by norm_num) (by norm_num)
example := C110_float_refuted (nearest_isNearest (by norm_num))
example := C110_float (half_up (p := 24) (emin := -149) (by norm_num)) half_up_float 40 (by norm_num) (by norm_num)

end Geom.Gen
