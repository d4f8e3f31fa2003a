import Verif.Model.SphereFloat
import Verif.Spec.SphereFloat
import Verif.Props.AABBFloat
import Verif.Props.GridFloat
import Mathlib.Tactic.FieldSimp
import Mathlib.Data.Set.Finite.Basic
import Mathlib.Analysis.Real.Sqrt

/-
  C118: the intersection of rays and spheres in floating-point arithmetic.
-/
set_option autoImplicit false
set_option linter.unusedSectionVars false

namespace Geom.Sphere.Props
open Geom.Float Geom.Sphere.Spec
open Clip (dotFl subFl)
open Plane (Ray)
open Plane.Spec (ulp FloatV)

variable {p : ℕ} {emin : ℤ} {fl sq : ℚ → ℚ}

/-! ## Square roots -/

theorem nearest_sqrt (h : IsNearestSqrt p emin sq) : IsSqrt p emin sq where
  mem := h.mem
  below x f hf h0 hx := by
    by_contra hc
    push Not at hc
    have x0 : 0 ≤ x := (mul_self_nonneg f).trans hx
    have h1 := h.near x x0 f hf
    have h2 : (f : ℝ) ≤ √(x : ℝ) := Real.le_sqrt_of_sq_le (by rw [_root_.sq]; exact_mod_cast hx)
    have h3 : ((sq x : ℚ) : ℝ) < f := by exact_mod_cast hc
    rw [abs_of_nonpos (by linarith), abs_of_nonpos (by linarith)] at h1
    linarith
  above x x0 f hf h0 hx := by
    by_contra hc
    push Not at hc
    have h1 := h.near x x0 f hf
    have h2 : √(x : ℝ) ≤ f := Real.sqrt_le_iff.2 ⟨by exact_mod_cast h0, by rw [_root_.sq]; exact_mod_cast hx⟩
    have h3 : (f : ℝ) < ((sq x : ℚ) : ℝ) := by exact_mod_cast hc
    rw [abs_of_nonneg (by linarith), abs_of_nonneg (by linarith)] at h1
    linarith

/-- The error of a square root. -/
theorem sqrt_error (h : IsSqrt p emin sq) (hp : 1 ≤ p) {x : ℚ} (hx : 0 ≤ x) : |(sq x : ℝ) - √(x : ℝ)| ≤ ulp p * √(x : ℝ) + (2 : ℝ) ^ emin := by
  have hu : (0 : ℝ) < (ulp p : ℚ) := by exact_mod_cast two_zpow_pos _
  have hm : (0 : ℝ) < (2 : ℝ) ^ emin := by positivity
  have hy := Real.sqrt_nonneg (x : ℝ)
  have hxr : (0 : ℝ) ≤ x := by exact_mod_cast hx
  have key : ∀ e : ℝ, 0 < e → |(sq x : ℝ) - √(x : ℝ)| ≤ ulp p * (√(x : ℝ) + e) + (2 : ℝ) ^ emin + e := by
    intro e he
    obtain ⟨z, z1, z2⟩ := exists_rat_btwn (show √(x : ℝ) < √(x : ℝ) + e by linarith)
    obtain ⟨w, w1, w2⟩ := exists_rat_btwn (show √(x : ℝ) - e < √(x : ℝ) by linarith)
    have z0 : (0 : ℝ) < z := by linarith
    have z0' : 0 < z := by exact_mod_cast z0
    have hz : x ≤ z * z := by
      have : (x : ℝ) ≤ (z : ℝ) * z := by nlinarith [Real.mul_self_sqrt hxr]
      exact_mod_cast this
    have a1 := le_up (p := p) (emin := emin) z
    have a2 := h.above x hx _ (up_mem hp z) (by linarith) (hz.trans (mul_self_le_mul_self z0'.le a1))
    have a3 := round_any (up_rounding (p := p) (emin := emin) hp) hp z
    rw [abs_of_nonneg (by linarith), abs_of_pos z0'] at a3
    have a4 : sq x ≤ z + (ulp p * z + 2 ^ emin) := by unfold ulp; linarith
    have a5 : ((sq x : ℚ) : ℝ) ≤ z + (ulp p * z + (2 : ℝ) ^ emin) := by
      have : ((sq x : ℚ) : ℝ) ≤ ((z + (ulp p * z + 2 ^ emin) : ℚ) : ℝ) := by exact_mod_cast a4
      push_cast at this; exact this
    have a6 := mul_le_mul_of_nonneg_left z2.le hu.le
    have b5 : (w : ℝ) - (ulp p * (√(x : ℝ) + e) + (2 : ℝ) ^ emin) ≤ ((sq x : ℚ) : ℝ) := by
      have s0 : (0 : ℝ) ≤ ((sq x : ℚ) : ℝ) := by
        exact_mod_cast h.below x 0 ⟨0, emin, by simp, le_rfl, by simp⟩ le_rfl (by simpa using hx)
      have hp0 : 0 ≤ ulp p * (√(x : ℝ) + e) := by positivity
      rcases le_or_gt w 0 with hw | hw
      · have : (w : ℝ) ≤ 0 := by exact_mod_cast hw
        linarith
      · have hw' : (0 : ℝ) < w := by exact_mod_cast hw
        have c0 : down p emin w ≤ w := down_le w
        have d0 : 0 ≤ down p emin w := le_down hp ⟨0, emin, by simp, le_rfl, by simp⟩ hw.le
        have hwx : w * w ≤ x := by
          have : (w : ℝ) * w ≤ x := by nlinarith [Real.mul_self_sqrt hxr]
          exact_mod_cast this
        have c2 := h.below x _ (down_mem hp w) d0 ((mul_self_le_mul_self d0 c0).trans hwx)
        have c3 := round_any (down_rounding (p := p) (emin := emin) hp) hp w
        rw [abs_of_nonpos (by linarith), abs_of_pos hw] at c3
        have c4 : w - (ulp p * w + 2 ^ emin) ≤ sq x := by unfold ulp; linarith
        have c5 : (w : ℝ) - (ulp p * w + (2 : ℝ) ^ emin) ≤ ((sq x : ℚ) : ℝ) := by
          have : ((w - (ulp p * w + 2 ^ emin) : ℚ) : ℝ) ≤ ((sq x : ℚ) : ℝ) := by exact_mod_cast c4
          push_cast at this; exact this
        have c6 := mul_le_mul_of_nonneg_left (w2.le.trans (show √(x : ℝ) ≤ √(x : ℝ) + e by linarith)) hu.le
        linarith
    rw [abs_le]
    constructor <;> linarith
  refine le_of_forall_pos_le_add fun e he => ?_
  have := key (e / (ulp p + 1)) (by positivity)
  have e1 : (ulp p : ℝ) * (√(x : ℝ) + e / (ulp p + 1)) + (2 : ℝ) ^ emin + e / (ulp p + 1) = ulp p * √(x : ℝ) + (2 : ℝ) ^ emin + e := by
    field_simp; ring
  linarith

/-- There is a square root that is rounded to the nearest float. -/
theorem exists_nearestSqrt (hp : 1 ≤ p) : ∃ sq : ℚ → ℚ, IsNearestSqrt p emin sq := by
  have key : ∀ x : ℚ, 0 ≤ x → ∃ g ∈ Floats p emin, ∀ f ∈ Floats p emin, |(g : ℝ) - √(x : ℝ)| ≤ |(f : ℝ) - √(x : ℝ)| := by
    intro x hx
    have hxr : (0 : ℝ) ≤ x := by exact_mod_cast hx
    set F := up p emin (x + 1) with hF
    have F1 : x + 1 ≤ F := le_up _
    have F2 : F ∈ Floats p emin := up_mem hp _
    have F3 : √(x : ℝ) ≤ F := by
      have : ((x + 1 : ℚ) : ℝ) ≤ (F : ℝ) := by exact_mod_cast F1
      push_cast at this
      nlinarith [Real.mul_self_sqrt hxr, Real.sqrt_nonneg (x : ℝ)]
    have hfin : {f | f ∈ Floats p emin ∧ 0 ≤ f ∧ f ≤ F}.Finite := by
      have hm := two_zpow_pos emin
      refine ((Set.finite_Icc (0 : ℤ) ⌈F / 2 ^ emin⌉).image (fun j : ℤ => (j : ℚ) * 2 ^ emin)).subset ?_
      rintro f ⟨⟨m, e, -, he, rfl⟩, h0, h1⟩
      obtain ⟨k, rfl⟩ : ∃ k : ℕ, e = emin + k := ⟨(e - emin).toNat, by omega⟩
      have e1 : (m : ℚ) * 2 ^ (emin + (k : ℤ)) = ((m * 2 ^ k : ℤ) : ℚ) * 2 ^ emin := by
        rw [zpow_add₀ two_ne_zero, zpow_natCast]; push_cast; ring
      rw [e1] at h0 h1 ⊢
      refine ⟨m * 2 ^ k, ⟨?_, ?_⟩, rfl⟩
      · have := nonneg_of_mul_nonneg_left h0 hm
        exact_mod_cast this
      · have : ((m * 2 ^ k : ℤ) : ℚ) ≤ F / 2 ^ emin := by rw [le_div_iff₀ hm]; exact h1
        exact_mod_cast this.trans (Int.le_ceil _)
    have z : (0 : ℚ) ∈ Floats p emin := ⟨0, emin, by simp, le_rfl, by simp⟩
    obtain ⟨g, ⟨g1, g2, g3⟩, hg⟩ := Set.exists_min_image _ (fun f : ℚ => |(f : ℝ) - √(x : ℝ)|) hfin ⟨0, z, le_rfl, by linarith⟩
    refine ⟨g, g1, fun f hf => ?_⟩
    rcases lt_or_ge f 0 with h0 | h0
    · refine (hg 0 ⟨z, le_rfl, by linarith⟩).trans ?_
      have h0' : (f : ℝ) < 0 := by exact_mod_cast h0
      have := Real.sqrt_nonneg (x : ℝ)
      simp only [Rat.cast_zero, zero_sub, abs_neg]
      rw [abs_of_nonneg this, abs_of_nonpos (by linarith)]
      linarith
    · rcases le_or_gt f F with h1 | h1
      · exact hg f ⟨hf, h0, h1⟩
      · refine (hg F ⟨F2, by linarith, le_rfl⟩).trans ?_
        have h1' : (F : ℝ) < f := by exact_mod_cast h1
        rw [abs_of_nonneg (by linarith), abs_of_nonneg (by linarith)]
        linarith
  choose! g h1 h2 using key
  exact ⟨g, h1, h2⟩

/-! ## The result is in front of the origin -/

/-- A float of a normal size: an integer with `p` bits times a power of two. -/
theorem normal_form (hp : 1 ≤ p) {b : ℚ} (hb : b ∈ Floats p emin) {j : ℤ} (hj : emin + p - 1 ≤ j) (h : 2 ^ j ≤ b) :
    ∃ (m e : ℤ), b = m * 2 ^ e ∧ 2 ^ (p - 1) ≤ m ∧ m < 2 ^ p ∧ j - p + 1 ≤ e := by
  have b0 : 0 < b := (two_zpow_pos j).trans_le h
  have l1 : (2 : ℚ) ^ Int.log 2 b ≤ b := by simpa using Int.zpow_log_le_self (b := 2) (by norm_num) b0
  have l2 : b < (2 : ℚ) ^ (Int.log 2 b + 1) := by simpa using Int.lt_zpow_succ_log_self (b := 2) (by norm_num) b
  have lj : j ≤ Int.log 2 b := by
    have := (zpow_lt_zpow_iff_right₀ (by norm_num : (1 : ℚ) < 2)).1 (h.trans_lt l2)
    omega
  generalize Int.log 2 b = l at *
  obtain ⟨i, hi⟩ := multiple_of_le (k := l - p) hb (by rw [abs_of_pos b0, add_sub_cancel]; exact l1)
  have hu := two_zpow_pos (l - p + 1)
  obtain ⟨q, rfl⟩ : ∃ q, p = q + 1 := ⟨p - 1, by omega⟩
  refine ⟨i, l - (q + 1 : ℕ) + 1, hi, ?_, ?_, by omega⟩
  · have : (2 : ℚ) ^ (q : ℤ) * 2 ^ (l - (q + 1 : ℕ) + 1) ≤ i * 2 ^ (l - (q + 1 : ℕ) + 1) := by
      rw [← hi, ← zpow_add₀ two_ne_zero, show (q : ℤ) + (l - (q + 1 : ℕ) + 1) = l by push_cast; ring]
      exact l1
    have := le_of_mul_le_mul_right this hu
    rw [zpow_natCast] at this
    rw [Nat.add_sub_cancel]
    exact_mod_cast this
  · have : i * 2 ^ (l - (q + 1 : ℕ) + 1) < (2 : ℚ) ^ ((q + 1 : ℕ) : ℤ) * 2 ^ (l - (q + 1 : ℕ) + 1) := by
      rw [← hi, ← zpow_add₀ two_ne_zero, show ((q + 1 : ℕ) : ℤ) + (l - (q + 1 : ℕ) + 1) = l + 1 by push_cast; ring]
      exact l2
    have := lt_of_mul_lt_mul_right this hu.le
    rw [zpow_natCast] at this
    exact_mod_cast this

/-- The root of a rounded square is not greater than the number, with rounding to the nearest. -/
theorem sqrt_square (hf : IsNearest p emin fl) (hs : IsNearestSqrt p emin sq) (hp : 1 ≤ p) {j : ℤ} (h1 : emin + p - 1 ≤ j) (h2 : emin + p - 2 ≤ 2 * j) {b d : ℚ}
    (hb : b ∈ Floats p emin) (h : 2 ^ j ≤ b) (d0 : 0 ≤ d) (hd : d ≤ fl (b * b)) : sq d ≤ b := by
  obtain ⟨m, e, rfl, m1, m2, he⟩ := normal_form hp hb h1 h
  have hu := two_zpow_pos e
  by_contra hc
  push Not at hc
  have ep : ((2 ^ (p - 1) : ℤ) : ℚ) = 2 ^ ((p : ℤ) - 1) := by
    obtain ⟨q, rfl⟩ : ∃ q, p = q + 1 := ⟨p - 1, by omega⟩
    push_cast
    rw [add_sub_cancel_right, zpow_natCast]
  have m1' : (2 : ℚ) ^ ((p : ℤ) - 1) ≤ m := by rw [← ep]; exact_mod_cast m1
  have m0 : (0 : ℚ) < m := (two_zpow_pos _).trans_le m1'
  have b0 : 0 < (m : ℚ) * 2 ^ e := by positivity
  -- the next float
  have step : (m : ℚ) * 2 ^ e + 2 ^ e ≤ sq d := by
    obtain ⟨i, hi⟩ := multiple_of_le (k := e - 1) (hs.mem d d0) (by
      rw [abs_of_pos (b0.trans hc), show (p : ℤ) + (e - 1) = ((p : ℤ) - 1) + e by ring, zpow_add₀ two_ne_zero]
      exact (mul_le_mul_of_nonneg_right m1' hu.le).trans hc.le)
    rw [sub_add_cancel] at hi
    rw [hi] at hc ⊢
    have : (m : ℚ) < i := lt_of_mul_lt_mul_right hc hu.le
    have : (m : ℚ) + 1 ≤ i := by exact_mod_cast (show m + 1 ≤ i by exact_mod_cast this)
    have := mul_le_mul_of_nonneg_right this hu.le
    linarith
  have mid : (m : ℚ) * 2 ^ e * (m * 2 ^ e) + m * 2 ^ e * 2 ^ e < d := by
    have hn := hs.near d d0 _ hb
    have s1 : ((m * 2 ^ e : ℚ) : ℝ) + ((2 ^ e : ℚ) : ℝ) ≤ ((sq d : ℚ) : ℝ) := by exact_mod_cast step
    have dr : (0 : ℝ) ≤ d := by exact_mod_cast d0
    have b0r : (0 : ℝ) < ((m * 2 ^ e : ℚ) : ℝ) := by exact_mod_cast b0
    have hur : (0 : ℝ) < ((2 ^ e : ℚ) : ℝ) := by exact_mod_cast hu
    have s2 : ((m * 2 ^ e : ℚ) : ℝ) + ((2 ^ e : ℚ) : ℝ) / 2 ≤ √(d : ℝ) := by
      rcases le_or_gt (√(d : ℝ)) ((m * 2 ^ e : ℚ) : ℝ) with h | h
      · rw [abs_of_nonneg (by linarith), abs_of_nonneg (by linarith)] at hn
        linarith
      · rw [abs_of_neg (show ((m * 2 ^ e : ℚ) : ℝ) - √(d : ℝ) < 0 by linarith)] at hn
        have := (le_abs_self _).trans hn
        linarith
    have s3 : ((m * 2 ^ e : ℚ) : ℝ) * ((m * 2 ^ e : ℚ) : ℝ) + ((m * 2 ^ e : ℚ) : ℝ) * ((2 ^ e : ℚ) : ℝ) < (d : ℝ) := by
      have := mul_self_le_mul_self (by linarith) s2
      rw [Real.mul_self_sqrt dr] at this
      nlinarith
    exact_mod_cast s3
  have err := near_error hf hp (x := (m : ℚ) * 2 ^ e * (m * 2 ^ e)) (k := 2 * p + 2 * e) (by
    rw [abs_of_pos (by positivity)]
    have m2' : (m : ℚ) ≤ 2 ^ (p : ℤ) := by rw [zpow_natCast]; exact_mod_cast m2.le
    have e1 : (2 : ℚ) ^ (2 * (p : ℤ) + 2 * e) = 2 ^ (p : ℤ) * 2 ^ e * (2 ^ (p : ℤ) * 2 ^ e) := by
      rw [← zpow_add₀ two_ne_zero, ← zpow_add₀ two_ne_zero]; congr 1; ring
    rw [e1]
    exact mul_self_le_mul_self b0.le (mul_le_mul_of_nonneg_right m2' hu.le)) (by omega)
  have e2 : (2 : ℚ) ^ (2 * (p : ℤ) + 2 * e - p) / 2 = 2 ^ ((p : ℤ) - 1) * 2 ^ e * 2 ^ e := by
    rw [← zpow_add₀ two_ne_zero, ← zpow_add₀ two_ne_zero, show (2 * (p : ℤ) + 2 * e - p) = ((p : ℤ) - 1 + e + e) + 1 by ring, zpow_add_one₀ two_ne_zero]
    ring
  rw [e2] at err
  have := (le_abs_self _).trans err
  have h3 := mul_le_mul_of_nonneg_right (mul_le_mul_of_nonneg_right m1' hu.le) hu.le
  linarith

theorem dotFl_mem (hf : IsRounding p emin fl) (v w : V3 ℚ) : dotFl fl v w ∈ Floats p emin := hf.mem _

theorem interpFl_some {s : Sphere ℚ} {o v : V3 ℚ} {t : ℚ} (h : interpFl fl sq s o v = some t) :
    let dif := subFl fl o s.origin
    let c := fl (dotFl fl dif dif - fl (s.radius * s.radius))
    let b := dotFl fl dif v
    0 ≤ c ∧ b ≤ 0 ∧ 0 ≤ fl (fl (b * b) - c) ∧ t = fl (-b - sq (fl (fl (b * b) - c))) := by
  unfold interpFl at h
  dsimp only at h ⊢
  split_ifs at h with h1 h2 h3
  push Not at h1 h2 h3
  exact ⟨h1, h2, h3, (Option.some.inj h).symm⟩

/-- The parameter is not negative, apart from roundings of numbers that are less than `2 ^ j`, where the square of `2 ^ j` is near the smallest floats. -/
theorem C118_front_partial (hf : IsNearest p emin fl) (hs : IsNearestSqrt p emin sq) (hp : 1 ≤ p) {j : ℤ} (h1 : emin + p - 1 ≤ j) (h2 : emin + p - 2 ≤ 2 * j) (h3 : emin ≤ 2 * j)
    (s : Sphere ℚ) (r : Ray ℚ) (t : ℚ) (h : interpFl fl sq s r.origin r.direction = some t) :
    -2 ^ j ≤ t := by
  obtain ⟨hc, hb, hd, ht⟩ := interpFl_some h
  have hr := hf.toIsRounding
  have hbm := neg_mem (dotFl_mem hr (subFl fl r.origin s.origin) r.direction)
  generalize dotFl fl (subFl fl r.origin s.origin) r.direction = b at *
  generalize fl (dotFl fl (subFl fl r.origin s.origin) (subFl fl r.origin s.origin) - fl (s.radius * s.radius)) = c at *
  have z : fl 0 = 0 := hr.fix 0 ⟨0, emin, by simp, le_rfl, by simp⟩
  have hd2 : fl (fl (b * b) - c) ≤ fl (b * b) := by
    calc fl (fl (b * b) - c) ≤ fl (fl (b * b)) := hr.mono (by linarith)
      _ = fl (b * b) := hr.fix _ (hr.mem _)
  have hbig : 2 ^ j ≤ |b| → 0 ≤ t := by
    intro hj
    rw [abs_of_nonpos hb] at hj
    have := sqrt_square hf hs hp h1 h2 hbm hj hd (by rw [neg_mul_neg]; exact hd2)
    rw [ht, ← z]
    exact hr.mono (by linarith)
  have hj := two_zpow_pos j
  rcases le_or_gt (2 ^ j) |b| with hc' | hc'
  · linarith [hbig hc']
  · rw [abs_of_nonpos hb] at hc'
    have m1 : (2 : ℚ) ^ j ∈ Floats p emin := by
      have := mem_of_le (p := p) (emin := emin) (k := 1) (e := j) hp (by omega) (by rw [abs_one]; exact one_le_pow₀ (by norm_num))
      simpa using this
    have m2 : (2 : ℚ) ^ j * 2 ^ j ∈ Floats p emin := by
      have := mem_of_le (p := p) (emin := emin) (k := 1) (e := 2 * j) hp h3 (by rw [abs_one]; exact one_le_pow₀ (by norm_num))
      rw [← zpow_add₀ two_ne_zero, ← two_mul]
      simpa using this
    have h4 : fl (b * b) ≤ 2 ^ j * 2 ^ j := by
      rw [← hr.fix _ m2]
      refine hr.mono ?_
      rw [← neg_mul_neg]
      exact mul_self_le_mul_self (by linarith) hc'.le
    have h5 := (nearest_sqrt hs).above _ hd _ m1 hj.le (hd2.trans h4)
    rw [ht, ← hr.fix _ (neg_mem m1)]
    exact hr.mono (by linarith)

/-! ## Accuracy -/

section accuracy

/-- The rounding of a number, if the smallest floats are small compared with `S`. -/
theorem round_scale (hf : IsRounding p emin fl) (hp : 1 ≤ p) {S : ℚ} (hS : 2 ^ emin ≤ ulp p * S) (x : ℚ) : |fl x - x| ≤ ulp p * (|x| + S) := by
  have h1 := round_any hf hp x
  change _ ≤ ulp p * |x| + _ at h1
  linarith

/-- The rounding of a number that is not greater than `m`. -/
theorem round_bound (hf : IsRounding p emin fl) (hp : 1 ≤ p) {S : ℚ} (hS : 2 ^ emin ≤ ulp p * S) {x m : ℚ} (h : |x| ≤ m) : |fl x - x| ≤ ulp p * (m + S) :=
  (round_scale hf hp hS x).trans (mul_le_mul_of_nonneg_left (by linarith) (two_zpow_pos _).le)

theorem abs_le_add {x y d m : ℚ} (h : |x - y| ≤ d) (k : |y| ≤ m) : |x| ≤ m + d := by
  have := abs_add_le (x - y) y
  rw [sub_add_cancel] at this
  linarith

/-- The error of a product of vectors. -/
theorem dot_error (hf : IsRounding p emin fl) (hp : 11 ≤ p) {S : ℚ} (hS : 2 ^ emin ≤ ulp p * S) (h0 : 0 ≤ S) {v w : V3 ℚ}
    (h1 : |v.x * w.x| ≤ 51 / 50 * S) (h2 : |v.y * w.y| ≤ 51 / 50 * S) (h3 : |v.z * w.z| ≤ 51 / 50 * S) :
    |dotFl fl v w - (v.x * w.x + v.y * w.y + v.z * w.z)| ≤ 14 * ulp p * S := by
  have hu : 0 < ulp p := two_zpow_pos _
  have hu1 : ulp p ≤ 1 / 1024 := by
    unfold ulp
    calc (2 : ℚ) ^ (1 - (p : ℤ)) ≤ 2 ^ (-10 : ℤ) := zpow_le_zpow_right₀ (by norm_num) (by omega)
      _ = 1 / 1024 := by norm_num
  have hp1 : 1 ≤ p := by omega
  have uS : ulp p * S ≤ 1 / 1024 * S := mul_le_mul_of_nonneg_right hu1 h0
  have uS0 : 0 ≤ ulp p * S := by positivity
  unfold dotFl
  have r1 := round_bound hf hp1 hS h1
  have r2 := round_bound hf hp1 hS h2
  have r3 := round_bound hf hp1 hS h3
  generalize v.x * w.x = x at *
  generalize v.y * w.y = y at *
  generalize v.z * w.z = z at *
  have e1 : ulp p * (51 / 50 * S + S) = 101 / 50 * (ulp p * S) := by ring
  rw [e1] at r1 r2 r3
  generalize fl x = x' at *
  generalize fl y = y' at *
  generalize fl z = z' at *
  rw [abs_le] at r1 r2 r3 h1 h2 h3
  have b1 : |x' + y'| ≤ 21 / 10 * S := by rw [abs_le]; constructor <;> linarith
  have r4 := round_bound hf hp1 hS b1
  have e2 : ulp p * (21 / 10 * S + S) = 31 / 10 * (ulp p * S) := by ring
  rw [e2] at r4
  generalize fl (x' + y') = a at *
  rw [abs_le] at r4 b1
  have b2 : |a + z'| ≤ 32 / 10 * S := by rw [abs_le]; constructor <;> linarith
  have r5 := round_bound hf hp1 hS b2
  have e3 : ulp p * (32 / 10 * S + S) = 42 / 10 * (ulp p * S) := by ring
  rw [e3] at r5
  generalize fl (a + z') = b at *
  rw [abs_le] at r5 ⊢
  constructor <;> linarith

theorem cauchy3 (x y z a b c : ℚ) : (x * a + y * b + z * c) ^ 2 ≤ (a ^ 2 + b ^ 2 + c ^ 2) * (x ^ 2 + y ^ 2 + z ^ 2) := by
  linarith [sq_nonneg (x * b - y * a), sq_nonneg (x * c - z * a), sq_nonneg (y * c - z * b)]

theorem ulp_le (hp : 11 ≤ p) : ulp p ≤ 1 / 1024 := by
  unfold ulp
  calc (2 : ℚ) ^ (1 - (p : ℤ)) ≤ 2 ^ (-10 : ℤ) := zpow_le_zpow_right₀ (by norm_num) (by omega)
    _ = 1 / 1024 := by norm_num

/-- The numbers of the query, exact and rounded. -/
structure Values (u R B C b c D : ℚ) : Prop where
  b_near : |b - B| ≤ 18 * u * R
  c_near : |c - C| ≤ 26 * u * R ^ 2
  b_le : B ^ 2 ≤ D * R ^ 2
  c_le : |C| ≤ R ^ 2
  D_near : |D - 1| ≤ 4 * u

theorem values (hf : IsRounding p emin fl) (hp : 11 ≤ p) {s : Sphere ℚ} {r : Ray ℚ} (hq : FloatQuery p emin s r) (hn : NearUnit p r.direction) {R : ℚ} (hR : Scale p emin s r R) :
    Values (ulp p) R (away s r) (outside s r.origin) (dotFl fl (subFl fl r.origin s.origin) r.direction)
      (fl (dotFl fl (subFl fl r.origin s.origin) (subFl fl r.origin s.origin) - fl (s.radius * s.radius)))
      (r.direction.x ^ 2 + r.direction.y ^ 2 + r.direction.z ^ 2) := by
  have hu : 0 < ulp p := two_zpow_pos _
  have hu1 := ulp_le hp
  have hp1 : 1 ≤ p := by omega
  obtain ⟨R0, Rr, Rd, s1, s2⟩ := hR
  obtain ⟨⟨⟨f1, f2, f3⟩, -⟩, ⟨g1, g2, g3⟩, -⟩ := hq
  have q1 := round_sub hf hp1 g1 f1
  have q2 := round_sub hf hp1 g2 f2
  have q3 := round_sub hf hp1 g3 f3
  unfold NearUnit at hn
  unfold away outside
  have ex : (subFl fl r.origin s.origin).x = fl (r.origin.x - s.origin.x) := rfl
  have ey : (subFl fl r.origin s.origin).y = fl (r.origin.y - s.origin.y) := rfl
  have ez : (subFl fl r.origin s.origin).z = fl (r.origin.z - s.origin.z) := rfl
  generalize r.origin.x - s.origin.x = x at *
  generalize r.origin.y - s.origin.y = y at *
  generalize r.origin.z - s.origin.z = z at *
  change |fl x - x| ≤ ulp p * |x| at q1
  change |fl y - y| ≤ ulp p * |y| at q2
  change |fl z - z| ≤ ulp p * |z| at q3
  obtain ⟨v, hv⟩ : ∃ v, v = subFl fl r.origin s.origin := ⟨_, rfl⟩
  rw [← hv] at ex ey ez ⊢
  rw [← ex] at q1
  rw [← ey] at q2
  rw [← ez] at q3
  obtain ⟨w, hw⟩ : ∃ w, w = r.direction := ⟨_, rfl⟩
  rw [← hw] at hn ⊢
  have R2 : 0 < R ^ 2 := by positivity
  -- components
  have xR : |x| ≤ R := abs_le_of_sq_le_sq (by nlinarith [sq_nonneg y, sq_nonneg z]) R0.le
  have yR : |y| ≤ R := abs_le_of_sq_le_sq (by nlinarith [sq_nonneg x, sq_nonneg z]) R0.le
  have zR : |z| ≤ R := abs_le_of_sq_le_sq (by nlinarith [sq_nonneg x, sq_nonneg y]) R0.le
  have hD := abs_le.1 hn
  have w1 : |w.x| ≤ 101 / 100 := abs_le_of_sq_le_sq (by nlinarith [sq_nonneg w.y, sq_nonneg w.z]) (by norm_num)
  have w2 : |w.y| ≤ 101 / 100 := abs_le_of_sq_le_sq (by nlinarith [sq_nonneg w.x, sq_nonneg w.z]) (by norm_num)
  have w3 : |w.z| ≤ 101 / 100 := abs_le_of_sq_le_sq (by nlinarith [sq_nonneg w.x, sq_nonneg w.y]) (by norm_num)
  have near : ∀ {a a' : ℚ}, |a' - a| ≤ ulp p * |a| → |a| ≤ R → |a' - a| ≤ ulp p * R ∧ |a'| ≤ 1001 / 1000 * R := by
    intro a a' h k
    have h1 : ulp p * |a| ≤ ulp p * R := mul_le_mul_of_nonneg_left k hu.le
    have h2 := mul_le_mul_of_nonneg_right hu1 R0.le
    have := abs_le_add h k
    exact ⟨h.trans h1, by linarith⟩
  obtain ⟨n1, k1⟩ := near q1 xR
  obtain ⟨n2, k2⟩ := near q2 yR
  obtain ⟨n3, k3⟩ := near q3 zR
  have prod : ∀ {a a' c : ℚ}, |a' - a| ≤ ulp p * R → |c| ≤ 101 / 100 → |a' * c - a * c| ≤ 101 / 100 * (ulp p * R) := by
    intro a a' c h k
    rw [← sub_mul, abs_mul]
    calc |a' - a| * |c| ≤ (ulp p * R) * (101 / 100) := mul_le_mul h k (abs_nonneg _) (by positivity)
      _ = _ := by ring
  have square : ∀ {a a' : ℚ}, |a' - a| ≤ ulp p * R → |a'| ≤ 1001 / 1000 * R → |a| ≤ R → |a' * a' - a ^ 2| ≤ 2001 / 1000 * (ulp p * R ^ 2) := by
    intro a a' h k l
    have e : a' * a' - a ^ 2 = (a' - a) * (a' + a) := by ring
    rw [e, abs_mul]
    have h2 : |a' + a| ≤ 2001 / 1000 * R := (abs_add_le _ _).trans (by linarith)
    calc |a' - a| * |a' + a| ≤ (ulp p * R) * (2001 / 1000 * R) := mul_le_mul h h2 (abs_nonneg _) (by positivity)
      _ = _ := by ring
  refine ⟨?_, ?_, ?_, ?_, hn⟩
  · have pr : ∀ {a c : ℚ}, |a| ≤ 1001 / 1000 * R → |c| ≤ 101 / 100 → |a * c| ≤ 51 / 50 * R := by
      intro a c h k
      rw [abs_mul]
      calc |a| * |c| ≤ (1001 / 1000 * R) * (101 / 100) := mul_le_mul h k (abs_nonneg _) (by positivity)
        _ ≤ _ := by linarith
    have e := abs_le.1 (dot_error hf hp s1 R0.le (pr k1 w1) (pr k2 w2) (pr k3 w3))
    have a1 := abs_le.1 (prod n1 w1)
    have a2 := abs_le.1 (prod n2 w2)
    have a3 := abs_le.1 (prod n3 w3)
    have : 0 ≤ ulp p * R := by positivity
    rw [abs_le]
    constructor <;> linarith
  · have pr : ∀ {a : ℚ}, |a| ≤ 1001 / 1000 * R → |a * a| ≤ 51 / 50 * R ^ 2 := by
      intro a h
      rw [abs_mul]
      calc |a| * |a| ≤ (1001 / 1000 * R) * (1001 / 1000 * R) := mul_le_mul h h (abs_nonneg _) (by positivity)
        _ ≤ _ := by nlinarith
    have e := abs_le.1 (dot_error hf hp s2 R2.le (pr k1) (pr k2) (pr k3))
    have a1 := abs_le.1 (square n1 k1 xR)
    have a2 := abs_le.1 (square n2 k2 yR)
    have a3 := abs_le.1 (square n3 k3 zR)
    have rr : |s.radius * s.radius| ≤ R ^ 2 := by
      rw [abs_mul, _root_.sq]; exact mul_le_mul Rr Rr (abs_nonneg _) R0.le
    have e1 := abs_le.1 (round_bound hf hp1 s2 rr)
    have rr' := abs_le.1 rr
    have r0 := mul_self_nonneg s.radius
    have uR : 0 ≤ ulp p * R ^ 2 := by positivity
    have uR' : ulp p * R ^ 2 ≤ 1 / 1024 * R ^ 2 := mul_le_mul_of_nonneg_right hu1 R2.le
    have x0 := sq_nonneg x
    have y0 := sq_nonneg y
    have z0 := sq_nonneg z
    generalize dotFl fl v v = l at *
    generalize fl (s.radius * s.radius) = rad at *
    have b1 : |l - rad| ≤ 11 / 10 * R ^ 2 := by rw [abs_le]; constructor <;> linarith
    have e2 := abs_le.1 (round_bound hf hp1 s2 b1)
    have ers : s.radius ^ 2 = s.radius * s.radius := by ring
    rw [abs_le, ers]
    constructor <;> linarith
  · exact (cauchy3 x y z w.x w.y w.z).trans (mul_le_mul_of_nonneg_left Rd (by positivity))
  · have rr : s.radius ^ 2 ≤ R ^ 2 := by rw [← sq_abs]; exact pow_le_pow_left₀ (abs_nonneg _) Rr 2
    have r0 := sq_nonneg s.radius
    have x0 := sq_nonneg x
    have y0 := sq_nonneg y
    have z0 := sq_nonneg z
    rw [abs_le]
    constructor <;> linarith

/-- The square of a rounded root. -/
theorem sqrt_sq_error (hs : IsSqrt p emin sq) (hp : 11 ≤ p) {R : ℚ} (hR : 0 < R) (h1 : 2 ^ emin ≤ ulp p * R) {x : ℚ} (h0 : 0 ≤ x) (hx : x ≤ 208 / 100 * R ^ 2) :
    0 ≤ sq x ∧ sq x ≤ 1445 / 1000 * R ∧ |sq x * sq x - x| ≤ 8 * (ulp p * R ^ 2) := by
  have hu : 0 < ulp p := two_zpow_pos _
  have hu1 := ulp_le hp
  have e := sqrt_error hs (by omega) h0
  have q0 : 0 ≤ sq x := hs.below x 0 ⟨0, emin, by simp, le_rfl, by simp⟩ le_rfl (by simpa using h0)
  have hur : (0 : ℝ) < (ulp p : ℚ) := by exact_mod_cast hu
  have hu1r : ((ulp p : ℚ) : ℝ) ≤ 1 / 1024 := by
    have : ((ulp p : ℚ) : ℝ) ≤ ((1 / 1024 : ℚ) : ℝ) := by exact_mod_cast hu1
    push_cast at this; exact this
  have hRr : (0 : ℝ) < R := by exact_mod_cast hR
  have h1r : (2 : ℝ) ^ emin ≤ ulp p * R := by
    have : ((2 ^ emin : ℚ) : ℝ) ≤ ((ulp p * R : ℚ) : ℝ) := by exact_mod_cast h1
    push_cast at this; exact this
  have hxr : (x : ℝ) ≤ 208 / 100 * (R : ℝ) ^ 2 := by
    have : (x : ℝ) ≤ ((208 / 100 * R ^ 2 : ℚ) : ℝ) := by exact_mod_cast hx
    push_cast at this; exact this
  have h0r : (0 : ℝ) ≤ x := by exact_mod_cast h0
  have q0r : (0 : ℝ) ≤ ((sq x : ℚ) : ℝ) := by exact_mod_cast q0
  have y0 := Real.sqrt_nonneg (x : ℝ)
  have y1 : √(x : ℝ) ≤ 14425 / 10000 * R := Real.sqrt_le_iff.2 ⟨by positivity, hxr.trans (by nlinarith)⟩
  have y2 := Real.mul_self_sqrt h0r
  generalize √(x : ℝ) = y at *
  have a1 := mul_le_mul_of_nonneg_left y1 hur.le
  have e2 : |((sq x : ℚ) : ℝ) - y| ≤ 245 / 100 * (ulp p * R) := by linarith [mul_pos hur hRr]
  have a2 := mul_le_mul_of_nonneg_right hu1r hRr.le
  have q1 : ((sq x : ℚ) : ℝ) ≤ 1445 / 1000 * R := by linarith [(abs_le.1 e2).2]
  have e3 : |((sq x : ℚ) : ℝ) * (sq x : ℚ) - x| ≤ 8 * (ulp p * (R : ℝ) ^ 2) := by
    have e4 : ((sq x : ℚ) : ℝ) * (sq x : ℚ) - x = (((sq x : ℚ) : ℝ) - y) * ((sq x : ℚ) + y) := by rw [← y2]; ring
    rw [e4, abs_mul, abs_of_nonneg (show (0 : ℝ) ≤ (sq x : ℚ) + y by linarith)]
    calc |((sq x : ℚ) : ℝ) - y| * ((sq x : ℚ) + y) ≤ (245 / 100 * (ulp p * R)) * (3 * R) := mul_le_mul e2 (by linarith) (by linarith) (by positivity)
      _ ≤ _ := by nlinarith [mul_pos hur (pow_pos hRr 2)]
  refine ⟨q0, ?_, ?_⟩
  · have : ((sq x : ℚ) : ℝ) ≤ ((1445 / 1000 * R : ℚ) : ℝ) := by push_cast; exact q1
    exact_mod_cast this
  · have : ((|sq x * sq x - x| : ℚ) : ℝ) ≤ ((8 * (ulp p * R ^ 2) : ℚ) : ℝ) := by push_cast; exact e3
    exact_mod_cast this

/-- Bounds of the numbers of the query. -/
theorem Values.bounds {u R B C b c D : ℚ} (h : Values u R B C b c D) (hR : 0 < R) (hu : 0 < u) (hu1 : u ≤ 1 / 1024) :
    |B| ≤ 1003 / 1000 * R ∧ |b| ≤ 1021 / 1000 * R ∧ |c| ≤ 1026 / 1000 * R ^ 2 := by
  obtain ⟨h1, h2, h3, h4, h5⟩ := h
  have hR2 : 0 < R ^ 2 := by positivity
  have hB : |B| ≤ 1003 / 1000 * R := by
    refine abs_le_of_sq_le_sq (h3.trans ?_) (by positivity)
    have : D ≤ 1004 / 1000 := by linarith [(abs_le.1 h5).2]
    have := mul_le_mul_of_nonneg_right this hR2.le
    linarith
  have a1 := mul_le_mul_of_nonneg_right hu1 hR.le
  have a2 := mul_le_mul_of_nonneg_right hu1 hR2.le
  have a3 := abs_le_add h1 hB
  have a4 := abs_le_add h2 h4
  exact ⟨hB, by linarith, by linarith⟩

theorem abs_mul_le {x y m n : ℚ} (hx : |x| ≤ m) (hy : |y| ≤ n) : |x * y| ≤ m * n := by
  rw [abs_mul]; exact mul_le_mul hx hy (abs_nonneg _) ((abs_nonneg _).trans hx)

theorem outside_ray (s : Sphere ℚ) (r : Ray ℚ) (t : ℚ) : outside s (rayPoint r t) =
    outside s r.origin + 2 * t * away s r + t ^ 2 * (r.direction.x ^ 2 + r.direction.y ^ 2 + r.direction.z ^ 2) := by
  simp only [outside, rayPoint, away]; ring

/-- The square of the rounded product. -/
theorem square_round (hf : IsRounding p emin fl) (hp : 11 ≤ p) {R b : ℚ} (h2 : 2 ^ emin ≤ ulp p * R ^ 2) (hb : |b| ≤ 1021 / 1000 * R) :
    |fl (b * b) - b * b| ≤ 205 / 100 * (ulp p * R ^ 2) ∧ |b * b| ≤ 10425 / 10000 * R ^ 2 := by
  have hu : 0 < ulp p := two_zpow_pos _
  have h1 : |b * b| ≤ 10425 / 10000 * R ^ 2 := (abs_mul_le hb hb).trans (by nlinarith [sq_nonneg R])
  have := round_bound hf (by omega) h2 h1
  have h3 : 0 ≤ ulp p * R ^ 2 := by positivity
  exact ⟨by linarith, h1⟩

/-- The accuracy of the parameter. -/
theorem hit (hf : IsRounding p emin fl) (hs : IsSqrt p emin sq) (hp : 11 ≤ p) {s : Sphere ℚ} {r : Ray ℚ} (hq : FloatQuery p emin s r) (hn : NearUnit p r.direction)
    {R : ℚ} (hR : Scale p emin s r R) {t : ℚ} (h : interpFl fl sq s r.origin r.direction = some t) :
    |t| ≤ 247 / 100 * R ∧ |outside s (rayPoint r t)| ≤ 170 * (ulp p * R ^ 2) ∧ -26 * (ulp p * R ^ 2) ≤ outside s r.origin ∧ away s r ≤ 18 * (ulp p * R) ∧
    ∀ a, 0 ≤ a → a ≤ t → -330 * (ulp p * R ^ 2) ≤ outside s (rayPoint r a) := by
  have hv := values hf hp hq hn hR
  obtain ⟨i1, i2, i3, ht⟩ := interpFl_some h
  have hu : 0 < ulp p := two_zpow_pos _
  have hu1 := ulp_le hp
  have hp1 : 1 ≤ p := by omega
  obtain ⟨R0, -, -, s1, s2⟩ := hR
  have R2 : 0 < R ^ 2 := by positivity
  obtain ⟨bB, bb, bc⟩ := hv.bounds R0 hu hu1
  simp only [outside_ray]
  generalize dotFl fl (subFl fl r.origin s.origin) r.direction = b at *
  generalize fl (dotFl fl (subFl fl r.origin s.origin) (subFl fl r.origin s.origin) - fl (s.radius * s.radius)) = c at *
  generalize away s r = B at *
  generalize outside s r.origin = C at *
  generalize r.direction.x ^ 2 + r.direction.y ^ 2 + r.direction.z ^ 2 = D at *
  obtain ⟨v1, v2, v3, v4, v5⟩ := hv
  have uR : 0 < ulp p * R := by positivity
  have uR2 : 0 < ulp p * R ^ 2 := by positivity
  have a1 := mul_le_mul_of_nonneg_right hu1 R0.le
  have a2 := mul_le_mul_of_nonneg_right hu1 R2.le
  obtain ⟨f1, f2⟩ := square_round hf hp s2 bb
  generalize fl (b * b) = F at *
  have g1 : |F - c| ≤ 207 / 100 * R ^ 2 := by
    have := mul_self_nonneg b
    rw [abs_le] at f1 f2 bc ⊢
    constructor <;> linarith
  have f3 := round_bound hf hp1 s2 g1
  generalize fl (F - c) = d at *
  have f3' : |d - (F - c)| ≤ 307 / 100 * (ulp p * R ^ 2) := by linarith
  have hd : d ≤ 208 / 100 * R ^ 2 := by linarith [(abs_le.1 f3').2, (abs_le.1 g1).2]
  obtain ⟨q0, q1, q2⟩ := sqrt_sq_error hs hp R0 s1 i3 hd
  generalize sq d = q at *
  have g2 : |-b - q| ≤ 2466 / 1000 * R := by
    rw [abs_le] at bb ⊢
    constructor <;> linarith
  have f4 := round_bound hf hp1 s1 g2
  rw [← ht] at f4
  have f4' : |t - (-b - q)| ≤ 347 / 100 * (ulp p * R) := by linarith
  have ht1 : |t| ≤ 247 / 100 * R := by
    have := abs_le_add f4' g2
    linarith
  have p1 : |(t + b) ^ 2 - q * q| ≤ 11 * (ulp p * R ^ 2) := by
    have e : (t + b) ^ 2 - q * q = (t - (-b - q)) * ((t - (-b - q)) - 2 * q) := by ring
    have k : |(t - (-b - q)) - 2 * q| ≤ 2895 / 1000 * R := by
      rw [abs_le] at f4' ⊢
      constructor <;> linarith
    rw [e]
    refine (abs_mul_le f4' k).trans ?_
    have e : 347 / 100 * (ulp p * R) * (2895 / 1000 * R) = 347 / 100 * (2895 / 1000) * (ulp p * R ^ 2) := by ring
    rw [e]; linarith
  have p2 : |t * (b - B)| ≤ 45 * (ulp p * R ^ 2) := by
    refine (abs_mul_le ht1 v1).trans ?_
    have e : 247 / 100 * R * (18 * ulp p * R) = 247 / 100 * 18 * (ulp p * R ^ 2) := by ring
    rw [e]; linarith
  have p3 : |t * t * (D - 1)| ≤ 25 * (ulp p * R ^ 2) := by
    refine (abs_mul_le (abs_mul_le ht1 ht1) v5).trans ?_
    have e : 247 / 100 * R * (247 / 100 * R) * (4 * ulp p) = 247 / 100 * (247 / 100) * 4 * (ulp p * R ^ 2) := by ring
    rw [e]; linarith
  have p4 : |C + 2 * t * B + t ^ 2 * D| ≤ 170 * (ulp p * R ^ 2) := by
    have e : C + 2 * t * B + t ^ 2 * D = ((t + b) ^ 2 - q * q) + (q * q - d) + (d - (F - c)) + (F - b * b) - 2 * (t * (b - B)) - (c - C) + t * t * (D - 1) := by ring
    rw [e]
    rw [abs_le] at *
    constructor <;> linarith
  refine ⟨ht1, p4, ?_, ?_, ?_⟩
  · linarith [(abs_le.1 v2).2]
  · linarith [(abs_le.1 v1).1]
  · intro a a0 at'
    -- the slope at the end is not positive
    have k1 : t * D + B ≤ 314 / 10 * (ulp p * R) := by
      have e : t * D + B = (t - (-b - q)) - q - (b - B) + t * (D - 1) := by ring
      have k := abs_mul_le ht1 v5
      have e2 : 247 / 100 * R * (4 * ulp p) = 988 / 100 * (ulp p * R) := by ring
      rw [e2] at k
      rw [e]
      linarith [(abs_le.1 f4').2, (abs_le.1 v1).1, (abs_le.1 k).2]
    have k2 : (t - a) * (t * D + B) ≤ 776 / 10 * (ulp p * R ^ 2) := by
      have h0 : 0 ≤ t - a := by linarith
      have h1 : t - a ≤ 247 / 100 * R := by linarith [(abs_le.1 ht1).2]
      calc (t - a) * (t * D + B) ≤ (t - a) * (314 / 10 * (ulp p * R)) := mul_le_mul_of_nonneg_left k1 h0
        _ ≤ 247 / 100 * R * (314 / 10 * (ulp p * R)) := mul_le_mul_of_nonneg_right h1 (by positivity)
        _ = 247 / 100 * (314 / 10) * (ulp p * R ^ 2) := by ring
        _ ≤ _ := by linarith
    have D0 : 0 ≤ D := by linarith [(abs_le.1 v5).1]
    have k3 : C + 2 * a * B + a ^ 2 * D = (C + 2 * t * B + t ^ 2 * D) - 2 * ((t - a) * (t * D + B)) + D * (t - a) ^ 2 := by ring
    have k4 : 0 ≤ D * (t - a) ^ 2 := by positivity
    rw [k3]
    linarith [(abs_le.1 p4).1]

end accuracy

/-- If the query returns a point, then it is near a point of the ray that is on the sphere up to rounding, and the ray does not enter the sphere before
it, up to rounding. The origin is not inside of the sphere and
the ray does not lead away from it, up to rounding. -/
theorem C118_hit_partial (hf : IsRounding p emin fl) (hs : IsSqrt p emin sq) (hp : 11 ≤ p) (s : Sphere ℚ) (r : Ray ℚ) (hq : FloatQuery p emin s r) (hn : NearUnit p r.direction)
    (R : ℚ) (hR : Scale p emin s r R) (x : V3 ℚ) (h : intersectionFl fl sq s r = some x) :
    (∃ t, |outside s (rayPoint r t)| ≤ 170 * (ulp p * R ^ 2) ∧ (∀ a, 0 ≤ a → a ≤ t → -330 * (ulp p * R ^ 2) ≤ outside s (rayPoint r a)) ∧ |x.x - (rayPoint r t).x| ≤ ulp p * (|r.origin.x| + 8 * R) ∧
      |x.y - (rayPoint r t).y| ≤ ulp p * (|r.origin.y| + 8 * R) ∧ |x.z - (rayPoint r t).z| ≤ ulp p * (|r.origin.z| + 8 * R)) ∧
    -26 * (ulp p * R ^ 2) ≤ outside s r.origin ∧ away s r ≤ 18 * (ulp p * R) := by
  unfold intersectionFl at h
  split at h
  · rename_i t ht
    obtain ⟨h1, h2, h3, h4, h5⟩ := hit hf hs hp hq hn hR ht
    refine ⟨⟨t, h2, h5, ?_⟩, h3, h4⟩
    have hu : 0 < ulp p := two_zpow_pos _
    have hu1 := ulp_le hp
    have R0 := hR.pos
    have hD := abs_le.1 hn
    have w1 : |r.direction.x| ≤ 101 / 100 := abs_le_of_sq_le_sq (by nlinarith [sq_nonneg r.direction.y, sq_nonneg r.direction.z]) (by norm_num)
    have w2 : |r.direction.y| ≤ 101 / 100 := abs_le_of_sq_le_sq (by nlinarith [sq_nonneg r.direction.x, sq_nonneg r.direction.z]) (by norm_num)
    have w3 : |r.direction.z| ≤ 101 / 100 := abs_le_of_sq_le_sq (by nlinarith [sq_nonneg r.direction.x, sq_nonneg r.direction.y]) (by norm_num)
    have key : ∀ o w : ℚ, |w| ≤ 101 / 100 → |fl (fl (w * t) + o) - (o + t * w)| ≤ ulp p * (|o| + 8 * R) := by
      intro o w hw
      have k1 := abs_mul_le hw h1
      have k2 := round_bound hf (by omega) hR.small k1
      have uR : 0 < ulp p * R := mul_pos hu R0
      have a1 := mul_le_mul_of_nonneg_right hu1 R0.le
      have k3 : |fl (w * t) + o| ≤ |o| + 26 / 10 * R := by
        have := abs_le_add k2 k1
        have := abs_add_le (fl (w * t)) o
        linarith
      have k4 := round_bound hf (by omega) hR.small k3
      rw [abs_le] at k2 k4 ⊢
      constructor <;> linarith
    have hx := Option.some.inj h
    rw [← hx]
    exact ⟨key _ _ w1, key _ _ w2, key _ _ w3⟩
  · simp at h

/-- If the query does not return a point, then the origin is inside of the sphere, or the ray leads away from it, or the line does not enter the sphere,
up to rounding. -/
theorem C118_miss_partial (hf : IsRounding p emin fl) (hp : 11 ≤ p) (s : Sphere ℚ) (r : Ray ℚ) (hq : FloatQuery p emin s r) (hn : NearUnit p r.direction)
    (R : ℚ) (hR : Scale p emin s r R) (h : intersectionFl fl sq s r = none) :
    outside s r.origin ≤ 26 * (ulp p * R ^ 2) ∨ -18 * (ulp p * R) ≤ away s r ∨ ∀ t, -70 * (ulp p * R ^ 2) ≤ outside s (rayPoint r t) := by
  have hv := values hf hp hq hn hR
  have hu : 0 < ulp p := two_zpow_pos _
  have hu1 := ulp_le hp
  obtain ⟨R0, -, -, s1, s2⟩ := hR
  have R2 : 0 < R ^ 2 := by positivity
  obtain ⟨bB, bb, bc⟩ := hv.bounds R0 hu hu1
  simp only [outside_ray]
  have z : fl 0 = 0 := hf.fix 0 ⟨0, emin, by simp, le_rfl, by simp⟩
  have h' : interpFl fl sq s r.origin r.direction = none := by
    unfold intersectionFl at h
    split at h
    · simp at h
    · assumption
  unfold interpFl at h'
  dsimp only at h'
  generalize dotFl fl (subFl fl r.origin s.origin) r.direction = b at *
  generalize fl (dotFl fl (subFl fl r.origin s.origin) (subFl fl r.origin s.origin) - fl (s.radius * s.radius)) = c at *
  generalize away s r = B at *
  generalize outside s r.origin = C at *
  generalize r.direction.x ^ 2 + r.direction.y ^ 2 + r.direction.z ^ 2 = D at *
  obtain ⟨v1, v2, v3, v4, v5⟩ := hv
  have uR : 0 < ulp p * R := by positivity
  have uR2 : 0 < ulp p * R ^ 2 := by positivity
  obtain ⟨f1, f2⟩ := square_round hf hp s2 bb
  split_ifs at h' with c1 c2 c3
  · left; linarith [(abs_le.1 v2).1]
  · right; left; linarith [(abs_le.1 v1).2]
  · right; right
    intro t
    have k1 : fl (b * b) - c < 0 := by
      by_contra hc
      push Not at hc
      have := hf.mono hc
      rw [z] at this
      linarith
    have k2 : |b * b - B ^ 2| ≤ 37 * (ulp p * R ^ 2) := by
      have e : b * b - B ^ 2 = (b - B) * (b + B) := by ring
      rw [e]
      refine (abs_mul_le v1 ((abs_add_le b B).trans (add_le_add bb bB))).trans ?_
      have e2 : 18 * ulp p * R * (1021 / 1000 * R + 1003 / 1000 * R) = 18 * (2024 / 1000) * (ulp p * R ^ 2) := by ring
      rw [e2]; linarith
    have D0 : 0 < D := by linarith [(abs_le.1 v5).1]
    have k3 : B ^ 2 - C ≤ 66 * (ulp p * R ^ 2) := by
      linarith [(abs_le.1 k2).1, (abs_le.1 v2).2, (abs_le.1 f1).1]
    -- the minimum of the quadratic function
    have k4 : B ^ 2 / D ≤ R ^ 2 := by rw [div_le_iff₀ D0]; linarith
    have k5 : B ^ 2 / D - B ^ 2 ≤ 4 * (ulp p * R ^ 2) := by
      have e : B ^ 2 / D - B ^ 2 = B ^ 2 / D * (1 - D) := by field_simp
      have h0 : 0 ≤ B ^ 2 / D := by positivity
      rw [e]
      calc B ^ 2 / D * (1 - D) ≤ B ^ 2 / D * (4 * ulp p) := mul_le_mul_of_nonneg_left (by linarith [(abs_le.1 v5).1]) h0
        _ ≤ R ^ 2 * (4 * ulp p) := mul_le_mul_of_nonneg_right k4 (by positivity)
        _ = _ := by ring
    have k6 : C + 2 * t * B + t ^ 2 * D = D * (t + B / D) ^ 2 + (C - B ^ 2 / D) := by field_simp; ring
    have k7 : 0 ≤ D * (t + B / D) ^ 2 := by positivity
    rw [k6]
    linarith

/-! ## Refutations -/

/-- A sphere with radius one on the x axis. -/
def farSphere (k : ℤ) : Sphere ℚ := ⟨⟨2 ^ k, 0, 0⟩, 1⟩

/-- A ray along the x axis. -/
def axisRay (y : ℚ) : Ray ℚ := ⟨⟨0, y, 0⟩, ⟨1, 0, 0⟩⟩

theorem pow_mem (hp : 1 ≤ p) {e : ℤ} (he : emin ≤ e) : (2 : ℚ) ^ e ∈ Floats p emin := by
  have := mem_of_le (p := p) (emin := emin) (k := 1) (e := e) hp he (by rw [abs_one]; exact one_le_pow₀ (by norm_num))
  simpa using this

/-- The radius is lost in the rounding of the square of the distance. -/
theorem far_hit (hf : IsNearest p emin fl) (hs : IsSqrt p emin sq) (hp : 2 ≤ p) {k : ℤ} (hk : (p : ℤ) + 2 ≤ 2 * k) (he : emin ≤ 0) {y : ℚ} (h1 : y ∈ Floats p emin)
    (h2 : y * y ∈ Floats p emin) (h3 : y * y < 4) : intersectionFl fl sq (farSphere k) (axisRay y) = some ⟨2 ^ k, y, 0⟩ := by
  have hr := hf.toIsRounding
  have hp1 : 1 ≤ p := by omega
  have z : fl 0 = 0 := hr.fix 0 ⟨0, emin, by simp, le_rfl, by simp⟩
  have F : ∀ e : ℤ, emin ≤ e → fl (2 ^ e) = 2 ^ e := fun e h => hr.fix _ (pow_mem hp1 h)
  have o : fl 1 = 1 := by simpa using F 0 he
  have Fn : fl (-2 ^ k) = -2 ^ k := hr.fix _ (neg_mem (pow_mem hp1 (by omega)))
  have e2 : (2 : ℚ) ^ k * 2 ^ k = 2 ^ (2 * k) := by rw [← zpow_add₀ two_ne_zero, two_mul]
  have ep : ((2 ^ (p - 1) : ℤ) : ℚ) = 2 ^ ((p : ℤ) - 1) := by
    obtain ⟨q, rfl⟩ : ∃ q, p = q + 1 := ⟨p - 1, by omega⟩
    push_cast
    rw [add_sub_cancel_right, zpow_natCast]
  have y0 := mul_self_nonneg y
  have d1 : fl (2 ^ (2 * k) + y * y) = 2 ^ (2 * k) := by
    have e3 : ((2 ^ (p - 1) : ℤ) : ℚ) * 2 ^ (2 * k - p + 1) = 2 ^ (2 * k) := by
      rw [ep, ← zpow_add₀ two_ne_zero]; congr 1; ring
    have h4 : (8 : ℚ) ≤ 2 ^ (2 * k - p + 1) := by
      calc (8 : ℚ) = 2 ^ (3 : ℤ) := by norm_num
        _ ≤ _ := zpow_le_zpow_right₀ (by norm_num) (by omega)
    have := nearest_down hf hp1 (k := 2 ^ (p - 1)) (e := 2 * k - p + 1) (x := 2 ^ (2 * k) + y * y) (by omega) le_rfl
      (pow_lt_pow_right₀ (by norm_num) (by omega)) (by rw [e3]; linarith) (by rw [e3]; linarith)
    rw [this, e3]
  have d2 : fl (2 ^ (2 * k) - 1) = 2 ^ (2 * k) := by
    have e3 : ((2 ^ p : ℤ) : ℚ) * 2 ^ (2 * k - p) = 2 ^ (2 * k) := by
      push_cast
      rw [← zpow_natCast, ← zpow_add₀ two_ne_zero]; congr 1; ring
    have h4 : (4 : ℚ) ≤ 2 ^ (2 * k - p) := by
      calc (4 : ℚ) = 2 ^ (2 : ℤ) := by norm_num
        _ ≤ _ := zpow_le_zpow_right₀ (by norm_num) (by omega)
    have := Gen.nearest_up hf hp1 (k := 2 ^ p) (e := 2 * k - p) (x := 2 ^ (2 * k) - 1) (by omega) (pow_lt_pow_right₀ (by norm_num) (by omega))
      le_rfl (by rw [e3]; linarith) (by rw [e3]; linarith)
    rw [this, e3]
  have s0 : sq 0 = 0 := le_antisymm (hs.above 0 le_rfl 0 ⟨0, emin, by simp, le_rfl, by simp⟩ le_rfl (by simp))
    (hs.below 0 0 ⟨0, emin, by simp, le_rfl, by simp⟩ le_rfl (by simp))
  have F2 := F (2 * k) (by omega)
  have Fk := F k (by omega)
  have kp := two_zpow_pos k
  have h : interpFl fl sq (farSphere k) (axisRay y).origin (axisRay y).direction = some (2 ^ k) := by
    unfold interpFl
    simp only [farSphere, axisRay, subFl, dotFl, zero_sub, sub_zero, sub_self, Fn, z, hr.fix _ h1, hr.fix _ h2, neg_mul_neg, e2, F2, d1, mul_zero, add_zero, mul_one, o, d2]
    simp [kp.le, s0, Fk, (two_zpow_pos (2 * k)).le]
  unfold intersectionFl
  rw [h]
  simp only [lerpFl, axisRay, one_mul, zero_mul, z, Fk, add_zero, zero_add, hr.fix _ h1]

theorem far_query (hp : 1 ≤ p) {k : ℤ} (k0 : 0 ≤ k) (he : emin ≤ 0) {y : ℚ} (h1 : y ∈ Floats p emin) : FloatQuery p emin (farSphere k) (axisRay y) := by
  have z : (0 : ℚ) ∈ Floats p emin := ⟨0, emin, by simp, le_rfl, by simp⟩
  have o : (1 : ℚ) ∈ Floats p emin := by simpa using pow_mem (p := p) (emin := emin) hp he
  exact ⟨⟨⟨pow_mem hp (by omega), z, z⟩, o⟩, ⟨z, h1, z⟩, o, z, z⟩

/-- In single precision the query for a sphere with radius 1 at the distance 8192, with a ray through the centre, returns the centre of the sphere. -/
theorem C118_centre_float_refuted (hf : IsNearest 24 (-149) fl) (hs : IsSqrt 24 (-149) sq) :
    ∃ (s : Sphere ℚ) (r : Ray ℚ), FloatQuery 24 (-149) s r ∧ s.origin = ⟨8192, 0, 0⟩ ∧ s.radius = 1 ∧ r.origin = ⟨0, 0, 0⟩ ∧ r.direction = ⟨1, 0, 0⟩ ∧
      intersectionFl fl sq s r = some s.origin := by
  have z : (0 : ℚ) ∈ Floats 24 (-149) := ⟨0, 0, by simp, by norm_num, by simp⟩
  have := far_hit hf hs (by norm_num) (k := 13) (by norm_num) (by norm_num) z (by simpa using z) (by norm_num)
  exact ⟨_, _, far_query (by norm_num) (k := 13) (by norm_num) (by norm_num) z, by norm_num [farSphere], rfl, rfl, rfl, this⟩

/-- In double precision this happens at the distance 2^28. -/
theorem C118_centre_double_refuted (hf : IsNearest 53 (-1074) fl) (hs : IsSqrt 53 (-1074) sq) :
    ∃ (s : Sphere ℚ) (r : Ray ℚ), FloatQuery 53 (-1074) s r ∧ s.origin = ⟨2 ^ 28, 0, 0⟩ ∧ s.radius = 1 ∧ r.origin = ⟨0, 0, 0⟩ ∧ r.direction = ⟨1, 0, 0⟩ ∧
      intersectionFl fl sq s r = some s.origin := by
  have z : (0 : ℚ) ∈ Floats 53 (-1074) := ⟨0, 0, by simp, by norm_num, by simp⟩
  have := far_hit hf hs (by norm_num) (k := 28) (by norm_num) (by norm_num) z (by simpa using z) (by norm_num)
  exact ⟨_, _, far_query (by norm_num) (k := 28) (by norm_num) (by norm_num) z, by norm_num [farSphere], rfl, rfl, rfl, this⟩

theorem far_outside (k : ℤ) (t : ℚ) : 1 < outside (farSphere k) (rayPoint (axisRay (3 / 2)) t) := by
  have : outside (farSphere k) (rayPoint (axisRay (3 / 2)) t) = (t - 2 ^ k) ^ 2 + 5 / 4 := by
    simp only [outside, farSphere, rayPoint, axisRay]; ring
  rw [this]
  linarith [sq_nonneg (t - 2 ^ k)]

/-- A ray that misses a sphere with radius 1 by 1/2 counts as a hit, in single precision at the distance 8192. -/
theorem C118_miss_float_refuted (hf : IsNearest 24 (-149) fl) (hs : IsSqrt 24 (-149) sq) :
    ∃ (s : Sphere ℚ) (r : Ray ℚ) (x : V3 ℚ), FloatQuery 24 (-149) s r ∧ s.origin = ⟨8192, 0, 0⟩ ∧ s.radius = 1 ∧ r.origin = ⟨0, 3 / 2, 0⟩ ∧ r.direction = ⟨1, 0, 0⟩ ∧
      (∀ t, 1 < outside s (rayPoint r t)) ∧ intersectionFl fl sq s r = some x := by
  have h1 : (3 / 2 : ℚ) ∈ Floats 24 (-149) := ⟨3, -1, by norm_num, by norm_num, by norm_num⟩
  have h2 : (3 / 2 * (3 / 2) : ℚ) ∈ Floats 24 (-149) := ⟨9, -2, by norm_num, by norm_num, by norm_num⟩
  have := far_hit hf hs (by norm_num) (k := 13) (by norm_num) (by norm_num) h1 h2 (by norm_num)
  exact ⟨_, _, _, far_query (by norm_num) (k := 13) (by norm_num) (by norm_num) h1, by norm_num [farSphere], rfl, rfl, rfl, far_outside 13, this⟩

/-- The same in double precision at the distance 2^28. -/
theorem C118_miss_double_refuted (hf : IsNearest 53 (-1074) fl) (hs : IsSqrt 53 (-1074) sq) :
    ∃ (s : Sphere ℚ) (r : Ray ℚ) (x : V3 ℚ), FloatQuery 53 (-1074) s r ∧ s.origin = ⟨2 ^ 28, 0, 0⟩ ∧ s.radius = 1 ∧ r.origin = ⟨0, 3 / 2, 0⟩ ∧ r.direction = ⟨1, 0, 0⟩ ∧
      (∀ t, 1 < outside s (rayPoint r t)) ∧ intersectionFl fl sq s r = some x := by
  have h1 : (3 / 2 : ℚ) ∈ Floats 53 (-1074) := ⟨3, -1, by norm_num, by norm_num, by norm_num⟩
  have h2 : (3 / 2 * (3 / 2) : ℚ) ∈ Floats 53 (-1074) := ⟨9, -2, by norm_num, by norm_num, by norm_num⟩
  have := far_hit hf hs (by norm_num) (k := 28) (by norm_num) (by norm_num) h1 h2 (by norm_num)
  exact ⟨_, _, _, far_query (by norm_num) (k := 28) (by norm_num) (by norm_num) h1, by norm_num [farSphere], rfl, rfl, rfl, far_outside 28, this⟩

/-- A number that is nearer to the smallest positive float than to zero. -/
theorem round_smallest (hf : IsNearest p emin fl) (hp : 1 ≤ p) {x : ℚ} (h1 : 2 ^ emin / 2 < x) (h2 : x ≤ 2 ^ emin) : fl x = 2 ^ emin := by
  have hm := two_zpow_pos emin
  have m1 : (2 : ℚ) ^ emin ∈ Floats p emin := pow_mem hp le_rfl
  have a1 := hf.near x _ m1
  have a2 := hf.mono h2
  rw [hf.fix _ m1] at a2
  rw [abs_of_nonneg (show 0 ≤ 2 ^ emin - x by linarith)] at a1
  have a3 := (abs_le.1 a1).1
  obtain ⟨m, e, -, he, hx⟩ := hf.mem x
  obtain ⟨k, rfl⟩ : ∃ k : ℕ, e = emin + k := ⟨(e - emin).toNat, by omega⟩
  have e1 : (m : ℚ) * 2 ^ (emin + (k : ℤ)) = ((m * 2 ^ k : ℤ) : ℚ) * 2 ^ emin := by
    rw [zpow_add₀ two_ne_zero, zpow_natCast]; push_cast; ring
  rw [e1] at hx
  rw [hx] at a2 a3 ⊢
  generalize m * 2 ^ k = j at *
  have b1 : (0 : ℚ) < j := by
    by_contra hc
    push Not at hc
    have := mul_nonpos_of_nonpos_of_nonneg hc hm.le
    linarith
  have b2 : (j : ℚ) ≤ 1 := by
    by_contra hc
    push Not at hc
    have := mul_lt_mul_of_pos_right hc hm
    linarith
  have b1' : 0 < j := by exact_mod_cast b1
  have b2' : j ≤ 1 := by exact_mod_cast b2
  have : j = 1 := by omega
  rw [this]; simp

/-- The square of the radius is rounded up, and so is its root. -/
theorem tiny (hf : IsNearest p emin fl) (hs : IsSqrt p emin sq) (hp : 1 ≤ p) (he : emin ≤ 0) {b f : ℚ} (b0 : 0 < b) (hb : b ∈ Floats p emin) (h1 : 2 ^ emin / 2 < b * b) (h2 : b * b ≤ 2 ^ emin)
    (hff : f ∈ Floats p emin) (h3 : f * f ≤ 2 ^ emin) (h4 : b < f) (h5 : b - f ∈ Floats p emin) :
    FloatQuery p emin ⟨⟨b, 0, 0⟩, b⟩ ⟨⟨0, 0, 0⟩, ⟨1, 0, 0⟩⟩ ∧ ∃ t, interpFl fl sq ⟨⟨b, 0, 0⟩, b⟩ ⟨0, 0, 0⟩ ⟨1, 0, 0⟩ = some t ∧ t < 0 := by
  have hr := hf.toIsRounding
  have zm : (0 : ℚ) ∈ Floats p emin := ⟨0, emin, by simp, le_rfl, by simp⟩
  have om : (1 : ℚ) ∈ Floats p emin := by simpa using pow_mem (p := p) (emin := emin) hp he
  have z : fl 0 = 0 := hr.fix 0 zm
  have nb := hr.fix _ (neg_mem hb)
  have hsq := round_smallest hf hp h1 h2
  have m1 := hr.fix _ (pow_mem (p := p) (emin := emin) hp le_rfl)
  have h6 := hs.below _ f hff (by linarith) h3
  have hm := two_zpow_pos emin
  refine ⟨⟨⟨⟨hb, zm, zm⟩, hb⟩, ⟨zm, zm, zm⟩, om, zm, zm⟩, fl (b - sq (2 ^ emin)), ?_, ?_⟩
  · unfold interpFl
    simp only [subFl, dotFl, zero_sub, sub_self, nb, z, neg_mul_neg, hsq, mul_zero, add_zero, mul_one, m1, sub_zero, neg_neg]
    simp [hm.le, b0.le]
  · have := hr.mono (show b - sq (2 ^ emin) ≤ b - f by linarith)
    rw [hr.fix _ h5] at this
    linarith

/-- The parameter can be negative, in single precision: a ray from a point of a sphere with a radius of about 3e-23, towards the centre. -/
theorem C118_front_float_refuted (hf : IsNearest 24 (-149) fl) (hs : IsSqrt 24 (-149) sq) :
    ∃ (s : Sphere ℚ) (r : Ray ℚ), FloatQuery 24 (-149) s r ∧ ∃ t, interpFl fl sq s r.origin r.direction = some t ∧ t < 0 := by
  have n : (2 : ℚ) ^ (-149 : ℤ) = 1 / 2 ^ 149 := by norm_num [zpow_neg]
  have h := tiny (b := 5 / 2 ^ 77) (f := 11 / 2 ^ 78) hf hs (by norm_num) (by norm_num) (by norm_num) ⟨5, -77, by norm_num, by norm_num, by norm_num [zpow_neg]⟩
    (by rw [n]; norm_num) (by rw [n]; norm_num) ⟨11, -78, by norm_num, by norm_num, by norm_num [zpow_neg]⟩ (by rw [n]; norm_num) (by norm_num)
    ⟨-1, -78, by norm_num, by norm_num, by norm_num [zpow_neg]⟩
  exact ⟨_, _, h.1, h.2⟩

/-- The same in double precision. -/
theorem C118_front_double_refuted (hf : IsNearest 53 (-1074) fl) (hs : IsSqrt 53 (-1074) sq) :
    ∃ (s : Sphere ℚ) (r : Ray ℚ), FloatQuery 53 (-1074) s r ∧ ∃ t, interpFl fl sq s r.origin r.direction = some t ∧ t < 0 := by
  have n : (2 : ℚ) ^ (-1074 : ℤ) = 16 * (2 ^ (-539 : ℤ) * 2 ^ (-539 : ℤ)) := by
    rw [← zpow_add₀ two_ne_zero, show (16 : ℚ) = 2 ^ (4 : ℤ) by norm_num, ← zpow_add₀ two_ne_zero]; norm_num
  have c0 := two_zpow_pos (-539)
  have c1 := mul_pos c0 c0
  have h := tiny (b := 3 * 2 ^ (-539 : ℤ)) (f := 4 * 2 ^ (-539 : ℤ)) hf hs (by norm_num) (by norm_num) (by linarith)
    ⟨3, -539, by norm_num, by norm_num, by norm_cast⟩ (by rw [n]; linarith) (by rw [n]; linarith)
    ⟨4, -539, by norm_num, by norm_num, by norm_cast⟩ (by rw [n]; linarith) (by linarith)
    ⟨-1, -539, by norm_num, by norm_num, by rw [Int.cast_neg, Int.cast_one]; linarith⟩
  exact ⟨_, _, h.1, h.2⟩

/-! The theorems in single precision. -/

/-- A ray towards a sphere with radius 3 at the distance 5. -/
theorem near_query : FloatQuery 24 (-149) ⟨⟨1, 0, 0⟩, 3⟩ ⟨⟨1, 5, 0⟩, ⟨0, -1, 0⟩⟩ ∧ NearUnit 24 ⟨0, -1, 0⟩ ∧ Scale 24 (-149) ⟨⟨1, 0, 0⟩, 3⟩ ⟨⟨1, 5, 0⟩, ⟨0, -1, 0⟩⟩ 5 := by
  have i : ∀ k : ℤ, |k| ≤ 2 ^ 24 → (k : ℚ) ∈ Floats 24 (-149) := fun k h => int_mem (by norm_num) (by norm_num) h
  have i0 : (0 : ℚ) ∈ Floats 24 (-149) := by simpa using i 0 (by norm_num)
  have i1 : (1 : ℚ) ∈ Floats 24 (-149) := by simpa using i 1 (by norm_num)
  have i3 : (3 : ℚ) ∈ Floats 24 (-149) := by simpa using i 3 (by norm_num)
  have i5 : (5 : ℚ) ∈ Floats 24 (-149) := by simpa using i 5 (by norm_num)
  have u : ulp 24 = 1 / 2 ^ 23 := by norm_num [ulp, zpow_neg]
  refine ⟨⟨⟨⟨i1, i0, i0⟩, i3⟩, ⟨i1, i5, i0⟩, i0, neg_mem i1, i0⟩, ?_, ⟨by norm_num, by norm_num, by norm_num, ?_, ?_⟩⟩
  · rw [NearUnit, u]; norm_num
  · rw [u]; norm_num [zpow_neg]
  · rw [u]; norm_num [zpow_neg]

/-- The query returns the parameter 2. -/
theorem near_interp (hf : IsRounding 24 (-149) fl) (hs : IsSqrt 24 (-149) sq) : interpFl fl sq ⟨⟨1, 0, 0⟩, 3⟩ ⟨1, 5, 0⟩ ⟨0, -1, 0⟩ = some 2 := by
  have i : ∀ k : ℤ, |k| ≤ 2 ^ 24 → fl k = k := fun k h => hf.fix _ (int_mem (by norm_num) (by norm_num) h)
  have i0 : fl 0 = 0 := by simpa using i 0 (by norm_num)
  have i2 : fl 2 = 2 := by simpa using i 2 (by norm_num)
  have i5 : fl 5 = 5 := by simpa using i 5 (by norm_num)
  have n5 : fl (-5) = -5 := by simpa using i (-5) (by norm_num)
  have i9 : fl 9 = 9 := by simpa using i 9 (by norm_num)
  have i16 : fl 16 = 16 := by simpa using i 16 (by norm_num)
  have i25 : fl 25 = 25 := by simpa using i 25 (by norm_num)
  have m3 : (3 : ℚ) ∈ Floats 24 (-149) := by simpa using int_mem (p := 24) (emin := -149) (k := 3) (by norm_num) (by norm_num) (by norm_num)
  have s9 : sq 9 = 3 := le_antisymm (hs.above 9 (by norm_num) 3 m3 (by norm_num) (by norm_num)) (hs.below 9 3 m3 (by norm_num) (by norm_num))
  norm_num [interpFl, subFl, dotFl, i0, i2, i5, n5, i9, i16, i25, s9]

example (hs : IsNearestSqrt 24 (-149) sq) := C118_front_partial (nearest_isNearest (p := 24) (emin := -149) (by norm_num)) hs (by norm_num) (j := -63) (by norm_num) (by norm_num) (by norm_num)
  ⟨⟨1, 0, 0⟩, 3⟩ ⟨⟨1, 5, 0⟩, ⟨0, -1, 0⟩⟩ 2 (near_interp (nearest_isNearest (by norm_num)).toIsRounding (nearest_sqrt hs))

example (hs : IsNearestSqrt 24 (-149) sq) : ∃ x, intersectionFl (nearest 24 (-149)) sq ⟨⟨1, 0, 0⟩, 3⟩ ⟨⟨1, 5, 0⟩, ⟨0, -1, 0⟩⟩ = some x := by
  unfold intersectionFl
  rw [near_interp (nearest_isNearest (by norm_num)).toIsRounding (nearest_sqrt hs)]
  exact ⟨_, rfl⟩

example (hs : IsNearestSqrt 24 (-149) sq) := C118_hit_partial (nearest_isNearest (p := 24) (emin := -149) (by norm_num)).toIsRounding (nearest_sqrt hs) (by norm_num) _ _ near_query.1
  near_query.2.1 5 near_query.2.2

/-- The square root of the hypotheses. -/
example : ∃ sq, IsNearestSqrt 24 (-149) sq := exists_nearestSqrt (by norm_num)

/-- A ray that leads away from the sphere. -/
example : FloatQuery 24 (-149) ⟨⟨1, 0, 0⟩, 3⟩ ⟨⟨1, 5, 0⟩, ⟨0, 1, 0⟩⟩ ∧ NearUnit 24 ⟨0, 1, 0⟩ ∧ Scale 24 (-149) ⟨⟨1, 0, 0⟩, 3⟩ ⟨⟨1, 5, 0⟩, ⟨0, 1, 0⟩⟩ 5 ∧
    intersectionFl (nearest 24 (-149)) sq ⟨⟨1, 0, 0⟩, 3⟩ ⟨⟨1, 5, 0⟩, ⟨0, 1, 0⟩⟩ = none := by
  obtain ⟨⟨h1, h2, h3⟩, -, h5⟩ := near_query
  refine ⟨⟨h1, h2, h3.1, by simpa using neg_mem h3.2.1, h3.2.2⟩, ?_, ⟨h5.pos, h5.radius, h5.dist, h5.small, h5.small2⟩, ?_⟩
  · rw [NearUnit]
    have : 0 < ulp 24 := two_zpow_pos _
    norm_num; linarith
  · have i : ∀ k : ℤ, |k| ≤ 2 ^ 24 → nearest 24 (-149) k = k := fun k h => (nearest_isNearest (by norm_num)).fix _ (int_mem (by norm_num) (by norm_num) h)
    have i0 : nearest 24 (-149) 0 = 0 := by simpa using i 0 (by norm_num)
    have i5 : nearest 24 (-149) 5 = 5 := by simpa using i 5 (by norm_num)
    have i9 : nearest 24 (-149) 9 = 9 := by simpa using i 9 (by norm_num)
    have i16 : nearest 24 (-149) 16 = 16 := by simpa using i 16 (by norm_num)
    have i25 : nearest 24 (-149) 25 = 25 := by simpa using i 25 (by norm_num)
    norm_num [intersectionFl, interpFl, subFl, dotFl, i0, i5, i9, i16, i25]

end Geom.Sphere.Props
