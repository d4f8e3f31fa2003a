import Verif.Model.LinesFloat
import Verif.Spec.LinesFloat
import Verif.Props.AABBFloat
import Verif.Props.GridFloat
import Mathlib.Tactic.FieldSimp

/-
  C117: the nearest points of two segments in floating-point arithmetic.
-/
set_option autoImplicit false
set_option linter.unusedSectionVars false

namespace Geom.Lines.Props
open Geom.Float Geom.Lines.Spec
open Clip (dotFl subFl)
open Plane.Spec (ulp FloatV)

variable {p : ℕ} {emin : ℤ} {fl : ℚ → ℚ}

theorem fl_zero (hf : IsRounding p emin fl) : fl 0 = 0 := hf.fix 0 ⟨0, emin, by simp, le_rfl, by simp⟩

theorem saturate_unit (x : ℚ) : 0 ≤ saturate x ∧ saturate x ≤ 1 := by
  unfold saturate
  exact ⟨le_max_left _ _, max_le (by norm_num) (min_le_left _ _)⟩

/-- The code does not divide by zero, and the parameters are between zero and one. -/
theorem params (fl : ℚ → ℚ) {eps : ℚ} (he : 0 ≤ eps) (A B : Seg (V3 ℚ)) :
    ∃ o, closestParamsFl fl eps A B = .ok o ∧ ∀ s t, o = some (s, t) → (0 ≤ s ∧ s ≤ 1) ∧ 0 ≤ t ∧ t ≤ 1 := by
  have hd : ∀ x y, y ≠ 0 → divFl fl x y = .ok (fl (x / y)) := fun x y h => if_neg h
  unfold closestParamsFl
  simp only
  split_ifs with h1 h2 h3 h4
  · exact ⟨none, rfl, by simp⟩
  · have hne : dotFl fl (subFl fl B.b B.a) (subFl fl B.b B.a) ≠ 0 := by
      intro h
      exact h1 ⟨h2, by rw [h]; exact he⟩
    rw [hd _ _ hne]
    refine ⟨_, rfl, ?_⟩
    simp only [Option.some.injEq, Prod.mk.injEq]
    rintro s t ⟨rfl, rfl⟩
    exact ⟨by norm_num, saturate_unit _⟩
  · have hne : dotFl fl (subFl fl A.b A.a) (subFl fl A.b A.a) ≠ 0 := by
      intro h
      exact h2 (by rw [h]; exact he)
    rw [hd _ _ hne]
    refine ⟨_, rfl, ?_⟩
    simp only [Option.some.injEq, Prod.mk.injEq]
    rintro s t ⟨rfl, rfl⟩
    exact ⟨saturate_unit _, by norm_num⟩
  all_goals
    have hna : dotFl fl (subFl fl A.b A.a) (subFl fl A.b A.a) ≠ 0 := by
      intro h
      exact h2 (by rw [h]; exact he)
    have hnb : dotFl fl (subFl fl B.b B.a) (subFl fl B.b B.a) ≠ 0 := by
      intro h
      exact h3 (by rw [h]; exact he)
    first | rw [hd _ _ h4] | skip
    simp only [Res.map, Res.bind, hd _ _ hna, hd _ _ hnb]
    split_ifs with h5 h6
    · refine ⟨_, rfl, ?_⟩
      simp only [Option.some.injEq, Prod.mk.injEq]
      rintro s t ⟨rfl, rfl⟩
      exact ⟨saturate_unit _, by norm_num⟩
    · refine ⟨_, rfl, ?_⟩
      simp only [Option.some.injEq, Prod.mk.injEq]
      rintro s t ⟨rfl, rfl⟩
      exact ⟨saturate_unit _, by norm_num⟩
    · refine ⟨_, rfl, ?_⟩
      simp only [Option.some.injEq, Prod.mk.injEq]
      rintro s t ⟨rfl, rfl⟩
      refine ⟨?_, not_lt.1 h5, not_lt.1 h6⟩
      first | exact saturate_unit _ | norm_num

/-- The error of one coordinate. -/
theorem along_error (hf : IsRounding p emin fl) (hp : 1 ≤ p) {a b s : ℚ} (ha : a ∈ Floats p emin) (hb : b ∈ Floats p emin) (h0 : 0 ≤ s) (h1 : s ≤ 1) :
    |fl (fl (fl (b - a) * s) + a) - ((1 - s) * a + s * b)| ≤ segErr p emin a b := by
  have hu : 0 < ulp p := two_zpow_pos _
  have hu1 : ulp p ≤ 1 := by
    unfold ulp
    exact zpow_le_one_of_nonpos₀ (by norm_num) (by omega)
  have hm : 0 < (2 : ℚ) ^ emin := two_zpow_pos _
  have e1 := Float.round_sub hf hp hb ha
  set d := fl (b - a) with hd
  have e2 := Float.round_any hf hp (d * s)
  set m := fl (d * s) with hmd
  have e3 : |fl (m + a) - (m + a)| ≤ ulp p * |m + a| := by
    have := Float.round_sub hf hp (hf.mem (d * s)) (neg_mem ha)
    rwa [sub_neg_eq_add] at this
  change |d - (b - a)| ≤ ulp p * |b - a| at e1
  change |m - d * s| ≤ ulp p * |d * s| + 2 ^ emin at e2
  have hdabs : |d| ≤ 2 * |b - a| := by
    have := abs_sub_abs_le_abs_sub d (b - a)
    nlinarith [abs_nonneg (b - a)]
  have hds : |d * s| ≤ |d| := by
    rw [abs_mul, abs_of_nonneg h0]
    nlinarith [abs_nonneg d]
  have hmabs : |m| ≤ |d| := by
    have hmem : d ∈ Floats p emin := hf.mem _
    have habs : |d| ∈ Floats p emin := by
      rcases abs_choice d with h | h
      · rw [h]; exact hmem
      · rw [h]; exact neg_mem hmem
    obtain ⟨k1, k2⟩ := abs_le.1 hds
    have l1 := hf.mono k1
    have l2 := hf.mono k2
    rw [hf.fix _ (neg_mem habs)] at l1
    rw [hf.fix _ habs] at l2
    exact abs_le.2 ⟨l1, l2⟩
  have hma : |m + a| ≤ |a| + 2 * |b - a| := by
    have := abs_add_le m a
    linarith
  have f1 : |(d - (b - a)) * s| ≤ ulp p * |b - a| := by
    rw [abs_mul, abs_of_nonneg h0]
    nlinarith [abs_nonneg (d - (b - a))]
  have split : fl (m + a) - ((1 - s) * a + s * b) = (fl (m + a) - (m + a)) + ((m - d * s) + (d - (b - a)) * s) := by ring
  rw [split]
  refine (abs_add_le _ _).trans ?_
  have t2 := abs_add_le (m - d * s) ((d - (b - a)) * s)
  have g1 : ulp p * |m + a| ≤ ulp p * (|a| + 2 * |b - a|) := mul_le_mul_of_nonneg_left hma hu.le
  have g2 : ulp p * |d * s| ≤ ulp p * (2 * |b - a|) := mul_le_mul_of_nonneg_left (hds.trans hdabs) hu.le
  unfold segErr
  linarith

/-- A point of the segment up to rounding. -/
theorem along_near (hf : IsRounding p emin fl) (hp : 1 ≤ p) {l : Seg (V3 ℚ)} (hl : FloatSeg p emin l) {s : ℚ} (h0 : 0 ≤ s) (h1 : s ≤ 1) :
    NearSeg p emin l (alongFl fl (subFl fl l.b l.a) s l.a) := by
  obtain ⟨⟨a1, a2, a3⟩, b1, b2, b3⟩ := hl
  refine ⟨(1 - s) • l.a + s • l.b, ⟨1 - s, s, by linarith, h0, by ring, rfl⟩, ?_, ?_, ?_⟩
  · simpa [alongFl, subFl] using along_error hf hp a1 b1 h0 h1
  · simpa [alongFl, subFl] using along_error hf hp a2 b2 h0 h1
  · simpa [alongFl, subFl] using along_error hf hp a3 b3 h0 h1

theorem near_start {l : Seg (V3 ℚ)} : NearSeg p emin l l.a := by
  have hu : 0 < ulp p := two_zpow_pos _
  have hm : 0 < (2 : ℚ) ^ emin := two_zpow_pos _
  have h : ∀ a b : ℚ, |a - a| ≤ segErr p emin a b := by
    intro a b
    rw [sub_self, abs_zero, segErr]
    positivity
  exact ⟨l.a, ⟨1, 0, by norm_num, le_rfl, by norm_num, by simp⟩, h _ _, h _ _, h _ _⟩

/-- C117: the code does not divide by zero, in each rounding mode, and the returned points are points of their segments up to
rounding. The missing part is that they are the nearest ones, see below. -/
theorem C117_near_partial (hf : IsRounding p emin fl) (hp : 1 ≤ p) {eps : ℚ} (he : 0 ≤ eps) (A B : Seg (V3 ℚ)) (hA : FloatSeg p emin A) (hB : FloatSeg p emin B) :
    ∃ r, closestSegmentFl fl eps A B = .ok r ∧ NearSeg p emin A r.a ∧ NearSeg p emin B r.b := by
  obtain ⟨o, ho, hr⟩ := params fl he A B
  rw [closestSegmentFl, ho]
  cases o with
  | none => exact ⟨_, rfl, near_start, near_start⟩
  | some st =>
    obtain ⟨s, t⟩ := st
    obtain ⟨⟨h1, h2⟩, h3, h4⟩ := hr s t rfl
    exact ⟨_, rfl, along_near hf hp hA h1 h2, along_near hf hp hB h3 h4⟩

/-! ## The returned points need not be the nearest ones -/

theorem pow_mem (hp : 1 ≤ p) {e : ℤ} (he : emin ≤ e) : (2 : ℚ) ^ e ∈ Floats p emin := by
  have := mem_of_le (p := p) (emin := emin) (k := 1) (e := e) hp he (by rw [abs_one]; exact one_le_pow₀ (by norm_num))
  simpa using this

/-- The segment from the origin along the x axis, with the length `2 ^ k`. -/
def axisSeg (k : ℤ) : Seg (V3 ℚ) := ⟨⟨0, 0, 0⟩, ⟨2 ^ k, 0, 0⟩⟩

/-- A segment which crosses it in the middle, at a small angle. -/
def crossSeg (k m : ℤ) : Seg (V3 ℚ) := ⟨⟨0, -2 ^ (k - m - 1), 0⟩, ⟨2 ^ k, 2 ^ (k - m - 1), 0⟩⟩

theorem axis_cross (k m : ℤ) : InSeg (K := ℚ) (axisSeg k) ⟨2 ^ k / 2, 0, 0⟩ ∧ InSeg (K := ℚ) (crossSeg k m) ⟨2 ^ k / 2, 0, 0⟩ := by
  refine ⟨⟨1 / 2, 1 / 2, by norm_num, by norm_num, by norm_num, ?_⟩, ⟨1 / 2, 1 / 2, by norm_num, by norm_num, by norm_num, ?_⟩⟩
  · ext <;> simp [axisSeg]; ring
  · ext <;> simp [crossSeg]; ring

theorem axis_float (hp : 1 ≤ p) {k m : ℤ} (hk : 0 ≤ k) (hm : emin ≤ -4 * m) (h0 : 0 < m) :
    FloatSeg p emin (axisSeg k) ∧ FloatSeg p emin (crossSeg k m) := by
  have z : (0 : ℚ) ∈ Floats p emin := ⟨0, emin, by simp, le_rfl, by simp⟩
  have h1 : (2 : ℚ) ^ k ∈ Floats p emin := pow_mem hp (by omega)
  have h2 : (2 : ℚ) ^ (k - m - 1) ∈ Floats p emin := pow_mem hp (by omega)
  exact ⟨⟨⟨z, z, z⟩, h1, z, z⟩, ⟨⟨z, neg_mem h2, z⟩, h1, h2, z⟩⟩

/-- The two segments are parallel up to rounding. The code returns the start of the first one and a point near the start of the other one. -/
theorem crossing (hf : IsNearest p emin fl) (hp : 1 ≤ p) {k m : ℤ} (hk : 0 ≤ k) (hm : emin ≤ -4 * m) (hpm : (p : ℤ) + 1 ≤ 2 * m) (he : emin ≤ 1 - (p : ℤ)) {eps : ℚ} (h1 : eps < 1) :
    ∃ r, closestSegmentFl fl eps (axisSeg k) (crossSeg k m) = .ok r ∧ r.a = ⟨0, 0, 0⟩ ∧ r.b.y ≤ -2 ^ (k - m - 2) := by
  have F : ∀ e : ℤ, emin ≤ e → fl (2 ^ e) = 2 ^ e := fun e h => hf.fix _ (pow_mem hp h)
  have z : fl 0 = 0 := fl_zero hf.toIsRounding
  have two : (2 : ℚ) ≠ 0 := two_ne_zero
  have X : fl ((2 : ℚ) ^ k - 0) = 2 ^ k := by rw [sub_zero, F _ (by omega)]
  have Y : fl ((2 : ℚ) ^ (k - m - 1) - -2 ^ (k - m - 1)) = 2 ^ (k - m) := by
    rw [show (2 : ℚ) ^ (k - m - 1) - -2 ^ (k - m - 1) = 2 ^ (k - m) by
      rw [sub_neg_eq_add, ← two_mul, mul_comm, ← zpow_add_one₀ two]; congr 1; ring, F _ (by omega)]
  have R : fl (0 - -(2 : ℚ) ^ (k - m - 1)) = 2 ^ (k - m - 1) := by rw [zero_sub, neg_neg, F _ (by omega)]
  have XX : fl ((2 : ℚ) ^ k * 2 ^ k) = 2 ^ (2 * k) := by
    rw [← zpow_add₀ two, F _ (by omega), two_mul]
  have YY : fl ((2 : ℚ) ^ (k - m) * 2 ^ (k - m)) = 2 ^ (2 * k - 2 * m) := by
    rw [← zpow_add₀ two, F _ (by omega)]; congr 1; ring
  have YR : fl ((2 : ℚ) ^ (k - m) * 2 ^ (k - m - 1)) = 2 ^ (2 * k - 2 * m - 1) := by
    rw [← zpow_add₀ two, F _ (by omega)]; congr 1; ring
  have S : fl ((2 : ℚ) ^ (2 * k) + 2 ^ (2 * k - 2 * m)) = 2 ^ (2 * k) := by
    have e1 : (((2 ^ (p - 1) : ℤ)) : ℚ) * 2 ^ (2 * k + 1 - p) = 2 ^ (2 * k) := by
      push_cast
      rw [← zpow_natCast, ← zpow_add₀ two]
      congr 1; push_cast [hp]; ring
    have hlt : (2 : ℚ) ^ (2 * k - 2 * m) < 2 ^ (2 * k + 1 - (p : ℤ)) / 2 := by
      rw [show (2 : ℚ) ^ (2 * k + 1 - (p : ℤ)) / 2 = 2 ^ (2 * k - (p : ℤ)) by
        rw [div_eq_iff two, ← zpow_add_one₀ two]; congr 1; ring]
      exact zpow_lt_zpow_right₀ (by norm_num) (by omega)
    have := nearest_down hf hp (k := 2 ^ (p - 1)) (e := 2 * k + 1 - p) (by omega) le_rfl
      (pow_lt_pow_right₀ (by norm_num) (by omega)) (x := 2 ^ (2 * k) + 2 ^ (2 * k - 2 * m))
      (by rw [e1]; linarith [two_zpow_pos (2 * k - 2 * m)]) (by rw [e1, add_sub_cancel_left]; exact hlt)
    rw [this, e1]
  have P2 : fl ((2 : ℚ) ^ (2 * k)) = 2 ^ (2 * k) := F _ (by omega)
  have PF : fl ((2 : ℚ) ^ (2 * k - 2 * m - 1)) = 2 ^ (2 * k - 2 * m - 1) := F _ (by omega)
  have PT : fl ((2 : ℚ) ^ (2 * k - 2 * m - 1) / 2 ^ (2 * k)) = 2 ^ (-2 * m - 1) := by
    rw [← zpow_sub₀ two, F _ (by omega)]; congr 1; ring
  have hpos : (1 : ℚ) ≤ 2 ^ (2 * k) := one_le_zpow₀ (by norm_num) (by omega)
  have t0 : (0 : ℚ) < 2 ^ (-2 * m - 1) := two_zpow_pos _
  have t1 : (2 : ℚ) ^ (-2 * m - 1) ≤ 1 := zpow_le_one_of_nonpos₀ (by norm_num) (by omega)
  have dA : subFl fl (axisSeg k).b (axisSeg k).a = ⟨2 ^ k, 0, 0⟩ := by simp only [subFl, axisSeg, X, sub_self, z]
  have dB : subFl fl (crossSeg k m).b (crossSeg k m).a = ⟨2 ^ k, 2 ^ (k - m), 0⟩ := by simp only [subFl, crossSeg, X, Y, sub_self, z]
  have dR : subFl fl (axisSeg k).a (crossSeg k m).a = ⟨0, 2 ^ (k - m - 1), 0⟩ := by simp only [subFl, axisSeg, crossSeg, R, sub_zero, z]
  have va : dotFl fl (⟨2 ^ k, 0, 0⟩ : V3 ℚ) ⟨2 ^ k, 0, 0⟩ = 2 ^ (2 * k) := by simp only [dotFl, XX, mul_zero, z, add_zero, P2]
  have ve : dotFl fl (⟨2 ^ k, 2 ^ (k - m), 0⟩ : V3 ℚ) ⟨2 ^ k, 2 ^ (k - m), 0⟩ = 2 ^ (2 * k) := by
    simp only [dotFl, XX, YY, S, mul_zero, z, add_zero, P2]
  have vf : dotFl fl (⟨2 ^ k, 2 ^ (k - m), 0⟩ : V3 ℚ) ⟨0, 2 ^ (k - m - 1), 0⟩ = 2 ^ (2 * k - 2 * m - 1) := by
    simp only [dotFl, YR, mul_zero, z, add_zero, zero_add, PF]
  have vb : dotFl fl (⟨2 ^ k, 0, 0⟩ : V3 ℚ) ⟨2 ^ k, 2 ^ (k - m), 0⟩ = 2 ^ (2 * k) := by
    simp only [dotFl, XX, mul_zero, zero_mul, z, add_zero, P2]
  have par : closestParamsFl fl eps (axisSeg k) (crossSeg k m) = .ok (some (0, 2 ^ (-2 * m - 1))) := by
    unfold closestParamsFl
    simp only [dA, dB, dR, va, ve, vf, vb]
    rw [if_neg (fun h => by linarith [h.1]), if_neg (by linarith), if_neg (by linarith)]
    simp only [sub_self, z, ne_eq, not_true_eq_false, if_false, Res.bind, mul_zero, zero_add, PF]
    rw [divFl, if_neg (two_zpow_pos _).ne', PT]
    simp only
    rw [if_neg (by linarith), if_neg (by linarith)]
  rw [closestSegmentFl, par]
  refine ⟨_, rfl, ?_, ?_⟩
  · simp only [alongFl, mul_zero, axisSeg, z, zero_add]
  · simp only [alongFl, dB]
    simp only [crossSeg]
    have hq : fl (2 ^ (k - m) * 2 ^ (-2 * m - 1) : ℚ) = 2 ^ (k - 3 * m - 1) := by
      rw [← zpow_add₀ two, F _ (by omega)]; congr 1; ring
    rw [hq]
    have hle : (2 : ℚ) ^ (k - 3 * m - 1) + -2 ^ (k - m - 1) ≤ -2 ^ (k - m - 2) := by
      have e1 : (2 : ℚ) ^ (k - m - 1) = 2 * 2 ^ (k - m - 2) := by
        rw [mul_comm, ← zpow_add_one₀ two]; congr 1; ring
      have e2 : (2 : ℚ) ^ (k - 3 * m - 1) ≤ 2 ^ (k - m - 2) := zpow_le_zpow_right₀ (by norm_num) (by omega)
      linarith
    have := hf.mono hle
    rwa [hf.fix _ (neg_mem (pow_mem hp (by omega)))] at this

/-- The distance of the returned points. All coordinates are at most `2 ^ k`. -/
theorem crossing_far (hf : IsNearest p emin fl) (hp : 1 ≤ p) {k m : ℤ} (hk : 0 ≤ k) (hm : emin ≤ -4 * m) (hpm : (p : ℤ) + 1 ≤ 2 * m) (he : emin ≤ 1 - (p : ℤ)) {eps : ℚ} (h1 : eps < 1) :
    ∃ A B : Seg (V3 ℚ), FloatSeg p emin A ∧ FloatSeg p emin B ∧ Within (2 ^ k) A ∧ Within (2 ^ k) B ∧ (∃ x, InSeg (K := ℚ) A x ∧ InSeg (K := ℚ) B x) ∧
      ∃ r, closestSegmentFl fl eps A B = .ok r ∧ (2 ^ (k - m - 2)) ^ 2 ≤ distSq (K := ℚ) r.a r.b := by
  obtain ⟨r, hr, ha, hb⟩ := crossing hf hp hk hm hpm he h1
  obtain ⟨f1, f2⟩ := axis_float (emin := emin) hp (k := k) (m := m) hk hm (by omega)
  have h0 : (0 : ℚ) < 2 ^ k := two_zpow_pos k
  have h3 : (2 : ℚ) ^ (k - m - 1) ≤ 2 ^ k := zpow_le_zpow_right₀ (by norm_num) (by omega)
  have h4 : (0 : ℚ) < 2 ^ (k - m - 1) := two_zpow_pos _
  refine ⟨_, _, f1, f2, ?_, ?_, ⟨_, axis_cross _ _⟩, r, hr, ?_⟩
  · simp [Within, axisSeg, abs_of_pos h0, h0.le]
  · simp [Within, crossSeg, abs_of_pos h0, abs_of_pos h4, h0.le, h3]
  have h2 : (0 : ℚ) < 2 ^ (k - m - 2) := two_zpow_pos _
  have e : distSq (K := ℚ) r.a r.b = r.b.x ^ 2 + r.b.y ^ 2 + r.b.z ^ 2 := by
    rw [ha]
    show (0 - r.b.x) * (0 - r.b.x) + (0 - r.b.y) * (0 - r.b.y) + (0 - r.b.z) * (0 - r.b.z) = _
    ring
  rw [e]
  nlinarith [sq_nonneg r.b.x, sq_nonneg r.b.z]

/-- C117 for `float`: segments which cross each other, and the returned points are at a distance of at least 65536. The coordinates are at
most `2 ^ 31`, so that no product of the code overflows. -/
theorem C117_nearest_float_refuted (hf : IsNearest 24 (-149) fl) {eps : ℚ} (h1 : eps < 1) :
    ∃ A B : Seg (V3 ℚ), FloatSeg 24 (-149) A ∧ FloatSeg 24 (-149) B ∧ Within (2 ^ 31) A ∧ Within (2 ^ 31) B ∧ (∃ x, InSeg (K := ℚ) A x ∧ InSeg (K := ℚ) B x) ∧
      ∃ r, closestSegmentFl fl eps A B = .ok r ∧ 65536 ^ 2 ≤ distSq (K := ℚ) r.a r.b := by
  have := crossing_far hf (by norm_num) (k := 31) (m := 13) (by norm_num) (by norm_num) (by norm_num) (by norm_num) h1
  norm_num at this ⊢
  exact this

/-- C117 for `double`: the distance is at least one million. -/
theorem C117_nearest_double_refuted (hf : IsNearest 53 (-1074) fl) {eps : ℚ} (h1 : eps < 1) :
    ∃ A B : Seg (V3 ℚ), FloatSeg 53 (-1074) A ∧ FloatSeg 53 (-1074) B ∧ Within (2 ^ 49) A ∧ Within (2 ^ 49) B ∧ (∃ x, InSeg (K := ℚ) A x ∧ InSeg (K := ℚ) B x) ∧
      ∃ r, closestSegmentFl fl eps A B = .ok r ∧ 1048576 ^ 2 ≤ distSq (K := ℚ) r.a r.b := by
  have := crossing_far hf (by norm_num) (k := 49) (m := 27) (by norm_num) (by norm_num) (by norm_num) (by norm_num) h1
  norm_num at this ⊢
  exact this

/-! ## The returned point need not be between the ends of its segment -/

/-- A segment of the x axis. -/
def longSeg (p : ℕ) : Seg (V3 ℚ) := ⟨⟨-1, 0, 0⟩, ⟨3 * 2 ^ (-1 - (p : ℤ)), 0, 0⟩⟩

/-- A segment on the far side of its end. -/
def farSeg : Seg (V3 ℚ) := ⟨⟨5, 0, 0⟩, ⟨5, 1, 0⟩⟩

theorem long_float (hp : 3 ≤ p) (he : emin ≤ -1 - (p : ℤ)) : FloatSeg p emin (longSeg p) ∧ FloatSeg p emin farSeg := by
  have z : (0 : ℚ) ∈ Floats p emin := ⟨0, emin, by simp, le_rfl, by simp⟩
  have n8 : (8 : ℤ) ≤ 2 ^ p := by
    calc (8 : ℤ) = 2 ^ 3 := by norm_num
      _ ≤ 2 ^ p := pow_le_pow_right₀ (by norm_num) hp
  have I : ∀ j : ℤ, |j| ≤ 8 → (j : ℚ) ∈ Floats p emin := fun j h => int_mem (by omega) (by omega) (h.trans n8)
  have h1 := I 1 (by norm_num)
  have h5 := I 5 (by norm_num)
  have h3 := mem_of_le (p := p) (emin := emin) (k := 3) (e := -1 - (p : ℤ)) (by omega) he (by norm_num; linarith)
  push_cast at h1 h5 h3
  exact ⟨⟨⟨neg_mem h1, z, z⟩, h3, z, z⟩, ⟨⟨h5, z, z⟩, h5, h1, z⟩⟩

/-- The returned point of the first segment is beyond its end. -/
theorem beyond (hf : IsNearest p emin fl) (hp : 3 ≤ p) (he : emin ≤ -1 - (p : ℤ)) {eps : ℚ} (h1 : eps < 1) :
    ∃ r, closestSegmentFl fl eps (longSeg p) farSeg = .ok r ∧ r.a = ⟨2 ^ (1 - (p : ℤ)), 0, 0⟩ := by
  have two : (2 : ℚ) ≠ 0 := two_ne_zero
  have z : fl 0 = 0 := fl_zero hf.toIsRounding
  have n8 : (8 : ℤ) ≤ 2 ^ p := by
    calc (8 : ℤ) = 2 ^ 3 := by norm_num
      _ ≤ 2 ^ p := pow_le_pow_right₀ (by norm_num) hp
  have I : ∀ j : ℤ, |j| ≤ 8 → fl (j : ℚ) = j := fun j h => hf.fix _ (int_mem (by omega) (by omega) (h.trans n8))
  have i1 : fl 1 = 1 := by simpa using I 1 (by norm_num)
  have i4 : fl 4 = 4 := by simpa using I 4 (by norm_num)
  have i6 : fl (-6) = -6 := by simpa using I (-6) (by norm_num)
  have u0 : (0 : ℚ) < 2 ^ (1 - (p : ℤ)) := two_zpow_pos _
  have u1 : (2 : ℚ) ^ (1 - (p : ℤ)) ≤ 1 := zpow_le_one_of_nonpos₀ (by norm_num) (by omega)
  have uq : (2 : ℚ) ^ (1 - (p : ℤ)) = 4 * 2 ^ (-1 - (p : ℤ)) := by
    rw [show (1 : ℤ) - p = 2 + (-1 - p) by ring, zpow_add₀ two]; norm_num
  have fu : fl (2 ^ (1 - (p : ℤ))) = 2 ^ (1 - (p : ℤ)) := hf.fix _ (pow_mem (by omega) (by omega))
  have e1 : (((2 ^ (p - 1) + 1 : ℤ)) : ℚ) * 2 ^ (1 - (p : ℤ)) = 1 + 2 ^ (1 - (p : ℤ)) := by
    push_cast
    rw [add_mul, ← zpow_natCast, ← zpow_add₀ two, one_mul]
    rw [show ((p - 1 : ℕ) : ℤ) + (1 - p) = 0 by omega, zpow_zero]
  have X : fl (3 * 2 ^ (-1 - (p : ℤ)) - -1) = 1 + 2 ^ (1 - (p : ℤ)) := by
    rw [← e1]
    refine Gen.nearest_up hf (by omega) (by omega) (by omega) ?_ ?_ ?_
    · have : (2 : ℤ) ^ p = 2 * 2 ^ (p - 1) := by rw [← pow_succ']; congr 1; omega
      omega
    · rw [e1]; linarith
    · rw [e1]; linarith
  generalize hu : (2 : ℚ) ^ (1 - (p : ℤ)) = u at *
  have dA : subFl fl (longSeg p).b (longSeg p).a = ⟨1 + u, 0, 0⟩ := by simp only [subFl, longSeg, X, sub_self, z]
  have dB : subFl fl farSeg.b farSeg.a = ⟨0, 1, 0⟩ := by simp only [subFl, farSeg, sub_self, sub_zero, z, i1]
  have dR : subFl fl (longSeg p).a farSeg.a = ⟨-6, 0, 0⟩ := by
    simp only [subFl, longSeg, farSeg, sub_self, z, show (-1 : ℚ) - 5 = -6 by norm_num, i6]
  have fx : fl (1 + u) = 1 + u := by rw [← X]; exact hf.fix _ (hf.mem _)
  have ff : ∀ x, fl (fl x) = fl x := fun x => hf.fix _ (hf.mem _)
  obtain ⟨a, ha⟩ : ∃ a, a = fl ((1 + u) * (1 + u)) := ⟨_, rfl⟩
  obtain ⟨c, hc⟩ : ∃ c, c = fl ((1 + u) * -6) := ⟨_, rfl⟩
  have fa : fl a = a := by rw [ha, ff]
  have fc : fl c = c := by rw [hc, ff]
  have fnc : fl (-c) = -c := hf.fix _ (neg_mem (by rw [hc]; exact hf.mem _))
  have a1 : 1 ≤ a := by rw [ha, ← i1]; exact hf.mono (by nlinarith [i1])
  have a4 : a ≤ 4 := by rw [ha, ← i4]; exact hf.mono (by nlinarith [i4])
  have c6 : c ≤ -6 := by rw [hc, ← i6]; exact hf.mono (by nlinarith [i6])
  have va : dotFl fl (⟨1 + u, 0, 0⟩ : V3 ℚ) ⟨1 + u, 0, 0⟩ = a := by simp only [dotFl, mul_zero, z, add_zero, ← ha, fa]
  have ve : dotFl fl (⟨0, 1, 0⟩ : V3 ℚ) ⟨0, 1, 0⟩ = 1 := by simp only [dotFl, mul_zero, mul_one, z, add_zero, zero_add, i1]
  have vf : dotFl fl (⟨0, 1, 0⟩ : V3 ℚ) ⟨-6, 0, 0⟩ = 0 := by simp only [dotFl, mul_zero, zero_mul, z, add_zero]
  have vc : dotFl fl (⟨1 + u, 0, 0⟩ : V3 ℚ) ⟨-6, 0, 0⟩ = c := by simp only [dotFl, mul_zero, z, add_zero, ← hc, fc]
  have vb : dotFl fl (⟨1 + u, 0, 0⟩ : V3 ℚ) ⟨0, 1, 0⟩ = 0 := by simp only [dotFl, mul_zero, zero_mul, z, add_zero]
  have hs : saturate (fl (-c / a)) = 1 := by
    have : 1 ≤ fl (-c / a) := by
      rw [← i1]; refine hf.mono ?_
      rw [le_div_iff₀ (by linarith)]; linarith
    unfold saturate
    rw [min_eq_left this]; norm_num
  have par : closestParamsFl fl eps (longSeg p) farSeg = .ok (some (1, 0)) := by
    unfold closestParamsFl
    simp only [dA, dB, dR, va, ve, vf, vb, vc]
    rw [if_neg (fun h => by linarith [h.1]), if_neg (by linarith), if_neg (by linarith)]
    simp only [mul_one, mul_zero, z, sub_zero, zero_sub, fa, fc, fnc]
    rw [if_pos (by linarith), divFl, if_neg (by linarith)]
    simp only [Res.map, Res.bind, hs]
    rw [divFl, if_neg one_ne_zero, zero_mul, z, add_zero, z, zero_div, z]
    simp
  rw [closestSegmentFl, par]
  refine ⟨_, rfl, ?_⟩
  simp only [alongFl, dA]
  simp only [longSeg, mul_one, fx, add_zero, z]
  rw [show 1 + u + -1 = u by ring, fu]

/-- C117 for `float`: the returned point is outside of the bounding box of the segment. -/
theorem C117_between_float_refuted (hf : IsNearest 24 (-149) fl) {eps : ℚ} (h1 : eps < 1) :
    ∃ A B : Seg (V3 ℚ), FloatSeg 24 (-149) A ∧ FloatSeg 24 (-149) B ∧ ∃ r, closestSegmentFl fl eps A B = .ok r ∧ A.a.x < A.b.x ∧ A.b.x < r.a.x := by
  obtain ⟨f1, f2⟩ := long_float (p := 24) (emin := -149) (by norm_num) (by norm_num)
  obtain ⟨r, hr, ha⟩ := beyond hf (by norm_num) (by norm_num) h1
  exact ⟨_, _, f1, f2, r, hr, by norm_num [longSeg], by rw [ha]; norm_num [longSeg]⟩

/-- C117 for `double`. -/
theorem C117_between_double_refuted (hf : IsNearest 53 (-1074) fl) {eps : ℚ} (h1 : eps < 1) :
    ∃ A B : Seg (V3 ℚ), FloatSeg 53 (-1074) A ∧ FloatSeg 53 (-1074) B ∧ ∃ r, closestSegmentFl fl eps A B = .ok r ∧ A.a.x < A.b.x ∧ A.b.x < r.a.x := by
  obtain ⟨f1, f2⟩ := long_float (p := 53) (emin := -1074) (by norm_num) (by norm_num)
  obtain ⟨r, hr, ha⟩ := beyond hf (by norm_num) (by norm_num) h1
  exact ⟨_, _, f1, f2, r, hr, by norm_num [longSeg], by rw [ha]; norm_num [longSeg]⟩

/-! ## Instances of the hypotheses -/

/-- C117_near_partial: two crossing segments, and the rounding of `float`. -/
example : IsRounding 24 (-149) (nearest 24 (-149)) ∧ FloatSeg 24 (-149) (axisSeg 3) ∧ FloatSeg 24 (-149) (crossSeg 3 2) :=
  ⟨(nearest_isNearest (by norm_num)).toIsRounding, axis_float (by norm_num) (by norm_num) (by norm_num) (by norm_num)⟩

/-- The refutations hold for the rounding to the nearest with the tolerance of the code. -/
example : ∃ A B : Seg (V3 ℚ), FloatSeg 24 (-149) A ∧ FloatSeg 24 (-149) B ∧
    ∃ r, closestSegmentFl (nearest 24 (-149)) (1 / 100000) A B = .ok r ∧ A.a.x < A.b.x ∧ A.b.x < r.a.x :=
  C117_between_float_refuted (nearest_isNearest (by norm_num)) (by norm_num)

example : IsNearest 53 (-1074) (nearest 53 (-1074)) := nearest_isNearest (by norm_num)

end Geom.Lines.Props
