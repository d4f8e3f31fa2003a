import Verif.Model.PlaneCast
import Verif.Spec.PlaneCast
import Verif.Props.PlaneFloat

/-
  C127: conversions of planes between floating-point types.
-/
set_option autoImplicit false
set_option linter.unusedSectionVars false

namespace Geom.Plane.Props
open Spec Geom.Float

variable {p q : ℕ} {emin emin' : ℤ} {fl gl : ℚ → ℚ}

theorem cast_fix (hf : IsRounding p emin fl) {pl : Pl ℚ} (h : FloatPl p emin pl) : cast fl pl = pl := by
  obtain ⟨⟨h1, h2, h3⟩, h4⟩ := h
  simp only [cast, hf.fix _ h1, hf.fix _ h2, hf.fix _ h3, hf.fix _ h4]

theorem floats_wider (hpq : p ≤ q) (he : emin' ≤ emin) {x : ℚ} (h : x ∈ Floats p emin) : x ∈ Floats q emin' := by
  obtain ⟨m, e, h1, h2, rfl⟩ := h
  exact ⟨m, e, h1.trans_le (pow_le_pow_right₀ (by norm_num) hpq), he.trans h2, rfl⟩

/-- C127: a conversion gives members of the type; a conversion to a wider type is exact, and the conversion back gives the plane again. -/
theorem C127_round_trip (hf : IsRounding p emin fl) (hg : IsRounding q emin' gl) (hpq : p ≤ q) (he : emin' ≤ emin) (pl : Pl ℚ) :
    FloatPl p emin (cast fl pl) ∧
    (FloatPl p emin pl → cast gl pl = pl ∧ cast fl (cast gl pl) = pl) := by
  refine ⟨⟨⟨hf.mem _, hf.mem _, hf.mem _⟩, hf.mem _⟩, fun h => ?_⟩
  have hw : FloatPl q emin' pl :=
    ⟨⟨floats_wider hpq he h.1.1, floats_wider hpq he h.1.2.1, floats_wider hpq he h.1.2.2⟩, floats_wider hpq he h.2⟩
  rw [cast_fix hg hw]
  exact ⟨rfl, cast_fix hf h⟩

example : FloatPl 24 (-149) ⟨⟨3 / 4, -1 / 2, 5⟩, 7⟩ ∧ (24 : ℕ) ≤ 53 ∧ (-1074 : ℤ) ≤ -149 := by
  refine ⟨⟨⟨⟨3, -2, ?_⟩, ⟨-1, -1, ?_⟩, ⟨5, 0, ?_⟩⟩, ⟨7, 0, ?_⟩⟩, ?_⟩ <;> norm_num

/-- The product of a member and a coordinate. -/
theorem cast_mul (hf : IsRounding p emin fl) (hp : 1 ≤ p) (n x : ℚ) : |fl n * x - n * x| ≤ ulp p * |n * x| + 2 ^ emin * |x| := by
  have h := mul_le_mul_of_nonneg_right (round_any hf hp n) (abs_nonneg x)
  rw [← abs_mul, sub_mul] at h
  rw [abs_mul n x]
  calc _ ≤ _ := h
    _ = _ := by unfold ulp; ring

/-- C127: the conversion moves the left hand side of the plane equation of each point by a bounded amount, so it keeps the side of each point
which is farther away than this. -/
theorem C127_side_partial (hf : IsRounding p emin fl) (hp : 1 ≤ p) (eq : Eqn) (pl : Pl ℚ) (x : V3 ℚ) :
    |side eq (cast fl pl) x - side eq pl x| ≤ moved p emin pl x ∧
    (moved p emin pl x < side eq pl x → 0 < side eq (cast fl pl) x) ∧
    (side eq pl x < -moved p emin pl x → side eq (cast fl pl) x < 0) := by
  have hx := cast_mul hf hp pl.normal.x x.x
  have hy := cast_mul hf hp pl.normal.y x.y
  have hz := cast_mul hf hp pl.normal.z x.z
  have hd := cast_mul hf hp pl.distance 1
  have h : |side eq (cast fl pl) x - side eq pl x| ≤ moved p emin pl x := by
    simp only [mul_one, abs_one] at hd
    rw [abs_le] at hx hy hz hd ⊢
    cases eq <;> simp only [side, cast, moved, absDot] <;> constructor <;> linarith [hx.1, hx.2, hy.1, hy.2, hz.1, hz.2, hd.1, hd.2]
  refine ⟨h, fun h1 => ?_, fun h1 => ?_⟩ <;> rw [abs_le] at h <;> linarith [h.1, h.2]

example : moved 24 (-149) ⟨⟨1 / 3, 2 / 3, 2 / 3⟩, 1⟩ ⟨1, 2, 2⟩ < side .nxEqD ⟨⟨1 / 3, 2 / 3, 2 / 3⟩, 1⟩ ⟨1, 2, 2⟩ := by
  norm_num [moved, side, ulp, absDot, abs_of_pos]

/-- C127: for a plane across an axis no point of the type changes its side; a point can only fall onto the plane. -/
theorem C127_axis (hf : IsRounding p emin fl) (hp : 1 ≤ p) (he : emin ≤ 0) (eq : Eqn) (pl : Pl ℚ) (hn : Axis pl.normal) (x : V3 ℚ)
    (hx : FloatV p emin x) :
    (cast fl pl).normal = pl.normal ∧ (0 ≤ side eq pl x → 0 ≤ side eq (cast fl pl) x) ∧ (side eq pl x ≤ 0 → side eq (cast fl pl) x ≤ 0) := by
  have f0 : fl 0 = 0 := hf.fix 0 (by simpa using int_mem (p := p) (emin := emin) (k := 0) hp he (by positivity))
  have f1 : fl 1 = 1 := hf.fix 1 (by simpa using int_mem (p := p) (emin := emin) (k := 1) hp he (by simpa using one_le_pow₀ (M₀ := ℤ) (n := p) one_le_two))
  have fm : fl (-1) = -1 := hf.fix (-1) (by
    simpa using int_mem (p := p) (emin := emin) (k := -1) hp he (by simpa using one_le_pow₀ (M₀ := ℤ) (n := p) one_le_two))
  have hN : (cast fl pl).normal = pl.normal := by
    obtain ⟨s, hs, hn⟩ := hn
    rcases hs with rfl | rfl <;> rcases hn with hn | hn | hn <;> simp [cast, hn, f0, f1, fm]
  obtain ⟨w, hw, hdot⟩ : ∃ w ∈ Floats p emin, pl.normal.x * x.x + pl.normal.y * x.y + pl.normal.z * x.z = w := by
    obtain ⟨h1, h2, h3⟩ := hx
    obtain ⟨s, hs, hn⟩ := hn
    rcases hs with rfl | rfl <;> rcases hn with hn | hn | hn <;>
      first
      | exact ⟨x.x, h1, by rw [hn]; ring1⟩
      | exact ⟨x.y, h2, by rw [hn]; ring1⟩
      | exact ⟨x.z, h3, by rw [hn]; ring1⟩
      | exact ⟨-x.x, neg_mem h1, by rw [hn]; ring1⟩
      | exact ⟨-x.y, neg_mem h2, by rw [hn]; ring1⟩
      | exact ⟨-x.z, neg_mem h3, by rw [hn]; ring1⟩
  have hD : (cast fl pl).distance = fl pl.distance := rfl
  have key : ∀ v ∈ Floats p emin, (v ≤ pl.distance → v ≤ fl pl.distance) ∧ (pl.distance ≤ v → fl pl.distance ≤ v) := fun v hv =>
    ⟨fun h => by have := hf.mono h; rwa [hf.fix v hv] at this, fun h => by have := hf.mono h; rwa [hf.fix v hv] at this⟩
  have k1 := key w hw
  have k2 := key (-w) (neg_mem hw)
  refine ⟨hN, ?_, ?_⟩ <;> cases eq <;> simp only [side, hN, hD, hdot] <;> intro h
  · linarith [k1.2 (by linarith)]
  · linarith [k2.1 (by linarith)]
  · linarith [k1.1 (by linarith)]
  · linarith [k2.2 (by linarith)]

example : Axis (⟨⟨0, -1, 0⟩, 1 / 3⟩ : Pl ℚ).normal ∧ FloatV 24 (-149) ⟨1, 5 / 2, -1⟩ := by
  refine ⟨⟨-1, Or.inr rfl, Or.inr (Or.inl rfl)⟩, ⟨1, 0, ?_⟩, ⟨5, -1, ?_⟩, ⟨-1, 0, ?_⟩⟩ <;> norm_num

/-- C127: in general the conversion from double to single precision moves points of single precision from the front to the back. -/
theorem C127_side_refuted (hf : IsNearest 24 (-149) fl) :
    ∃ (pl : Pl ℚ) (x : V3 ℚ), FloatPl 53 (-1074) pl ∧ FloatV 24 (-149) x ∧
      0 < side .nxEqD pl x ∧ side .nxEqD (cast fl pl) x < 0 := by
  refine ⟨⟨⟨1 + 2 ^ (-30 : ℤ), 1, 0⟩, 2 ^ (-31 : ℤ)⟩, ⟨1, -1, 0⟩, ⟨⟨⟨2 ^ 30 + 1, -30, ?_⟩, ⟨1, 0, ?_⟩, ⟨0, 0, ?_⟩⟩, ⟨1, -31, ?_⟩⟩,
    ⟨⟨1, 0, ?_⟩, ⟨-1, 0, ?_⟩, ⟨0, 0, ?_⟩⟩, ?_, ?_⟩
  iterate 7 norm_num
  · norm_num [side]
  · have h1 : fl (1 + 2 ^ (-30 : ℤ)) = 1 := by
      have := nearest_down hf (by norm_num) (k := 2 ^ 23) (e := -23) (by norm_num) (by norm_num) (by norm_num) (x := 1 + 2 ^ (-30 : ℤ)) (by norm_num) (by norm_num)
      rw [this]
      norm_num
    have h2 : fl 1 = 1 := hf.fix 1 ⟨1, 0, by norm_num, by norm_num, by norm_num⟩
    have h3 : fl 0 = 0 := hf.fix 0 ⟨0, 0, by norm_num, by norm_num, by norm_num⟩
    have h4 : fl (2 ^ (-31 : ℤ)) = 2 ^ (-31 : ℤ) := hf.fix _ ⟨1, -31, by norm_num, by norm_num, by norm_num⟩
    simp only [side, cast, h1, h2, h3, h4]
    norm_num

example : IsNearest 24 (-149) (nearest 24 (-149)) := nearest_isNearest (by norm_num)

/-! ### Flipping -/

/-- Rounding towards zero. -/
def towardZero (p : ℕ) (emin : ℤ) (x : ℚ) : ℚ := if 0 ≤ x then down p emin x else up p emin x

theorem towardZero_neg (hp : 1 ≤ p) (x : ℚ) : towardZero p emin (-x) = -towardZero p emin x := by
  have h0 : down p emin 0 = 0 := (down_rounding hp).fix 0 ⟨0, emin, by simp, le_rfl, by simp⟩
  unfold towardZero up
  rcases lt_trichotomy x 0 with h | rfl | h
  · rw [if_pos (by linarith), if_neg (by linarith), neg_neg]
  · simp [h0]
  · rw [if_neg (by linarith), if_pos h.le, neg_neg]

/-- C127: for roundings which treat both signs alike, the conversion of the flipped plane is the flipped conversion; for rounding upwards it is not. -/
theorem C127_flip (pl : Pl ℚ) :
    ((∀ x, fl (-x) = -fl x) → cast fl (flipped pl) = flipped (cast fl pl) ∧ cast fl (flip pl) = flip (cast fl pl)) ∧
    ∃ pl' : Pl ℚ, cast (up 24 (-149)) (flipped pl') ≠ flipped (cast (up 24 (-149)) pl') := by
  refine ⟨fun h => ?_, ⟨⟨1, 0, 0⟩, 1 / 3⟩, fun h => ?_⟩
  · constructor <;> simp only [cast, flipped, flip, V3.neg_x, V3.neg_y, V3.neg_z, h] <;> rfl
  · have h := congrArg Pl.distance h
    simp only [cast, flipped] at h
    have h1 := le_up (p := 24) (emin := -149) (-(1 / 3 : ℚ))
    have h2 := le_up (p := 24) (emin := -149) (1 / 3 : ℚ)
    have h3 : up 24 (-149) (1 / 3 : ℚ) = 1 / 3 := by linarith
    have hm := up_mem (p := 24) (emin := -149) (by norm_num) (1 / 3 : ℚ)
    rw [h3] at hm
    obtain ⟨m, e, -, he, hme⟩ := hm
    obtain ⟨d, rfl⟩ : ∃ d : ℕ, e = d - 149 := ⟨(e + 149).toNat, by omega⟩
    rw [zpow_sub₀ (by norm_num), zpow_natCast] at hme
    have h4 : (3 : ℚ) * (m * 2 ^ d) = 2 ^ 149 := by
      field_simp at hme
      norm_num at hme ⊢
      linarith
    have h5 : (3 : ℤ) * (m * 2 ^ d) = 2 ^ 149 := by exact_mod_cast h4
    norm_num at h5
    omega

example : ∀ x, towardZero 24 (-149) (-x) = -towardZero 24 (-149) x := towardZero_neg (by norm_num)

end Geom.Plane.Props
