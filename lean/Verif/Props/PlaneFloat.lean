import Verif.Model.PlaneFloat
import Verif.Spec.PlaneFloat
import Verif.Spec.ConvexHull
import Verif.Props.Plane
import Verif.Props.AABBFloat

/-
  C108, C109: planes, boxes and convex hulls in floating-point arithmetic.
-/
set_option autoImplicit false
set_option linter.unusedSectionVars false

namespace Geom.Plane.Props
open Spec Geom.Float
open Clip (dotFl sgnDistanceFl relationPointFl clipTriangleFl)

variable {p : ℕ} {emin : ℤ} {fl : ℚ → ℚ}

/-! ## Monotonicity -/

theorem fl_mul_le (hf : Monotone fl) {n a b x : ℚ} (h1 : a ≤ x) (h2 : x ≤ b) :
    fl (n * if n > 0 then a else b) ≤ fl (n * x) ∧ fl (n * x) ≤ fl (n * if n > 0 then b else a) := by
  by_cases h : n > 0
  · rw [if_pos h, if_pos h]
    exact ⟨hf (mul_le_mul_of_nonneg_left h1 h.le), hf (mul_le_mul_of_nonneg_left h2 h.le)⟩
  · rw [if_neg h, if_neg h]
    exact ⟨hf (mul_le_mul_of_nonpos_left h2 (not_lt.1 h)), hf (mul_le_mul_of_nonpos_left h1 (not_lt.1 h))⟩

/-- The nearest and the farthest corner of a box. -/
def nearV (n : V3 ℚ) (b : Box ℚ) : V3 ℚ := ⟨if n.x > 0 then b.min.x else b.max.x, if n.y > 0 then b.min.y else b.max.y, if n.z > 0 then b.min.z else b.max.z⟩
def farV (n : V3 ℚ) (b : Box ℚ) : V3 ℚ := ⟨if n.x > 0 then b.max.x else b.min.x, if n.y > 0 then b.max.y else b.min.y, if n.z > 0 then b.max.z else b.min.z⟩

theorem dotFl_mono (hf : Monotone fl) (n : V3 ℚ) (b : Box ℚ) (x : V3 ℚ) (hx : InBox b x) :
    dotFl fl n (nearV n b) ≤ dotFl fl n x ∧ dotFl fl n x ≤ dotFl fl n (farV n b) := by
  obtain ⟨⟨h1, h2⟩, ⟨h3, h4⟩, ⟨h5, h6⟩⟩ := hx
  have a := fl_mul_le hf (n := n.x) h1 h2
  have b := fl_mul_le hf (n := n.y) h3 h4
  have c := fl_mul_le hf (n := n.z) h5 h6
  exact ⟨hf (add_le_add (hf (add_le_add a.1 b.1)) c.1), hf (add_le_add (hf (add_le_add a.2 b.2)) c.2)⟩

theorem near_in {n : V3 ℚ} {b : Box ℚ} (hb : Valid b) : InBox b (nearV n b) := by
  obtain ⟨h1, h2, h3⟩ := hb
  refine ⟨?_, ?_, ?_⟩ <;> simp only [nearV] <;> split_ifs <;> exact ⟨by first | exact le_rfl | assumption, by first | exact le_rfl | assumption⟩

theorem far_in {n : V3 ℚ} {b : Box ℚ} (hb : Valid b) : InBox b (farV n b) := by
  obtain ⟨h1, h2, h3⟩ := hb
  refine ⟨?_, ?_, ?_⟩ <;> simp only [farV] <;> split_ifs <;> exact ⟨by first | exact le_rfl | assumption, by first | exact le_rfl | assumption⟩

theorem front_near (hf : Monotone fl) (eq : Eqn) (pl : Pl ℚ) (b : Box ℚ) (hb : Valid b) :
    isFrontFacingFl fl eq pl (nearV pl.normal b) = true ↔ ∀ x, InBox b x → isFrontFacingFl fl eq pl x = true := by
  refine ⟨fun h x hx => ?_, fun h => h _ (near_in hb)⟩
  simp only [isFrontFacingFl, decide_eq_true_eq] at h ⊢
  exact lt_of_lt_of_le h (dotFl_mono hf _ b x hx).1

theorem front_far (hf : Monotone fl) (eq : Eqn) (pl : Pl ℚ) (b : Box ℚ) (hb : Valid b) :
    isFrontFacingFl fl eq pl (farV pl.normal b) = true ↔ ∃ x, InBox b x ∧ isFrontFacingFl fl eq pl x = true := by
  refine ⟨fun h => ⟨_, far_in hb, h⟩, fun ⟨x, hx, h⟩ => ?_⟩
  simp only [isFrontFacingFl, decide_eq_true_eq] at h ⊢
  exact lt_of_lt_of_le h (dotFl_mono hf _ b x hx).2

theorem relationBoxFl_eq (eq : Eqn) (pl : Pl ℚ) (b : Box ℚ) : relationBoxFl fl eq pl b =
    if isFrontFacingFl fl eq pl (nearV pl.normal b) then .inFrontOf
    else if isFrontFacingFl fl eq pl (farV pl.normal b) then .clipped else .behind := rfl

/-- C108: in floating-point arithmetic the relation of a box and a plane agrees with the tests of the points of the box. -/
theorem C108_box (hf : IsRounding p emin fl) (eq : Eqn) (pl : Pl ℚ) (b : Box ℚ) (hb : Valid b) :
    (relationBoxFl fl eq pl b = .inFrontOf ↔ ∀ x, InBox b x → isFrontFacingFl fl eq pl x = true) ∧
    (relationBoxFl fl eq pl b = .behind ↔ ∀ x, InBox b x → isFrontFacingFl fl eq pl x = false) ∧
    (relationBoxFl fl eq pl b = .clipped ↔ (∃ x, InBox b x ∧ isFrontFacingFl fl eq pl x = true) ∧
      ∃ x, InBox b x ∧ isFrontFacingFl fl eq pl x = false) := by
  have hn := front_near hf.mono eq pl b hb
  have hfar := front_far hf.mono eq pl b hb
  have hnf : isFrontFacingFl fl eq pl (nearV pl.normal b) = true → isFrontFacingFl fl eq pl (farV pl.normal b) = true :=
    fun h => hn.1 h _ (far_in hb)
  have hn' : (∃ x, InBox b x ∧ isFrontFacingFl fl eq pl x = false) ↔ ¬ isFrontFacingFl fl eq pl (nearV pl.normal b) = true := by
    rw [hn]; push Not; simp
  have hf' : (∀ x, InBox b x → isFrontFacingFl fl eq pl x = false) ↔ ¬ isFrontFacingFl fl eq pl (farV pl.normal b) = true := by
    rw [hfar]; push Not; simp
  rw [← hn, hn', hf', ← hfar, relationBoxFl_eq]
  by_cases h1 : isFrontFacingFl fl eq pl (nearV pl.normal b) = true
  · simp [h1, hnf h1]
  · by_cases h2 : isFrontFacingFl fl eq pl (farV pl.normal b) = true
    · simp [h1, h2]
    · simp [h1, h2]

/-- C108: a box in front of a plane of a hull contains no point that counts as inside of the hull. -/
theorem C108_hull (hf : IsRounding p emin fl) (eq : Eqn) (l : List (Pl ℚ)) (b : Box ℚ) (hb : Valid b)
    (h : ∃ pl ∈ l, relationBoxFl fl eq pl b = .inFrontOf) (x : V3 ℚ) (hx : InBox b x) : Hull.isPointInsideFl fl eq l x = false := by
  obtain ⟨pl, hpl, h⟩ := h
  have := (C108_box hf eq pl b hb).1.1 h x hx
  induction l with
  | nil => cases hpl
  | cons q l ih =>
    unfold Hull.isPointInsideFl
    rcases List.mem_cons.1 hpl with rfl | hq
    · rw [if_pos this]
    · split_ifs
      · rfl
      · exact ih hq

/-- Differences of floats are not rounded to zero. -/
theorem fl_sub_pos (hf : IsRounding p emin fl) (hp : 1 ≤ p) {a b : ℚ} (ha : a ∈ Floats p emin) (hb : b ∈ Floats p emin) :
    0 < fl (a - b) ↔ b < a := by
  have h0 : (0 : ℚ) ∈ Floats p emin := ⟨0, emin, by simp, le_rfl, by simp⟩
  constructor
  · intro h
    by_contra hn
    have := hf.mono (show a - b ≤ 0 by linarith)
    rw [hf.fix _ h0] at this
    linarith
  · intro h
    obtain ⟨i, ei, _, hi, rfl⟩ := ha
    obtain ⟨j, ej, _, hj, rfl⟩ := hb
    obtain ⟨ki, rfl⟩ : ∃ k : ℕ, ei = emin + k := ⟨(ei - emin).toNat, by omega⟩
    obtain ⟨kj, rfl⟩ : ∃ k : ℕ, ej = emin + k := ⟨(ej - emin).toNat, by omega⟩
    have hpos := two_zpow_pos emin
    have e : (i : ℚ) * 2 ^ (emin + ki) - j * 2 ^ (emin + kj) = ((i * 2 ^ ki - j * 2 ^ kj : ℤ) : ℚ) * 2 ^ emin := by
      rw [zpow_add₀ (by norm_num), zpow_add₀ (by norm_num), zpow_natCast, zpow_natCast]; push_cast; ring
    rw [e]
    have hz : 0 < ((i * 2 ^ ki - j * 2 ^ kj : ℤ) : ℚ) := by
      have : 0 < ((i * 2 ^ ki - j * 2 ^ kj : ℤ) : ℚ) * 2 ^ emin := by rw [← e]; linarith
      exact (mul_pos_iff_of_pos_right hpos).1 this
    have hz' : (1 : ℤ) ≤ i * 2 ^ ki - j * 2 ^ kj := by exact_mod_cast hz
    have hz'' : (1 : ℚ) ≤ ((i * 2 ^ ki - j * 2 ^ kj : ℤ) : ℚ) := by exact_mod_cast hz'
    have m1 : (2 : ℚ) ^ emin ∈ Floats p emin := by
      have := mem_of_le (p := p) (emin := emin) (k := 1) (e := emin) hp le_rfl (by rw [abs_one]; exact one_le_pow₀ (by norm_num))
      simpa using this
    have := hf.mono (show (2 : ℚ) ^ emin ≤ ((i * 2 ^ ki - j * 2 ^ kj : ℤ) : ℚ) * 2 ^ emin by nlinarith)
    rw [hf.fix _ m1] at this
    linarith

theorem sign_mem (eq : Eqn) {d : ℚ} (h : d ∈ Floats p emin) : eq.distanceSign d ∈ Floats p emin := by
  cases eq
  · exact h
  · exact neg_mem h

/-- C108: the two tests of a point agree: the sign of the distance is that of the test for the front side. -/
theorem C108_point (hf : IsRounding p emin fl) (hp : 1 ≤ p) (eq : Eqn) (pl : Pl ℚ) (hd : pl.distance ∈ Floats p emin) (x : V3 ℚ) :
    isFrontFacingFl fl eq pl x = true ↔ relationPointFl fl eq pl x 0 = .inFrontOf := by
  have h : 0 < sgnDistanceFl fl eq pl x ↔ eq.distanceSign pl.distance < dotFl fl pl.normal x := fl_sub_pos hf hp (hf.mem _) (sign_mem eq hd)
  simp only [isFrontFacingFl, decide_eq_true_eq, relationPointFl, gt_iff_lt, neg_zero]
  by_cases k : 0 < sgnDistanceFl fl eq pl x
  · rw [if_pos k]; simpa using h.1 k
  · rw [if_neg k]
    refine ⟨fun hh => absurd (h.2 hh) k, fun hh => ?_⟩
    split_ifs at hh

/-- C108: triangles in a box in front of a plane are not clipped, whatever the tolerance. -/
theorem C108_clip (hf : IsRounding p emin fl) (hp : 1 ≤ p) (nz : ℕ → Bool) (eq : Eqn) (pl : Pl ℚ) (hd : pl.distance ∈ Floats p emin) (b : Box ℚ) (hb : Valid b)
    (h : relationBoxFl fl eq pl b = .inFrontOf) (t : Triangle.Tri ℚ) (ha : InBox b t.a) (hb' : InBox b t.b) (hc : InBox b t.c) (eps : ℚ)
    (front back : Clip.Poly ℚ) : clipTriangleFl fl nz eq pl t eps front back = .ok (.inFrontOf, front, back) := by
  have key : ∀ x, InBox b x → relationPointFl fl eq pl x eps ≠ .behind := by
    intro x hx
    have := (C108_box hf eq pl b hb).1.1 h x hx
    simp only [isFrontFacingFl, decide_eq_true_eq] at this
    have : 0 < sgnDistanceFl fl eq pl x := (fl_sub_pos hf hp (hf.mem _) (sign_mem eq hd)).2 this
    unfold relationPointFl
    simp only
    split_ifs with h1 h2
    · simp
    · exfalso; linarith
    · simp
  unfold clipTriangleFl
  simp only
  rw [if_pos ⟨key _ ha, key _ hb', key _ hc⟩]

/-! ## Error bounds -/

theorem ulp_pos (p : ℕ) : 0 < ulp p := two_zpow_pos _

theorem round_add (hf : IsRounding p emin fl) (hp : 1 ≤ p) {x y : ℚ} (hx : x ∈ Floats p emin) (hy : y ∈ Floats p emin) :
    |fl (x + y) - (x + y)| ≤ ulp p * |x + y| := by
  have := round_sub hf hp hx (neg_mem hy)
  rwa [sub_neg_eq_add] at this

/-- A rounding after an operation on an inexact value. -/
theorem step {u z y e c : ℚ} (hu : 0 ≤ u) (h1 : |y - e| ≤ c) (h2 : |z - y| ≤ u * |y|) : |z - e| ≤ (1 + u) * c + u * |e| := by
  have a : |y| ≤ |e| + c := by
    have := abs_sub_abs_le_abs_sub y e
    linarith
  have b : |z - e| ≤ |z - y| + |y - e| := by
    have := abs_add_le (z - y) (y - e)
    simpa using this
  have := mul_le_mul_of_nonneg_left a hu
  nlinarith

theorem dot_error (hf : IsRounding p emin fl) (hp : 1 ≤ p) (n x : V3 ℚ) : |dotFl fl n x - V3.dot n x| ≤ dotErr p emin n x := by
  have hu := ulp_pos p
  have hη := two_zpow_pos emin
  have t1 : |fl (n.x * x.x) - n.x * x.x| ≤ ulp p * |n.x * x.x| + 2 ^ emin := round_any hf hp _
  have t2 : |fl (n.y * x.y) - n.y * x.y| ≤ ulp p * |n.y * x.y| + 2 ^ emin := round_any hf hp _
  have t3 : |fl (n.z * x.z) - n.z * x.z| ≤ ulp p * |n.z * x.z| + 2 ^ emin := round_any hf hp _
  have s1 := round_add hf hp (hf.mem (n.x * x.x)) (hf.mem (n.y * x.y))
  have s2 := round_add hf hp (hf.mem (fl (n.x * x.x) + fl (n.y * x.y))) (hf.mem (n.z * x.z))
  have e1 : |fl (n.x * x.x) + fl (n.y * x.y) - (n.x * x.x + n.y * x.y)| ≤ ulp p * (|n.x * x.x| + |n.y * x.y|) + 2 * 2 ^ emin := by
    have := abs_add_le (fl (n.x * x.x) - n.x * x.x) (fl (n.y * x.y) - n.y * x.y)
    have q : fl (n.x * x.x) + fl (n.y * x.y) - (n.x * x.x + n.y * x.y) = fl (n.x * x.x) - n.x * x.x + (fl (n.y * x.y) - n.y * x.y) := by ring
    rw [q]; linarith
  have e2 := step hu.le e1 s1
  have e3 : |fl (fl (n.x * x.x) + fl (n.y * x.y)) + fl (n.z * x.z) - (n.x * x.x + n.y * x.y + n.z * x.z)| ≤
      ((1 + ulp p) ^ 2 - 1) * absDot n x + 3 * (1 + ulp p) * 2 ^ emin := by
    have := abs_add_le (fl (fl (n.x * x.x) + fl (n.y * x.y)) - (n.x * x.x + n.y * x.y)) (fl (n.z * x.z) - n.z * x.z)
    have q : fl (fl (n.x * x.x) + fl (n.y * x.y)) + fl (n.z * x.z) - (n.x * x.x + n.y * x.y + n.z * x.z) =
      fl (fl (n.x * x.x) + fl (n.y * x.y)) - (n.x * x.x + n.y * x.y) + (fl (n.z * x.z) - n.z * x.z) := by ring
    rw [q]
    have ab := mul_le_mul_of_nonneg_left (abs_add_le (n.x * x.x) (n.y * x.y)) hu.le
    have k1 := mul_nonneg (mul_nonneg hu.le (by linarith : 0 ≤ 1 + ulp p)) (abs_nonneg (n.z * x.z))
    have k2 := mul_pos hu hη
    unfold absDot
    nlinarith
  have e4 := step hu.le e3 s2
  have hA : |n.x * x.x + n.y * x.y + n.z * x.z| ≤ absDot n x :=
    (abs_add_le _ _).trans (by unfold absDot; linarith [abs_add_le (n.x * x.x) (n.y * x.y)])
  have := mul_le_mul_of_nonneg_left hA hu.le
  unfold dotErr
  refine e4.trans ?_
  nlinarith

/-- C109: the error of the distance of a point to a plane. -/
theorem C109_distance_partial (hf : IsRounding p emin fl) (hp : 1 ≤ p) (eq : Eqn) (pl : Pl ℚ) (hd : pl.distance ∈ Floats p emin) (x : V3 ℚ) :
    |sgnDistanceFl fl eq pl x - side eq pl x| ≤ distErr p emin pl x := by
  have hu := ulp_pos p
  have h1 := dot_error hf hp pl.normal x
  have h2 := round_sub hf hp (hf.mem (fl (fl (pl.normal.x * x.x) + fl (pl.normal.y * x.y)) + fl (pl.normal.z * x.z))) (sign_mem eq hd)
  have hs : side eq pl x = V3.dot pl.normal x - eq.distanceSign pl.distance := by
    cases eq <;> simp [side, V3.dot, Eqn.distanceSign]
  have h3 : |dotFl fl pl.normal x - eq.distanceSign pl.distance - side eq pl x| ≤ dotErr p emin pl.normal x := by
    rw [hs]
    have q : dotFl fl pl.normal x - eq.distanceSign pl.distance - (V3.dot pl.normal x - eq.distanceSign pl.distance) =
      dotFl fl pl.normal x - V3.dot pl.normal x := by ring
    rwa [q]
  have h4 := step hu.le h3 h2
  have hA : |side eq pl x| ≤ absDot pl.normal x + |pl.distance| := by
    rw [hs]
    have a : |eq.distanceSign pl.distance| = |pl.distance| := by cases eq <;> simp [Eqn.distanceSign]
    have b := abs_sub (V3.dot pl.normal x) (eq.distanceSign pl.distance)
    have c : |V3.dot pl.normal x| ≤ absDot pl.normal x := by
      unfold V3.dot
      exact (abs_add_le _ _).trans (by unfold absDot; linarith [abs_add_le (pl.normal.x * x.x) (pl.normal.y * x.y)])
    rw [a] at b
    linarith
  have h5 := mul_le_mul_of_nonneg_left hA hu.le
  have h6 : 0 ≤ ((1 + ulp p) ^ 4 - (1 + ulp p)) * |pl.distance| := by
    refine mul_nonneg ?_ (abs_nonneg _)
    nlinarith [pow_pos hu 2, pow_pos hu 3, pow_pos hu 4]
  refine h4.trans ?_
  unfold dotErr distErr
  nlinarith

/-- C109: the relation of a point and a plane is the exact one, unless the distance is near the tolerance; the two sides are not confused
beyond the error bound. -/
theorem C109_relation_partial (hf : IsRounding p emin fl) (hp : 1 ≤ p) (eq : Eqn) (pl : Pl ℚ) (hd : pl.distance ∈ Floats p emin) (x : V3 ℚ)
    (eps : ℚ) (he : 0 ≤ eps) :
    (eps + distErr p emin pl x < side eq pl x → relationPointFl fl eq pl x eps = .inFrontOf) ∧
    (side eq pl x < -eps - distErr p emin pl x → relationPointFl fl eq pl x eps = .behind) ∧
    (|side eq pl x| ≤ eps - distErr p emin pl x → relationPointFl fl eq pl x eps = .onto) ∧
    (relationPointFl fl eq pl x eps = .inFrontOf → eps - distErr p emin pl x < side eq pl x) ∧
    (relationPointFl fl eq pl x eps = .behind → side eq pl x < -eps + distErr p emin pl x) ∧
    (relationPointFl fl eq pl x eps = .onto → |side eq pl x| ≤ eps + distErr p emin pl x) := by
  have h := abs_le.1 (C109_distance_partial hf hp eq pl hd x)
  unfold relationPointFl
  simp only [abs_le]
  generalize sgnDistanceFl fl eq pl x = z at *
  generalize distErr p emin pl x = E at *
  generalize side eq pl x = s at *
  by_cases h1 : z > eps
  · rw [if_pos h1]
    refine ⟨fun _ => rfl, fun _ => ?_, fun ⟨_, _⟩ => ?_, fun _ => by linarith, fun h => (by cases h), fun h => (by cases h)⟩ <;> exfalso <;> linarith
  · rw [if_neg h1]
    by_cases h2 : z < -eps
    · rw [if_pos h2]
      refine ⟨fun _ => ?_, fun _ => rfl, fun ⟨_, _⟩ => ?_, fun h => (by cases h), fun _ => by linarith, fun h => (by cases h)⟩ <;> exfalso <;> linarith
    · rw [if_neg h2]
      refine ⟨fun _ => ?_, fun _ => ?_, fun _ => rfl, fun h => (by cases h), fun h => (by cases h), fun _ => ⟨by linarith, by linarith⟩⟩ <;> exfalso <;> linarith

theorem front_bound (hf : IsRounding p emin fl) (hp : 1 ≤ p) (eq : Eqn) (pl : Pl ℚ) (x : V3 ℚ) :
    (isFrontFacingFl fl eq pl x = true → -dotErr p emin pl.normal x < side eq pl x) ∧
    (isFrontFacingFl fl eq pl x = false → side eq pl x ≤ dotErr p emin pl.normal x) := by
  have h := abs_le.1 (dot_error hf hp pl.normal x)
  have hs : side eq pl x = V3.dot pl.normal x - eq.distanceSign pl.distance := by
    cases eq <;> simp [side, V3.dot, Eqn.distanceSign]
  simp only [isFrontFacingFl, decide_eq_true_eq, decide_eq_false_iff_not, gt_iff_lt, not_lt, hs]
  exact ⟨fun _ => by linarith, fun _ => by linarith⟩

/-- C109: points that count as inside of a hull are inside of it up to the error bounds, and points that are inside by more than the error
bounds count as inside. -/
theorem C109_inside_partial (hf : IsRounding p emin fl) (hp : 1 ≤ p) (eq : Eqn) (l : List (Pl ℚ)) (x : V3 ℚ) :
    (Hull.isPointInsideFl fl eq l x = true → ∀ pl ∈ l, side eq pl x ≤ dotErr p emin pl.normal x) ∧
    ((∀ pl ∈ l, side eq pl x ≤ -dotErr p emin pl.normal x) → Hull.isPointInsideFl fl eq l x = true) := by
  induction l with
  | nil => simp [Hull.isPointInsideFl]
  | cons q l ih =>
    unfold Hull.isPointInsideFl
    have hb := front_bound (eq := eq) hf hp q x
    by_cases h : isFrontFacingFl fl eq q x = true
    · rw [if_pos h]
      refine ⟨fun h => (by cases h), fun hh => ?_⟩
      exact absurd (hh q (List.mem_cons_self ..)) (not_le.2 (hb.1 h))
    · rw [if_neg h]
      rw [Bool.not_eq_true] at h
      refine ⟨fun hi pl hpl => ?_, fun hh => ih.2 fun pl hpl => hh pl (List.mem_cons_of_mem _ hpl)⟩
      rcases List.mem_cons.1 hpl with rfl | hpl
      · exact hb.2 h
      · exact ih.1 hi pl hpl

/-- C109: the same for spheres. -/
theorem C109_sphere_partial (hf : IsRounding p emin fl) (hp : 1 ≤ p) (eq : Eqn) (l : List (Pl ℚ)) (hd : ∀ pl ∈ l, pl.distance ∈ Floats p emin)
    (s : Sphere.Sphere ℚ) :
    (Hull.isSphereInsideFl fl eq l s = true → ∀ pl ∈ l, side eq pl s.origin ≤ s.radius + distErr p emin pl s.origin) ∧
    ((∀ pl ∈ l, side eq pl s.origin ≤ s.radius - distErr p emin pl s.origin) → Hull.isSphereInsideFl fl eq l s = true) := by
  induction l with
  | nil => simp [Hull.isSphereInsideFl]
  | cons q l ih =>
    unfold Hull.isSphereInsideFl
    have hb := abs_le.1 (C109_distance_partial hf hp eq q (hd q (List.mem_cons_self ..)) s.origin)
    have ih := ih fun pl hpl => hd pl (List.mem_cons_of_mem _ hpl)
    by_cases h : sgnDistanceFl fl eq q s.origin > s.radius
    · rw [if_pos h]
      refine ⟨fun h => (by cases h), fun hh => ?_⟩
      have := hh q (List.mem_cons_self ..)
      exfalso; linarith
    · rw [if_neg h]
      refine ⟨fun hi pl hpl => ?_, fun hh => ih.2 fun pl hpl => hh pl (List.mem_cons_of_mem _ hpl)⟩
      rcases List.mem_cons.1 hpl with rfl | hpl
      · linarith
      · exact ih.1 hi pl hpl

theorem dot_reach {p : ℕ} {emin : ℤ} {n x : V3 ℚ} {b : Box ℚ} (hx : InBox b x) : dotErr p emin n x ≤ dotErr p emin n (reach b) := by
  have hu := ulp_pos p
  have ax : ∀ {a c y k : ℚ}, a ≤ y → y ≤ c → |k * y| ≤ |k * (max |a| |c|)| := by
    intro a c y k h1 h2
    rw [abs_mul, abs_mul]
    refine mul_le_mul_of_nonneg_left ?_ (abs_nonneg k)
    rw [abs_of_nonneg (le_max_of_le_left (abs_nonneg a) : 0 ≤ max |a| |c|)]
    exact abs_le_max_abs_abs h1 h2
  have h : absDot n x ≤ absDot n (reach b) := add_le_add (add_le_add (ax hx.1.1 hx.1.2) (ax hx.2.1.1 hx.2.1.2)) (ax hx.2.2.1 hx.2.2.2)
  have : 0 ≤ (1 + ulp p) ^ 3 - 1 := by nlinarith [pow_pos hu 2, pow_pos hu 3]
  unfold dotErr
  linarith [mul_le_mul_of_nonneg_left h this]

/-- C109: the relation of a box and a plane is right up to the error bound of the points of the box. -/
theorem C109_box_partial (hf : IsRounding p emin fl) (hp : 1 ≤ p) (eq : Eqn) (pl : Pl ℚ) (b : Box ℚ) (hb : Valid b) :
    (relationBoxFl fl eq pl b = .inFrontOf → ∀ x, InBox b x → -dotErr p emin pl.normal (reach b) < side eq pl x) ∧
    (relationBoxFl fl eq pl b = .behind → ∀ x, InBox b x → side eq pl x ≤ dotErr p emin pl.normal (reach b)) ∧
    (relationBoxFl fl eq pl b = .clipped → (∃ x, InBox b x ∧ -dotErr p emin pl.normal (reach b) < side eq pl x) ∧
      ∃ x, InBox b x ∧ side eq pl x ≤ dotErr p emin pl.normal (reach b)) := by
  obtain ⟨h1, h2, h3⟩ := C108_box hf eq pl b hb
  have f1 : ∀ x, InBox b x → isFrontFacingFl fl eq pl x = true → -dotErr p emin pl.normal (reach b) < side eq pl x := fun x hx h => by
    have := (front_bound hf hp eq pl x).1 h
    linarith [dot_reach (p := p) (emin := emin) (n := pl.normal) hx]
  have f2 : ∀ x, InBox b x → isFrontFacingFl fl eq pl x = false → side eq pl x ≤ dotErr p emin pl.normal (reach b) := fun x hx h => by
    have := (front_bound hf hp eq pl x).2 h
    linarith [dot_reach (p := p) (emin := emin) (n := pl.normal) hx]
  refine ⟨fun h x hx => f1 x hx (h1.1 h x hx), fun h x hx => f2 x hx (h2.1 h x hx), fun h => ?_⟩
  obtain ⟨⟨x, hx, k⟩, y, hy, k'⟩ := h3.1 h
  exact ⟨⟨x, hx, f1 x hx k⟩, y, hy, f2 y hy k'⟩

/-- The product with the normal is exact for normals along the axes. -/
theorem dotFl_axis (hf : IsRounding p emin fl) {n x : V3 ℚ} (hn : Axis n) (hx : FloatV p emin x) : dotFl fl n x = V3.dot n x := by
  obtain ⟨h1, h2, h3⟩ := hx
  have h0 : fl 0 = 0 := hf.fix 0 ⟨0, emin, by simp, le_rfl, by simp⟩
  obtain ⟨s, rfl | rfl, rfl | rfl | rfl⟩ := hn <;>
    simp [dotFl, V3.dot, h0, hf.fix _ h1, hf.fix _ h2, hf.fix _ h3, hf.fix _ (neg_mem h1), hf.fix _ (neg_mem h2), hf.fix _ (neg_mem h3)]

/-- C109: for planes normal to the axes (such as those of a box) the test of points is exact. -/
theorem C109_axis (hf : IsRounding p emin fl) (eq : Eqn) (l : List (Pl ℚ)) (hl : ∀ pl ∈ l, Axis pl.normal) (x : V3 ℚ) (hx : FloatV p emin x) :
    Hull.isPointInsideFl fl eq l x = true ↔ Hull.Spec.Inside eq l x := by
  induction l with
  | nil => simp [Hull.isPointInsideFl, Hull.Spec.Inside]
  | cons q l ih =>
    have ih := ih fun pl hpl => hl pl (List.mem_cons_of_mem _ hpl)
    unfold Hull.isPointInsideFl
    unfold Hull.Spec.Inside at ih ⊢
    rw [List.forall_mem_cons]
    have hs : side eq q x = V3.dot q.normal x - eq.distanceSign q.distance := by
      cases eq <;> simp [side, V3.dot, Eqn.distanceSign]
    simp only [isFrontFacingFl, dotFl_axis hf (hl q (List.mem_cons_self ..)) hx, decide_eq_true_eq]
    rw [hs]
    by_cases h : V3.dot q.normal x > eq.distanceSign q.distance
    · rw [if_pos h]
      refine ⟨fun h => (by cases h), fun hh => ?_⟩
      exfalso; linarith [hh.1]
    · rw [if_neg h, ih]
      exact ⟨fun k => ⟨by linarith, k⟩, fun k => k.2⟩

/-- A point in front of the plane x + y = 2 ^ p that counts as inside. -/
theorem lost (hf : IsNearest p emin fl) (hp : 2 ≤ p) (he : emin ≤ -1) :
    Hull.isPointInsideFl fl .nxEqD [⟨⟨1, 1, 0⟩, 2 ^ p⟩] ⟨2 ^ p, 1 / 2, 0⟩ = true ∧ side .nxEqD ⟨⟨1, 1, 0⟩, 2 ^ p⟩ (⟨2 ^ p, 1 / 2, 0⟩ : V3 ℚ) = 1 / 2 := by
  have h0 : fl 0 = 0 := hf.fix 0 ⟨0, emin, by simp, le_rfl, by simp⟩
  have h1 : fl (2 ^ p) = 2 ^ p := hf.fix _ (by
    have := int_mem (p := p) (emin := emin) (k := 2 ^ p) (by omega) (by omega) (by rw [abs_of_pos (by positivity)])
    simpa using this)
  have h2 : fl (1 / 2) = 1 / 2 := hf.fix _ ⟨1, -1, by rw [abs_one]; exact one_lt_pow₀ (by norm_num) (by omega), he, by norm_num⟩
  have h3 : fl (2 ^ p + 1 / 2) = 2 ^ p := by
    have e : (2 : ℚ) ^ p = ((2 ^ (p - 1) : ℤ) : ℚ) * 2 ^ (1 : ℤ) := by
      obtain ⟨q, rfl⟩ : ∃ q, p = q + 1 := ⟨p - 1, by omega⟩
      push_cast
      rw [pow_succ]
    rw [e]
    refine nearest_down hf (by omega) (by omega) le_rfl (pow_lt_pow_right₀ (by norm_num) (by omega)) (by linarith) (by norm_num)
  refine ⟨?_, by simp [side]⟩
  simp only [Hull.isPointInsideFl, isFrontFacingFl, dotFl, one_mul, zero_mul, h0, h1, h2, h3, add_zero, Eqn.distanceSign]
  simp

/-- C109: no exact answer in general, with `float`: a point counts as inside of a hull although it is in front of its plane. -/
theorem C109_float_refuted (hf : IsNearest 24 (-149) fl) :
    ¬ ∀ (l : List (Pl ℚ)) (x : V3 ℚ), (∀ pl ∈ l, FloatV 24 (-149) pl.normal ∧ pl.distance ∈ Floats 24 (-149)) → FloatV 24 (-149) x →
      (Hull.isPointInsideFl fl .nxEqD l x = true ↔ Hull.Spec.Inside .nxEqD l x) := by
  intro h
  obtain ⟨h1, h2⟩ := lost hf (by norm_num) (by norm_num)
  have z : (0 : ℚ) ∈ Floats 24 (-149) := ⟨0, 0, by norm_num, by norm_num, by norm_num⟩
  have o : (1 : ℚ) ∈ Floats 24 (-149) := ⟨1, 0, by norm_num, by norm_num, by norm_num⟩
  have b : (2 ^ 24 : ℚ) ∈ Floats 24 (-149) := ⟨1, 24, by norm_num, by norm_num, by norm_num⟩
  have := (h [⟨⟨1, 1, 0⟩, 2 ^ 24⟩] ⟨2 ^ 24, 1 / 2, 0⟩ (by simpa [FloatV] using ⟨⟨o, z⟩, b⟩)
    ⟨b, ⟨1, -1, by norm_num, by norm_num, by norm_num⟩, z⟩).1 h1 _ (List.mem_singleton.2 rfl)
  rw [h2] at this
  norm_num at this

/-- C109: the same with `double`. -/
theorem C109_double_refuted (hf : IsNearest 53 (-1074) fl) :
    ¬ ∀ (l : List (Pl ℚ)) (x : V3 ℚ), (∀ pl ∈ l, FloatV 53 (-1074) pl.normal ∧ pl.distance ∈ Floats 53 (-1074)) → FloatV 53 (-1074) x →
      (Hull.isPointInsideFl fl .nxEqD l x = true ↔ Hull.Spec.Inside .nxEqD l x) := by
  intro h
  obtain ⟨h1, h2⟩ := lost hf (by norm_num) (by norm_num)
  have z : (0 : ℚ) ∈ Floats 53 (-1074) := ⟨0, 0, by norm_num, by norm_num, by norm_num⟩
  have o : (1 : ℚ) ∈ Floats 53 (-1074) := ⟨1, 0, by norm_num, by norm_num, by norm_num⟩
  have b : (2 ^ 53 : ℚ) ∈ Floats 53 (-1074) := ⟨1, 53, by norm_num, by norm_num, by norm_num⟩
  have := (h [⟨⟨1, 1, 0⟩, 2 ^ 53⟩] ⟨2 ^ 53, 1 / 2, 0⟩ (by simpa [FloatV] using ⟨⟨o, z⟩, b⟩)
    ⟨b, ⟨1, -1, by norm_num, by norm_num, by norm_num⟩, z⟩).1 h1 _ (List.mem_singleton.2 rfl)
  rw [h2] at this
  norm_num at this

/-! Examples. -/

/-- A box in front of the plane x + 2 y + 3 z = 1, rounded downwards with three bits. -/
theorem sample_front : Valid (⟨⟨1, 1, 1⟩, ⟨5, 2, 3⟩⟩ : Box ℚ) ∧ (1 : ℚ) ∈ Floats 3 0 ∧ IsRounding 3 0 (down 3 0) ∧
    relationBoxFl (down 3 0) .nxEqD ⟨⟨1, 2, 3⟩, 1⟩ ⟨⟨1, 1, 1⟩, ⟨5, 2, 3⟩⟩ = .inFrontOf := by
  refine ⟨by norm_num [Valid], ⟨1, 0, by norm_num, by norm_num, by norm_num⟩, down_rounding (by norm_num), by decide +kernel⟩

example := C108_box sample_front.2.2.1 .nxEqD ⟨⟨1, 2, 3⟩, 1⟩ _ sample_front.1
example := C108_hull sample_front.2.2.1 .nxEqD [⟨⟨1, 2, 3⟩, 1⟩] _ sample_front.1 ⟨_, List.mem_singleton_self _, sample_front.2.2.2⟩ ⟨2, 3 / 2, 3⟩
  (by norm_num [InBox])
example := C108_point sample_front.2.2.1 (by norm_num) .nxEqD ⟨⟨1, 2, 3⟩, 1⟩ sample_front.2.1 ⟨2, 3 / 2, 3⟩
example := C108_clip sample_front.2.2.1 (by norm_num) (fun _ => false) .nxEqD _ sample_front.2.1 _ sample_front.1 sample_front.2.2.2
  ⟨⟨1, 1, 1⟩, ⟨2, 2, 2⟩, ⟨5, 2, 3⟩⟩ (by norm_num [InBox]) (by norm_num [InBox]) (by norm_num [InBox]) (1 / 10) [] []
example := C109_box_partial sample_front.2.2.1 (by norm_num) .nxEqD ⟨⟨1, 2, 3⟩, 1⟩ _ sample_front.1
example := C109_distance_partial sample_front.2.2.1 (by norm_num) .nxEqD ⟨⟨1, 2, 3⟩, 1⟩ sample_front.2.1 ⟨4, 5, 6⟩
example := C109_relation_partial sample_front.2.2.1 (by norm_num) .nxEqD ⟨⟨1, 2, 3⟩, 1⟩ sample_front.2.1 ⟨4, 5, 6⟩ (1 / 1000) (by norm_num)
example := C109_inside_partial sample_front.2.2.1 (by norm_num) .nxEqD [⟨⟨1, 2, 3⟩, 1⟩] ⟨4, 5, 6⟩
example := C109_sphere_partial sample_front.2.2.1 (by norm_num) .nxEqD [⟨⟨1, 2, 3⟩, 1⟩] (by simpa using sample_front.2.1) ⟨⟨4, 5, 6⟩, 7⟩
example := C109_axis sample_front.2.2.1 .nxEqD [⟨⟨0, -1, 0⟩, 5 / 3⟩] (by simpa using ⟨-1, .inr rfl, .inr (.inl rfl)⟩) ⟨4, 5, 6⟩
  ⟨⟨4, 0, by norm_num, by norm_num, by norm_num⟩, ⟨5, 0, by norm_num, by norm_num, by norm_num⟩, ⟨6, 0, by norm_num, by norm_num, by norm_num⟩⟩
example := C109_float_refuted (nearest_isNearest (by norm_num))

/-- The same box is clipped by the plane x + 2 y + 3 z = 10: the farthest corner has 18, which is rounded to 16. -/
example : relationBoxFl (down 3 0) .nxEqD ⟨⟨1, 2, 3⟩, 10⟩ ⟨⟨1, 1, 1⟩, ⟨5, 2, 3⟩⟩ = .clipped ∧
    dotFl (down 3 0) ⟨1, 2, 3⟩ ⟨5, 2, 3⟩ = 16 := by decide +kernel
/-- The point (4, 5, 6) is in front of the plane x + 2 y + 3 z = 1 by 31, much more than the error bound. -/
example : 1 / 1000 + distErr 24 (-149) ⟨⟨1, 2, 3⟩, 1⟩ ⟨4, 5, 6⟩ < side .nxEqD ⟨⟨1, 2, 3⟩, 1⟩ (⟨4, 5, 6⟩ : V3 ℚ) := by
  norm_num [distErr, ulp, absDot, side]
/-- The origin is behind it by more than the error bound. -/
example : side .nxEqD ⟨⟨1, 2, 3⟩, 1⟩ (⟨0, 0, 0⟩ : V3 ℚ) ≤ -dotErr 24 (-149) ⟨1, 2, 3⟩ ⟨0, 0, 0⟩ := by
  norm_num [dotErr, ulp, absDot, side]
example : Axis ⟨0, -1, 0⟩ := ⟨-1, .inr rfl, .inr (.inl rfl)⟩

end Geom.Plane.Props
