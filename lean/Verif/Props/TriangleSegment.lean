import Verif.Props.TriangleRay
import Verif.Props.Lines

/-!
Property C82: the closest points of a segment and a triangle.
-/

set_option linter.unusedSectionVars false
set_option autoImplicit false

namespace Geom.Triangle.Props

open Spec
open Plane (Eqn Pl)
open Lines (Seg)
open Lines.Spec (InSeg)

variable {K : Type} [Field K] [LinearOrder K] [IsStrictOrderedRing K]

/-! Coordinates with respect to the triangle: three barycentric ones, and the height. -/

def cB (t : Tri K) (y : V3 K) : K := V3.dot (V3.cross (y - t.a) (t.c - t.a)) t.normal / t.normal.lenSq
def cC (t : Tri K) (y : V3 K) : K := V3.dot (V3.cross (t.b - t.a) (y - t.a)) t.normal / t.normal.lenSq
def cA (t : Tri K) (y : V3 K) : K := 1 - cB t y - cC t y
def cH (t : Tri K) (y : V3 K) : K := V3.dot t.normal (y - t.a) / t.normal.lenSq

theorem cB_step (t : Tri K) (y e : V3 K) (s : K) : cB t (y + s • (e - y)) = cB t y + s * (cB t e - cB t y) := by
  simp only [cB]
  have : V3.dot (V3.cross (y + s • (e - y) - t.a) (t.c - t.a)) t.normal =
    V3.dot (V3.cross (y - t.a) (t.c - t.a)) t.normal + s * (V3.dot (V3.cross (e - t.a) (t.c - t.a)) t.normal -
      V3.dot (V3.cross (y - t.a) (t.c - t.a)) t.normal) := by vec_simp; ring
  rw [this]; ring

theorem cC_step (t : Tri K) (y e : V3 K) (s : K) : cC t (y + s • (e - y)) = cC t y + s * (cC t e - cC t y) := by
  simp only [cC]
  have : V3.dot (V3.cross (t.b - t.a) (y + s • (e - y) - t.a)) t.normal =
    V3.dot (V3.cross (t.b - t.a) (y - t.a)) t.normal + s * (V3.dot (V3.cross (t.b - t.a) (e - t.a)) t.normal -
      V3.dot (V3.cross (t.b - t.a) (y - t.a)) t.normal) := by vec_simp; ring
  rw [this]; ring

theorem cA_step (t : Tri K) (y e : V3 K) (s : K) : cA t (y + s • (e - y)) = cA t y + s * (cA t e - cA t y) := by
  simp only [cA, cB_step, cC_step]; ring

theorem cH_step (t : Tri K) (y e : V3 K) (s : K) : cH t (y + s • (e - y)) = cH t y + s * (cH t e - cH t y) := by
  simp only [cH]
  have : V3.dot t.normal (y + s • (e - y) - t.a) = V3.dot t.normal (y - t.a) +
    s * (V3.dot t.normal (e - t.a) - V3.dot t.normal (y - t.a)) := by vec_simp; ring
  rw [this]; ring

/-- The point below `y` in the plane of the triangle. -/
def foot (t : Tri K) (y : V3 K) : V3 K := cA t y • t.a + cB t y • t.b + cC t y • t.c

theorem decomp (t : Tri K) (h : NonDeg t) (y : V3 K) : y = foot t y + cH t y • t.normal := by
  have hN := Plane.Props.lenSq_pos_of (normal_ne h)
  have key : t.normal.lenSq • (y - t.a) = V3.dot (V3.cross (y - t.a) (t.c - t.a)) t.normal • (t.b - t.a) +
      V3.dot (V3.cross (t.b - t.a) (y - t.a)) t.normal • (t.c - t.a) + V3.dot t.normal (y - t.a) • t.normal := by
    ext <;> vec_simp [Tri.normal] <;> ring
  have key2 : y - t.a = cB t y • (t.b - t.a) + cC t y • (t.c - t.a) + cH t y • t.normal := by
    have := congrArg (fun v => (t.normal.lenSq)⁻¹ • v) key
    simp only [smul_add, smul_smul, inv_mul_cancel₀ hN.ne', one_smul, inv_mul_eq_div] at this
    exact this
  calc y = t.a + (y - t.a) := by module
    _ = t.a + (cB t y • (t.b - t.a) + cC t y • (t.c - t.a) + cH t y • t.normal) := by rw [← key2]
    _ = foot t y + cH t y • t.normal := by rw [foot, cA]; module

/-- The squared distance of a point of the plane. -/
theorem dist_plane (t : Tri K) (h : NonDeg t) (y : V3 K) (u v w : K) (h1 : u + v + w = 1) :
    Lines.Spec.distSq (K := K) (u • t.a + v • t.b + w • t.c) y =
      V3.lenSq ((v - cB t y) • (t.b - t.a) + (w - cC t y) • (t.c - t.a)) + cH t y * cH t y * t.normal.lenSq := by
  obtain rfl : u = 1 - v - w := by linarith
  have e : (1 - v - w) • t.a + v • t.b + w • t.c - y =
      ((v - cB t y) • (t.b - t.a) + (w - cC t y) • (t.c - t.a)) - cH t y • t.normal := by
    nth_rw 1 [decomp t h y]
    rw [foot, cA]; module
  change V3.dot _ _ = _
  rw [e]
  generalize v - cB t y = p
  generalize w - cC t y = q
  generalize cH t y = r
  vec_simp [Tri.normal]; ring

/-- Moving from nonnegative coordinates: either all of them stay nonnegative, or there is a place where
all are nonnegative and one is zero. -/
theorem leave (p1 p2 p3 q1 q2 q3 : K) (h1 : 0 ≤ p1) (h2 : 0 ≤ p2) (h3 : 0 ≤ p3) :
    (0 ≤ q1 ∧ 0 ≤ q2 ∧ 0 ≤ q3) ∨ ∃ s : K, 0 ≤ s ∧ s ≤ 1 ∧
      (0 ≤ p1 + s * (q1 - p1) ∧ 0 ≤ p2 + s * (q2 - p2) ∧ 0 ≤ p3 + s * (q3 - p3)) ∧
      (p1 + s * (q1 - p1) = 0 ∨ p2 + s * (q2 - p2) = 0 ∨ p3 + s * (q3 - p3) = 0) := by
  have one : ∀ p q : K, 0 ≤ p → ∃ f : K, 0 ≤ f ∧ f ≤ 1 ∧ (∀ s, 0 ≤ s → s ≤ f → 0 ≤ p + s * (q - p)) ∧
      (0 ≤ q → f = 1) ∧ (q < 0 → f < 1 ∧ p + f * (q - p) = 0) := by
    intro p q hp
    by_cases hq : 0 ≤ q
    · refine ⟨1, zero_le_one, le_rfl, fun s s0 s1 => ?_, fun _ => rfl, fun h => absurd hq (not_le.2 h)⟩
      have e1 := mul_nonneg (sub_nonneg.2 s1) hp
      have e2 := mul_nonneg s0 hq
      linarith
    · have hq := not_le.1 hq
      have hpq : 0 < p - q := by linarith
      have e : p / (p - q) * (p - q) = p := div_mul_cancel₀ _ hpq.ne'
      refine ⟨p / (p - q), div_nonneg hp hpq.le, (div_le_one hpq).2 (by linarith), fun s s0 s1 => ?_,
        fun h => absurd hq (not_lt.2 h), fun _ => ⟨(div_lt_one hpq).2 (by linarith), by linarith⟩⟩
      have := mul_le_mul_of_nonneg_right s1 hpq.le
      linarith
  obtain ⟨f1, a1, b1, c1, d1, e1⟩ := one p1 q1 h1
  obtain ⟨f2, a2, b2, c2, d2, e2⟩ := one p2 q2 h2
  obtain ⟨f3, a3, b3, c3, d3, e3⟩ := one p3 q3 h3
  by_cases hq : 0 ≤ q1 ∧ 0 ≤ q2 ∧ 0 ≤ q3
  · exact Or.inl hq
  · right
    have m1 : min f1 (min f2 f3) ≤ f1 := min_le_left _ _
    have m2 : min f1 (min f2 f3) ≤ f2 := (min_le_right _ _).trans (min_le_left _ _)
    have m3 : min f1 (min f2 f3) ≤ f3 := (min_le_right _ _).trans (min_le_right _ _)
    have m0 : 0 ≤ min f1 (min f2 f3) := le_min a1 (le_min a2 a3)
    refine ⟨min f1 (min f2 f3), m0, m1.trans b1, ⟨c1 _ m0 m1, c2 _ m0 m2, c3 _ m0 m3⟩, ?_⟩
    have hlt : min f1 (min f2 f3) < 1 := by
      by_contra hc
      apply hq
      refine ⟨?_, ?_, ?_⟩
      · by_contra h; exact absurd (m1.trans_lt (e1 (not_le.1 h)).1) hc
      · by_contra h; exact absurd (m2.trans_lt (e2 (not_le.1 h)).1) hc
      · by_contra h; exact absurd (m3.trans_lt (e3 (not_le.1 h)).1) hc
    rcases min_choice f1 (min f2 f3) with hm | hm
    · left
      rw [hm] at hlt ⊢
      exact (e1 (by by_contra h; exact absurd (d1 (not_lt.1 h)) hlt.ne)).2
    · right
      rw [hm] at hlt ⊢
      rcases min_choice f2 f3 with hm | hm
      · left
        rw [hm] at hlt ⊢
        exact (e2 (by by_contra h; exact absurd (d2 (not_lt.1 h)) hlt.ne)).2
      · right
        rw [hm] at hlt ⊢
        exact (e3 (by by_contra h; exact absurd (d3 (not_lt.1 h)) hlt.ne)).2

/-- A convex combination with a zero coefficient is a point of an edge. -/
theorem on_edge (t : Tri K) (u v w : K) (hu : 0 ≤ u) (hv : 0 ≤ v) (hw : 0 ≤ w) (h1 : u + v + w = 1)
    (h : u = 0 ∨ v = 0 ∨ w = 0) :
    InSeg (K := K) ⟨t.a, t.b⟩ (u • t.a + v • t.b + w • t.c) ∨ InSeg (K := K) ⟨t.b, t.c⟩ (u • t.a + v • t.b + w • t.c) ∨
      InSeg (K := K) ⟨t.c, t.a⟩ (u • t.a + v • t.b + w • t.c) := by
  rcases h with rfl | rfl | rfl
  · right; left
    exact ⟨v, w, hv, hw, by linarith, by simp only; module⟩
  · right; right
    exact ⟨w, u, hw, hu, by linarith, by simp only; module⟩
  · left
    exact ⟨u, v, hu, hv, by linarith, by simp only; module⟩

theorem edge_sub (t : Tri K) (x : V3 K)
    (h : InSeg (K := K) ⟨t.a, t.b⟩ x ∨ InSeg (K := K) ⟨t.b, t.c⟩ x ∨ InSeg (K := K) ⟨t.c, t.a⟩ x) : InTri t x := by
  rcases h with ⟨u, v, hu, hv, h1, rfl⟩ | ⟨u, v, hu, hv, h1, rfl⟩ | ⟨u, v, hu, hv, h1, rfl⟩
  · exact ⟨u, v, 0, hu, hv, le_rfl, by linarith, by simp only; module⟩
  · exact ⟨0, u, v, le_rfl, hu, hv, by linarith, by simp only; module⟩
  · exact ⟨v, 0, u, hv, le_rfl, hu, by linarith, by simp only; module⟩

theorem seg_step {l : Seg (V3 K)} {y e : V3 K} (hy : InSeg (K := K) l y) (he : InSeg (K := K) l e) {s : K} (h0 : 0 ≤ s)
    (h1 : s ≤ 1) : InSeg (K := K) l (y + s • (e - y)) := by
  obtain ⟨u, v, hu, hv, huv, rfl⟩ := hy
  obtain ⟨u', v', hu', hv', huv', rfl⟩ := he
  have h2 : 0 ≤ 1 - s := by linarith
  refine ⟨(1 - s) * u + s * u', (1 - s) * v + s * v', by positivity, by positivity, ?_, by module⟩
  linear_combination (1 - s) * huv + s * huv'

/-- For each pair of points of triangle and segment some pair is not farther apart, which is either on
an edge of the triangle, or at an end of the segment and its foot inside of the triangle. -/
theorem reduce (t : Tri K) (h : NonDeg t) (l : Seg (V3 K)) (hdis : ∀ x, InTri t x → ¬ InSeg (K := K) l x)
    (x y : V3 K) (hx : InTri t x) (hy : InSeg (K := K) l y) :
    (∃ x' y', (InSeg (K := K) ⟨t.a, t.b⟩ x' ∨ InSeg (K := K) ⟨t.b, t.c⟩ x' ∨ InSeg (K := K) ⟨t.c, t.a⟩ x') ∧
      InSeg (K := K) l y' ∧ Lines.Spec.distSq (K := K) x' y' ≤ Lines.Spec.distSq x y) ∨
    ∃ e, (e = l.a ∨ e = l.b) ∧ InTri t (foot t e) ∧ Lines.Spec.distSq (K := K) (foot t e) e ≤ Lines.Spec.distSq x y := by
  have hN := Plane.Props.lenSq_pos_of (normal_ne h)
  have hsum : ∀ z, cA t z + cB t z + cC t z = 1 := fun z => by rw [cA]; ring
  obtain ⟨u, v, w, hu, hv, hw, h1, rfl⟩ := hx
  have hxy := dist_plane t h y u v w h1
  have hfoot : ∀ z, Lines.Spec.distSq (K := K) (foot t z) z = cH t z * cH t z * t.normal.lenSq := by
    intro z
    have := dist_plane t h z _ _ _ (hsum z)
    rw [foot, this, sub_self, sub_self, zero_smul, zero_smul]
    simp [V3.lenSq, V3.dot]
  have hxy' : cH t y * cH t y * t.normal.lenSq ≤ Lines.Spec.distSq (K := K) (u • t.a + v • t.b + w • t.c) y := by
    rw [hxy]
    have : 0 ≤ V3.lenSq ((v - cB t y) • (t.b - t.a) + (w - cC t y) • (t.c - t.a)) :=
      DotSpace.dot_self_nonneg (K := K) ((v - cB t y) • (t.b - t.a) + (w - cC t y) • (t.c - t.a))
    linarith
  rcases leave u v w (cA t y) (cB t y) (cC t y) hu hv hw with hin | ⟨s, s0, s1, ⟨g1, g2, g3⟩, hz⟩
  swap
  · -- the foot is outside: move towards it
    left
    have h1' : u + s * (cA t y - u) + (v + s * (cB t y - v)) + (w + s * (cC t y - w)) = 1 := by
      linear_combination (1 - s) * h1 + s * hsum y
    refine ⟨_, y, on_edge t _ _ _ g1 g2 g3 h1' hz, hy, ?_⟩
    rw [dist_plane t h y _ _ _ h1', hxy]
    have e : (v + s * (cB t y - v) - cB t y) • (t.b - t.a) + (w + s * (cC t y - w) - cC t y) • (t.c - t.a) =
        (1 - s) • ((v - cB t y) • (t.b - t.a) + (w - cC t y) • (t.c - t.a)) := by module
    rw [e, V3.lenSq_smul]
    have : 0 ≤ V3.lenSq ((v - cB t y) • (t.b - t.a) + (w - cC t y) • (t.c - t.a)) :=
      DotSpace.dot_self_nonneg (K := K) ((v - cB t y) • (t.b - t.a) + (w - cC t y) • (t.c - t.a))
    have hs : 0 ≤ 1 - (1 - s) * (1 - s) := by
      have := mul_nonneg s0 (sub_nonneg.2 s1)
      linarith
    have := mul_nonneg hs this
    linarith
  · -- the foot is inside: move `y` to the end where the height does not grow
    have hchoice : ∃ e g, (e = l.a ∨ e = l.b) ∧ (g = 1 ∨ g = -1) ∧ 0 ≤ g * cH t y ∧ g * cH t e ≤ g * cH t y := by
      obtain ⟨r, q, hr, hq, hrq, e⟩ := hy
      have hH : cH t y = cH t l.a + q * (cH t l.b - cH t l.a) := by
        rw [← cH_step, e]
        congr 1
        obtain rfl : r = 1 - q := by linarith
        module
      have lin : ∀ g : K, g * cH t l.a ≤ g * cH t y ∨ g * cH t l.b ≤ g * cH t y := by
        intro g
        by_contra hc
        push Not at hc
        rw [hH] at hc
        rcases hq.lt_or_eq with hq | hq
        · obtain rfl : r = 1 - q := by linarith
          have e1 := mul_nonneg hr (sub_nonneg.2 hc.1.le)
          have e2 := mul_pos hq (sub_pos.2 hc.2)
          have e3 := add_pos_of_nonneg_of_pos e1 e2
          ring_nf at e3
          exact lt_irrefl _ e3
        · rw [← hq] at hc
          linarith [hc.1]
      rcases le_total 0 (cH t y) with h0 | h0
      · rcases lin 1 with hl | hl
        · exact ⟨_, 1, Or.inl rfl, Or.inl rfl, by linarith, hl⟩
        · exact ⟨_, 1, Or.inr rfl, Or.inl rfl, by linarith, hl⟩
      · rcases lin (-1) with hl | hl
        · exact ⟨_, -1, Or.inl rfl, Or.inr rfl, by linarith, hl⟩
        · exact ⟨_, -1, Or.inr rfl, Or.inr rfl, by linarith, hl⟩
    obtain ⟨e, g, he, hg, hgy, hge⟩ := hchoice
    have hel : InSeg (K := K) l e := by
      rcases he with rfl | rfl
      · exact ⟨1, 0, zero_le_one, le_rfl, by ring, by module⟩
      · exact ⟨0, 1, le_rfl, zero_le_one, by ring, by module⟩
    have hg2 : g * g = 1 := by rcases hg with rfl | rfl <;> ring
    -- a place over the triangle which is not higher is still on the same side
    have same : ∀ z, InSeg (K := K) l z → 0 ≤ cA t z → 0 ≤ cB t z → 0 ≤ cC t z → g * cH t z ≤ g * cH t y →
        cH t z * cH t z * t.normal.lenSq ≤ cH t y * cH t y * t.normal.lenSq := by
      intro z hz z1 z2 z3 hle
      have h0 : 0 ≤ g * cH t z := by
        by_contra hneg
        have hneg := not_le.1 hneg
        have hd : 0 < g * cH t y - g * cH t z := by linarith
        have s0 : 0 ≤ g * cH t y / (g * cH t y - g * cH t z) := div_nonneg hgy hd.le
        have s1 : g * cH t y / (g * cH t y - g * cH t z) ≤ 1 := (div_le_one hd).2 (by linarith)
        have es : g * cH t y / (g * cH t y - g * cH t z) * (g * cH t y - g * cH t z) = g * cH t y := div_mul_cancel₀ _ hd.ne'
        generalize g * cH t y / (g * cH t y - g * cH t z) = s at *
        refine hdis (y + s • (z - y)) ?_ (seg_step hy hz s0 s1)
        have hH : cH t (y + s • (z - y)) = 0 := by
          rw [cH_step]
          linear_combination (-g) * es - (cH t y + s * (cH t z - cH t y)) * hg2 + 0 * hg2
        have hdec := decomp t h (y + s • (z - y))
        rw [hH, zero_smul, add_zero] at hdec
        rw [hdec, foot]
        have s2 : 0 ≤ 1 - s := by linarith
        refine ⟨_, _, _, ?_, ?_, ?_, hsum _, rfl⟩
        · rw [cA_step]
          have := mul_nonneg s2 hin.1
          have := mul_nonneg s0 z1
          linarith
        · rw [cB_step]
          have := mul_nonneg s2 hin.2.1
          have := mul_nonneg s0 z2
          linarith
        · rw [cC_step]
          have := mul_nonneg s2 hin.2.2
          have := mul_nonneg s0 z3
          linarith
      have hsq : (g * cH t z) * (g * cH t z) ≤ (g * cH t y) * (g * cH t y) := mul_le_mul hle hle h0 hgy
      have e1 : ∀ r : K, (g * r) * (g * r) = r * r := fun r => by linear_combination (r * r) * hg2
      rw [e1, e1] at hsq
      exact mul_le_mul_of_nonneg_right hsq hN.le
    rcases leave (cA t y) (cB t y) (cC t y) (cA t e) (cB t e) (cC t e) hin.1 hin.2.1 hin.2.2 with
      hin' | ⟨s, s0, s1, ⟨g1, g2, g3⟩, hz⟩
    · right
      exact ⟨e, he, ⟨_, _, _, hin'.1, hin'.2.1, hin'.2.2, hsum e, rfl⟩, by
        rw [hfoot]; exact (same e hel hin'.1 hin'.2.1 hin'.2.2 hge).trans hxy'⟩
    · left
      rw [← cA_step] at g1 hz
      rw [← cB_step] at g2 hz
      rw [← cC_step] at g3 hz
      have hzl := seg_step hy hel s0 s1
      refine ⟨foot t (y + s • (e - y)), y + s • (e - y), on_edge t _ _ _ g1 g2 g3 (hsum _) hz, hzl, ?_⟩
      rw [hfoot]
      refine (same _ hzl g1 g2 g3 ?_).trans hxy'
      rw [cH_step]
      have := mul_nonneg s0 (sub_nonneg.2 hge)
      linarith

/-- The closest point on the plane is the foot. -/
theorem closestPoint_foot (eq : Eqn) (t : Tri K) (pl : Pl K) (h : NonDeg t) (hu : Plane.Spec.UnitN pl)
    (ha : Plane.Spec.On eq pl t.a) (hb : Plane.Spec.On eq pl t.b) (hc : Plane.Spec.On eq pl t.c) (y : V3 K) :
    Plane.closestPoint eq pl y = foot t y := by
  have hN := Plane.Props.lenSq_pos_of (normal_ne h)
  have hn : pl.normal ≠ 0 := by
    intro h0
    rw [Plane.Spec.UnitN, h0] at hu
    simp at hu
  obtain ⟨k, hk, h1, h2⟩ := plane_side eq t pl h hn ha hb hc
  -- the normal is `k` times the normal of the triangle
  have hnk : pl.normal = k • t.normal := by
    have hx := h1 ⟨1, 0, 0⟩
    have hy := h1 ⟨0, 1, 0⟩
    have hz := h1 ⟨0, 0, 1⟩
    rw [facing_eq] at hx hy hz
    simp only [V3.dot, mul_one, mul_zero, add_zero, zero_add] at hx hy hz
    ext
    · exact hx
    · exact hy
    · exact hz
  have hkk : k * k * t.normal.lenSq = 1 := by
    have : pl.normal.lenSq = 1 := hu
    rwa [hnk, V3.lenSq_smul] at this
  have hH : k * (facing t y - facing t t.a) * k = cH t y := by
    rw [cH, eq_div_iff hN.ne', ← facing_sub, facing_eq]
    linear_combination (V3.dot t.normal (y - t.a)) * hkk
  have hd := decomp t h y
  rw [Plane.closestPoint, h2, hnk, smul_smul, hH]
  nth_rw 1 [hd]
  module

/-- The running minimum. -/
theorem takeCloser_spec (best : Option (Seg (V3 K) × K)) (l : Seg (V3 K)) (d : K) :
    ∃ l' d', takeCloser best l d = some (l', d') ∧ d' ≤ d ∧ (∀ b, best = some b → d' ≤ b.2) ∧
      ((l', d') = (l, d) ∨ best = some (l', d')) := by
  cases best with
  | none => exact ⟨l, d, rfl, le_rfl, fun b hb => (by cases hb), Or.inl rfl⟩
  | some b =>
    obtain ⟨lb, db⟩ := b
    unfold takeCloser
    dsimp only
    by_cases h : d < db
    · rw [if_pos h]
      exact ⟨l, d, rfl, le_rfl, fun b hb => (by cases hb; exact h.le), Or.inl rfl⟩
    · rw [if_neg h]
      exact ⟨lb, db, rfl, not_lt.1 h, fun b hb => (by cases hb; exact le_rfl), Or.inr rfl⟩

/-- For a segment which does not meet the triangle, with any plane of unit normal through the corners:
the first end point of the result is a point of the triangle, the second one a point of the segment, and
no two points of triangle and segment are closer. `eps` is the tolerance of the segment queries, below
which edges have to be points. -/
theorem C82_closest (eps : K) (heps : 0 ≤ eps) (eq : Eqn) (t : Tri K) (pl : Pl K) (l : Seg (V3 K)) (h : NonDeg t)
    (hu : Plane.Spec.UnitN pl) (ha : Plane.Spec.On eq pl t.a) (hb : Plane.Spec.On eq pl t.b)
    (hc : Plane.Spec.On eq pl t.c) (hdis : ∀ x, InTri t x → ¬ InSeg (K := K) l x)
    (hl : Lines.Spec.distSq (K := K) l.a l.b ≤ eps → l.a = l.b)
    (hab : eps < Lines.Spec.distSq (K := K) t.a t.b) (hbc : eps < Lines.Spec.distSq (K := K) t.b t.c)
    (hca : eps < Lines.Spec.distSq (K := K) t.c t.a) :
    InTri t (closestSegment eps eq t pl l).a ∧ InSeg (K := K) l (closestSegment eps eq t pl l).b ∧
    ∀ x y, InTri t x → InSeg (K := K) l y →
      Lines.Spec.distSq (K := K) (closestSegment eps eq t pl l).a (closestSegment eps eq t pl l).b ≤ Lines.Spec.distSq x y := by
  obtain ⟨a1, a2, a3⟩ := Lines.Props.C21_closest eps heps ⟨t.a, t.b⟩ l (fun h => absurd h (not_le.2 hab)) hl
  obtain ⟨b1, b2, b3⟩ := Lines.Props.C21_closest eps heps ⟨t.b, t.c⟩ l (fun h => absurd h (not_le.2 hbc)) hl
  obtain ⟨c1, c2, c3⟩ := Lines.Props.C21_closest eps heps ⟨t.c, t.a⟩ l (fun h => absurd h (not_le.2 hca)) hl
  have hsum : ∀ z, cA t z + cB t z + cC t z = 1 := fun z => by rw [cA]; ring
  have hdist : ∀ l : Seg (V3 K), V3.lenSq (l.b - l.a) = Lines.Spec.distSq (K := K) l.a l.b := by
    intro l
    change _ = V3.dot _ _
    vec_simp; ring
  have hinside : ∀ e, isInside t (foot t e) = true ↔ InTri t (foot t e) :=
    fun e => C18_inside t h _ ⟨_, _, _, hsum e, rfl⟩
  have hla : InSeg (K := K) l l.a := ⟨1, 0, zero_le_one, le_rfl, by ring, by module⟩
  have hlb : InSeg (K := K) l l.b := ⟨0, 1, le_rfl, zero_le_one, by ring, by module⟩
  -- the candidates
  let Good : Option (Seg (V3 K) × K) → Prop := fun b =>
    ∀ p, b = some p → InTri t p.1.a ∧ InSeg (K := K) l p.1.b ∧ p.2 = Lines.Spec.distSq (K := K) p.1.a p.1.b
  have good_take : ∀ best s, Good best → InTri t s.a → InSeg (K := K) l s.b → Good (takeCloser best s (V3.lenSq (s.b - s.a))) := by
    intro best s hg h1 h2 p hp
    obtain ⟨l', d', e, -, -, hor⟩ := takeCloser_spec best s (V3.lenSq (s.b - s.a))
    rw [e] at hp
    cases hp
    rcases hor with hor | hor
    · simp only [Prod.mk.injEq] at hor
      obtain ⟨rfl, rfl⟩ := hor
      exact ⟨h1, h2, hdist _⟩
    · exact hg _ hor
  unfold closestSegment
  simp only [closestPoint_foot eq t pl h hu ha hb hc]
  generalize hb0 : (if isInside t (foot t l.a) = true then
    some ((⟨foot t l.a, l.a⟩ : Seg (V3 K)), V3.lenSq (l.a - foot t l.a)) else none) = best0
  have G0 : Good best0 := by
    intro p hp
    rw [← hb0] at hp
    split_ifs at hp with hi
    cases hp
    exact ⟨(hinside _).1 hi, hla, hdist ⟨foot t l.a, l.a⟩⟩
  generalize hb1 : (if isInside t (foot t l.b) = true then
    takeCloser best0 ⟨foot t l.b, l.b⟩ (V3.lenSq (l.b - foot t l.b)) else best0) = best1
  have G1 : Good best1 := by
    rw [← hb1]
    split_ifs with hi
    · exact good_take best0 ⟨foot t l.b, l.b⟩ G0 ((hinside _).1 hi) hlb
    · exact G0
  have G2 := good_take best1 (Lines.closestSegment eps ⟨t.a, t.b⟩ l) G1 (edge_sub t _ (Or.inl a1)) a2
  have G3 := good_take _ (Lines.closestSegment eps ⟨t.b, t.c⟩ l) G2 (edge_sub t _ (Or.inr (Or.inl b1))) b2
  have G4 := good_take _ (Lines.closestSegment eps ⟨t.c, t.a⟩ l) G3 (edge_sub t _ (Or.inr (Or.inr c1))) c2
  obtain ⟨l2, d2, e2, m2, k2, -⟩ := takeCloser_spec best1 (Lines.closestSegment eps ⟨t.a, t.b⟩ l)
    (V3.lenSq ((Lines.closestSegment eps ⟨t.a, t.b⟩ l).b - (Lines.closestSegment eps ⟨t.a, t.b⟩ l).a))
  rw [e2] at G3 G4 ⊢
  obtain ⟨l3, d3, e3, m3, k3, -⟩ := takeCloser_spec (some (l2, d2)) (Lines.closestSegment eps ⟨t.b, t.c⟩ l)
    (V3.lenSq ((Lines.closestSegment eps ⟨t.b, t.c⟩ l).b - (Lines.closestSegment eps ⟨t.b, t.c⟩ l).a))
  rw [e3] at G4 ⊢
  obtain ⟨l4, d4, e4, m4, k4, -⟩ := takeCloser_spec (some (l3, d3)) (Lines.closestSegment eps ⟨t.c, t.a⟩ l)
    (V3.lenSq ((Lines.closestSegment eps ⟨t.c, t.a⟩ l).b - (Lines.closestSegment eps ⟨t.c, t.a⟩ l).a))
  rw [e4] at G4 ⊢
  have k3' := k3 _ rfl
  have k4' := k4 _ rfl
  simp only at k3' k4' ⊢
  rw [hdist] at m2 m3 m4
  obtain ⟨r1, r2, r3⟩ := G4 _ rfl
  refine ⟨r1, r2, fun x y hx hy => ?_⟩
  simp only at r3
  rw [← r3]
  -- the running minimum is below each inner candidate
  have hk1 : ∀ b, best1 = some b → d4 ≤ b.2 := fun b hb => (k4'.trans k3').trans (k2 b hb)
  have hcand : ∀ e, (e = l.a ∨ e = l.b) → InTri t (foot t e) → d4 ≤ Lines.Spec.distSq (K := K) (foot t e) e := by
    rintro e he hin
    have hi := (hinside e).2 hin
    rcases he with rfl | rfl
    · rw [if_pos hi] at hb0
      by_cases hi2 : isInside t (foot t l.b) = true
      · rw [if_pos hi2] at hb1
        obtain ⟨l1, d1, e1, -, k1, -⟩ := takeCloser_spec best0 ⟨foot t l.b, l.b⟩ (V3.lenSq (l.b - foot t l.b))
        have := hk1 (l1, d1) (by rw [← hb1, e1])
        exact (this.trans (k1 _ hb0.symm)).trans (hdist ⟨foot t l.a, l.a⟩).le
      · rw [if_neg hi2] at hb1
        exact (hk1 _ (by rw [← hb1, ← hb0])).trans (hdist ⟨foot t l.a, l.a⟩).le
    · rw [if_pos hi] at hb1
      obtain ⟨l1, d1, e1, m1, -, -⟩ := takeCloser_spec best0 ⟨foot t l.b, l.b⟩ (V3.lenSq (l.b - foot t l.b))
      have := hk1 (l1, d1) (by rw [← hb1, e1])
      exact (this.trans m1).trans (hdist ⟨foot t l.b, l.b⟩).le
  rcases reduce t h l hdis x y hx hy with ⟨x', y', he, hy', hle⟩ | ⟨e, he, hin, hle⟩
  · refine le_trans ?_ hle
    rcases he with he | he | he
    · exact ((k4'.trans k3').trans m2).trans (a3 x' y' he hy')
    · exact (k4'.trans m3).trans (b3 x' y' he hy')
    · exact m4.trans (c3 x' y' he hy')
  · exact (hcand e he hin).trans hle

/-- A segment above the triangle with one end over the interior, and one beside it. -/
example :
    let t : Tri ℚ := ⟨⟨0, 0, 0⟩, ⟨4, 0, 0⟩, ⟨0, 4, 0⟩⟩
    let pl : Pl ℚ := ⟨⟨0, 0, 1⟩, 0⟩
    closestSegment (1 / 1000) .nxEqD t pl ⟨⟨1, 1, 1⟩, ⟨1, 2, 5⟩⟩ = ⟨⟨1, 1, 0⟩, ⟨1, 1, 1⟩⟩ ∧
    closestSegment (1 / 1000) .nxEqD t pl ⟨⟨1, -3, 2⟩, ⟨3, -1, 2⟩⟩ = ⟨⟨3, 0, 0⟩, ⟨3, -1, 2⟩⟩ ∧ t.normal ≠ 0 := by
  decide +kernel

/-- The assumption that the segment does not meet the triangle is needed (the documentation states it):
a segment through the interior. -/
theorem C82_crossing_refuted :
    ¬ ∀ (t : Tri ℚ) (pl : Pl ℚ) (l : Seg (V3 ℚ)), NonDeg t → Plane.Spec.UnitN pl → Plane.Spec.On .nxEqD pl t.a →
      Plane.Spec.On .nxEqD pl t.b → Plane.Spec.On .nxEqD pl t.c → ∀ x y, InTri t x → InSeg (K := ℚ) l y →
      Lines.Spec.distSq (K := ℚ) (closestSegment (1 / 1000) .nxEqD t pl l).a (closestSegment (1 / 1000) .nxEqD t pl l).b ≤
        Lines.Spec.distSq x y := by
  intro h
  have := h ⟨⟨0, 0, 0⟩, ⟨4, 0, 0⟩, ⟨0, 4, 0⟩⟩ ⟨⟨0, 0, 1⟩, 0⟩ ⟨⟨1, 1, 1⟩, ⟨1, 1, -1⟩⟩ (nonDeg_of_normal (by decide +kernel))
    (by norm_num [Plane.Spec.UnitN]) (by norm_num [Plane.Spec.On]) (by norm_num [Plane.Spec.On])
    (by norm_num [Plane.Spec.On]) ⟨1, 1, 0⟩ ⟨1, 1, 0⟩
    ⟨1 / 2, 1 / 4, 1 / 4, by norm_num, by norm_num, by norm_num, by norm_num, by ext <;> norm_num⟩
    ⟨1 / 2, 1 / 2, by norm_num, by norm_num, by norm_num, by ext <;> norm_num⟩
  revert this
  decide +kernel

end Geom.Triangle.Props
