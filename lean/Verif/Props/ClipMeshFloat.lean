import Verif.Model.ClipMeshFloat
import Verif.Spec.ClipMeshFloat
import Verif.Spec.ClipEdges
import Verif.Props.ClipMesh
import Verif.Props.ClipFloat
import Verif.Props.PickFloat
import Verif.Props.ClipEdges

/-
  C113: `ClipMesh` in floating-point arithmetic.
-/
set_option autoImplicit false
set_option linter.unusedSectionVars false

namespace Geom.TMesh
open Spec
open Geom.Float
open Plane (Eqn Pl Relation)
open Plane.Spec (side ulp)
open Plane.Props (ulp_pos)
open Clip.Spec (Near MultipleV Multiple)
open Clip (Poly)

variable {p : ℕ} {emin : ℤ} {fl : ℚ → ℚ}

theorem ulp_le (hp : 3 ≤ p) : ulp p ≤ 1 / 4 := by
  have : (2 : ℚ) ^ (1 - (p : ℤ)) ≤ 2 ^ (-2 : ℤ) := zpow_le_zpow_right₀ (by norm_num) (by omega)
  rw [ulp]
  norm_num at this ⊢
  exact this

/-- The error of an interpolated component. -/
theorem mix_error (hf : IsRounding p emin fl) (hp : 3 ≤ p) {M x y z : ℚ} (hx : |x| ≤ M) (hy : |y| ≤ M) (hz : |z| ≤ M) {v w : V3 ℚ}
    (h0 : 0 ≤ w.x ∧ 0 ≤ w.y ∧ 0 ≤ w.z) (hv : v.x + v.y + v.z = 1) (hd : |w.x - v.x| + |w.y - v.y| + |w.z - v.z| ≤ 3 / 2 * ulp p) :
    |mixFl fl x y z w - (x * v.x + y * v.y + z * v.z)| ≤ mixErr p emin M := by
  have hu := ulp_pos p
  have hu4 := ulp_le hp
  have he := two_zpow_pos emin
  have hM : 0 ≤ M := (abs_nonneg _).trans hx
  have prod : ∀ a b : ℚ, |a| ≤ M → 0 ≤ b → |fl (a * b) - a * b| ≤ ulp p * (M * b) + 2 ^ emin ∧ |fl (a * b)| ≤ (1 + ulp p) * (M * b) + 2 ^ emin := by
    intro a b ha hb
    have h := round_any hf (by omega) (a * b)
    have h1 : |a * b| ≤ M * b := by rw [abs_mul, abs_of_nonneg hb]; exact mul_le_mul_of_nonneg_right ha hb
    have h2 : ulp p * |a * b| ≤ ulp p * (M * b) := mul_le_mul_of_nonneg_left h1 hu.le
    rw [← ulp] at h
    refine ⟨by linarith, ?_⟩
    have := abs_sub_abs_le_abs_sub (fl (a * b)) (a * b)
    linarith
  obtain ⟨px, qx⟩ := prod x w.x hx h0.1
  obtain ⟨py, qy⟩ := prod y w.y hy h0.2.1
  obtain ⟨pz, qz⟩ := prod z w.z hz h0.2.2
  have hsum : w.x + w.y + w.z ≤ 1 + 3 / 2 * ulp p := by
    have a := le_abs_self (w.x - v.x); have b := le_abs_self (w.y - v.y); have c := le_abs_self (w.z - v.z)
    linarith
  have hA : M * w.x + M * w.y + M * w.z ≤ M * (11 / 8) := by
    have := mul_le_mul_of_nonneg_left (hsum.trans (show 1 + 3 / 2 * ulp p ≤ 11 / 8 by linarith)) hM
    linarith
  rw [mixErr]
  simp only [mixFl]
  set a := fl (x * w.x)
  set b := fl (y * w.y)
  set c := fl (z * w.z)
  have s1 := round_any hf (by omega) (a + b)
  rw [← ulp] at s1
  have t1 : |a + b| ≤ |a| + |b| := abs_add_le _ _
  have s2 := round_any hf (by omega) (fl (a + b) + c)
  rw [← ulp] at s2
  have t2 : |fl (a + b) + c| ≤ |fl (a + b)| + |c| := abs_add_le _ _
  have t3 : |fl (a + b)| ≤ |a + b| + (ulp p * |a + b| + 2 ^ emin) := by
    have := abs_sub_abs_le_abs_sub (fl (a + b)) (a + b)
    linarith
  have wx : |x * w.x + y * w.y + z * w.z - (x * v.x + y * v.y + z * v.z)| ≤ M * (3 / 2 * ulp p) := by
    have e : x * w.x + y * w.y + z * w.z - (x * v.x + y * v.y + z * v.z) = x * (w.x - v.x) + y * (w.y - v.y) + z * (w.z - v.z) := by ring
    have k : ∀ a b : ℚ, |a| ≤ M → |a * b| ≤ M * |b| := fun a b h => by rw [abs_mul]; exact mul_le_mul_of_nonneg_right h (abs_nonneg _)
    have := mul_le_mul_of_nonneg_left hd hM
    rw [e]
    linarith [abs_add_le (x * (w.x - v.x) + y * (w.y - v.y)) (z * (w.z - v.z)), abs_add_le (x * (w.x - v.x)) (y * (w.y - v.y)),
      k x (w.x - v.x) hx, k y (w.y - v.y) hy, k z (w.z - v.z) hz]
  have tri : |fl (fl (a + b) + c) - (x * v.x + y * v.y + z * v.z)| ≤ |fl (fl (a + b) + c) - (fl (a + b) + c)| + |fl (a + b) - (a + b)| +
      (|a - x * w.x| + |b - y * w.y| + |c - z * w.z|) + |x * w.x + y * w.y + z * w.z - (x * v.x + y * v.y + z * v.z)| := by
    have e : fl (fl (a + b) + c) - (x * v.x + y * v.y + z * v.z) = (fl (fl (a + b) + c) - (fl (a + b) + c)) + (fl (a + b) - (a + b)) +
      ((a - x * w.x) + (b - y * w.y) + (c - z * w.z)) + (x * w.x + y * w.y + z * w.z - (x * v.x + y * v.y + z * v.z)) := by ring
    rw [e]
    refine (abs_add_le _ _).trans (add_le_add ((abs_add_le _ _).trans (add_le_add (abs_add_le _ _) ?_)) le_rfl)
    exact (abs_add_le _ _).trans (add_le_add (abs_add_le _ _) le_rfl)
  set A := M * w.x + M * w.y + M * w.z with hAd
  set u := ulp p
  set E := (2 : ℚ) ^ emin
  have hA0 : 0 ≤ A := by
    have := mul_nonneg hM h0.1; have := mul_nonneg hM h0.2.1; have := mul_nonneg hM h0.2.2; linarith
  have b1 : |a| + |b| ≤ (1 + u) * (M * w.x + M * w.y) + 2 * E := by linarith
  have bc : |a| + |b| + |c| ≤ (1 + u) * A + 3 * E := by rw [hAd]; linarith
  have c0 : 0 ≤ |c| := abs_nonneg c
  have ab : |a + b| ≤ (1 + u) * A + 3 * E := by linarith
  have m1 : u * |a + b| ≤ u * ((1 + u) * A + 3 * E) := mul_le_mul_of_nonneg_left ab hu.le
  have m2 : |fl (a + b) + c| ≤ (1 + u) * A + 3 * E + (u * ((1 + u) * A + 3 * E) + E) := by linarith
  have m3 : u * |fl (a + b) + c| ≤ u * ((1 + u) * A + 3 * E + (u * ((1 + u) * A + 3 * E) + E)) := mul_le_mul_of_nonneg_left m2 hu.le
  have q1 : u * (u * A) ≤ 1 / 4 * (u * A) := mul_le_mul_of_nonneg_right hu4 (mul_nonneg hu.le hA0)
  have q2 : u * (u * (u * A)) ≤ 1 / 4 * (1 / 4 * (u * A)) := mul_le_mul hu4 q1 (mul_nonneg hu.le (mul_nonneg hu.le hA0)) (by norm_num)
  have q3 : u * E ≤ 1 / 4 * E := mul_le_mul_of_nonneg_right hu4 he.le
  have q4 : u * (u * E) ≤ 1 / 4 * (1 / 4 * E) := mul_le_mul hu4 q3 (mul_nonneg hu.le he.le) (by norm_num)
  have q5 : u * A ≤ u * (M * (11 / 8)) := mul_le_mul_of_nonneg_left hA hu.le
  have pw : |a - x * w.x| + |b - y * w.y| + |c - z * w.z| ≤ u * A + 3 * E := by rw [hAd]; linarith
  clear_value a b c u E A
  linarith [tri, s1, s2, m1, m3, wx, q1, q2, q3, q4, q5, pw, mul_nonneg hu.le hM]

/-- Weights of a point of the triangle up to rounding. -/
def WeightNear (p : ℕ) (v w : V3 ℚ) : Prop :=
  (0 ≤ w.x ∧ 0 ≤ w.y ∧ 0 ≤ w.z) ∧ v.x + v.y + v.z = 1 ∧ |w.x - v.x| + |w.y - v.y| + |w.z - v.z| ≤ 3 / 2 * ulp p

theorem bary_fl (hf : IsRounding p emin fl) (hp : 3 ≤ p) {M : ℚ} {m : Mesh ℚ} {k : ℕ} {t : Ix} {a b c : Vertex ℚ} (hk : m.triangles[k]? = some t)
    (ha : m.vertices[t.a]? = some a) (hb : m.vertices[t.b]? = some b) (hc : m.vertices[t.c]? = some c) (ba : Bounded M a) (bb : Bounded M b)
    (bc : Bounded M c) (w : V3 ℚ) :
    ∃ v', barycentricFl fl m k w = .ok v' ∧ ∀ v x, Combines v a b c x → WeightNear p x w → VertexNear (mixErr p emin M) v v' := by
  refine ⟨_, by
    simp only [barycentricFl, corners]
    rw [(getR_ok _ _ _).2 hk, Res.bind_ok, (getR_ok _ _ _).2 ha, Res.bind_ok, (getR_ok _ _ _).2 hb, Res.bind_ok, (getR_ok _ _ _).2 hc]
    rfl, ?_⟩
  intro v x hv hw
  obtain ⟨h1, h2, h3, h4, h5, h6, h7, h8⟩ := hv
  have e : ∀ {x0 x1 x2 : ℚ}, |x0| ≤ M → |x1| ≤ M → |x2| ≤ M → ∀ {y : ℚ}, y = x0 * x.x + x1 * x.y + x2 * x.z → |mixFl fl x0 x1 x2 w - y| ≤ mixErr p emin M :=
    fun h0 h1 h2 y hy => by rw [hy]; exact mix_error hf hp h0 h1 h2 hw.1 hw.2.1 hw.2.2
  exact ⟨⟨e ba.1.1 bb.1.1 bc.1.1 h1, e ba.1.2.1 bb.1.2.1 bc.1.2.1 h2, e ba.1.2.2 bb.1.2.2 bc.1.2.2 h3⟩,
    ⟨e ba.2.1.1 bb.2.1.1 bc.2.1.1 h4, e ba.2.1.2.1 bb.2.1.2.1 bc.2.1.2.1 h5, e ba.2.1.2.2 bb.2.1.2.2 bc.2.1.2.2 h6⟩,
    e ba.2.2.1 bb.2.2.1 bc.2.2.1 h7, e ba.2.2.2 bb.2.2.2 bc.2.2.2 h8⟩

/-- The weights of a polygon, and its number of vertices. -/
def PolyOk (p : ℕ) (q : Poly ℚ) : Prop := q.length ≤ 4 ∧ ∀ w ∈ q, ∃ v, Clip.Props.Convex v ∧ WeightNear p v w

theorem weight_refl {v : V3 ℚ} (h : Clip.Props.Convex v) : WeightNear p v v :=
  ⟨⟨h.1, h.2.1, h.2.2.1⟩, h.2.2.2, by simp [(ulp_pos p).le]⟩

theorem add_ok {q q' : Poly ℚ} (hq : PolyOk p q) {w : V3 ℚ} (hw : ∃ v, Clip.Props.Convex v ∧ WeightNear p v w) (h : q.add w = .ok q') : PolyOk p q' := by
  simp only [Poly.add] at h
  split_ifs at h with hl
  cases h
  refine ⟨by simp only [List.length_append, List.length_singleton]; omega, fun x hx => ?_⟩
  rcases List.mem_append.1 hx with hx | hx
  · exact hq.2 x hx
  · rw [List.mem_singleton.1 hx]; exact hw

theorem addVertex_ok {s s' : Poly ℚ × Poly ℚ} (h1 : PolyOk p s.1) (h2 : PolyOk p s.2) {w : V3 ℚ} (hw : ∃ v, Clip.Props.Convex v ∧ WeightNear p v w)
    {r : Relation} (h : Clip.addVertex s w r = .ok s') : PolyOk p s'.1 ∧ PolyOk p s'.2 := by
  cases r
  case clipped => simp only [Clip.addVertex, Res.ok.injEq] at h; rw [← h]; exact ⟨h1, h2⟩
  case onto =>
    obtain ⟨f, hf, h⟩ := Res.bind_eq_ok.1 h
    obtain ⟨b, hb, h⟩ := Res.bind_eq_ok.1 h
    cases h
    exact ⟨add_ok h1 hw hf, add_ok h2 hw hb⟩
  case inFrontOf =>
    obtain ⟨f, hf, h⟩ := Res.bind_eq_ok.1 h
    cases h
    exact ⟨add_ok h1 hw hf, h2⟩
  case behind =>
    obtain ⟨f, hf, h⟩ := Res.bind_eq_ok.1 h
    cases h
    exact ⟨h1, add_ok h2 hw hf⟩

theorem one_mem (hp : 1 ≤ p) (he : emin ≤ 0) : (1 : ℚ) ∈ Floats p emin := by
  have := int_mem (p := p) (emin := emin) (k := 1) hp he (by simpa using one_le_pow₀ (a := (2 : ℤ)) (by norm_num))
  exact_mod_cast this

theorem cut_weight (hf : IsRounding p emin fl) (hp : 3 ≤ p) (he : emin ≤ 0) (i : ℕ) {t : ℚ} (ht : t ∈ Floats p emin) (h0 : 0 ≤ t) (h1 : t ≤ 1) :
    ∃ v, Clip.Props.Convex v ∧ WeightNear p v (Clip.cutPointFl fl i t) := by
  have hr := round_sub hf (by omega) (one_mem (by omega) he) ht
  rw [← ulp, abs_of_nonneg (show 0 ≤ 1 - t by linarith)] at hr
  have hu := ulp_pos p
  have hr' : |fl (1 - t) - (1 - t)| ≤ 3 / 2 * ulp p := by nlinarith
  have f0 : fl 0 = 0 := hf.fix 0 ⟨0, emin, by simp, le_rfl, by simp⟩
  have hn : 0 ≤ fl (1 - t) := f0 ▸ hf.mono (show 0 ≤ 1 - t by linarith)
  match i with
  | 0 => exact ⟨⟨1 - t, t, 0⟩, ⟨by simpa using h1, h0, le_rfl, by ring⟩, ⟨⟨hn, h0, le_rfl⟩, by ring, by simpa [Clip.cutPointFl] using hr'⟩⟩
  | 1 => exact ⟨⟨0, 1 - t, t⟩, ⟨le_rfl, by simpa using h1, h0, by ring⟩, ⟨⟨le_rfl, hn, h0⟩, by ring, by simpa [Clip.cutPointFl] using hr'⟩⟩
  | n + 2 => exact ⟨⟨t, 0, 1 - t⟩, ⟨h0, le_rfl, by simpa using h1, by ring⟩, ⟨⟨h0, le_rfl, hn⟩, by ring, by simpa [Clip.cutPointFl] using hr'⟩⟩

theorem bary_convex (i : ℕ) : Clip.Props.Convex (Clip.bary i : V3 ℚ) := by
  match i with
  | 0 => simp [Clip.Props.Convex, Clip.bary]
  | 1 => simp [Clip.Props.Convex, Clip.bary]
  | n + 2 => simp [Clip.Props.Convex, Clip.bary]

theorem edgeStep_ok (hf : IsRounding p emin fl) (hp : 3 ≤ p) (he : emin ≤ 0) {nz : Bool} {eq : Eqn} {pl : Pl ℚ} {t : Triangle.Tri ℚ} {rel : ℕ → Relation} {i : ℕ}
    {s s' : Poly ℚ × Poly ℚ} (h1 : PolyOk p s.1) (h2 : PolyOk p s.2) (h : Clip.edgeStepFl fl nz eq pl t rel i s = .ok s') : PolyOk p s'.1 ∧ PolyOk p s'.2 := by
  obtain ⟨q, hq, h⟩ := Res.bind_eq_ok.1 h
  have hq' : PolyOk p q.1 ∧ PolyOk p q.2 := by
    simp only [Clip.addCutFl] at hq
    split_ifs at hq with c1 c2
    · generalize hx : Clip.interpFl fl nz eq pl (Clip.corner t i) (Clip.subFl fl (Clip.corner t ((i + 1) % 3)) (Clip.corner t i)) = x at hq c2
      cases x with
      | fin k =>
        have hk : k ∈ Floats p emin := by
          simp only [Clip.interpFl, Clip.roundExt] at hx
          split at hx
          · cases hx; exact hf.mem _
          · rename_i e; exact absurd hx (e _)
        simp only [Ext.ge, Ext.le, Bool.and_eq_true, decide_eq_true_eq] at c2
        exact addVertex_ok h1 h2 (cut_weight hf hp he i hk c2.1 c2.2) hq
      | _ => simp only [Res.ok.injEq] at hq; rw [← hq]; exact ⟨h1, h2⟩
    · cases hq; exact ⟨h1, h2⟩
    · cases hq; exact ⟨h1, h2⟩
  split_ifs at h
  · exact addVertex_ok hq'.1 hq'.2 ⟨_, bary_convex _, weight_refl (bary_convex _)⟩ h
  · cases h; exact hq'

theorem clipTri_ok (hf : IsRounding p emin fl) (hp : 3 ≤ p) (he : emin ≤ 0) {nz : ℕ → Bool} {eq : Eqn} {pl : Pl ℚ} {t : Triangle.Tri ℚ} {eps : ℚ} {r : Relation}
    {f b : Poly ℚ} (h : Clip.clipTriangleFl fl nz eq pl t eps [] [] = .ok (r, f, b)) : PolyOk p f ∧ PolyOk p b := by
  have nil : PolyOk p [] := ⟨by simp, by simp⟩
  simp only [Clip.clipTriangleFl] at h
  split_ifs at h
  · cases h; exact ⟨nil, nil⟩
  · cases h; exact ⟨nil, nil⟩
  · obtain ⟨s0, e0, h⟩ := Res.bind_eq_ok.1 h
    obtain ⟨s1, e1, h⟩ := Res.bind_eq_ok.1 h
    obtain ⟨s2, e2, h⟩ := Res.bind_eq_ok.1 h
    obtain ⟨s3, e3, h⟩ := Res.bind_eq_ok.1 h
    cases h
    have k0 := addVertex_ok nil nil ⟨_, bary_convex _, weight_refl (bary_convex _)⟩ e0
    have k1 := edgeStep_ok hf hp he k0.1 k0.2 e1
    have k2 := edgeStep_ok hf hp he k1.1 k1.2 e2
    exact edgeStep_ok hf hp he k2.1 k2.2 e3

theorem vertexNear_refl {d : ℚ} (hd : 0 ≤ d) (v : Vertex ℚ) : VertexNear d v v := by simp [VertexNear, hd]

theorem mixErr_nonneg {M : ℚ} (hM : 0 ≤ M) : 0 ≤ mixErr p emin M := by
  have := ulp_pos p; have := two_zpow_pos emin; rw [mixErr]; positivity

theorem addTriCopy_vertices (m : Mesh ℚ) (a b c : Vertex ℚ) : (addTriCopy m a b c).vertices = m.vertices ++ [a, b, c] := by
  simp [addTriCopy, addTriangle]

theorem clipOneFl_inside (hf : IsRounding p emin fl) (hp : 3 ≤ p) (he : emin ≤ 0) {M : ℚ} {nz : ℕ → Bool} {eq : Eqn} {pl : Pl ℚ} {eps : ℚ}
    {m : Mesh ℚ} (hb : ∀ v ∈ m.vertices, Bounded M v) {k : ℕ} {t : Ix} (hk : m.triangles[k]? = some t) {s r : Mesh ℚ × Mesh ℚ}
    (h : clipOneFl fl nz eq pl eps m k t s = .ok r)
    (hs : ∀ v ∈ s.1.vertices ++ s.2.vertices, ∃ v', FromMesh m v' ∧ VertexNear (mixErr p emin M) v' v) :
    ∀ v ∈ r.1.vertices ++ r.2.vertices, ∃ v', FromMesh m v' ∧ VertexNear (mixErr p emin M) v' v := by
  unfold clipOneFl at h
  obtain ⟨⟨a, b, c⟩, hc, h⟩ := Res.bind_eq_ok.1 h
  simp only [corners] at hc
  obtain ⟨a', h0, hc⟩ := Res.bind_eq_ok.1 hc
  obtain ⟨b', h1, hc⟩ := Res.bind_eq_ok.1 hc
  obtain ⟨c', h2, hc⟩ := Res.bind_eq_ok.1 hc
  simp only [Res.ok.injEq, Prod.mk.injEq] at hc
  obtain ⟨rfl, rfl, rfl⟩ := hc
  rw [getR_ok] at h0 h1 h2
  have b0 := hb _ (List.mem_of_getElem? h0)
  have b1 := hb _ (List.mem_of_getElem? h1)
  have b2 := hb _ (List.mem_of_getElem? h2)
  have hM : 0 ≤ M := (abs_nonneg _).trans b0.1.1
  obtain ⟨fa, fb, fc⟩ := fromMesh_corner m t (List.mem_of_getElem? hk) a' b' c' h0 h1 h2
  have copy : ∀ v ∈ [a', b', c'], ∃ v', FromMesh m v' ∧ VertexNear (mixErr p emin M) v' v := by
    intro v hv
    refine ⟨v, ?_, vertexNear_refl (mixErr_nonneg hM) v⟩
    simp only [List.mem_cons, List.not_mem_nil, or_false] at hv
    rcases hv with rfl | rfl | rfl
    exacts [fa, fb, fc]
  obtain ⟨⟨rel, fp, bp⟩, hr, h⟩ := Res.bind_eq_ok.1 h
  obtain ⟨p1, p2⟩ := clipTri_ok hf hp he hr
  cases rel
  case inFrontOf =>
    simp only [Res.ok.injEq] at h
    subst h
    intro v hv
    have hv' : v ∈ s.1.vertices ++ s.2.vertices ∨ v ∈ [a', b', c'] := by
      simp only [addTriCopy_vertices, List.mem_append, List.mem_cons, List.not_mem_nil, or_false] at hv ⊢
      clear h hs copy
      tauto
    exact hv'.elim (hs v) (copy v)
  case behind =>
    simp only [Res.ok.injEq] at h
    subst h
    intro v hv
    have hv' : v ∈ s.1.vertices ++ s.2.vertices ∨ v ∈ [a', b', c'] := by
      simp only [addTriCopy_vertices, List.mem_append, List.mem_cons, List.not_mem_nil, or_false] at hv ⊢
      clear h hs copy
      tauto
    exact hv'.elim (hs v) (copy v)
  case onto => simp only [Res.ok.injEq] at h; subst h; exact hs
  case clipped =>
    choose g hg1 hg2 using bary_fl hf hp hk h0 h1 h2 b0 b1 b2
    simp only at h
    rw [addFan_eq _ g s.1 fp p1.1 fun v _ => hg1 v, Res.bind_ok, addFan_eq _ g s.2 bp p2.1 fun v _ => hg1 v, Res.bind_ok] at h
    cases h
    have new : ∀ q : Poly ℚ, PolyOk p q → ∀ v ∈ q.map g, ∃ v', FromMesh m v' ∧ VertexNear (mixErr p emin M) v' v := by
      intro q hq v hv
      obtain ⟨w, hw, rfl⟩ := List.mem_map.1 hv
      obtain ⟨x, hx, hx'⟩ := hq.2 w hw
      obtain ⟨v', -, hv'⟩ := C41_barycentric 1 one_pos (⟨0, 0, 0⟩ : Vertex ℚ) m k t a' b' c' x hk h0 h1 h2
      exact ⟨v', ⟨t, List.mem_of_getElem? hk, a', b', c', x, h0, h1, h2, hx.1, hx.2.1, hx.2.2.1, hx.2.2.2, hv'⟩, hg2 w v' x hv' hx'⟩
    intro v hv
    simp only [List.mem_append] at hv hs
    rcases hv with (hv | hv) | (hv | hv)
    · exact hs v (.inl hv)
    · exact new fp p1 v hv
    · exact hs v (.inr hv)
    · exact new bp p2 v hv

/-- C113: whatever the rounding mode, each vertex of the two meshes is a point of a triangle of the mesh with interpolated
attributes, up to an error of `mixErr`. What is missing from the property: that the vertices are inside of the bounding box of the mesh,
see `C113_box_float_refuted`, and that `ClipMesh` is defined, see `C101_bounds_refuted`. -/
theorem C113_inside_partial (hf : IsRounding p emin fl) (hp : 3 ≤ p) (he : emin ≤ 0) {M : ℚ} {nz : ℕ → ℕ → Bool} {eq : Eqn} {pl : Pl ℚ} {eps : ℚ}
    {m front back f b : Mesh ℚ} (hb : ∀ v ∈ m.vertices, Bounded M v) (h : clipMeshFl fl nz eq pl eps m front back = .ok (f, b)) :
    ∀ v ∈ f.vertices ++ b.vertices, ∃ v', FromMesh m v' ∧ VertexNear (mixErr p emin M) v' v := by
  have loop : ∀ (l : List Ix) (i : ℕ) (s r : Mesh ℚ × Mesh ℚ), (∀ j t, l[j]? = some t → m.triangles[i + j]? = some t) →
      clipLoopFl fl nz eq pl eps m i l s = .ok r →
      (∀ v ∈ s.1.vertices ++ s.2.vertices, ∃ v', FromMesh m v' ∧ VertexNear (mixErr p emin M) v' v) →
      ∀ v ∈ r.1.vertices ++ r.2.vertices, ∃ v', FromMesh m v' ∧ VertexNear (mixErr p emin M) v' v := by
    intro l
    induction l with
    | nil => intro i s r _ e hs; cases e; exact hs
    | cons t l ih =>
      intro i s r hl e hs
      obtain ⟨q, hq, e⟩ := Res.bind_eq_ok.1 e
      refine ih (i + 1) q r (fun j u hj => ?_) e (clipOneFl_inside hf hp he hb (hl 0 t rfl) hq hs)
      rw [show i + 1 + j = i + (j + 1) by omega]
      exact hl (j + 1) u hj
  exact loop m.triangles 0 _ _ (fun j t h => by rw [Nat.zero_add]; exact h) h (by simp [clear])

/-- Meshes with the same triangles, and vertices that differ by at most `d`. -/
def MeshNear (d : ℚ) (m m' : Mesh ℚ) : Prop := m'.triangles = m.triangles ∧ List.Forall₂ (VertexNear d) m.vertices m'.vertices

theorem copy_near {d : ℚ} (hd : 0 ≤ d) {m m' : Mesh ℚ} (h : MeshNear d m m') (a b c : Vertex ℚ) : MeshNear d (addTriCopy m a b c) (addTriCopy m' a b c) := by
  refine ⟨?_, ?_⟩
  · simp only [addTriCopy, addTriangle]
    rw [h.1, h.2.length_eq]
  · rw [addTriCopy_vertices, addTriCopy_vertices]
    exact List.rel_append h.2 (.cons (vertexNear_refl hd _) (.cons (vertexNear_refl hd _) (.cons (vertexNear_refl hd _) .nil)))

theorem fan_near {d : ℚ} {m m' : Mesh ℚ} (h : MeshNear d m m') {g g' : V3 ℚ → Vertex ℚ} {q q' : Poly ℚ}
    (hq : List.Forall₂ (fun w w' => VertexNear d (g w) (g' w')) q q') :
    MeshNear d ⟨m.vertices ++ q.map g, m.triangles ++ fanIx m.vertices.length q.length⟩
      ⟨m'.vertices ++ q'.map g', m'.triangles ++ fanIx m'.vertices.length q'.length⟩ := by
  refine ⟨?_, ?_⟩
  · simp only
    rw [h.1, h.2.length_eq, hq.length_eq]
  · exact List.rel_append h.2 (List.forall₂_map_left_iff.2 (List.forall₂_map_right_iff.2 hq))

theorem two_zpow_ulp (p : ℕ) : (2 : ℚ) ^ (-(p : ℤ)) = ulp p / 2 := by
  rw [ulp, sub_eq_add_neg, zpow_add₀ (by norm_num)]; norm_num

/-- The hypotheses of `C101_agrees_partial` for all triangles of a mesh. -/
structure OnGrids (p : ℕ) (emin : ℤ) (u v N X D : ℤ) (pl : Pl ℚ) (m : Mesh ℚ) : Prop where
  lo : emin ≤ v
  lo' : emin ≤ u + v
  one : 1 ≤ N
  fits : 6 * (N * X) + D ≤ 2 ^ p
  normal : MultipleV u N pl.normal
  distance : Multiple (u + v) D pl.distance
  positions : ∀ x ∈ m.vertices, MultipleV v X x.position

theorem clipOneFl_agrees (hf : IsNearest p emin fl) (hp : 3 ≤ p) (he : emin ≤ -(p + 1)) {u v N X D : ℤ} {pl : Pl ℚ} {m : Mesh ℚ}
    (hg : OnGrids p emin u v N X D pl m) {M : ℚ} (hb : ∀ v ∈ m.vertices, Bounded M v) (hm : Valid m) {sz : ℕ} (hsz : 0 < sz) (zero : Vertex ℚ) (nz : ℕ → Bool) (eq : Eqn) {eps : ℚ} (heps : 0 ≤ eps)
    {k : ℕ} {t : Ix} (hk : m.triangles[k]? = some t) {s s' : Mesh ℚ × Mesh ℚ} (h1 : MeshNear (mixErr p emin M) s.1 s'.1)
    (h2 : MeshNear (mixErr p emin M) s.2 s'.2) :
    ∃ r r', clipOne sz zero nz eq pl eps m k t s = .ok r ∧ clipOneFl fl nz eq pl eps m k t s' = .ok r' ∧
      MeshNear (mixErr p emin M) r.1 r'.1 ∧ MeshNear (mixErr p emin M) r.2 r'.2 := by
  have ht := List.mem_of_getElem? hk
  obtain ⟨ha, hb', hc⟩ := (valid_iff m).1 hm t ht
  obtain ⟨a, ha, ha'⟩ := getR_lt _ _ ha
  obtain ⟨b, hb', hb''⟩ := getR_lt _ _ hb'
  obtain ⟨c, hc, hc'⟩ := getR_lt _ _ hc
  have ha0 := ha'; have hb0 := hb''; have hc0 := hc'
  rw [getR_ok] at ha0 hb0 hc0
  have ma := List.mem_of_getElem? ha0
  have mb := List.mem_of_getElem? hb0
  have mc := List.mem_of_getElem? hc0
  have hM : 0 ≤ M := (abs_nonneg _).trans (hb _ ma).1.1
  have he0 : emin ≤ 0 := by omega
  have hcor : corners m t = .ok (a, b, c) := by
    simp only [corners]
    rw [ha', Res.bind_ok, hb'', Res.bind_ok, hc', Res.bind_ok]
  obtain ⟨r, f, bk, f', bk', e1, e2, l1, l2, n1, n2⟩ := Clip.Props.C101_agrees_partial hf (by omega) he hg.lo hg.lo' hg.one hg.fits nz eq pl
    ⟨a.position, b.position, c.position⟩ eps heps hg.normal hg.distance (hg.positions a ma) (hg.positions b mb) (hg.positions c mc)
  obtain ⟨p1, p2⟩ := clipTri_ok hf.toIsRounding hp he0 e2
  have hs := (Clip.Props.C25_sides nz eq pl _ eps heps r f bk e1).1
  unfold clipOne clipOneFl
  rw [hcor, Res.bind_ok, Res.bind_ok]
  simp only
  rw [e1, e2, Res.bind_ok, Res.bind_ok]
  have hE := mixErr_nonneg (p := p) (emin := emin) hM
  cases r
  case inFrontOf => exact ⟨_, _, rfl, rfl, copy_near hE h1 a b c, h2⟩
  case behind => exact ⟨_, _, rfl, rfl, h1, copy_near hE h2 a b c⟩
  case onto => exact ⟨_, _, rfl, rfl, h1, h2⟩
  case clipped =>
    choose g' hg1 hg2 using bary_fl hf.toIsRounding hp hk ha0 hb0 hc0 (hb _ ma) (hb _ mb) (hb _ mc)
    choose g hgb hgc using fun w => C41_barycentric sz hsz zero m k t a b c w hk ha0 hb0 hc0
    have near : ∀ q q' : Poly ℚ, List.Forall₂ (Near (2 ^ (-(p : ℤ)))) q q' → (∀ w ∈ q, w.x + w.y + w.z = 1) → PolyOk p q' →
        List.Forall₂ (fun w w' => VertexNear (mixErr p emin M) (g w) (g' w')) q q' := by
      intro q q' hq h1 hok
      induction hq with
      | nil => exact .nil
      | @cons w w' q q' hw _ ih =>
        refine .cons (hg2 w' _ w (hgc w) ⟨?_, h1 w (by simp), ?_⟩) (ih (fun x hx => h1 x (by simp [hx]))
          ⟨by have := hok.1; simp only [List.length_cons] at this; omega, fun x hx => hok.2 x (by simp [hx])⟩)
        · obtain ⟨v, -, hv⟩ := hok.2 w' (by simp)
          exact hv.1
        · obtain ⟨x1, x2, x3⟩ := hw
          rw [two_zpow_ulp] at x1 x2 x3
          linarith
    simp only
    rw [addFan_eq _ g s.1 f (by rw [n1.length_eq]; exact l1) fun v _ => hgb v, Res.bind_ok, addFan_eq _ g s.2 bk (by rw [n2.length_eq]; exact l2) fun v _ => hgb v, Res.bind_ok,
      addFan_eq _ g' s'.1 f' l1 fun v _ => hg1 v, Res.bind_ok, addFan_eq _ g' s'.2 bk' l2 fun v _ => hg1 v, Res.bind_ok]
    exact ⟨_, _, rfl, rfl, fan_near h1 (near f f' n1 (fun w hw => (hs w (by simp [hw])).1) p1),
      fan_near h2 (near bk bk' n2 (fun w hw => (hs w (by simp [hw])).1) p2)⟩

/-- C113: on grids as for `C101_agrees_partial` the meshes have the same triangles as in exact arithmetic, and vertices that differ by at
most `mixErr`. As the two sides of an edge are cut at the same point in exact arithmetic (C102), cracks are at most twice as wide. What is missing from the
property: that there are no cracks, see `C113_crack_float_refuted`. -/
theorem C113_agrees_partial (hf : IsNearest p emin fl) (hp : 3 ≤ p) (he : emin ≤ -(p + 1)) {u v N X D : ℤ} {pl : Pl ℚ} {m : Mesh ℚ}
    (hv : emin ≤ v) (huv : emin ≤ u + v) (hN : 1 ≤ N) (hB : 6 * (N * X) + D ≤ 2 ^ p) (hn : MultipleV u N pl.normal)
    (hd : Multiple (u + v) D pl.distance) (hpos : ∀ x ∈ m.vertices, MultipleV v X x.position) {M : ℚ} (hb : ∀ x ∈ m.vertices, Bounded M x)
    (hm : Valid m) {sz : ℕ} (hsz : 0 < sz) (zero : Vertex ℚ) (nz : ℕ → ℕ → Bool) (eq : Eqn) {eps : ℚ} (heps : 0 ≤ eps) (front back : Mesh ℚ) :
    ∃ f b f' b', clipMesh sz zero nz eq pl eps m front back = .ok (f, b) ∧ clipMeshFl fl nz eq pl eps m front back = .ok (f', b') ∧
      f'.triangles = f.triangles ∧ List.Forall₂ (VertexNear (mixErr p emin M)) f.vertices f'.vertices ∧
      b'.triangles = b.triangles ∧ List.Forall₂ (VertexNear (mixErr p emin M)) b.vertices b'.vertices := by
  have hg : OnGrids p emin u v N X D pl m := ⟨hv, huv, hN, hB, hn, hd, hpos⟩
  have loop : ∀ (l : List Ix) (i : ℕ) (s s' : Mesh ℚ × Mesh ℚ), (∀ j t, l[j]? = some t → m.triangles[i + j]? = some t) →
      MeshNear (mixErr p emin M) s.1 s'.1 → MeshNear (mixErr p emin M) s.2 s'.2 →
      ∃ r r', clipLoop sz zero nz eq pl eps m i l s = .ok r ∧ clipLoopFl fl nz eq pl eps m i l s' = .ok r' ∧
        MeshNear (mixErr p emin M) r.1 r'.1 ∧ MeshNear (mixErr p emin M) r.2 r'.2 := by
    intro l
    induction l with
    | nil => intro i s s' _ h1 h2; exact ⟨s, s', rfl, rfl, h1, h2⟩
    | cons t l ih =>
      intro i s s' hl h1 h2
      obtain ⟨r, r', e1, e2, n1, n2⟩ := clipOneFl_agrees hf hp he hg hb hm hsz zero (nz i) eq heps (hl 0 t rfl) h1 h2
      rw [Nat.add_zero] at e1 e2
      obtain ⟨q, q', e3, e4, n3, n4⟩ := ih (i + 1) r r' (fun j u hj => by
        rw [show i + 1 + j = i + (j + 1) by omega]
        exact hl (j + 1) u hj) n1 n2
      exact ⟨q, q', by rw [clipLoop, e1, Res.bind_ok, e3], by rw [clipLoopFl, e2, Res.bind_ok, e4], n3, n4⟩
  obtain ⟨⟨f, b⟩, ⟨f', b'⟩, e1, e2, n1, n2⟩ := loop m.triangles 0 (clear front, clear back) (clear front, clear back)
    (fun j t h => by rw [Nat.zero_add]; exact h) ⟨rfl, by simp [clear]⟩ ⟨rfl, by simp [clear]⟩
  exact ⟨f, b, f', b', e1, e2, n1.1, n1.2, n2.1, n2.2⟩

/-- A triangle which is cut, with attributes. -/
def cutMesh : Mesh ℚ := ⟨[⟨⟨7, 0, 1⟩, ⟨0, 1, 0⟩, ⟨0, 0⟩⟩, ⟨⟨7, 0, -11⟩, ⟨0, 1, 0⟩, ⟨1, 0⟩⟩, ⟨⟨0, 3, 5⟩, ⟨0, 0, 1⟩, ⟨1 / 2, 1⟩⟩], [⟨0, 1, 2⟩]⟩

theorem cutMesh_bounded : ∀ v ∈ cutMesh.vertices, Bounded 11 v := by
  intro v hv
  simp only [cutMesh, List.mem_cons, List.not_mem_nil, or_false] at hv
  rcases hv with rfl | rfl | rfl <;> norm_num [Bounded, abs_le]

/-- An instance for `C113_agrees_partial`, whose result is an instance for `C113_inside_partial`. -/
theorem cutMesh_clip : ∃ f b f' b', clipMesh 4 ⟨0, 0, 0⟩ (fun _ _ => false) .nxEqD ⟨⟨0, 0, 1⟩, 0⟩ (1 / 10) cutMesh Mesh.empty Mesh.empty = .ok (f, b) ∧
    clipMeshFl (Float.nearest 24 (-149)) (fun _ _ => false) .nxEqD ⟨⟨0, 0, 1⟩, 0⟩ (1 / 10) cutMesh Mesh.empty Mesh.empty = .ok (f', b') ∧
    f'.triangles = f.triangles ∧ List.Forall₂ (VertexNear (mixErr 24 (-149) 11)) f.vertices f'.vertices ∧
    b'.triangles = b.triangles ∧ List.Forall₂ (VertexNear (mixErr 24 (-149) 11)) b.vertices b'.vertices :=
  C113_agrees_partial (Float.nearest_isNearest (by norm_num)) (by norm_num) (by norm_num) (u := 0) (v := 0) (N := 1) (X := 11) (D := 0)
    (by norm_num) (by norm_num) (by norm_num) (by norm_num) ⟨⟨0, by norm_num, by norm_num⟩, ⟨0, by norm_num, by norm_num⟩, ⟨1, by norm_num, by norm_num⟩⟩
    ⟨0, by norm_num, by norm_num⟩ (by
      intro v hv
      simp only [cutMesh, List.mem_cons, List.not_mem_nil, or_false] at hv
      rcases hv with rfl | rfl | rfl
      · exact ⟨⟨7, by norm_num, by norm_num⟩, ⟨0, by norm_num, by norm_num⟩, ⟨1, by norm_num, by norm_num⟩⟩
      · exact ⟨⟨7, by norm_num, by norm_num⟩, ⟨0, by norm_num, by norm_num⟩, ⟨-11, by norm_num, by norm_num⟩⟩
      · exact ⟨⟨0, by norm_num, by norm_num⟩, ⟨3, by norm_num, by norm_num⟩, ⟨5, by norm_num, by norm_num⟩⟩)
    cutMesh_bounded ((valid_iff _).2 (by decide +kernel)) (by norm_num) _ _ _ (by norm_num) _ _

example : ∃ f b, clipMeshFl (Float.nearest 24 (-149)) (fun _ _ => false) .nxEqD ⟨⟨0, 0, 1⟩, 0⟩ (1 / 10) cutMesh Mesh.empty Mesh.empty = .ok (f, b) ∧
    ∀ v ∈ f.vertices ++ b.vertices, ∃ v', FromMesh cutMesh v' ∧ VertexNear (mixErr 24 (-149) 11) v' v := by
  obtain ⟨f, b, f', b', -, h, -⟩ := cutMesh_clip
  exact ⟨f', b', h, C113_inside_partial (Float.nearest_isNearest (by norm_num)).toIsRounding (by norm_num) (by norm_num) cutMesh_bounded h⟩

end Geom.TMesh
