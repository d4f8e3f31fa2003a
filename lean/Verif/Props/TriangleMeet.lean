import Verif.Spec.TriangleMeet
import Verif.Props.TriangleRay

/-!
Property C124: the query for the intersection of two triangles finds every intersection of triangles in
different planes.
-/

set_option linter.unusedSectionVars false
set_option autoImplicit false

namespace Geom.Triangle.Props

open Spec
open Plane (Eqn Pl Ray Line Hit)

/-! ### One edge -/

/-- An edge which crosses the plane of the triangle in a point of the triangle is a hit. -/
theorem edgeHit_point (nz : Line ℝ → Bool) (eq : Eqn) (t : Tri ℝ) (e : Line ℝ) (hf : facing t (e.b - e.a) ≠ 0)
    (x : V3 ℝ) (hx : InTri t x) (hb : Between e.a e.b x) : edgeHit nz eq t e = .point x := by
  obtain ⟨s, s0, s1, rfl⟩ := hb
  unfold edgeHit
  rcases lt_or_gt_of_ne hf with h | h
  · rw [line_front (nz e) eq t e h s s0 s1 hx]
  · rw [line_back (nz e) eq t e h]
    have e1 : e.a + s • (e.b - e.a) = e.b + (1 - s) • (e.a - e.b) := by module
    have e2 : facing t (e.a - e.b) = -facing t (e.b - e.a) := by simp only [facing]; vec_simp; ring
    simp only
    rw [e1] at hx ⊢
    exact line_front (nz ⟨e.b, e.a⟩) eq t ⟨e.b, e.a⟩ (by simp only; rw [e2]; linarith) (1 - s) (by linarith) (by linarith) hx

/-- An edge which is parallel to the plane of the triangle is no hit. -/
theorem line_parallel (nz : Bool) (eq : Eqn) (t : Tri ℝ) (l : Line ℝ) (hd : facing t (l.b - l.a) = 0) :
    intersectLineDefault nz eq t l = .none := by
  have e : ∀ y, Plane.interp nz eq (Plane.build eq t.a t.b t.c) l.a l.direction ≠ Ext.fin y := by
    intro y
    have h0 : V3.dot (Plane.build eq t.a t.b t.c).normal l.direction = 0 := by
      by_cases hN : t.normal = 0
      · have h0 : V3.cross (t.b - t.a) (t.c - t.a) = 0 := hN
        simp [Plane.build, Plane.updateDistance, Plane.normalizeVec, h0, V3.lenSq, V3.dot]
      · obtain ⟨hu, ha, hb, hc⟩ := Plane.Props.C10_build eq t.a t.b t.c hN
        have hn : (Plane.build eq t.a t.b t.c).normal ≠ 0 := by
          intro h0
          rw [Plane.Spec.UnitN, h0] at hu
          simp at hu
        obtain ⟨k, hk, h1, h2⟩ := plane_side eq t _ (nonDeg_of_normal hN) hn ha hb hc
        rw [Plane.Line.direction, h1, hd, mul_zero]
    rw [Plane.interp, h0]
    simp only [Ext.div, if_true]
    split_ifs <;> simp
  unfold intersectLineDefault intersectLine interp
  revert e
  generalize Plane.interp nz eq (Plane.build eq t.a t.b t.c) l.a l.direction = z
  intro e
  cases z with
  | fin y => exact absurd rfl (e y)
  | posInf => simp only; split_ifs <;> simp [Ext.ge, Ext.le]
  | negInf => simp only; split_ifs <;> simp [Ext.ge, Ext.le]
  | nan => simp only; split_ifs <;> simp [Ext.ge, Ext.le]

/-- A hit is a point of the triangle and of an edge which crosses the plane of the triangle. -/
theorem edgeHit_sound (nz : Line ℝ → Bool) (eq : Eqn) (t : Tri ℝ) (e : Line ℝ) (h : edgeHit nz eq t e ≠ .none) :
    facing t (e.b - e.a) ≠ 0 ∧ ∃ x, edgeHit nz eq t e = .point x ∧ InTri t x ∧ Between e.a e.b x := by
  have hf : facing t (e.b - e.a) ≠ 0 := by
    intro h0
    apply h
    have e2 : facing t (e.a - e.b) = -facing t (e.b - e.a) := by simp only [facing]; vec_simp; ring
    unfold edgeHit
    rw [line_parallel _ eq t e h0]
    exact line_parallel _ eq t ⟨e.b, e.a⟩ (by simp only; rw [e2, h0, neg_zero])
  refine ⟨hf, ?_⟩
  unfold edgeHit at h ⊢
  cases h1 : intersectLineDefault (nz e) eq t e with
  | none =>
    rw [h1] at h
    obtain ⟨x, hx, hin, s, s0, s1, he⟩ := line_sound _ _ _ _ h
    exact ⟨x, hx, hin, 1 - s, by linarith, by linarith, by rw [he]; simp only; module⟩
  | point x =>
    obtain ⟨x', hx, hin, s, s0, s1, he⟩ := line_sound (nz e) eq t e (by rw [h1]; simp)
    rw [h1] at hx
    cases hx
    exact ⟨x, rfl, hin, s, s0, s1, he⟩
  | infinite =>
    obtain ⟨x', hx, -⟩ := line_sound (nz e) eq t e (by rw [h1]; simp)
    rw [h1] at hx
    cases hx

/-! ### The scan -/

/-- One further hit completes the scan. -/
theorem scan_one (nz : Line ℝ → Bool) (eq : Eqn) (g : Hit (V3 ℝ)) :
    ∀ (es : List (Tri ℝ × Line ℝ)) (te : Tri ℝ × Line ℝ), te ∈ es → edgeHit nz eq te.1 te.2 ≠ .none →
      scanEdges nz eq es (some g) ≠ none
  | (t, e) :: rest, te, hm, hh => by
    rw [scanEdges]
    rcases List.mem_cons.1 hm with rfl | hm
    · generalize edgeHit nz eq t e = z at hh
      cases z <;> simp at hh ⊢
    · have := scan_one nz eq g rest te hm hh
      generalize edgeHit nz eq t e = z
      cases z <;> simp [this]

/-- Two hits at different places of the list complete the scan. -/
theorem scan_two (nz : Line ℝ → Bool) (eq : Eqn) :
    ∀ (es : List (Tri ℝ × Line ℝ)) (i j : ℕ) (hi : i < es.length) (hj : j < es.length), i < j →
      edgeHit nz eq es[i].1 es[i].2 ≠ .none → edgeHit nz eq es[j].1 es[j].2 ≠ .none →
      scanEdges nz eq es none ≠ none
  | (t, e) :: rest, i, 0, _, _, hij, _, _ => absurd hij (Nat.not_lt_zero _)
  | (t, e) :: rest, 0, j + 1, hi, hj, _, h1, h2 => by
    rw [scanEdges]
    have hj' : j < rest.length := by simpa using hj
    have := fun g => scan_one nz eq g rest rest[j] (List.getElem_mem _) h2
    simp only [List.getElem_cons_zero] at h1
    generalize edgeHit nz eq t e = z at h1
    cases z with
    | none => exact absurd rfl h1
    | point x => exact this _
    | infinite => exact this _
  | (t, e) :: rest, i + 1, j + 1, hi, hj, hij, h1, h2 => by
    rw [scanEdges]
    have hj' : j < rest.length := by simpa using hj
    have hr := scan_two nz eq rest i j (by omega) hj' (by omega) h1 h2
    have := fun g => scan_one nz eq g rest rest[j] (List.getElem_mem _) h2
    generalize edgeHit nz eq t e = z
    cases z with
    | none => exact hr
    | point x => exact this _
    | infinite => exact this _

/-- The scan returns hits of the list. -/
theorem scan_mem (nz : Line ℝ → Bool) (eq : Eqn) (P : Hit (V3 ℝ) → Prop) :
    ∀ (es : List (Tri ℝ × Line ℝ)) (found : Option (Hit (V3 ℝ))),
      (∀ te ∈ es, edgeHit nz eq te.1 te.2 ≠ .none → P (edgeHit nz eq te.1 te.2)) → (∀ g, found = some g → P g) →
      ∀ g h, scanEdges nz eq es found = some (g, h) → P g ∧ P h
  | [], found, _, _, g, h, hs => by cases hs
  | (t, e) :: rest, found, hes, hf, g, h, hs => by
    have hrest := fun te hte => hes te (List.mem_cons_of_mem _ hte)
    have h0 := hes (t, e) List.mem_cons_self
    rw [scanEdges] at hs
    simp only at h0
    generalize edgeHit nz eq t e = z at hs h0
    cases z with
    | none => exact scan_mem nz eq P rest found hrest hf g h hs
    | point x =>
      cases found with
      | none => exact scan_mem nz eq P rest (some _) hrest (fun g hg => by cases hg; exact h0 (by simp)) g h hs
      | some g0 =>
        simp only [Option.some.injEq, Prod.mk.injEq] at hs
        obtain ⟨rfl, rfl⟩ := hs
        exact ⟨hf _ rfl, h0 (by simp)⟩
    | infinite =>
      cases found with
      | none => exact scan_mem nz eq P rest (some _) hrest (fun g hg => by cases hg; exact h0 (by simp)) g h hs
      | some g0 =>
        simp only [Option.some.injEq, Prod.mk.injEq] at hs
        obtain ⟨rfl, rfl⟩ := hs
        exact ⟨hf _ rfl, h0 (by simp)⟩

/-! ### Half planes of a triangle -/

/-- The signed distance of a point of the plane from the line of an edge, up to a factor. -/
noncomputable def side (t : Tri ℝ) (e : Line ℝ) (p : V3 ℝ) : ℝ :=
  V3.dot t.normal (V3.cross (e.b - e.a) (p - e.a))

/-- The triangle with the next corner as the first. -/
def rot (t : Tri ℝ) : Tri ℝ := ⟨t.b, t.c, t.a⟩

theorem rot_normal (t : Tri ℝ) : (rot t).normal = t.normal := by
  simp only [rot, Tri.normal]; ext <;> vec_simp <;> ring

theorem rot_inTri (t : Tri ℝ) (p : V3 ℝ) : InTri (rot t) p ↔ InTri t p := by
  constructor
  · rintro ⟨u, v, w, h1, h2, h3, h4, rfl⟩
    exact ⟨w, u, v, h3, h1, h2, by linarith, by simp only [rot]; module⟩
  · rintro ⟨u, v, w, h1, h2, h3, h4, rfl⟩
    exact ⟨v, w, u, h2, h3, h1, by linarith, by simp only [rot]; module⟩

/-- Each edge is the first one of a turned triangle. -/
theorem edge_first (t : Tri ℝ) (e : Line ℝ) (he : e ∈ edges t) :
    ∃ t' : Tri ℝ, t'.normal = t.normal ∧ (∀ p, InTri t' p ↔ InTri t p) ∧ e = ⟨t'.a, t'.b⟩ := by
  simp only [edges, List.mem_cons, List.not_mem_nil, or_false] at he
  rcases he with rfl | rfl | rfl
  · exact ⟨t, rfl, fun _ => Iff.rfl, rfl⟩
  · exact ⟨rot t, rot_normal t, rot_inTri t, rfl⟩
  · exact ⟨rot (rot t), by rw [rot_normal, rot_normal], fun p => by rw [rot_inTri, rot_inTri], rfl⟩

theorem side_first (t : Tri ℝ) (u v w : ℝ) (h : u + v + w = 1) :
    side t ⟨t.a, t.b⟩ (u • t.a + v • t.b + w • t.c) = w * V3.dot t.normal t.normal := by
  have e : u • t.a + v • t.b + w • t.c - t.a = v • (t.b - t.a) + w • (t.c - t.a) := by
    rw [show u = 1 - v - w by linarith]; module
  simp only [side, Tri.normal]
  rw [e]
  generalize t.b - t.a = x
  generalize t.c - t.a = y
  vec_simp
  ring

theorem self_nonneg (n : V3 ℝ) : 0 ≤ V3.dot n n :=
  add_nonneg (add_nonneg (mul_self_nonneg _) (mul_self_nonneg _)) (mul_self_nonneg _)

theorem self_pos {n : V3 ℝ} (h : n ≠ 0) : 0 < V3.dot n n := by
  refine lt_of_le_of_ne (self_nonneg n) fun h0 => h ?_
  have h1 := mul_self_nonneg n.x
  have h2 := mul_self_nonneg n.y
  have h3 := mul_self_nonneg n.z
  simp only [V3.dot] at h0
  ext
  · exact mul_self_eq_zero.1 (by linarith)
  · exact mul_self_eq_zero.1 (by linarith)
  · exact mul_self_eq_zero.1 (by linarith)

theorem meet_normal_pos {t : Tri ℝ} (h : t.normal ≠ 0) : 0 < V3.dot t.normal t.normal := self_pos h

/-- The points of a triangle are on the inner side of each edge. -/
theorem side_nonneg (t : Tri ℝ) (e : Line ℝ) (he : e ∈ edges t) (p : V3 ℝ) (hp : InTri t p) : 0 ≤ side t e p := by
  obtain ⟨t', hn, hi, rfl⟩ := edge_first t e he
  obtain ⟨u, v, w, h1, h2, h3, h4, rfl⟩ := (hi p).2 hp
  have := side_first t' u v w h4
  simp only [side, hn] at this ⊢
  rw [this]
  exact mul_nonneg h3 (self_nonneg _)

/-- A point of the triangle on the line of an edge is a point of the edge, and the points of the edge
are on its line. -/
theorem side_zero (t : Tri ℝ) (hN : t.normal ≠ 0) (e : Line ℝ) (he : e ∈ edges t) (p : V3 ℝ) (hp : InTri t p)
    (h0 : side t e p = 0) : Between e.a e.b p := by
  obtain ⟨t', hn, hi, rfl⟩ := edge_first t e he
  obtain ⟨u, v, w, h1, h2, h3, h4, rfl⟩ := (hi p).2 hp
  have := side_first t' u v w h4
  simp only [side, hn] at this h0
  rw [h0] at this
  have hw : w = 0 := by
    rcases mul_eq_zero.1 this.symm with h | h
    · exact h
    · exact absurd h (meet_normal_pos hN).ne'
  subst hw
  refine ⟨v, h2, by linarith, ?_⟩
  rw [show u = 1 - v by linarith]
  module

theorem side_edge (t : Tri ℝ) (e : Line ℝ) (p : V3 ℝ) (h : Between e.a e.b p) : side t e p = 0 := by
  obtain ⟨s, -, -, rfl⟩ := h
  simp only [side, show e.a + s • (e.b - e.a) - e.a = s • (e.b - e.a) by module]
  generalize e.b - e.a = x
  generalize t.normal = n
  vec_simp
  ring

theorem edge_dir (t : Tri ℝ) (e : Line ℝ) (he : e ∈ edges t) : V3.dot t.normal (e.b - e.a) = 0 := by
  obtain ⟨t', hn, hi, rfl⟩ := edge_first t e he
  rw [← hn]
  simp only [Tri.normal]
  generalize t'.b - t'.a = x
  generalize t'.c - t'.a = y
  vec_simp
  ring

/-- The change of the distance along a direction of the plane. -/
theorem side_move (t : Tri ℝ) (e : Line ℝ) (he : e ∈ edges t) (n p : V3 ℝ) (s : ℝ) :
    side t e (p + s • V3.cross t.normal n) = side t e p + s * (V3.dot t.normal t.normal * V3.dot n (e.b - e.a)) := by
  have h := edge_dir t e he
  simp only [side, show p + s • V3.cross t.normal n - e.a = (p - e.a) + s • V3.cross t.normal n by module]
  generalize e.b - e.a = x at h ⊢
  generalize p - e.a = y
  generalize t.normal = N at h ⊢
  have e1 : V3.dot N (V3.cross x (y + s • V3.cross N n)) =
      V3.dot N (V3.cross x y) + s * (V3.dot N N * V3.dot n x - V3.dot N n * V3.dot N x) := by
    vec_simp; ring
  rw [e1, h]; ring

theorem inPlane_dot (t : Tri ℝ) (p : V3 ℝ) (hp : InTri t p) : V3.dot t.normal (p - t.a) = 0 := by
  obtain ⟨u, v, w, -, -, -, h4, rfl⟩ := hp
  rw [show u • t.a + v • t.b + w • t.c - t.a = v • (t.b - t.a) + w • (t.c - t.a) by
    rw [show u = 1 - v - w by linarith]; module]
  simp only [Tri.normal]
  generalize t.b - t.a = x
  generalize t.c - t.a = y
  vec_simp
  ring

/-- A point of the plane which is on the inner sides of the edges is in the triangle. -/
theorem inTri_of_sides (t : Tri ℝ) (hN : t.normal ≠ 0) (p : V3 ℝ) (hp : V3.dot t.normal (p - t.a) = 0)
    (h : ∀ e ∈ edges t, 0 ≤ side t e p) : InTri t p := by
  have hpos := meet_normal_pos hN
  have h1 := h ⟨t.a, t.b⟩ (by simp [edges])
  have h2 := h ⟨t.b, t.c⟩ (by simp [edges])
  have h3 := h ⟨t.c, t.a⟩ (by simp [edges])
  have hsum : side t ⟨t.a, t.b⟩ p + side t ⟨t.b, t.c⟩ p + side t ⟨t.c, t.a⟩ p = V3.dot t.normal t.normal := by
    simp only [side]
    have e : ∀ n x y z : V3 ℝ, V3.dot n x + V3.dot n y + V3.dot n z = V3.dot n (x + y + z) := by
      intros; vec_simp; ring
    rw [e]
    congr 1
    simp only [Tri.normal]
    ext <;> vec_simp <;> ring
  have hlin : V3.dot t.normal t.normal • (p - t.a) =
      side t ⟨t.c, t.a⟩ p • (t.b - t.a) + side t ⟨t.a, t.b⟩ p • (t.c - t.a) := by
    have e3 : side t ⟨t.c, t.a⟩ p = V3.dot t.normal (V3.cross (p - t.a) (t.c - t.a)) := by
      simp only [side]; congr 1; ext <;> vec_simp <;> ring
    rw [e3]
    simp only [side, Tri.normal] at hp ⊢
    generalize t.b - t.a = x at hp ⊢
    generalize t.c - t.a = y at hp ⊢
    generalize p - t.a = d at hp ⊢
    have key : V3.dot (V3.cross x y) (V3.cross x y) • d =
        V3.dot (V3.cross x y) (V3.cross d y) • x + V3.dot (V3.cross x y) (V3.cross x d) • y +
          V3.dot (V3.cross x y) d • V3.cross x y := by
      ext <;> vec_simp <;> ring
    rw [key, hp, zero_smul, add_zero]
  set D := V3.dot t.normal t.normal
  refine ⟨side t ⟨t.b, t.c⟩ p / D, side t ⟨t.c, t.a⟩ p / D, side t ⟨t.a, t.b⟩ p / D,
    div_nonneg h2 hpos.le, div_nonneg h3 hpos.le, div_nonneg h1 hpos.le, ?_, ?_⟩
  · rw [← add_div, ← add_div, div_eq_one_iff_eq hpos.ne']; linarith
  · have e1 : p = t.a + D⁻¹ • (D • (p - t.a)) := by rw [smul_smul, inv_mul_cancel₀ hpos.ne', one_smul]; module
    have e2 : side t ⟨t.b, t.c⟩ p / D = 1 - side t ⟨t.c, t.a⟩ p / D - side t ⟨t.a, t.b⟩ p / D := by
      rw [eq_sub_iff_add_eq, eq_sub_iff_add_eq, ← add_div, ← add_div, div_eq_one_iff_eq hpos.ne']; linarith
    rw [hlin] at e1
    rw [e2, div_eq_mul_inv, div_eq_mul_inv]
    generalize side t ⟨t.c, t.a⟩ p = q at e1 ⊢
    generalize side t ⟨t.a, t.b⟩ p = r at e1 ⊢
    rw [e1]
    module

/-! ### Both triangles -/

/-- The last point of a line which satisfies finitely many linear conditions. -/
theorem range_end {n : ℕ} (c m : Fin n → ℝ) (hc : ∀ k, 0 ≤ c k) (hm : ∃ k, m k < 0) :
    ∃ k, m k < 0 ∧ ∃ s : ℝ, c k + s * m k = 0 ∧ ∀ j, 0 ≤ c j + s * m j := by
  obtain ⟨k, hk, hmin⟩ := Finset.exists_min_image (Finset.univ.filter fun k => m k < 0) (fun k => c k / -m k)
    (by obtain ⟨k, hk⟩ := hm; exact ⟨k, by simpa using hk⟩)
  simp only [Finset.mem_filter, Finset.mem_univ, true_and] at hk hmin
  refine ⟨k, hk, c k / -m k, ?_, ?_⟩
  · have := hk.ne
    field_simp
    ring
  · intro j
    have hs : 0 ≤ c k / -m k := div_nonneg (hc k) (by linarith)
    rcases lt_or_ge (m j) 0 with h | h
    · have := hmin j h
      rw [le_div_iff₀ (by linarith)] at this
      linarith
    · exact add_nonneg (hc j) (mul_nonneg hs h)

/-- Two vectors which are not parallel: the vectors orthogonal to both are multiples of the cross
product. -/
theorem of_orthogonal (m n d : V3 ℝ) (h : V3.cross m n ≠ 0) (h1 : V3.dot m d = 0) (h2 : V3.dot n d = 0) :
    ∃ s : ℝ, d = s • V3.cross m n := by
  have hp := self_pos h
  refine ⟨V3.dot (V3.cross m n) d / V3.dot (V3.cross m n) (V3.cross m n), ?_⟩
  have key : V3.dot (V3.cross m n) (V3.cross m n) • d = V3.dot (V3.cross m n) d • V3.cross m n
      + (V3.dot m d) • (V3.dot n n • m - V3.dot m n • n) + V3.dot n d • (V3.dot m m • n - V3.dot m n • m) := by
    ext <;> vec_simp <;> ring
  rw [h1, h2, zero_smul, zero_smul, add_zero, add_zero] at key
  rw [div_eq_inv_mul, mul_smul, ← key, smul_smul, inv_mul_cancel₀ hp.ne', one_smul]

theorem cross_comm (m n : V3 ℝ) : V3.cross m n = -V3.cross n m := by ext <;> vec_simp <;> ring

/-- Triangles which are not degenerate have parallel planes exactly if the cross product of the normals
is zero. -/
theorem parallel_iff (ta tb : Tri ℝ) (ha : ta.normal ≠ 0) (hb : tb.normal ≠ 0) :
    Parallel ta tb ↔ V3.cross ta.normal tb.normal = 0 := by
  simp only [Parallel, facing_eq]
  generalize ta.normal = m at ha ⊢
  generalize tb.normal = n at hb ⊢
  have hm := self_pos ha
  have hn := self_pos hb
  constructor
  · intro h
    have h1 := (h (V3.cross m (V3.cross m n))).1 (by vec_simp; ring)
    have e : V3.dot n (V3.cross m (V3.cross m n)) = -V3.dot (V3.cross m n) (V3.cross m n) := by vec_simp; ring
    by_contra hc
    have := self_pos hc
    rw [e] at h1
    linarith
  · intro h d
    have e1 : V3.dot m m * V3.dot n d = V3.dot m n * V3.dot m d - V3.dot (V3.cross m n) (V3.cross d m) := by vec_simp; ring
    have e2 : V3.dot n n * V3.dot m d = V3.dot m n * V3.dot n d + V3.dot (V3.cross m n) (V3.cross d n) := by vec_simp; ring
    have z : ∀ x : V3 ℝ, V3.dot 0 x = 0 := by intro x; simp [V3.dot]
    rw [h, z] at e1 e2
    constructor
    · intro hd
      rw [hd, mul_zero, sub_zero] at e1
      exact (mul_eq_zero.1 e1).resolve_left hm.ne'
    · intro hd
      rw [hd, mul_zero, zero_add] at e2
      exact (mul_eq_zero.1 e2).resolve_left hn.ne'

section pairs

variable (ta tb : Tri ℝ)

/-- The triangle of the edge number `k` of the scan. -/
def owner (k : Fin 6) : Tri ℝ := ![tb, tb, tb, ta, ta, ta] k
/-- The triangle which is tested with the edge. -/
def target (k : Fin 6) : Tri ℝ := ![ta, ta, ta, tb, tb, tb] k
/-- The edge. -/
def pairEdge (k : Fin 6) : Line ℝ :=
  ![⟨tb.a, tb.b⟩, ⟨tb.b, tb.c⟩, ⟨tb.c, tb.a⟩, ⟨ta.a, ta.b⟩, ⟨ta.b, ta.c⟩, ⟨ta.c, ta.a⟩] k
/-- The direction of the common line is `sgn` times the cross product of the normals of the owner and
the target. -/
def sgn (k : Fin 6) : ℝ := ![-1, -1, -1, 1, 1, 1] k

/-- The list of the scan. -/
def pairs : List (Tri ℝ × Line ℝ) := (edges tb).map (fun e => (ta, e)) ++ (edges ta).map (fun e => (tb, e))

theorem pairs_get (k : Fin 6) : (pairs ta tb)[(k : ℕ)]'(by simp [pairs, edges]) = (target ta tb k, pairEdge ta tb k) := by
  fin_cases k <;> rfl

theorem pair_mem (te : Tri ℝ × Line ℝ) (h : te ∈ pairs ta tb) : ∃ k, te = (target ta tb k, pairEdge ta tb k) := by
  obtain ⟨i, hi, rfl⟩ := List.getElem_of_mem h
  exact ⟨⟨i, by simpa [pairs, edges] using hi⟩, pairs_get ta tb ⟨i, _⟩⟩

theorem edge_mem (k : Fin 6) : pairEdge ta tb k ∈ edges (owner ta tb k) := by
  fin_cases k <;> simp [pairEdge, owner, edges]

theorem common_iff (p : V3 ℝ) : Common ta tb p ↔ ∀ k, InTri (owner ta tb k) p := by
  constructor
  · rintro ⟨h1, h2⟩ k
    fin_cases k <;> simpa [owner]
  · intro h
    exact ⟨h 3, h 0⟩

theorem common_target (p : V3 ℝ) (h : Common ta tb p) (k : Fin 6) : InTri (target ta tb k) p := by
  fin_cases k <;> first | exact h.1 | exact h.2

theorem owner_normal (ha : ta.normal ≠ 0) (hb : tb.normal ≠ 0) (k : Fin 6) : (owner ta tb k).normal ≠ 0 := by
  fin_cases k <;> assumption

theorem line_dir (k : Fin 6) : V3.cross ta.normal tb.normal =
    sgn k • V3.cross (owner ta tb k).normal (target ta tb k).normal := by
  fin_cases k <;> simp [owner, target, sgn, cross_comm ta.normal tb.normal]

/-- The slope of the condition which belongs to an edge along the common line. -/
noncomputable def slope (k : Fin 6) : ℝ :=
  sgn k * (V3.dot (owner ta tb k).normal (owner ta tb k).normal *
    V3.dot (target ta tb k).normal ((pairEdge ta tb k).b - (pairEdge ta tb k).a))

theorem side_line (k : Fin 6) (p : V3 ℝ) (s : ℝ) :
    side (owner ta tb k) (pairEdge ta tb k) (p + s • V3.cross ta.normal tb.normal) =
      side (owner ta tb k) (pairEdge ta tb k) p + s * slope ta tb k := by
  rw [line_dir ta tb k, smul_smul, side_move _ _ (edge_mem ta tb k), slope]
  ring

theorem slope_ne (ha : ta.normal ≠ 0) (hb : tb.normal ≠ 0) (k : Fin 6) :
    slope ta tb k ≠ 0 ↔ facing (target ta tb k) ((pairEdge ta tb k).b - (pairEdge ta tb k).a) ≠ 0 := by
  have h1 := (meet_normal_pos (owner_normal ta tb ha hb k)).ne'
  have h2 : sgn k ≠ 0 := by fin_cases k <;> simp [sgn]
  rw [slope, facing_eq]
  simp [h1, h2]

/-- Some conditions get sharper in each direction. -/
theorem slope_neg (h : V3.cross ta.normal tb.normal ≠ 0) (ha : ta.normal ≠ 0) :
    (∃ k, slope ta tb k < 0) ∧ ∃ k, 0 < slope ta tb k := by
  have hp := meet_normal_pos ha
  have e3 : slope ta tb 3 = V3.dot ta.normal ta.normal * V3.dot tb.normal (ta.b - ta.a) := by
    simp [slope, owner, target, pairEdge, sgn]
  have e4 : slope ta tb 4 = V3.dot ta.normal ta.normal * V3.dot tb.normal (ta.c - ta.b) := by
    simp [slope, owner, target, pairEdge, sgn]
  have e5 : slope ta tb 5 = V3.dot ta.normal ta.normal * V3.dot tb.normal (ta.a - ta.c) := by
    simp [slope, owner, target, pairEdge, sgn]
  have hs : slope ta tb 3 + slope ta tb 4 + slope ta tb 5 = 0 := by
    rw [e3, e4, e5, ← mul_add, ← mul_add]
    rw [mul_eq_zero]
    right
    vec_simp
    ring
  have hz : ¬ (slope ta tb 3 = 0 ∧ slope ta tb 4 = 0) := by
    rintro ⟨z3, z4⟩
    rw [e3, mul_eq_zero, or_iff_right hp.ne'] at z3
    rw [e4, mul_eq_zero, or_iff_right hp.ne'] at z4
    apply h
    have z5 : V3.dot tb.normal (ta.c - ta.a) = 0 := by
      have : V3.dot tb.normal (ta.c - ta.a) = V3.dot tb.normal (ta.b - ta.a) + V3.dot tb.normal (ta.c - ta.b) := by
        vec_simp; ring
      rw [this, z3, z4, add_zero]
    have key : V3.cross ta.normal tb.normal = V3.dot tb.normal (ta.b - ta.a) • (ta.c - ta.a) -
        V3.dot tb.normal (ta.c - ta.a) • (ta.b - ta.a) := by
      generalize tb.normal = n
      simp only [Tri.normal]
      generalize ta.b - ta.a = x
      generalize ta.c - ta.a = y
      ext <;> vec_simp <;> ring
    rw [key, z3, z5, zero_smul, zero_smul, sub_zero]
  constructor
  · by_contra hc
    push Not at hc
    exact hz ⟨by linarith [hc 3, hc 4, hc 5], by linarith [hc 3, hc 4, hc 5]⟩
  · by_contra hc
    push Not at hc
    exact hz ⟨by linarith [hc 3, hc 4, hc 5], by linarith [hc 3, hc 4, hc 5]⟩

theorem orth_left (m n : V3 ℝ) : V3.dot m (V3.cross m n) = 0 := by vec_simp; ring
theorem orth_right (m n : V3 ℝ) : V3.dot n (V3.cross m n) = 0 := by vec_simp; ring

/-- The points of the common line which satisfy all conditions are common points. -/
theorem common_of_sides (ha : ta.normal ≠ 0) (hb : tb.normal ≠ 0) (z : V3 ℝ) (hz : Common ta tb z) (s : ℝ)
    (h : ∀ k, 0 ≤ side (owner ta tb k) (pairEdge ta tb k) (z + s • V3.cross ta.normal tb.normal)) :
    Common ta tb (z + s • V3.cross ta.normal tb.normal) := by
  have hd : ∀ n a d : V3 ℝ, V3.dot n (z - a) = 0 → V3.dot n d = 0 → V3.dot n (z + s • d - a) = 0 := by
    intro n a d h1 h2
    have : V3.dot n (z + s • d - a) = V3.dot n (z - a) + s * V3.dot n d := by vec_simp; ring
    rw [this, h1, h2]; ring
  constructor
  · refine inTri_of_sides ta ha _ (hd _ _ _ (inPlane_dot ta z hz.1) (orth_left _ _)) ?_
    intro e he
    simp only [edges, List.mem_cons, List.not_mem_nil, or_false] at he
    rcases he with rfl | rfl | rfl
    · exact h 3
    · exact h 4
    · exact h 5
  · refine inTri_of_sides tb hb _ (hd _ _ _ (inPlane_dot tb z hz.2) (orth_right _ _)) ?_
    intro e he
    simp only [edges, List.mem_cons, List.not_mem_nil, or_false] at he
    rcases he with rfl | rfl | rfl
    · exact h 0
    · exact h 1
    · exact h 2

/-- Common points are on a common line. -/
theorem common_line (h : V3.cross ta.normal tb.normal ≠ 0) (p q : V3 ℝ) (hp : Common ta tb p) (hq : Common ta tb q) :
    ∃ s : ℝ, q = p + s • V3.cross ta.normal tb.normal := by
  have hd : ∀ n a : V3 ℝ, V3.dot n (p - a) = 0 → V3.dot n (q - a) = 0 → V3.dot n (q - p) = 0 := by
    intro n a h1 h2
    have : V3.dot n (q - p) = V3.dot n (q - a) - V3.dot n (p - a) := by vec_simp; ring
    rw [this, h1, h2, sub_zero]
  obtain ⟨s, hs⟩ := of_orthogonal _ _ (q - p) h (hd _ _ (inPlane_dot ta p hp.1) (inPlane_dot ta q hq.1))
    (hd _ _ (inPlane_dot tb p hp.2) (inPlane_dot tb q hq.2))
  exact ⟨s, by rw [← hs]; module⟩

/-- The common points are on one side of a hit. -/
theorem hit_side (k : Fin 6) (x : V3 ℝ)
    (hx : Between (pairEdge ta tb k).a (pairEdge ta tb k).b x) (s : ℝ)
    (hp : Common ta tb (x + s • V3.cross ta.normal tb.normal)) : 0 ≤ s * slope ta tb k := by
  have h1 := side_nonneg _ _ (edge_mem ta tb k) _ ((common_iff ta tb _).1 hp k)
  rwa [side_line, side_edge _ _ _ hx, zero_add] at h1

/-- The properties of a hit. -/
theorem hit_common (nz : Line ℝ → Bool) (eq : Eqn) (ha : ta.normal ≠ 0) (hb : tb.normal ≠ 0) (te : Tri ℝ × Line ℝ)
    (hm : te ∈ pairs ta tb) (hh : edgeHit nz eq te.1 te.2 ≠ .none) :
    ∃ x, edgeHit nz eq te.1 te.2 = .point x ∧ Common ta tb x ∧ ∃ r : ℝ, r ≠ 0 ∧
      ∀ s : ℝ, Common ta tb (x + s • V3.cross ta.normal tb.normal) → 0 ≤ s * r := by
  obtain ⟨k, rfl⟩ := pair_mem ta tb te hm
  obtain ⟨hf, x, hx, hin, hbt⟩ := edgeHit_sound nz eq _ _ hh
  refine ⟨x, hx, ?_, slope ta tb k, (slope_ne ta tb ha hb k).2 hf, hit_side ta tb k x hbt⟩
  obtain ⟨r, r0, r1, e⟩ := hbt
  have ho : InTri (owner ta tb k) x := by rw [e]; exact edge_inTri _ _ (edge_mem ta tb k) r r0 r1
  revert hin ho
  fin_cases k <;> intro hin ho <;> first | exact ⟨hin, ho⟩ | exact ⟨ho, hin⟩

/-- Where a condition becomes sharp there is a hit. -/
theorem sharp_hit (nz : Line ℝ → Bool) (eq : Eqn) (ha : ta.normal ≠ 0) (hb : tb.normal ≠ 0) (z : V3 ℝ)
    (hz : Common ta tb z) (k : Fin 6) (s : ℝ) (hk : slope ta tb k ≠ 0)
    (h0 : side (owner ta tb k) (pairEdge ta tb k) z + s * slope ta tb k = 0)
    (h : ∀ j, 0 ≤ side (owner ta tb j) (pairEdge ta tb j) z + s * slope ta tb j) :
    edgeHit nz eq (target ta tb k) (pairEdge ta tb k) ≠ .none := by
  have hc := common_of_sides ta tb ha hb z hz s fun j => by rw [side_line]; exact h j
  have hbt := side_zero _ (owner_normal ta tb ha hb k) _ (edge_mem ta tb k) _ ((common_iff ta tb _).1 hc k)
    (by rw [side_line]; exact h0)
  rw [edgeHit_point nz eq _ _ ((slope_ne ta tb ha hb k).1 hk) _ (common_target ta tb _ hc k) hbt]
  simp

end pairs

/-- Two triangles in different planes which have a point in common are reported. -/
theorem meet_complete (nz : Line ℝ → Bool) (eq : Eqn) (ta tb : Tri ℝ) (ha : ta.normal ≠ 0) (hb : tb.normal ≠ 0)
    (h : V3.cross ta.normal tb.normal ≠ 0) (z : V3 ℝ) (hz : Common ta tb z) : intersectTri nz eq ta tb ≠ none := by
  obtain ⟨hneg, hpos⟩ := slope_neg ta tb h ha
  have hc : ∀ k, 0 ≤ side (owner ta tb k) (pairEdge ta tb k) z := fun k =>
    side_nonneg _ _ (edge_mem ta tb k) _ ((common_iff ta tb _).1 hz k)
  obtain ⟨k, hk, s, h0, hall⟩ := range_end _ _ hc hneg
  obtain ⟨k', hk', s', h0', hall'⟩ := range_end (fun k => side (owner ta tb k) (pairEdge ta tb k) z)
    (fun k => -slope ta tb k) hc (by obtain ⟨k, hk⟩ := hpos; exact ⟨k, by linarith⟩)
  have h1 := sharp_hit ta tb nz eq ha hb z hz k s hk.ne h0 hall
  have h2 := sharp_hit ta tb nz eq ha hb z hz k' (-s') (by intro h; linarith)
    (by linarith) (fun j => by have := hall' j; linarith)
  have hne : k ≠ k' := by
    rintro rfl
    linarith
  have hlen : (pairs ta tb).length = 6 := rfl
  rcases lt_or_gt_of_ne hne with hlt | hlt
  · refine scan_two nz eq (pairs ta tb) k k' (by omega) (by omega) hlt ?_ ?_
    · rw [pairs_get]; exact h1
    · rw [pairs_get]; exact h2
  · refine scan_two nz eq (pairs ta tb) k' k (by omega) (by omega) hlt ?_ ?_
    · rw [pairs_get]; exact h2
    · rw [pairs_get]; exact h1

/-- The points which are reported for triangles which are not degenerate. -/
theorem meet_points (nz : Line ℝ → Bool) (eq : Eqn) (ta tb : Tri ℝ) (ha : ta.normal ≠ 0) (hb : tb.normal ≠ 0)
    (g h : Hit (V3 ℝ)) (hs : intersectTri nz eq ta tb = some (g, h)) :
    (∃ x, g = .point x ∧ Common ta tb x ∧ ∃ r : ℝ, r ≠ 0 ∧
      ∀ s : ℝ, Common ta tb (x + s • V3.cross ta.normal tb.normal) → 0 ≤ s * r) ∧
    ∃ y, h = .point y ∧ Common ta tb y ∧ ∃ r : ℝ, r ≠ 0 ∧
      ∀ s : ℝ, Common ta tb (y + s • V3.cross ta.normal tb.normal) → 0 ≤ s * r :=
  scan_mem nz eq (fun g => ∃ x, g = .point x ∧ Common ta tb x ∧ ∃ r : ℝ, r ≠ 0 ∧
    ∀ s : ℝ, Common ta tb (x + s • V3.cross ta.normal tb.normal) → 0 ≤ s * r) (pairs ta tb) none
    (fun te hm hh => hit_common ta tb nz eq ha hb te hm hh) (fun g hg => by cases hg) g h hs

/-- Triangles in parallel planes, or in one plane, are never reported. -/
theorem meet_parallel (nz : Line ℝ → Bool) (eq : Eqn) (ta tb : Tri ℝ) (ha : ta.normal ≠ 0) (hb : tb.normal ≠ 0)
    (h : V3.cross ta.normal tb.normal = 0) : intersectTri nz eq ta tb = none := by
  cases hs : intersectTri nz eq ta tb with
  | none => rfl
  | some gh =>
    obtain ⟨⟨x, -, hx, r, hr, hall⟩, -⟩ := meet_points nz eq ta tb ha hb gh.1 gh.2 hs
    have h1 := hall 1 (by rw [h]; simpa using hx)
    have h2 := hall (-1) (by rw [h]; simpa using hx)
    exact absurd (le_antisymm (by linarith) (by linarith)) hr

/-- The query decides whether two triangles which are not degenerate and not in parallel planes have a
point in common; for parallel planes the answer is always no. -/
theorem C124_decides (nz : Line ℝ → Bool) (eq : Eqn) (ta tb : Tri ℝ) (ha : NonDeg ta) (hb : NonDeg tb) :
    (∃ x y, intersectTri nz eq ta tb = some (.point x, .point y)) ↔ ¬ Parallel ta tb ∧ ∃ p, Common ta tb p := by
  have ha' := normal_ne ha
  have hb' := normal_ne hb
  rw [parallel_iff ta tb ha' hb']
  constructor
  · rintro ⟨x, y, hs⟩
    obtain ⟨⟨x', hx', hc, -⟩, -⟩ := meet_points nz eq ta tb ha' hb' _ _ hs
    refine ⟨fun h => ?_, x', hc⟩
    rw [meet_parallel nz eq ta tb ha' hb' h] at hs
    cases hs
  · rintro ⟨h, z, hz⟩
    cases hs : intersectTri nz eq ta tb with
    | none => exact absurd hs (meet_complete nz eq ta tb ha' hb' h z hz)
    | some gh =>
      obtain ⟨⟨x, hx, -⟩, y, hy, -⟩ := meet_points nz eq ta tb ha' hb' gh.1 gh.2 hs
      refine ⟨x, y, ?_⟩
      rw [← hx, ← hy]

/-- The reported points are ends of the common part: they are not between other common points. -/
theorem C124_ends (nz : Line ℝ → Bool) (eq : Eqn) (ta tb : Tri ℝ) (ha : NonDeg ta) (hb : NonDeg tb) (x y : V3 ℝ)
    (hs : intersectTri nz eq ta tb = some (.point x, .point y)) :
    ∀ z, z = x ∨ z = y → Common ta tb z ∧
      ∀ p q, Common ta tb p → Common ta tb q → ∀ s : ℝ, 0 < s → s < 1 → z = p + s • (q - p) → p = z ∧ q = z := by
  have ha' := normal_ne ha
  have hb' := normal_ne hb
  have hcr : V3.cross ta.normal tb.normal ≠ 0 := by
    intro h
    rw [meet_parallel nz eq ta tb ha' hb' h] at hs
    cases hs
  have key : ∀ z, Common ta tb z → (∃ r : ℝ, r ≠ 0 ∧
      ∀ s : ℝ, Common ta tb (z + s • V3.cross ta.normal tb.normal) → 0 ≤ s * r) →
      ∀ p q, Common ta tb p → Common ta tb q → ∀ s : ℝ, 0 < s → s < 1 → z = p + s • (q - p) → p = z ∧ q = z := by
    rintro z hz ⟨r, hr, hall⟩ p q hp hq s s0 s1 e
    obtain ⟨a, rfl⟩ := common_line ta tb hcr z p hz hp
    obtain ⟨b, rfl⟩ := common_line ta tb hcr z q hz hq
    have h1 := hall a hp
    have h2 := hall b hq
    have e0 : (a + s * (b - a)) • V3.cross ta.normal tb.normal = 0 := by
      have : z + (a + s * (b - a)) • V3.cross ta.normal tb.normal = z := by
        conv_rhs => rw [e]
        module
      exact add_eq_left.1 this
    have e1 : a + s * (b - a) = 0 := by
      rcases smul_eq_zero.1 e0 with h | h
      · exact h
      · exact absurd h hcr
    have e2 : (1 - s) * (a * r) + s * (b * r) = 0 := by
      have : (1 - s) * (a * r) + s * (b * r) = (a + s * (b - a)) * r := by ring
      rw [this, e1, zero_mul]
    have h3 := mul_nonneg (by linarith : 0 ≤ 1 - s) h1
    have h4 := mul_nonneg s0.le h2
    have h5 : (1 - s) * (a * r) = 0 := by linarith
    have h6 : s * (b * r) = 0 := by linarith
    have ha0 : a = 0 := by
      rcases mul_eq_zero.1 h5 with h | h
      · linarith
      · exact (mul_eq_zero.1 h).resolve_right hr
    have hb0 : b = 0 := by
      rcases mul_eq_zero.1 h6 with h | h
      · linarith
      · exact (mul_eq_zero.1 h).resolve_right hr
    rw [ha0, hb0]
    simp
  obtain ⟨⟨x', hx', hcx, hrx⟩, y', hy', hcy, hry⟩ := meet_points nz eq ta tb ha' hb' _ _ hs
  cases hx'
  cases hy'
  rintro z (rfl | rfl)
  · exact ⟨hcx, key _ hcx hrx⟩
  · exact ⟨hcy, key _ hcy hry⟩

theorem inTri_convex (t : Tri ℝ) (x y : V3 ℝ) (hx : InTri t x) (hy : InTri t y) (p : V3 ℝ) (hp : Between x y p) : InTri t p := by
  obtain ⟨u, v, w, h1, h2, h3, h4, rfl⟩ := hx
  obtain ⟨u', v', w', h1', h2', h3', h4', rfl⟩ := hy
  obtain ⟨s, s0, s1, rfl⟩ := hp
  have s2 : 0 ≤ 1 - s := by linarith
  refine ⟨(1 - s) * u + s * u', (1 - s) * v + s * v', (1 - s) * w + s * w', by positivity, by positivity, by positivity, ?_, by module⟩
  have : (1 - s) * u + s * u' + ((1 - s) * v + s * v') + ((1 - s) * w + s * w') =
      (1 - s) * (u + v + w) + s * (u' + v' + w') := by ring
  rw [this, h4, h4']; ring

/-- If the reported points are different, the common points are exactly the points of the segment
between them. -/
theorem C124_segment_partial (nz : Line ℝ → Bool) (eq : Eqn) (ta tb : Tri ℝ) (ha : NonDeg ta) (hb : NonDeg tb) (x y : V3 ℝ)
    (hs : intersectTri nz eq ta tb = some (.point x, .point y)) (hxy : x ≠ y) (p : V3 ℝ) :
    Common ta tb p ↔ Between x y p := by
  have ha' := normal_ne ha
  have hb' := normal_ne hb
  have hcr : V3.cross ta.normal tb.normal ≠ 0 := by
    intro h
    rw [meet_parallel nz eq ta tb ha' hb' h] at hs
    cases hs
  obtain ⟨⟨x', hx', hcx, r, hr, hall⟩, y', hy', hcy, r', hr', hall'⟩ := meet_points nz eq ta tb ha' hb' _ _ hs
  cases hx'
  cases hy'
  constructor
  · intro hp
    obtain ⟨t, rfl⟩ := common_line ta tb hcr x y hcx hcy
    obtain ⟨s, rfl⟩ := common_line ta tb hcr x p hcx hp
    have ht : t ≠ 0 := by
      rintro rfl
      simp at hxy
    have h1 := hall t hcy
    have h2 := hall s hp
    have h3 := hall' (-t) (by
      rw [show x + t • V3.cross ta.normal tb.normal + (-t) • V3.cross ta.normal tb.normal = x by module]; exact hcx)
    have h4 := hall' (s - t) (by
      rw [show x + t • V3.cross ta.normal tb.normal + (s - t) • V3.cross ta.normal tb.normal =
        x + s • V3.cross ta.normal tb.normal by module]; exact hp)
    have key : 0 ≤ s / t ∧ s / t ≤ 1 := by
      rcases lt_or_gt_of_ne ht with h | h
      · have hr1 : r < 0 := lt_of_le_of_ne (by by_contra hc; push Not at hc; have := mul_neg_of_neg_of_pos h hc; linarith) hr
        have hr2 : 0 < r' := lt_of_le_of_ne (by by_contra hc; push Not at hc; have := mul_pos_of_neg_of_neg h hc; linarith) (Ne.symm hr')
        have s1 : s ≤ 0 := by by_contra hc; push Not at hc; have := mul_neg_of_pos_of_neg hc hr1; linarith
        have s2 : t ≤ s := by by_contra hc; push Not at hc; have := mul_neg_of_neg_of_pos (by linarith : s - t < 0) hr2; linarith
        exact ⟨div_nonneg_of_nonpos s1 h.le, (div_le_one_of_neg h).2 s2⟩
      · have hr1 : 0 < r := lt_of_le_of_ne (by by_contra hc; push Not at hc; have := mul_neg_of_pos_of_neg h hc; linarith) (Ne.symm hr)
        have hr2 : r' < 0 := lt_of_le_of_ne (by by_contra hc; push Not at hc; have := mul_pos h hc; linarith) hr'
        have s1 : 0 ≤ s := by by_contra hc; push Not at hc; have := mul_neg_of_neg_of_pos hc hr1; linarith
        have s2 : s ≤ t := by by_contra hc; push Not at hc; have := mul_neg_of_pos_of_neg (by linarith : 0 < s - t) hr2; linarith
        exact ⟨div_nonneg s1 h.le, (div_le_one h).2 s2⟩
    refine ⟨s / t, key.1, key.2, ?_⟩
    rw [add_sub_cancel_left, smul_smul, div_mul_cancel₀ _ ht]
  · intro hp
    exact ⟨inTri_convex ta x y hcx.1 hcy.1 p hp, inTri_convex tb x y hcx.2 hcy.2 p hp⟩

/-- A triangle has its own points in common with itself, but this is not reported, whatever the
triangle. -/
theorem C124_coplanar_refuted (nz : Line ℝ → Bool) (eq : Eqn) (t : Tri ℝ) (h : NonDeg t) :
    (∃ p, Common t t p) ∧ intersectTri nz eq t t = none := by
  refine ⟨⟨t.a, ?_⟩, meet_parallel nz eq t t (normal_ne h) (normal_ne h) (by ext <;> vec_simp <;> ring)⟩
  have : InTri t t.a := ⟨1, 0, 0, by norm_num, le_rfl, le_rfl, by norm_num, by simp⟩
  exact ⟨this, this⟩

/-- Two triangles with crossing edges for which the same point is reported twice, although they have a
segment in common. -/
theorem C124_segment_refuted (nz : Line ℝ → Bool) (eq : Eqn) : ∃ ta tb : Tri ℝ, NonDeg ta ∧ NonDeg tb ∧ ∃ x : V3 ℝ,
    intersectTri nz eq ta tb = some (.point x, .point x) ∧ ∃ p, Common ta tb p ∧ p ≠ x := by
  have hna : NonDeg (⟨⟨0, 0, 0⟩, ⟨4, 0, 0⟩, ⟨0, 4, 0⟩⟩ : Tri ℝ) := nonDeg_of_normal (by
    intro h; have := congrArg V3.z h; norm_num [Tri.normal, V3.cross] at this)
  have hnb : NonDeg (⟨⟨3, 1, 1⟩, ⟨3, 1, -1⟩, ⟨-5, 1, 1⟩⟩ : Tri ℝ) := nonDeg_of_normal (by
    intro h; have := congrArg V3.y h; norm_num [Tri.normal, V3.cross] at this)
  refine ⟨⟨⟨0, 0, 0⟩, ⟨4, 0, 0⟩, ⟨0, 4, 0⟩⟩, ⟨⟨3, 1, 1⟩, ⟨3, 1, -1⟩, ⟨-5, 1, 1⟩⟩, hna, hnb, ⟨3, 1, 0⟩, ?_, ⟨0, 1, 0⟩, ⟨?_, ?_⟩, ?_⟩
  · have h1 := edgeHit_point nz eq ⟨⟨0, 0, 0⟩, ⟨4, 0, 0⟩, ⟨0, 4, 0⟩⟩ ⟨⟨3, 1, 1⟩, ⟨3, 1, -1⟩⟩ (by norm_num [facing]) ⟨3, 1, 0⟩
      ⟨0, 3 / 4, 1 / 4, by norm_num, by norm_num, by norm_num, by norm_num, by ext <;> norm_num⟩
      ⟨1 / 2, by norm_num, by norm_num, by ext <;> norm_num⟩
    have h2 : edgeHit nz eq ⟨⟨0, 0, 0⟩, ⟨4, 0, 0⟩, ⟨0, 4, 0⟩⟩ ⟨⟨3, 1, -1⟩, ⟨-5, 1, 1⟩⟩ = .none := by
      by_contra hc
      obtain ⟨-, x, -, ⟨u, v, w, hu, hv, hw, hs, rfl⟩, s, s0, s1, e⟩ := edgeHit_sound nz eq _ _ hc
      have ex := congrArg V3.x e
      have ez := congrArg V3.z e
      norm_num at ex ez
      linarith
    have h3 : edgeHit nz eq ⟨⟨0, 0, 0⟩, ⟨4, 0, 0⟩, ⟨0, 4, 0⟩⟩ ⟨⟨-5, 1, 1⟩, ⟨3, 1, 1⟩⟩ = .none := by
      by_contra hc
      exact (edgeHit_sound nz eq _ _ hc).1 (by norm_num [facing])
    have h4 : edgeHit nz eq ⟨⟨3, 1, 1⟩, ⟨3, 1, -1⟩, ⟨-5, 1, 1⟩⟩ ⟨⟨0, 0, 0⟩, ⟨4, 0, 0⟩⟩ = .none := by
      by_contra hc
      exact (edgeHit_sound nz eq _ _ hc).1 (by norm_num [facing])
    have h5 := edgeHit_point nz eq ⟨⟨3, 1, 1⟩, ⟨3, 1, -1⟩, ⟨-5, 1, 1⟩⟩ ⟨⟨4, 0, 0⟩, ⟨0, 4, 0⟩⟩ (by norm_num [facing]) ⟨3, 1, 0⟩
      ⟨1 / 2, 1 / 2, 0, by norm_num, by norm_num, by norm_num, by norm_num, by ext <;> norm_num⟩
      ⟨1 / 4, by norm_num, by norm_num, by ext <;> norm_num⟩
    simp only [intersectTri, edges, List.map_cons, List.map_nil, List.cons_append, List.nil_append, scanEdges, h1, h2, h3, h4, h5]
  · exact ⟨3 / 4, 0, 1 / 4, by norm_num, by norm_num, by norm_num, by norm_num, by ext <;> norm_num⟩
  · exact ⟨1 / 8, 1 / 2, 3 / 8, by norm_num, by norm_num, by norm_num, by norm_num, by ext <;> norm_num⟩
  · intro h
    have := congrArg V3.x h
    norm_num at this

/-! Two triangles which cross, and two which are apart. -/

theorem sampleA : NonDeg (⟨⟨0, 0, 0⟩, ⟨4, 0, 0⟩, ⟨0, 4, 0⟩⟩ : Tri ℝ) := nonDeg_of_normal (by
  intro h; have := congrArg V3.z h; norm_num [Tri.normal, V3.cross] at this)

theorem sampleB : NonDeg (⟨⟨1, 1, 1⟩, ⟨1, 1, -1⟩, ⟨2, 1, 1⟩⟩ : Tri ℝ) := nonDeg_of_normal (by
  intro h; have := congrArg V3.y h; norm_num [Tri.normal, V3.cross] at this)

theorem sample_meet (nz : Line ℝ → Bool) (eq : Eqn) :
    intersectTri nz eq ⟨⟨0, 0, 0⟩, ⟨4, 0, 0⟩, ⟨0, 4, 0⟩⟩ ⟨⟨1, 1, 1⟩, ⟨1, 1, -1⟩, ⟨2, 1, 1⟩⟩ =
      some (.point ⟨1, 1, 0⟩, .point ⟨3 / 2, 1, 0⟩) := by
  have h1 := edgeHit_point nz eq ⟨⟨0, 0, 0⟩, ⟨4, 0, 0⟩, ⟨0, 4, 0⟩⟩ ⟨⟨1, 1, 1⟩, ⟨1, 1, -1⟩⟩ (by norm_num [facing]) ⟨1, 1, 0⟩
    ⟨1 / 2, 1 / 4, 1 / 4, by norm_num, by norm_num, by norm_num, by norm_num, by ext <;> norm_num⟩
    ⟨1 / 2, by norm_num, by norm_num, by ext <;> norm_num⟩
  have h2 := edgeHit_point nz eq ⟨⟨0, 0, 0⟩, ⟨4, 0, 0⟩, ⟨0, 4, 0⟩⟩ ⟨⟨1, 1, -1⟩, ⟨2, 1, 1⟩⟩ (by norm_num [facing]) ⟨3 / 2, 1, 0⟩
    ⟨3 / 8, 3 / 8, 1 / 4, by norm_num, by norm_num, by norm_num, by norm_num, by ext <;> norm_num⟩
    ⟨1 / 2, by norm_num, by norm_num, by ext <;> norm_num⟩
  simp only [intersectTri, edges, List.map_cons, List.map_nil, List.cons_append, List.nil_append, scanEdges, h1, h2]

example (nz : Line ℝ → Bool) (eq : Eqn) := (C124_decides nz eq _ _ sampleA sampleB).1 ⟨_, _, sample_meet nz eq⟩
example (nz : Line ℝ → Bool) (eq : Eqn) := C124_ends nz eq _ _ sampleA sampleB _ _ (sample_meet nz eq)
example (nz : Line ℝ → Bool) (eq : Eqn) := C124_segment_partial nz eq _ _ sampleA sampleB _ _ (sample_meet nz eq)
  (by intro h; have := congrArg V3.x h; norm_num at this)
example (nz : Line ℝ → Bool) (eq : Eqn) := C124_coplanar_refuted nz eq _ sampleA

end Geom.Triangle.Props
