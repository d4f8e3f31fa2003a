import Verif.Props.GenTorus
import Verif.Props.GenRound

/-
  C47: curves, torus knots and spirals.
-/
set_option autoImplicit false
set_option linter.unusedSectionVars false
set_option linter.unusedSimpArgs false

namespace Geom.Gen
open TMesh (Mesh Vertex Ix)
open Spec

theorem lenSq_nonneg (a : V3 ℝ) : 0 ≤ a.lenSq := by
  have := mul_self_nonneg a.x
  have := mul_self_nonneg a.y
  have := mul_self_nonneg a.z
  simp only [V3.lenSq, V3.dot]
  linarith

theorem lenSq_zero {a : V3 ℝ} (h : a.lenSq = 0) : a = 0 := by
  have h1 := mul_self_nonneg a.x
  have h2 := mul_self_nonneg a.y
  have h3 := mul_self_nonneg a.z
  simp only [V3.lenSq, V3.dot] at h
  ext
  · exact mul_self_eq_zero.1 (by linarith)
  · exact mul_self_eq_zero.1 (by linarith)
  · exact mul_self_eq_zero.1 (by linarith)

/-- The samples. -/
theorem curveSamples_ok (f : ℝ → V3 ℝ) (U : ℕ) (hU : U < 2 ^ 32) : ∃ l, curveSamples (some f) U = .ok l ∧ l.length = U ∧
    ∀ i, i < U → l[i]? = some (f (i / (U - 1 : ℕ))) := by
  let st : ℕ → List (V3 ℝ) := fun k => (List.range U).map fun i => if i < k then f (i / (U - 1 : ℕ)) else 0
  have h0 : List.replicate U (0 : V3 ℝ) = st 0 := by
    apply List.ext_getElem?
    intro i
    simp only [st, List.getElem?_map, List.getElem?_range, List.getElem?_replicate]
    by_cases h : i < U
    · simp [h]
    · simp [h]
  have := forLt_ok 0 U (fun i l => (.ok (l.set i (f (i / (U - 1 : ℕ)))) : Res (List (V3 ℝ)))) st (by omega) hU (by
    intro i _ hi
    congr 1
    apply List.ext_getElem?
    intro j
    rw [List.getElem?_set]
    simp only [st, List.length_map, List.length_range, List.getElem?_map]
    by_cases hj : i = j
    · subst hj
      simp [hi]
    · rw [if_neg hj]
      by_cases h : j < U
      · rw [List.getElem?_range h, Option.map_some, Option.map_some]
        by_cases h' : j < i
        · rw [if_pos h', if_pos (by omega)]
        · rw [if_neg h', if_neg (by omega)]
      · rw [List.getElem?_eq_none (by simpa using h)]; rfl)
  refine ⟨st U, ?_, by simp [st], ?_⟩
  · rw [h0.symm] at this
    exact this
  · intro i hi
    simp [st, hi]

/-- The displacement of a vertex from the curve. -/
def displace (radius : ℝ) (modifier : Option (ℝ → ℝ → ℝ)) (tx ty : ℝ) : ℝ :=
  match modifier with
  | some f => radius * f tx ty
  | none => radius

/-- The rotation of a vector about an orthogonal axis: same length, orthogonal to the axis. -/
theorem rotAxis_orth (v k : V3 ℝ) (a : ℝ) (h : k ≠ 0) (ho : V3.dot k v = 0) :
    (rotAxis v k a).lenSq = v.lenSq ∧ V3.dot k (rotAxis v k a) = 0 := by
  have hk := Plane.Props.normalizeVec_unit h
  have hp : ∃ t : ℝ, t ≠ 0 ∧ k = t • Plane.normalizeVec k := by
    have hl : k.lenSq ≠ 0 := fun h' => h (lenSq_zero h')
    refine ⟨√k.lenSq, (Real.sqrt_ne_zero (lenSq_nonneg k)).2 hl, ?_⟩
    have h1 : √k.lenSq ≠ 0 := (Real.sqrt_ne_zero (lenSq_nonneg k)).2 hl
    rw [Plane.normalizeVec, if_neg hl]
    ext <;> simp <;> field_simp
  obtain ⟨t, ht, hkt⟩ := hp
  simp only [rotAxis]
  generalize Plane.normalizeVec k = n at *
  subst hkt
  have ho' : V3.dot n v = 0 := by
    have : t * V3.dot n v = 0 := by rw [← ho]; simp only [V3.dot, V3.smul_x, V3.smul_y, V3.smul_z]; ring
    exact (mul_eq_zero.1 this).resolve_left ht
  rw [ho']
  have hk' : n.x * n.x + n.y * n.y + n.z * n.z = 1 := by simpa [V3.lenSq, V3.dot] using hk
  have hs := Real.sin_sq_add_cos_sq a
  simp only [V3.lenSq, V3.dot, V3.cross, V3.add_x, V3.add_y, V3.add_z, V3.smul_x, V3.smul_y, V3.smul_z] at *
  generalize Real.sin a = s at *
  generalize Real.cos a = c at *
  constructor
  · linear_combination s ^ 2 * (v.x * v.x + v.y * v.y + v.z * v.z) * hk' + (v.x * v.x + v.y * v.y + v.z * v.z) * hs -
      s ^ 2 * (n.x * v.x + n.y * v.y + n.z * v.z) * ho'
  · linear_combination t * c * ho'

/-- C47, the tube around a curve: if the curve does not run along the Y axis at a sample, the vertices there are on the
circle with the given radius around the sample in the plane orthogonal to the direction to the next sample. -/
theorem C47_tube (sg radius tx ty : ℝ) (here next : V3 ℝ) (modifier : Option (ℝ → ℝ → ℝ)) (h : next.x ≠ here.x ∨ next.z ≠ here.z) :
    let v := curveVertex sg here next radius modifier tx ty
    v.1 = here + displace radius modifier tx ty • v.2 ∧ v.2.lenSq = 1 ∧ V3.dot (next - here) v.2 = 0 := by
  have hd : next - here ≠ 0 := by
    intro e
    rcases h with h | h
    · exact h (by have := congrArg V3.x e; simp at this; linarith)
    · exact h (by have := congrArg V3.z e; simp at this; linarith)
  have hl : (next - here).lenSq ≠ 0 := fun h' => hd (lenSq_zero h')
  have hq : √(next - here).lenSq ≠ 0 := (Real.sqrt_ne_zero (lenSq_nonneg _)).2 hl
  intro v
  refine ⟨by simp only [v, curveVertex, displace]; cases modifier <;> rfl, ?_⟩
  have hv : v.2 = rotAxis (Plane.normalizeVec (V3.cross (Plane.normalizeVec (next - here)) (V3.cross ⟨0, 1, 0⟩ (Plane.normalizeVec (next - here)))))
    (Plane.normalizeVec (next - here)) (sg * (ty * (Real.pi * 2))) := rfl
  rw [hv]
  have ht1 := Plane.Props.normalizeVec_unit hd
  have htd : next - here = √(next - here).lenSq • Plane.normalizeVec (next - here) := by
    rw [Plane.normalizeVec, if_neg hl]
    ext <;> simp <;> field_simp
  have hne : (Plane.normalizeVec (next - here)).x ≠ 0 ∨ (Plane.normalizeVec (next - here)).z ≠ 0 := by
    rcases h with h | h
    · left; intro e; apply h; have := congrArg V3.x htd; simp only [V3.smul_x, e, mul_zero] at this; simp at this; linarith
    · right; intro e; apply h; have := congrArg V3.z htd; simp only [V3.smul_z, e, mul_zero] at this; simp at this; linarith
  generalize Plane.normalizeVec (next - here) = T at *
  have hT : T ≠ 0 := by
    intro e; subst e; rcases hne with h | h <;> exact h rfl
  have hN : V3.cross T (V3.cross ⟨0, 1, 0⟩ T) ≠ 0 := by
    intro e
    have e2 := congrArg V3.y e
    simp only [V3.cross_x, V3.cross_y, V3.cross_z, V3.zero_y] at e2
    have : T.x ^ 2 + T.z ^ 2 = 0 := by linear_combination e2
    have p1 := sq_nonneg T.x
    have p2 := sq_nonneg T.z
    rcases hne with h | h
    · exact h (pow_eq_zero_iff (two_ne_zero) |>.1 (by linarith))
    · exact h (pow_eq_zero_iff (two_ne_zero) |>.1 (by linarith))
  have horth : V3.dot T (Plane.normalizeVec (V3.cross T (V3.cross ⟨0, 1, 0⟩ T))) = 0 := by
    have : V3.dot T (V3.cross T (V3.cross ⟨0, 1, 0⟩ T)) = 0 := by simp only [V3.dot, V3.cross_x, V3.cross_y, V3.cross_z]; ring
    rw [Plane.normalizeVec, if_neg (fun h' => hN (lenSq_zero h'))]
    generalize V3.cross T (V3.cross ⟨0, 1, 0⟩ T) = N at *
    have e : ∀ c : ℝ, V3.dot T (c • N) = c * V3.dot T N := by intro c; simp only [V3.dot, V3.smul_x, V3.smul_y, V3.smul_z]; ring
    rw [e, this, mul_zero]
  obtain ⟨r1, r2⟩ := rotAxis_orth _ T (sg * (ty * (Real.pi * 2))) hT horth
  refine ⟨by rw [r1]; exact Plane.Props.normalizeVec_unit hN, ?_⟩
  rw [htd]
  have e : ∀ (c : ℝ) (N : V3 ℝ), V3.dot (c • T) N = c * V3.dot T N := by intro c N; simp only [V3.dot, V3.smul_x, V3.smul_y, V3.smul_z]; ring
  rw [e, r2, mul_zero]

example := C47_tube 1 1 1 1 ⟨0, 0, 0⟩ ⟨1, 2, 3⟩ none (by norm_num)

/-- The tube collapses where the curve runs along the Y axis: the vertices are at the sample, for each radius. -/
theorem C47_tube_refuted (sg radius tx ty : ℝ) (here next : V3 ℝ) (modifier : Option (ℝ → ℝ → ℝ)) (h : next.x = here.x) (h' : next.z = here.z) :
    (curveVertex sg here next radius modifier tx ty).1 = here := by
  have hx : (Plane.normalizeVec (next - here)).x = 0 ∧ (Plane.normalizeVec (next - here)).z = 0 := by
    rw [Plane.normalizeVec]
    split_ifs <;> simp [h, h']
  have hc : V3.cross (⟨0, 1, 0⟩ : V3 ℝ) (Plane.normalizeVec (next - here)) = 0 := by
    ext <;> simp [hx]
  have hn : Plane.normalizeVec (V3.cross (Plane.normalizeVec (next - here)) (V3.cross ⟨0, 1, 0⟩ (Plane.normalizeVec (next - here)))) = 0 := by
    rw [hc]
    have : V3.cross (Plane.normalizeVec (next - here)) 0 = 0 := by ext <;> simp
    rw [this, Plane.normalizeVec, if_pos (by simp [V3.lenSq, V3.dot])]
  have hr : ∀ (k : V3 ℝ) (a : ℝ), rotAxis 0 k a = 0 := by
    intro k a
    simp only [rotAxis]
    ext <;> simp [V3.dot]
  have hv : (curveVertex sg here next radius modifier tx ty).2 = rotAxis (Plane.normalizeVec (V3.cross (Plane.normalizeVec (next - here)) (V3.cross ⟨0, 1, 0⟩ (Plane.normalizeVec (next - here)))))
    (Plane.normalizeVec (next - here)) (sg * (ty * (Real.pi * 2))) := rfl
  have hp : (curveVertex sg here next radius modifier tx ty).1 = here + displace radius modifier tx ty • (curveVertex sg here next radius modifier tx ty).2 := by
    simp only [curveVertex, displace]; cases modifier <;> rfl
  rw [hp, hv, hn, hr]
  ext <;> simp

/-- A vertical step. -/
example : (⟨0, 1, 0⟩ : V3 ℝ).x = (⟨0, 0, 0⟩ : V3 ℝ).x ∧ (⟨0, 1, 0⟩ : V3 ℝ).z = (⟨0, 0, 0⟩ : V3 ℝ).z := ⟨rfl, rfl⟩

/-! Triangles. -/

/-- The index of a ring vertex with wrap-around. -/
def ringIx (U V a b : ℕ) : ℕ := (a % U) * V + b % V

def curveTrisIx (alt : Bool) (U V off : ℕ) : List Ix := gridT U V fun u v =>
  quadIx alt u v (off + w32 (ringIx U V u v)) (off + w32 (ringIx U V u (v + 1))) (off + w32 (ringIx U V (u + 1) (v + 1))) (off + w32 (ringIx U V (u + 1) v))

theorem curveTris_ok (alt : Bool) (U V off : ℕ) (m : M) (hU : U < 2 ^ 32) (hV : V < 2 ^ 32) :
    curveTris alt U V off m = .ok (ext m [] (curveTrisIx alt U V off)) := by
  unfold curveTris curveTrisIx
  rw [forLt_ext 0 U _ (fun _ => []) (fun u => tab 0 V fun v => quadIx alt u v (off + w32 (ringIx U V u v)) (off + w32 (ringIx U V u (v + 1)))
    (off + w32 (ringIx U V (u + 1) (v + 1))) (off + w32 (ringIx U V (u + 1) v))) m (by omega) hU]
  · simp only [Nat.sub_zero, tab_nil]; rfl
  · intro u m _ hu
    rw [forLt_ext 0 V _ (fun _ => []) (fun v => quadIx alt u v (off + w32 (ringIx U V u v)) (off + w32 (ringIx U V u (v + 1)))
      (off + w32 (ringIx U V (u + 1) (v + 1))) (off + w32 (ringIx U V (u + 1) v))) m (by omega) hV]
    · simp only [Nat.sub_zero, tab_nil]
    · intro v m _ hv
      dsimp only
      rw [addQuad_eq]
      have hu0 : u % U = u := Nat.mod_eq_of_lt hu
      have hv0 : v % V = v := Nat.mod_eq_of_lt hv
      have w1 : w32 v = v := w32_of_lt (by omega)
      have hu1 : (u + 1) % U = if u + 1 < U then u + 1 else 0 := by
        split_ifs with h
        · exact Nat.mod_eq_of_lt h
        · rw [show u + 1 = U by omega, Nat.mod_self]
      have hv1 : (v + 1) % V = if v + 1 < V then v + 1 else 0 := by
        split_ifs with h
        · exact Nat.mod_eq_of_lt h
        · rw [show v + 1 = V by omega, Nat.mod_self]
      have w2 : v + 1 < V → w32 (v + 1) = v + 1 := fun h => w32_of_lt (by omega)
      have w0 : w32 0 = 0 := rfl
      simp only [ringIx, hu0, hv0, hu1, hv1]
      by_cases a : u + 1 < U <;> by_cases b : v + 1 < V <;> simp [a, b, w1, w2, w0, Nat.add_assoc]

theorem curveTrisIx_length (alt : Bool) (U V off : ℕ) : (curveTrisIx alt U V off).length = 2 * (U * V) := by
  rw [curveTrisIx, gridT_length U V 2 _ (fun _ _ => quadIx_length ..)]; ring

theorem ringIx_lt (U V a b : ℕ) (hU : 0 < U) (hV : 0 < V) : ringIx U V a b < U * V := grid_lt (Nat.mod_lt _ hU) (Nat.mod_lt _ hV)

theorem curveTrisIx_mem (alt : Bool) (U V off : ℕ) {t : Ix} (ht : t ∈ curveTrisIx alt U V off) :
    ∀ i ∈ [t.a, t.b, t.c], off ≤ i ∧ i < off + U * V := by
  obtain ⟨u, v, hu, hv, ht⟩ := gridT_mem.1 ht
  intro i hi
  have key : ∀ a b, w32 (ringIx U V a b) < U * V := fun a b => (w32_le _).trans_lt (ringIx_lt U V a b (by omega) (by omega))
  rcases quadIx_mem ht i hi with h | h | h | h <;> rw [h] <;> exact ⟨by omega, by have := key; exact Nat.add_lt_add_left (key _ _) _⟩

/-- C47: a curve is appended: counts, old content, new indices; no lookup outside of the samples; each vertex is displaced from
the point of the curve at its parameter along its normal. -/
theorem C47_curve (sg : ℝ) (d : CurveDesc) (f : ℝ → V3 ℝ) (m : M) (hf : d.curveFunction = some f)
    (hU : max 3 d.segsX < 2 ^ 32) (hV : max 3 d.segsY < 2 ^ 32) :
    let U := max 3 d.segsX
    let V := max 3 d.segsY
    ∃ m', genCurve sg d m = .ok m' ∧ Grows m m' (U * V) (2 * (U * V))
      (fun v => v.position = f v.texCoord.x + displace d.radius d.vertexModifier v.texCoord.x v.texCoord.y • v.normal) ∧
      (U * V ≤ 2 ^ 32 →
        let F := fun u v : ℕ => (curveVertex sg (f ((u : ℝ) / (U - 1 : ℕ))) (f (((u + 1) % (U - 1) : ℕ) / (U - 1 : ℕ))) d.radius d.vertexModifier
          ((u : ℝ) / (U - 1 : ℕ)) ((v : ℝ) / (V - 1 : ℕ))).1
        NewFaces m m' (grid U V fun u v => quad d.alternateGrid u v (F u v) (F u ((v + 1) % V)) (F ((u + 1) % U) ((v + 1) % V)) (F ((u + 1) % U) v))) := by
  intro U V
  have h3 : 3 ≤ U := le_max_left _ _
  have h3' : 3 ≤ V := le_max_left _ _
  obtain ⟨l, hl, hlen, hget⟩ := curveSamples_ok f U hU
  let F : ℕ → ℕ → Vertex ℝ := fun u v =>
    let p := curveVertex sg (f ((u : ℝ) / (U - 1 : ℕ))) (f (((u + 1) % (U - 1) : ℕ) / (U - 1 : ℕ))) d.radius d.vertexModifier
      ((u : ℝ) / (U - 1 : ℕ)) ((v : ℝ) / (V - 1 : ℕ))
    ⟨p.1, p.2, ⟨(u : ℝ) / (U - 1 : ℕ), (v : ℝ) / (V - 1 : ℕ)⟩⟩
  have hv : ∀ m, curveVerts sg d.radius d.vertexModifier l U V m = .ok (ext m (gridV U V F) []) := by
    intro m
    refine forLt_gridV U V _ _ m hU hV fun u v m hu _ => ?_
    have g1 : TMesh.getR l ((u + 1) % (U - 1)) = .ok (f (((u + 1) % (U - 1) : ℕ) / (U - 1 : ℕ))) := by
      have : (u + 1) % (U - 1) < U := (Nat.mod_lt _ (by omega)).trans_le (by omega)
      rw [TMesh.getR, hget _ this]
    have g2 : TMesh.getR l u = .ok (f ((u : ℝ) / (U - 1 : ℕ))) := by rw [TMesh.getR, hget _ hu]
    rw [g1, Res.bind_ok, g2, Res.bind_ok]
    dsimp only
    rw [add_eq]
  have e : genCurve sg d m = .ok (ext m (gridV U V F) (curveTrisIx d.alternateGrid U V m.vertices.length)) := by
    simp only [genCurve]
    rw [hf, hl, Res.bind_ok, hv, Res.bind_ok, curveTris_ok _ _ _ _ _ hU hV, ext_ext, List.append_nil, List.nil_append]
  refine ⟨_, e, grows_ext m _ _ _ _ _ (gridV_length ..) (curveTrisIx_length ..) ?_ ?_, fun hb => ⟨_, rfl, ?_⟩⟩
  · intro x hx
    obtain ⟨r, c, _, _, rfl⟩ := gridV_mem.1 hx
    simp only [F, curveVertex, displace]
    cases d.vertexModifier <;> rfl
  · intro t ht i hi
    exact curveTrisIx_mem _ _ _ _ ht i hi
  · have hs : Stored (ext m (gridV U V F) (curveTrisIx d.alternateGrid U V m.vertices.length)) m.vertices.length (gridV U V F) := by
      have := stored_append m.vertices (gridV U V F) [] (m.triangles ++ curveTrisIx d.alternateGrid U V m.vertices.length)
      rwa [List.append_nil] at this
    apply gridT_faces
    intro u v hu hv'
    have key : ∀ a b, (ext m (gridV U V F) (curveTrisIx d.alternateGrid U V m.vertices.length)).vertices[m.vertices.length + w32 (ringIx U V a b)]? =
        some (F (a % U) (b % V)) := fun a b =>
      stored_grid32 hs hb (Nat.mod_lt _ (by omega)) (Nat.mod_lt _ (by omega)) rfl
    have := quad_faces d.alternateGrid u v (key u v) (key u (v + 1)) (key (u + 1) (v + 1)) (key (u + 1) v)
    rw [Nat.mod_eq_of_lt hu, Nat.mod_eq_of_lt hv'] at this
    exact this

example := C47_curve 1 ⟨some fun t => ⟨t, 0, t * t⟩, 1, 5, 4, true, none⟩ _ ⟨[], []⟩ rfl (by norm_num) (by norm_num)

/-- C47: the null function throws. -/
theorem C47_null (sg : ℝ) (d : CurveDesc) (m : M) (hf : d.curveFunction = none) : genCurve sg d m = .throw := by
  have h3 : 0 < max 3 d.segsX := by have := le_max_left 3 d.segsX; omega
  have e : ∀ l, forLt 0 (max 3 d.segsX) (fun (_ : ℕ) (_ : List (V3 ℝ)) => (Res.throw : Res (List (V3 ℝ)))) l = .throw := by
    intro l
    unfold forLt fuel32 loop32
    rw [if_pos (by simp)]
    rfl
  simp only [genCurve, hf, curveSamples]
  rw [e]
  rfl

/-- The circle with the default descriptor. -/
example : ∃ (d : CurveDesc) (f : ℝ → V3 ℝ), d.curveFunction = some f ∧ max 3 d.segsX < 2 ^ 32 ∧ max 3 d.segsX * max 3 d.segsY ≤ 2 ^ 32 ∧ f 0 ≠ f (1 / 2) :=
  ⟨⟨some fun t => ⟨t, 0, 0⟩, 1 / 4, 100, 20, false, none⟩, fun t => ⟨t, 0, 0⟩, rfl, by norm_num, by norm_num, by simp⟩

theorem closed_perm {α : Type} {a b : List (α × α)} (h : a.Perm b) (hb : ClosedOriented b) : ClosedOriented a :=
  ⟨h.nodup_iff.2 hb.1, fun e he => h.mem_iff.2 (hb.2 e (h.mem_iff.1 he))⟩

theorem closed_map {α β : Type} {a : List (α × α)} (g : α → β) (hg : Function.Injective g) (h : ClosedOriented a) :
    ClosedOriented (a.map fun e => (g e.1, g e.2)) := by
  refine ⟨h.1.map ?_, ?_⟩
  · rintro ⟨a, b⟩ ⟨c, d⟩ e
    simp only [Prod.mk.injEq] at e
    rw [hg e.1, hg e.2]
  · intro e he
    obtain ⟨x, hx, rfl⟩ := List.mem_map.1 he
    exact List.mem_map.2 ⟨(x.2, x.1), h.2 x hx, rfl⟩

/-- C47: the triangles of a curve form a closed, oriented surface (the last ring is joined to the first one). -/
theorem C47_closed (sg : ℝ) (d : CurveDesc) (f : ℝ → V3 ℝ) (m : M) (hf : d.curveFunction = some f)
    (hb : max 3 d.segsX * max 3 d.segsY ≤ 2 ^ 32) :
    ∃ m' ts, genCurve sg d m = .ok m' ∧ m'.triangles = m.triangles ++ ts ∧ ClosedOriented (ts.flatMap dirEdges) := by
  have h1 : 3 ≤ max 3 d.segsX := le_max_left _ _
  have h2 : 3 ≤ max 3 d.segsY := le_max_left _ _
  have hU : max 3 d.segsX < 2 ^ 32 := by have := Nat.mul_le_mul_left (max 3 d.segsX) h2; omega
  have hV : max 3 d.segsY < 2 ^ 32 := by have := Nat.mul_le_mul_right (max 3 d.segsY) h1; omega
  obtain ⟨l, hl, hlen, hget⟩ := curveSamples_ok f _ hU
  obtain ⟨vs, hv⟩ : ∃ vs, ∀ m, curveVerts sg d.radius d.vertexModifier l (max 3 d.segsX) (max 3 d.segsY) m = .ok (ext m vs []) := by
    refine ⟨gridV (max 3 d.segsX) (max 3 d.segsY) fun u v =>
      let p := curveVertex sg (f ((u : ℝ) / (max 3 d.segsX - 1 : ℕ))) (f (((u + 1) % (max 3 d.segsX - 1) : ℕ) / (max 3 d.segsX - 1 : ℕ))) d.radius d.vertexModifier
        ((u : ℝ) / (max 3 d.segsX - 1 : ℕ)) ((v : ℝ) / (max 3 d.segsY - 1 : ℕ))
      ⟨p.1, p.2, ⟨(u : ℝ) / (max 3 d.segsX - 1 : ℕ), (v : ℝ) / (max 3 d.segsY - 1 : ℕ)⟩⟩, fun m => ?_⟩
    refine forLt_gridV _ _ _ _ m hU hV fun u v m hu _ => ?_
    have g1 : TMesh.getR l ((u + 1) % (max 3 d.segsX - 1)) = .ok (f (((u + 1) % (max 3 d.segsX - 1) : ℕ) / (max 3 d.segsX - 1 : ℕ))) := by
      have : (u + 1) % (max 3 d.segsX - 1) < max 3 d.segsX := (Nat.mod_lt _ (by omega)).trans_le (by omega)
      rw [TMesh.getR, hget _ this]
    have g2 : TMesh.getR l u = .ok (f ((u : ℝ) / (max 3 d.segsX - 1 : ℕ))) := by rw [TMesh.getR, hget _ hu]
    rw [g1, Res.bind_ok, g2, Res.bind_ok]
    dsimp only
    rw [add_eq]
  refine ⟨ext m vs (curveTrisIx d.alternateGrid (max 3 d.segsX) (max 3 d.segsY) m.vertices.length), _, ?_, rfl, ?_⟩
  · simp only [genCurve]
    rw [hf, hl, Res.bind_ok, hv, Res.bind_ok, curveTris_ok _ _ _ _ _ hU hV, ext_ext, List.append_nil, List.nil_append]
  · generalize max 3 d.segsX = U at *
    generalize max 3 d.segsY = V at *
    have : NeZero U := ⟨by omega⟩
    have : NeZero V := ⟨by omega⟩
    obtain ⟨hn, hall⟩ := cells_nodup V U (by omega) (by omega)
    -- the cells in the order of the loops, as pairs (v, u)
    have hn' := hn.map (f := Prod.swap) Prod.swap_injective
    have hall' : ∀ c : ZMod V × ZMod U, c ∈ ((List.range U).flatMap fun v => (List.range V).map fun u => (((v : ℕ) : ZMod U), ((u : ℕ) : ZMod V))).map Prod.swap := by
      intro c
      exact List.mem_map.2 ⟨c.swap, hall _, Prod.swap_swap c⟩
    have key := closed_cells (1 : ZMod V) (1 : ZMod U) (one_ne V h2).1 (one_ne U h1).1 (one_ne V h2).2 (one_ne U h1).2 _
      (fun c => !decide (d.alternateGrid = true ∧ (c.2.val + c.1.val) % 2 = 1)) hn' hall'
    let g : ZMod V × ZMod U → ℕ := fun c => m.vertices.length + (c.2.val * V + c.1.val)
    have hg : Function.Injective g := by
      rintro ⟨a, b⟩ ⟨a', b'⟩ e
      have e' : b.val * V + a.val = b'.val * V + a'.val := Nat.add_left_cancel e
      have ha := ZMod.val_lt a
      have ha' := ZMod.val_lt a'
      have hbv : b.val = b'.val := by
        have := congrArg (· / V) e'
        rwa [Nat.mul_comm, Nat.mul_add_div (by omega), Nat.div_eq_of_lt ha, Nat.mul_comm, Nat.mul_add_div (by omega), Nat.div_eq_of_lt ha',
          Nat.add_zero, Nat.add_zero] at this
      have hav : a.val = a'.val := by rw [hbv] at e'; exact Nat.add_left_cancel e'
      rw [ZMod.val_injective V hav, ZMod.val_injective U hbv]
    refine closed_perm ?_ (closed_map g hg key)
    rw [curveTrisIx, gridT]
    simp only [tab, Nat.zero_add, List.flatMap_map, List.map_flatMap, List.flatMap_assoc]
    apply List.Perm.flatMap_left
    intro u hu
    apply List.Perm.flatMap_left
    intro v hv'
    rw [List.mem_range] at hu hv'
    have w : ∀ a b : ℕ, m.vertices.length + w32 (ringIx U V a b) = g ((b : ZMod V), (a : ZMod U)) := by
      intro a b
      rw [w32_of_lt ((ringIx_lt U V a b (by omega) (by omega)).trans_le hb)]
      simp only [g, ringIx]
      rw [ZMod.val_natCast, ZMod.val_natCast]
    rw [w, w, w, w]
    have hv1 : ((v : ℕ) : ZMod V).val = v := ZMod.val_natCast_of_lt hv'
    have hu1 : ((u : ℕ) : ZMod U).val = u := ZMod.val_natCast_of_lt hu
    simp only [Prod.swap_prod_mk, Prod.fst_swap, Prod.snd_swap, hv1, hu1]
    push_cast
    unfold quadIx cellEdges
    by_cases hd : d.alternateGrid = true ∧ (u + v) % 2 = 1
    · rw [if_pos hd, decide_eq_true hd, if_neg (by simp)]
      simp only [List.flatMap_cons, List.flatMap_nil, dirEdges, List.map_cons, List.map_nil, List.cons_append, List.nil_append, List.append_nil]
      generalize g ((v : ZMod V), (u : ZMod U)) = a
      generalize g ((v : ZMod V) + 1, (u : ZMod U)) = b
      generalize g ((v : ZMod V) + 1, (u : ZMod U) + 1) = c
      generalize g ((v : ZMod V), (u : ZMod U) + 1) = e
      rw [List.perm_iff_count]
      intro x
      simp only [List.count_cons, List.count_nil]
      omega
    · rw [if_neg hd, decide_eq_false hd, if_pos (by simp)]
      simp only [List.flatMap_cons, List.flatMap_nil, dirEdges, List.map_cons, List.map_nil, List.cons_append, List.nil_append, List.append_nil]
      generalize g ((v : ZMod V), (u : ZMod U)) = a
      generalize g ((v : ZMod V) + 1, (u : ZMod U)) = b
      generalize g ((v : ZMod V) + 1, (u : ZMod U) + 1) = c
      generalize g ((v : ZMod V), (u : ZMod U) + 1) = e
      rw [List.perm_iff_count]
      intro x
      simp only [List.count_cons, List.count_nil]
      omega

example := C47_closed 1 ⟨some fun t => ⟨t, 0, t * t⟩, 1, 5, 4, true, none⟩ _ ⟨[], []⟩ rfl (by norm_num)

/-! Torus knot. -/

/-- C47: the curve of a torus knot is closed and runs on a torus (scaled by the radii of the ring). -/
theorem C47_knot_curve (d : KnotDesc) (t : ℝ) : knotCurve d 1 = knotCurve d 0 ∧
    ∃ p : V3 ℝ, OnTorus ⟨d.innerRadius, d.innerRadius⟩ ⟨1, 1, 1⟩ p ∧ knotCurve d t = V3.mulC p d.ringRadius := by
  constructor
  · have h : ∀ n : ℕ, Real.cos (n * (Real.pi * 2)) = 1 ∧ Real.sin (n * (Real.pi * 2)) = 0 := by
      intro n
      rw [show (n : ℝ) * (Real.pi * 2) = (n : ℝ) * (2 * Real.pi) by ring]
      refine ⟨Real.cos_nat_mul_two_pi n, ?_⟩
      have := Real.sin_add_nat_mul_two_pi 0 n
      simpa using this
    simp only [knotCurve, one_mul, zero_mul, mul_zero]
    rw [(h d.loops).1, (h d.loops).2, (h d.turns).1, (h d.turns).2]
    simp
  · refine ⟨torusPoint ⟨d.innerRadius, d.innerRadius⟩ ⟨1, 1, 1⟩ (Real.pi / 2 - d.turns * (t * (Real.pi * 2)))
      (Real.pi / 2 - d.loops * (t * (Real.pi * 2))), ⟨_, _, rfl⟩, ?_⟩
    simp only [knotCurve, torusPoint, Real.sin_pi_div_two_sub, Real.cos_pi_div_two_sub, V3.mulC]
    ext <;> dsimp only <;> ring

/-- C47: the torus knot is appended. -/
theorem C47_knot (sg : ℝ) (d : KnotDesc) (m : M) (hU : max 3 d.segsX < 2 ^ 32) (hV : max 3 d.segsY < 2 ^ 32) :
    ∃ m', genTorusKnot sg d m = .ok m' ∧ Grows m m' (max 3 d.segsX * max 3 d.segsY) (2 * (max 3 d.segsX * max 3 d.segsY))
      (fun v => v.position = knotCurve d v.texCoord.x + displace d.tubeRadius d.vertexModifier v.texCoord.x v.texCoord.y • v.normal) := by
  obtain ⟨m', h1, h2, _⟩ := C47_curve sg ⟨some (knotCurve d), d.tubeRadius, d.segsX, d.segsY, d.alternateGrid, d.vertexModifier⟩ (knotCurve d) m rfl hU hV
  exact ⟨m', h1, h2⟩

example := C47_knot 1 ⟨⟨4, 2, 3⟩, 1, 2, 3, 2, 50, 8, true, none⟩ ⟨[], []⟩ (by norm_num) (by norm_num)

/-! Spiral. -/

noncomputable def spiralVx (d : SpiralDesc) (turns : ℝ) (U V v u : ℕ) : Vertex ℝ :=
  ⟨spiralPoint d.ringRadius d.tubeRadius d.displacement turns (turn V v) (turn U u), tubeNormal d.tubeRadius (turn V v) (turn U u), ⟨-(u * (1 / U)), v * (1 / V)⟩⟩

theorem spiralVerts_ok (d : SpiralDesc) (turns : ℝ) (U V N : ℕ) (m : M) (hN : N + 1 < 2 ^ 32) (hV : V + 1 < 2 ^ 32) :
    spiralVerts d turns U V N m = .ok (ext m (gridV (V + 1) (N + 1) (spiralVx d turns U V)) []) := by
  refine forLe_grid V N _ _ m hV hN fun v u m => ?_
  dsimp only
  rw [add_eq, spiralVx, show (v : ℝ) * (1 / V) * (Real.pi * 2) = turn V v by unfold turn; ring,
    show (u : ℝ) * (1 / U) * (Real.pi * 2) = turn U u by unfold turn; ring]
  congr 4
  simp only [spiralPoint]
  have hp : turn U u / (2 * Real.pi) = u / U := by
    unfold turn
    have := Real.pi_ne_zero
    field_simp
  rw [hp]
  ext <;> simp <;> ring

noncomputable def coverVx (d : SpiralDesc) (turns phi side : ℝ) (top : Bool) (V C v j : ℕ) : Vertex ℝ :=
  let fy := 1 / 2 + Real.cos (turn V v) * (1 / 2) * (j * (1 / C))
  ⟨spiralDisc d.ringRadius d.tubeRadius d.displacement turns (j / C) (turn V v) phi, side • ⟨Real.cos phi, 0, Real.sin phi⟩,
    ⟨1 / 2 + Real.sin (turn V v) * (1 / 2) * (j * (1 / C)), if top then 1 - fy else fy⟩⟩

noncomputable def coverCenter (d : SpiralDesc) (turns phi side : ℝ) : Vertex ℝ :=
  ⟨spiralCenter d.ringRadius d.displacement turns phi, side • ⟨Real.cos phi, 0, Real.sin phi⟩, ⟨1 / 2, 1 / 2⟩⟩

theorem spiralCover_ok (d : SpiralDesc) (turns phi side : ℝ) (top : Bool) (V C : ℕ) (m : M) (hV : V + 1 < 2 ^ 32) (hC : C + 1 < 2 ^ 32) :
    spiralCover d turns phi side top V C m = .ok (ext m (discV V C (coverCenter d turns phi side) (coverVx d turns phi side top V C)) []) := by
  have hc : coverCoord d turns 0 phi true = (spiralCenter d.ringRadius d.displacement turns phi, ⟨Real.cos phi, 0, Real.sin phi⟩) := by
    simp only [coverCoord, spiralCenter, if_true, Prod.mk.injEq, and_true]
    ext <;> dsimp only
    ring
  have hp : ∀ theta, coverCoord d turns theta phi false = (spiralPoint d.ringRadius d.tubeRadius d.displacement turns theta phi, ⟨Real.cos phi, 0, Real.sin phi⟩) := by
    intro theta
    simp only [coverCoord, spiralPoint, Bool.false_eq_true, if_false, Prod.mk.injEq, and_true]
    ext <;> simp <;> ring
  unfold spiralCover
  rw [hc]
  dsimp only
  have := forLe_gridA V C 1 0 (1 / (V : ℝ) * (Real.pi * 2)) (fun _ j theta m =>
    .ok (add m (lerpV (spiralCenter d.ringRadius d.displacement turns phi) (coverCoord d turns theta phi false).1 (j * (1 / C))) (side • (coverCoord d turns theta phi false).2)
      (1 / 2 + Real.sin theta * (1 / 2) * (j * (1 / C)))
      (if top then 1 - (1 / 2 + Real.cos theta * (1 / 2) * (j * (1 / C))) else 1 / 2 + Real.cos theta * (1 / 2) * (j * (1 / C)))))
    (coverVx d turns phi side top V C) (add m (spiralCenter d.ringRadius d.displacement turns phi) (side • ⟨Real.cos phi, 0, Real.sin phi⟩) (1 / 2) (1 / 2)) hV hC (by omega) (by
      intro v j m _
      rw [turn_eq, add_eq, hp]
      simp only [coverVx]
      congr 4
      simp only [spiralDisc, lerpV]
      ext <;> simp <;> ring)
  simp only [Nat.add_sub_cancel, Nat.add_comm 1] at this
  rw [add_eq, ext_ext] at this
  refine Eq.trans ?_ this
  rw [← add_eq]

noncomputable def coverP (top alt : Bool) (d : SpiralDesc) (turns phi side : ℝ) (V C : ℕ) : Part :=
  ⟨discV V C (coverCenter d turns phi side) (coverVx d turns phi side top V C), discTrisIx top alt V C, V * (2 * C - 1),
    disc top alt V C (spiralCenter d.ringRadius d.displacement turns phi) fun v j =>
      spiralDisc d.ringRadius d.tubeRadius d.displacement turns (j / C) (turn V v) phi⟩

noncomputable def coverP0 (top alt : Bool) (d : SpiralDesc) (turns phi side : ℝ) (V C : ℕ) : Part :=
  if C = 0 then Part.none else coverP top alt d turns phi side V C

section cover
variable (top alt : Bool) (d : SpiralDesc) (turns phi side : ℝ) (V C : ℕ)

theorem coverP0_len : (coverP0 top alt d turns phi side V C).vs.length = if C = 0 then 0 else 1 + (V + 1) * C := by
  unfold coverP0; split_ifs
  · rfl
  · simp [coverP, discV, gridV_length, Nat.add_comm]

theorem coverP0_nt : (coverP0 top alt d turns phi side V C).nt = V * (2 * C - 1) := by
  unfold coverP0; split_ifs with h
  · subst h; simp [Part.none]
  · rfl

theorem coverP0_valid : (coverP0 top alt d turns phi side V C).Valid := by
  unfold coverP0; split_ifs
  · exact none_valid
  · intro off
    refine ⟨discTrisIx_length _ _ _ _ _ (by omega), fun t ht i hi => ?_⟩
    have := discTrisIx_mem _ _ _ _ _ (by omega) ht i hi
    simpa [coverP, discV, gridV_length, Nat.add_comm] using this

theorem coverP0_faces (hb : 2 * C ≤ 2 ^ 32) : (coverP0 top alt d turns phi side V C).HasFaces := by
  unfold coverP0; split_ifs
  · exact none_faces
  · exact fun _ _ hs => discTrisIx_faces _ _ _ _ _ hs (by omega) hb

theorem coverP0_fs : (coverP0 top alt d turns phi side V C).fs = if C = 0 then [] else
    disc top alt V C (spiralCenter d.ringRadius d.displacement turns phi) fun v j =>
      spiralDisc d.ringRadius d.tubeRadius d.displacement turns (j / C) (turn V v) phi := by
  unfold coverP0; split_ifs
  · rfl
  · rfl

theorem coverP0_mem {x : Vertex ℝ} (hx : x ∈ (coverP0 top alt d turns phi side V C).vs) :
    ∃ s theta : ℝ, 0 ≤ s ∧ s ≤ 1 ∧ x.position = spiralDisc d.ringRadius d.tubeRadius d.displacement turns s theta phi := by
  unfold coverP0 at hx
  split_ifs at hx with h
  · cases hx
  · rcases List.mem_cons.1 hx with rfl | hx
    · refine ⟨0, 0, le_refl _, zero_le_one, ?_⟩
      simp only [coverCenter, spiralDisc]
      ext <;> simp
    · obtain ⟨v, j, hu, hj, rfl⟩ := gridV_mem.1 hx
      obtain ⟨a, b⟩ := frac_unit (j + 1) C (by omega)
      exact ⟨_, _, a, b, rfl⟩

theorem coverVerts0_ok (m : M) (hV : V + 1 < 2 ^ 32) (hC : C + 1 < 2 ^ 32) :
    (if C = 0 then .ok m else spiralCover d turns phi side top V C m) = .ok (ext m (coverP0 top alt d turns phi side V C).vs []) := by
  unfold coverP0
  split_ifs
  · simp [Part.none, ext_nil]
  · rw [spiralCover_ok _ _ _ _ _ _ _ _ hV hC]; rfl

theorem coverTris0_ok (off : ℕ) (m : M) (hV : V < 2 ^ 32) (hC : C < 2 ^ 32) :
    (if C = 0 then .ok m else discTris top alt V C off m) = .ok (ext m [] ((coverP0 top alt d turns phi side V C).ts off)) := by
  unfold coverP0
  split_ifs
  · simp [Part.none, ext_nil]
  · rw [discTris_ok _ _ _ _ _ _ hV (by omega) hC]; rfl

end cover

noncomputable def spiralP (d : SpiralDesc) (turns : ℝ) (U V N : ℕ) : Part :=
  ⟨gridV (V + 1) (N + 1) (spiralVx d turns U V), gridTrisIx true d.alternateGrid N V, 2 * (N * V),
    let S := fun v u : ℕ => spiralPoint d.ringRadius d.tubeRadius d.displacement turns (turn V v) (turn U u)
    grid V N fun v u => quad d.alternateGrid u v (S v (u + 1)) (S v u) (S (v + 1) u) (S (v + 1) (u + 1))⟩

/-- The parts of a spiral. -/
noncomputable def spiralParts (d : SpiralDesc) (turns : ℝ) (U V N : ℕ) : List Part :=
  [spiralP d turns U V N, coverP0 false d.alternateGrid d turns 0 (-1) V d.bottomCov,
    coverP0 true d.alternateGrid d turns (turns * (Real.pi * 2)) 1 V d.topCov]

theorem spiral_segs (d : SpiralDesc) (hN : max 0 d.turns * (max 3 d.segsX : ℕ) < 2 ^ 32 - 1) : ⌊max 0 d.turns * (max 3 d.segsX : ℕ)⌋₊ + 1 < 2 ^ 32 := by
  have hNle := Nat.floor_le (show 0 ≤ max 0 d.turns * (max 3 d.segsX : ℕ) by positivity)
  have : ((⌊max 0 d.turns * (max 3 d.segsX : ℕ)⌋₊ + 1 : ℕ) : ℝ) < ((2 ^ 32 : ℕ) : ℝ) := by push_cast at *; linarith
  exact_mod_cast this

theorem genSpiral_ok (d : SpiralDesc) (m : M) (hN : max 0 d.turns * (max 3 d.segsX : ℕ) < 2 ^ 32 - 1) (hV : max 3 d.segsY + 1 < 2 ^ 32)
    (hB : d.bottomCov + 1 < 2 ^ 32) (hT : d.topCov + 1 < 2 ^ 32) :
    let ps := spiralParts d (max 0 d.turns) (max 3 d.segsX) (max 3 d.segsY) ⌊max 0 d.turns * (max 3 d.segsX : ℕ)⌋₊
    genSpiral d m = .ok (ext m (allVs ps) (asm m.vertices.length ps)) := by
  have hN' := spiral_segs d hN
  simp only [genSpiral]
  rw [if_pos (hN.trans (by norm_num))]
  generalize max 0 d.turns = turns at *
  generalize max 3 d.segsX = U at *
  generalize max 3 d.segsY = V at *
  generalize ⌊turns * (U : ℝ)⌋₊ = N at *
  rw [Res.bind_ok, spiralVerts_ok _ _ _ _ _ _ hN' hV, Res.bind_ok,
    coverVerts0_ok _ d.alternateGrid _ _ _ _ _ _ _ hV hB, Res.bind_ok,
    coverVerts0_ok _ d.alternateGrid _ _ _ _ _ _ _ hV hT, Res.bind_ok,
    gridTris_ok _ _ _ _ _ _ (show N < 2 ^ 32 by omega) (show V < 2 ^ 32 by omega), Res.bind_ok,
    coverTris0_ok _ _ d turns 0 (-1) _ _ _ _ (by omega) (by omega), Res.bind_ok,
    coverTris0_ok _ _ d turns (turns * (Real.pi * 2)) 1 _ _ _ _ (by omega) (by omega)]
  simp only [ext_ext, ext_len, List.append_nil, List.nil_append]
  congr 2
  · simp only [spiralParts, allVs, List.flatMap_cons, List.flatMap_nil, List.append_nil, List.append_assoc]; rfl
  · simp only [spiralParts, asm, List.append_nil, List.append_assoc, List.length_append, Nat.add_assoc]; rfl

/-- C47: the spiral is appended: the mantle and, unless they have no segments, the covers of the two ends. -/
theorem C47_spiral (d : SpiralDesc) (m : M) (hN : max 0 d.turns * (max 3 d.segsX : ℕ) < 2 ^ 32 - 1) (hV : max 3 d.segsY + 1 < 2 ^ 32)
    (hB : d.bottomCov + 1 < 2 ^ 32) (hT : d.topCov + 1 < 2 ^ 32) :
    let turns := max 0 d.turns
    let U := max 3 d.segsX
    let V := max 3 d.segsY
    let N := ⌊turns * U⌋₊
    let covV := fun C => if C = 0 then 0 else 1 + (V + 1) * C
    ∃ m', genSpiral d m = .ok m' ∧
      Grows m m' ((N + 1) * (V + 1) + covV d.bottomCov + covV d.topCov) (2 * (N * V) + V * (2 * d.bottomCov - 1) + V * (2 * d.topCov - 1))
        (fun v => (∃ theta phi, 0 ≤ phi ∧ phi ≤ 2 * Real.pi * turns ∧ v.position = spiralPoint d.ringRadius d.tubeRadius d.displacement turns theta phi) ∨
          ∃ s theta phi, 0 ≤ s ∧ s ≤ 1 ∧ (phi = 0 ∨ phi = 2 * Real.pi * turns) ∧
            v.position = spiralDisc d.ringRadius d.tubeRadius d.displacement turns s theta phi) ∧
      ((V + 1) * (N + 1) ≤ 2 ^ 32 → 2 * d.bottomCov ≤ 2 ^ 32 → 2 * d.topCov ≤ 2 ^ 32 →
        let S := fun v u : ℕ => spiralPoint d.ringRadius d.tubeRadius d.displacement turns (2 * Real.pi * v / V) (2 * Real.pi * u / U)
        let cov := fun (top : Bool) (C : ℕ) (phi : ℝ) => if C = 0 then [] else
          disc top d.alternateGrid V C (spiralCenter d.ringRadius d.displacement turns phi) fun v j =>
            spiralDisc d.ringRadius d.tubeRadius d.displacement turns (j / C) (2 * Real.pi * v / V) phi
        NewFaces m m' ((grid V N fun v u => quad d.alternateGrid u v (S v (u + 1)) (S v u) (S (v + 1) u) (S (v + 1) (u + 1))) ++
          cov false d.bottomCov 0 ++ cov true d.topCov (turns * (Real.pi * 2)))) := by
  intro turns U V N covV
  have ht : 0 ≤ turns := le_max_left _ _
  have h3 : 3 ≤ U := le_max_left _ _
  have hU0 : (0 : ℝ) < U := by exact_mod_cast (show 0 < U by omega)
  have hNle : (N : ℝ) ≤ turns * U := Nat.floor_le (by positivity)
  let ps : List Part := [spiralP d turns U V N, coverP0 false d.alternateGrid d turns 0 (-1) V d.bottomCov,
    coverP0 true d.alternateGrid d turns (turns * (Real.pi * 2)) 1 V d.topCov]
  refine ⟨ext m (allVs ps) (asm m.vertices.length ps), ?_, ?_, ?_⟩
  · exact genSpiral_ok d m hN hV hB hT
  · have := asm_grows m ps (fun v => (∃ theta phi, 0 ≤ phi ∧ phi ≤ 2 * Real.pi * turns ∧ v.position = spiralPoint d.ringRadius d.tubeRadius d.displacement turns theta phi) ∨
          ∃ s theta phi, 0 ≤ s ∧ s ≤ 1 ∧ (phi = 0 ∨ phi = 2 * Real.pi * turns) ∧
            v.position = spiralDisc d.ringRadius d.tubeRadius d.displacement turns s theta phi) (by
      intro p hp
      simp only [ps, List.mem_cons, List.not_mem_nil, or_false] at hp
      rcases hp with rfl | rfl | rfl
      · intro off
        refine ⟨gridTrisIx_length .., fun t ht i hi => ?_⟩
        have := gridTrisIx_mem _ _ _ _ _ ht i hi
        simpa [spiralP, gridV_length] using this
      · exact coverP0_valid _ _ _ _ _ _ _ _
      · exact coverP0_valid _ _ _ _ _ _ _ _) (by
      intro p hp x hx
      simp only [ps, List.mem_cons, List.not_mem_nil, or_false] at hp
      rcases hp with rfl | rfl | rfl
      · obtain ⟨v, u, _, hu, rfl⟩ := gridV_mem.1 hx
        refine .inl ⟨turn V v, turn U u, by unfold turn; positivity, ?_, rfl⟩
        have : (u : ℝ) ≤ N := by exact_mod_cast (show u ≤ N by omega)
        have h2 : (u : ℝ) / U ≤ turns := by rw [div_le_iff₀ hU0]; linarith
        have e : turn U u = 2 * Real.pi * (u / U) := by unfold turn; ring
        rw [e]
        exact mul_le_mul_of_nonneg_left h2 (by positivity)
      · obtain ⟨s, theta, h0, h1, e⟩ := coverP0_mem _ _ _ _ _ _ _ _ hx
        exact .inr ⟨s, theta, 0, h0, h1, .inl rfl, e⟩
      · obtain ⟨s, theta, h0, h1, e⟩ := coverP0_mem _ _ _ _ _ _ _ _ hx
        exact .inr ⟨s, theta, _, h0, h1, .inr (by ring), e⟩)
    convert this using 1
    · simp only [ps, covV, spiralP, coverP0_len, gridV_length, List.map_cons, List.map_nil, List.sum_cons, List.sum_nil]; ring
    · simp [ps, spiralP, coverP0_nt, Nat.add_assoc]
  · intro r1 r2 r3
    have := asm_faces m ps (by
      intro p hp
      simp only [ps, List.mem_cons, List.not_mem_nil, or_false] at hp
      rcases hp with rfl | rfl | rfl
      · exact fun _ _ hs => gridTrisIx_faces _ _ _ _ _ hs r1
      · exact coverP0_faces _ _ _ _ _ _ _ _ r2
      · exact coverP0_faces _ _ _ _ _ _ _ _ r3)
    simp only [ps, List.flatMap_cons, List.flatMap_nil, List.append_nil, coverP0_fs, ← List.append_assoc] at this
    exact this

/-- The default spiral. -/
example : max (0 : ℝ) 2 * (max 3 20 : ℕ) < 2 ^ 32 - 1 := by norm_num

/-- C47: too many segments: the conversion of the number of segments is undefined. -/
theorem C47_spiral_refuted (d : SpiralDesc) (m : M) (h : 2 ^ 32 ≤ max 0 d.turns * (max 3 d.segsX : ℕ)) : genSpiral d m = .ub := by
  simp only [genSpiral]
  rw [if_neg (not_lt.2 h)]
  rfl

example := C47_spiral_refuted ⟨⟨4, 4⟩, ⟨1, 1, 1⟩, 3, 2 ^ 32, 8, 6, 1, 2, true⟩ ⟨[], []⟩ (by norm_num)


end Geom.Gen
