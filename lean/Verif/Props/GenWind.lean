import Verif.Props.GenRound
import Verif.Spec.Winding

/-
  Orientation of triangles, part 1: triangles of the parts of a mesh, surfaces of revolution.
-/
set_option autoImplicit false
set_option linter.unusedSectionVars false

namespace Geom.Gen
open TMesh (Mesh Vertex Ix)
open Spec

/-- The corners of a triangle exist and have the property. -/
def Has (m : M) (Q : Vertex ℝ → Vertex ℝ → Vertex ℝ → Prop) (t : Ix) : Prop := ∃ a b c,
  m.vertices[t.a]? = some a ∧ m.vertices[t.b]? = some b ∧ m.vertices[t.c]? = some c ∧ Q a b c

/-- Each of the triangles into which a quad may be cut has the property. -/
structure Quad4 (Q : Vertex ℝ → Vertex ℝ → Vertex ℝ → Prop) (p0 p1 p2 p3 : Vertex ℝ) : Prop where
  q012 : Q p0 p1 p2
  q023 : Q p0 p2 p3
  q013 : Q p0 p1 p3
  q123 : Q p1 p2 p3

section
variable {m : M} {Q : Vertex ℝ → Vertex ℝ → Vertex ℝ → Prop}

theorem quad_has (alt : Bool) (u v : ℕ) {a b c d : ℕ} {x y z w : Vertex ℝ} (ha : m.vertices[a]? = some x)
    (hb : m.vertices[b]? = some y) (hc : m.vertices[c]? = some z) (hd : m.vertices[d]? = some w) (h : Quad4 Q x y z w)
    {t : Ix} (ht : t ∈ quadIx alt u v a b c d) : Has m Q t := by
  unfold quadIx at ht
  split_ifs at ht <;> simp only [List.mem_cons, List.not_mem_nil, or_false] at ht <;> rcases ht with rfl | rfl
  · exact ⟨_, _, _, ha, hb, hd, h.q013⟩
  · exact ⟨_, _, _, hb, hc, hd, h.q123⟩
  · exact ⟨_, _, _, ha, hb, hc, h.q012⟩
  · exact ⟨_, _, _, ha, hc, hd, h.q023⟩

/-- The quad of a cell, with the corners in reverse order if it is flipped. -/
def CellQ (Q : Vertex ℝ → Vertex ℝ → Vertex ℝ → Prop) (flip : Bool) (x y z w : Vertex ℝ) : Prop :=
  if flip then Quad4 Q y x w z else Quad4 Q x y z w

theorem cell_has (flip alt : Bool) (u v : ℕ) {a b c d : ℕ} {x y z w : Vertex ℝ} (ha : m.vertices[a]? = some x)
    (hb : m.vertices[b]? = some y) (hc : m.vertices[c]? = some z) (hd : m.vertices[d]? = some w) (h : CellQ Q flip x y z w)
    {t : Ix} (ht : t ∈ cellIx flip alt u v a b c d) : Has m Q t := by
  unfold cellIx at ht
  unfold CellQ at h
  split_ifs at ht h
  · exact quad_has alt u v hb ha hd hc h ht
  · exact quad_has alt u v ha hb hc hd h ht

theorem gridTrisIx_has (flip alt : Bool) (U V off : ℕ) {f : ℕ → ℕ → Vertex ℝ} (h : Stored m off (gridV (V + 1) (U + 1) f))
    (hb : (V + 1) * (U + 1) ≤ 2 ^ 32)
    (hq : ∀ v u, v < V → u < U → CellQ Q flip (f v u) (f v (u + 1)) (f (v + 1) (u + 1)) (f (v + 1) u)) :
    ∀ t ∈ gridTrisIx flip alt U V off, Has m Q t := by
  intro t ht
  obtain ⟨v, u, hv, hu, ht⟩ := gridT_mem.1 ht
  exact cell_has flip alt u v (stored_grid32 h hb (by omega) (by omega) rfl) (stored_grid32 h hb (by omega) (by omega) rfl)
    (stored_grid32 h hb (by omega) (by omega) rfl) (stored_grid32 h hb (by omega) (by omega) rfl) (hq v u hv hu) ht

theorem faceTrisIx_has (back alt : Bool) (H V off : ℕ) {f : ℕ → ℕ → Vertex ℝ} (h : Stored m off (gridV (V + 1) (H + 1) f))
    (hb : (V + 1) * (H + 1) ≤ 2 ^ 32)
    (hq : ∀ v u, v < V → u < H → CellQ Q back (f v u) (f (v + 1) u) (f (v + 1) (u + 1)) (f v (u + 1))) :
    ∀ t ∈ faceTrisIx back alt H V off, Has m Q t := by
  intro t ht
  obtain ⟨v, u, hv, hu, ht⟩ := gridT_mem.1 ht
  exact cell_has back alt u v (stored_grid32 h hb (by omega) (by omega) rfl) (stored_grid32 h hb (by omega) (by omega) rfl)
    (stored_grid32 h hb (by omega) (by omega) rfl) (stored_grid32 h hb (by omega) (by omega) rfl) (hq v u hv hu) ht

theorem mantleTrisIx_has (flip alt : Bool) (H V off : ℕ) {f : ℕ → ℕ → Vertex ℝ} (h : Stored m off (gridV (H + 1) (V + 1) f))
    (hb : 2 * (V + 1) ≤ 2 ^ 32)
    (hq : ∀ u v, u < H → v < V → CellQ Q flip (f (u + 1) v) (f u v) (f u (v + 1)) (f (u + 1) (v + 1))) :
    ∀ t ∈ mantleTrisIx flip alt H V off, Has m Q t := by
  intro t ht
  obtain ⟨u, v, hu, hv, ht⟩ := gridT_mem.1 ht
  have e : ∀ a b, off + u * (1 + V) + (a * (V + 1) + b) = off + ((u + a) * (V + 1) + b) := fun a b => by ring
  have l0 := stored_grid h (r := u + 1) (c := v) (by omega) (by omega)
  have l1 := stored_grid h (r := u) (c := v) (by omega) (by omega)
  have l2 := stored_grid h (r := u) (c := v + 1) (by omega) (by omega)
  have l3 := stored_grid h (r := u + 1) (c := v + 1) (by omega) (by omega)
  refine cell_has flip alt u v ?_ ?_ ?_ ?_ (hq u v hu hv) ht
  · rw [← l0, w32_of_lt (by omega), show v + 1 + V = 1 * (V + 1) + v by ring, e]
  · rw [← l1]; congr 1; ring
  · rw [← l2, w32_of_lt (by omega)]; congr 1; ring
  · rw [← l3, w32_of_lt (by omega), show v + 2 + V = 1 * (V + 1) + (v + 1) by ring, e]

theorem ringTrisIx_has (top alt : Bool) (H V off : ℕ) {f : ℕ → ℕ → Vertex ℝ} (h : Stored m off (gridV (H + 1) (V + 1) f))
    (hb : 2 * (V + 1) ≤ 2 ^ 32)
    (hq : ∀ u v, u < H → v < V → CellQ Q top (f u v) (f (u + 1) v) (f (u + 1) (v + 1)) (f u (v + 1))) :
    ∀ t ∈ ringTrisIx top alt H V off, Has m Q t := by
  intro t ht
  obtain ⟨u, v, hu, hv, ht⟩ := gridT_mem.1 ht
  have e : ∀ a b, off + u * (V + 1) + (a * (V + 1) + b) = off + ((u + a) * (V + 1) + b) := fun a b => by ring
  have l0 := stored_grid h (r := u + 1) (c := v) (by omega) (by omega)
  have l1 := stored_grid h (r := u) (c := v) (by omega) (by omega)
  have l2 := stored_grid h (r := u) (c := v + 1) (by omega) (by omega)
  have l3 := stored_grid h (r := u + 1) (c := v + 1) (by omega) (by omega)
  refine cell_has top alt u v ?_ ?_ ?_ ?_ (hq u v hu hv) ht
  · rw [← l1]; congr 1; ring
  · rw [← l0, w32_of_lt (by omega), show v + 1 + V = 1 * (V + 1) + v by ring, e]
  · rw [← l3, w32_of_lt (by omega), show v + 2 + V = 1 * (V + 1) + (v + 1) by ring, e]
  · rw [← l2, w32_of_lt (by omega)]; congr 1; ring

theorem discTrisIx_has (top alt : Bool) (H C off : ℕ) {center : Vertex ℝ} {f : ℕ → ℕ → Vertex ℝ} (h : Stored m off (discV H C center f)) (h1 : 1 ≤ C)
    (hb : 2 * C ≤ 2 ^ 32)
    (hc : ∀ u, u < H → if top then Q center (f u 1) (f (u + 1) 1) else Q (f (u + 1) 1) (f u 1) center)
    (hq : ∀ u v, u < H → 1 ≤ v → v < C → CellQ Q top (f u v) (f (u + 1) v) (f (u + 1) (v + 1)) (f u (v + 1))) :
    ∀ t ∈ discTrisIx top alt H C off, Has m Q t := by
  have lc : m.vertices[off]? = some center := by
    have := h 0 (by simp [discV])
    simpa [discV] using this
  have lg : ∀ u j, u ≤ H → j < C → m.vertices[off + 1 + u * C + j]? = some (f u (j + 1)) := by
    intro u j hu hj
    have hl : u * C + j < (H + 1) * C := grid_lt (by omega) hj
    have := h (u * C + j + 1) (by simp [discV, gridV_length]; omega)
    simp only [discV, List.getElem?_cons_succ] at this
    rw [gridV_get (H + 1) C _ u j (by omega) hj] at this
    rw [← this]; congr 1; ring
  have e : ∀ u j, off + 1 + u * C + (j + C) = off + 1 + (u + 1) * C + j := fun u j => by ring
  intro t ht
  obtain ⟨u, hu, ht⟩ := mem_tab.1 ht
  simp only [Nat.zero_add] at ht
  rcases List.mem_cons.1 ht with rfl | ht
  · have a := lg u 0 (by omega) (by omega)
    have b := lg (u + 1) 0 (by omega) (by omega)
    rw [← e, Nat.zero_add] at b
    have := hc u hu
    cases top
    · exact ⟨_, _, _, b, a, lc, by simpa using this⟩
    · exact ⟨_, _, _, lc, a, b, by simpa using this⟩
  · obtain ⟨j, hj, ht⟩ := mem_tab.1 ht
    rw [Nat.add_comm 1 j] at ht
    have a := lg u j (by omega) (by omega)
    have b := lg (u + 1) j (by omega) (by omega)
    have c := lg (u + 1) (j + 1) (by omega) (by omega)
    have d := lg u (j + 1) (by omega) (by omega)
    rw [← e] at b c
    rw [← w32_of_lt (show j + C < 2 ^ 32 by omega)] at b
    rw [← w32_of_lt (show j + 1 + C < 2 ^ 32 by omega)] at c
    exact cell_has top alt u (j + 1) a b c d (hq u (j + 1) hu (by omega) (by omega)) ht

theorem coneTrisIx_has (alt : Bool) (H V off : ℕ) {tips : ℕ → Vertex ℝ} {f : ℕ → ℕ → Vertex ℝ}
    (h : Stored m off (coneV H V tips f)) (h1 : 1 ≤ V) (hb : 2 * (V + 1) ≤ 2 ^ 32)
    (hc : ∀ u, u < H → Q (tips u) (f u 1) (f (u + 1) 1))
    (hq : ∀ u v, u < H → 1 ≤ v → v < V → Quad4 Q (f (u + 1) v) (f u v) (f u (v + 1)) (f (u + 1) (v + 1))) :
    ∀ t ∈ coneTrisIx alt H V off, Has m Q t := by
  have lt : ∀ u, u < H → m.vertices[off + u * (1 + V) + V]? = some (tips u) := by
    intro u hu
    have h3 := Nat.mul_le_mul_right (V + 1) (show u + 1 ≤ H by omega)
    have h4 : (u + 1) * (V + 1) = u * (V + 1) + (1 + V) := by ring
    rw [h4] at h3
    have := h (u * (V + 1) + V) (by rw [coneV_length]; omega)
    rw [coneV_tip H V tips f u hu] at this
    rw [← this]; congr 1; ring
  have lg : ∀ u j, u ≤ H → j < V → m.vertices[off + u * (1 + V) + j]? = some (f u (j + 1)) := by
    intro u j hu hj
    have h3 := Nat.mul_le_mul_right (V + 1) hu
    have := h (u * (V + 1) + j) (by rw [coneV_length]; omega)
    rw [coneV_get H V tips f u j hu hj] at this
    rw [← this]; congr 1; ring
  have e : ∀ u j, off + u * (1 + V) + (j + 1 + V) = off + (u + 1) * (1 + V) + j := fun u j => by ring
  intro t ht
  obtain ⟨u, hu, ht⟩ := mem_tab.1 ht
  simp only [Nat.zero_add] at ht
  rcases List.mem_cons.1 ht with rfl | ht
  · have a := lg u 0 (by omega) (by omega)
    have b := lg (u + 1) 0 (by omega) (by omega)
    rw [← e, Nat.zero_add, ← Nat.add_assoc] at b
    exact ⟨_, _, _, lt u hu, a, b, hc u hu⟩
  · obtain ⟨j, hj, ht⟩ := mem_tab.1 ht
    rw [Nat.add_comm 1 j] at ht
    have a := lg u j (by omega) (by omega)
    have b := lg (u + 1) j (by omega) (by omega)
    have c := lg (u + 1) (j + 1) (by omega) (by omega)
    have d := lg u (j + 1) (by omega) (by omega)
    rw [← e] at b c
    rw [← w32_of_lt (show j + 1 + V < 2 ^ 32 by omega)] at b
    rw [← w32_of_lt (show j + 1 + 1 + V < 2 ^ 32 by omega)] at c
    exact quad_has alt u (j + 1) b a d c (hq u (j + 1) hu (by omega) (by omega)) ht

/-- The triangles of a part have the property. -/
def Part.Winds (p : Part) (Q : Vertex ℝ → Vertex ℝ → Vertex ℝ → Prop) : Prop := ∀ (m : M) off, Stored m off p.vs → ∀ t ∈ p.ts off, Has m Q t

theorem none_winds : Part.none.Winds Q := by intro m off _ t ht; cases ht

theorem asm_winds (m : M) (ps : List Part) (h : ∀ p ∈ ps, p.Winds Q) (hn : asm m.vertices.length ps ≠ []) :
    AddsTriangles m (ext m (allVs ps) (asm m.vertices.length ps)) Q := by
  refine ⟨_, hn, rfl, ?_⟩
  generalize hts : m.triangles ++ asm m.vertices.length ps = ts
  have key : ∀ (ps : List Part) (pre : List (Vertex ℝ)), (∀ p ∈ ps, p.Winds Q) →
      ∀ t ∈ asm pre.length ps, Has ⟨pre ++ allVs ps, ts⟩ Q t := by
    intro ps
    induction ps with
    | nil => intro pre _ t ht; cases ht
    | cons p ps ih =>
      intro pre h t ht
      rcases List.mem_append.1 ht with ht | ht
      · refine h p (by simp) ⟨pre ++ allVs (p :: ps), ts⟩ pre.length ?_ t ht
        have := stored_append pre p.vs (allVs ps) ts
        simpa [allVs] using this
      · have := ih (pre ++ p.vs) (fun x hx => h x (by simp [hx])) t (by rwa [List.length_append])
        rwa [List.append_assoc] at this
  rw [ext, hts]
  exact key ps m.vertices h

theorem ne_nil_of_length {α : Type} {l : List α} {n : ℕ} (h : l.length = n) (hn : n ≠ 0) : l ≠ [] := by
  rintro rfl; exact hn h.symm

/-- Triangles of a mesh of a single part. -/
theorem adds_of (m : M) (vs : List (Vertex ℝ)) (ts : List Ix) (hn : ts ≠ []) (h : ∀ m' : M, Stored m' m.vertices.length vs → ∀ t ∈ ts, Has m' Q t) :
    AddsTriangles m (ext m vs ts) Q := by
  refine ⟨_, hn, rfl, h _ ?_⟩
  have := stored_append m.vertices vs [] (m.triangles ++ ts)
  rwa [List.append_nil] at this

end

/-! Surfaces of revolution (with two radii). -/

/-- The position, and the direction assigned to a vertex: in the half plane at the angle `phi`, at the distance `rho` from the
axis and the height `y`. -/
structure Rev (r : V2 ℝ) (dir : Vertex ℝ → V3 ℝ) (x : Vertex ℝ) (rho y al be phi : ℝ) : Prop where
  pos : x.position = ⟨r.x * rho * Real.sin phi, y, r.y * rho * Real.cos phi⟩
  dir : dir x = ⟨r.x * al * Real.sin phi, be, r.y * al * Real.cos phi⟩

theorem facet_cycle (a b c : V3 ℝ) : facet b c a = facet a b c := by
  simp only [facet]; ext <;> simp <;> ring

theorem facet_swap (a b c : V3 ℝ) : facet b a c = -facet a b c := by
  simp only [facet]; ext <;> simp <;> ring

theorem inFront_cycle {dir : Vertex ℝ → V3 ℝ} {a b c : Vertex ℝ} (h : InFront dir a b c) : InFront dir b c a := by
  obtain ⟨h1, h2, h3⟩ := h
  simp only [InFront, facet_cycle]
  exact ⟨h2, h3, h1⟩

theorem inFrontOrFlat_cycle {dir : Vertex ℝ → V3 ℝ} {a b c : Vertex ℝ} (h : InFrontOrFlat dir a b c) : InFrontOrFlat dir b c a := by
  rcases h with h | h
  · left; tauto
  · exact .inr (inFront_cycle h)

section rev
variable {r : V2 ℝ} {dir : Vertex ℝ → V3 ℝ} {a b c : Vertex ℝ}

/-- Two corners in one row and the third one in another row, in one of the two columns. -/
theorem rev_facet {rho y rho' y' al be f0 f1 psi : ℝ} (r : V2 ℝ) (hk : psi = f0 ∨ psi = f1) {f : ℝ} (hf : f = f0 ∨ f = f1) :
    V3.dot (facet ⟨r.x * rho * Real.sin f0, y, r.y * rho * Real.cos f0⟩ ⟨r.x * rho * Real.sin f1, y, r.y * rho * Real.cos f1⟩
      ⟨r.x * rho' * Real.sin f, y', r.y * rho' * Real.cos f⟩) ⟨r.x * al * Real.sin psi, be, r.y * al * Real.cos psi⟩ =
      r.x * r.y * rho * (Real.sin (f1 - f0) * (al * (y' - y) + be * (rho - rho'))) := by
  rw [Real.sin_sub]
  rcases hk with rfl | rfl <;> rcases hf with rfl | rfl <;> simp only [facet, V3.dot, V3.cross_x, V3.cross_y, V3.cross_z, V3.sub_x, V3.sub_y, V3.sub_z] <;> ring

/-- A triangle with two corners in the first row. -/
theorem rev_tri {rho0 y0 al0 be0 rho1 y1 al1 be1 f0 f1 f : ℝ} (hr : 0 < r.x * r.y) (h0 : 0 < rho0) (hf : f = f0 ∨ f = f1)
    (ha : Rev r dir a rho0 y0 al0 be0 f0) (hb : Rev r dir b rho0 y0 al0 be0 f1) (hc : Rev r dir c rho1 y1 al1 be1 f)
    (g0 : 0 < Real.sin (f1 - f0) * (al0 * (y1 - y0) + be0 * (rho0 - rho1)))
    (g1 : 0 < Real.sin (f1 - f0) * (al1 * (y1 - y0) + be1 * (rho0 - rho1))) : InFront dir a b c := by
  have hp : 0 < r.x * r.y * rho0 := mul_pos hr h0
  simp only [InFront, ha.pos, hb.pos, hc.pos, ha.dir, hb.dir, hc.dir]
  rw [rev_facet r (.inl rfl) hf, rev_facet r (.inr rfl) hf, rev_facet r hf hf]
  exact ⟨mul_pos hp g0, mul_pos hp g0, mul_pos hp g1⟩

/-- The corners coincide if the first row is a point. -/
theorem rev_flat {y0 al0 be0 f0 f1 : ℝ} (ha : Rev r dir a 0 y0 al0 be0 f0) (hb : Rev r dir b 0 y0 al0 be0 f1) :
    a.position = b.position := by
  rw [ha.pos, hb.pos]
  ext <;> simp

theorem rev_tri' {rho0 y0 al0 be0 rho1 y1 al1 be1 f0 f1 f : ℝ} (hr : 0 < r.x * r.y) (h0 : 0 ≤ rho0) (hf : f = f0 ∨ f = f1)
    (ha : Rev r dir a rho0 y0 al0 be0 f0) (hb : Rev r dir b rho0 y0 al0 be0 f1) (hc : Rev r dir c rho1 y1 al1 be1 f)
    (g0 : 0 < Real.sin (f1 - f0) * (al0 * (y1 - y0) + be0 * (rho0 - rho1)))
    (g1 : 0 < Real.sin (f1 - f0) * (al1 * (y1 - y0) + be1 * (rho0 - rho1))) : InFrontOrFlat dir a b c := by
  rcases h0.eq_or_lt with rfl | h0
  · exact .inl (.inl (rev_flat ha hb))
  · exact .inr (rev_tri hr h0 hf ha hb hc g0 g1)

theorem rev_neg {f0 f1 al y0 y1 be rho0 rho1 : ℝ} (g : 0 < Real.sin (f1 - f0) * (al * (y1 - y0) + be * (rho0 - rho1))) :
    0 < Real.sin (f0 - f1) * (al * (y0 - y1) + be * (rho1 - rho0)) := by
  rw [← neg_sub f1 f0, Real.sin_neg]
  convert g using 1
  ring

variable {x y z w : Vertex ℝ} {rho0 y0 al0 be0 rho1 y1 al1 be1 f0 f1 : ℝ}

/-- A cell: two rows and two columns. -/
theorem rev_quad (hr : 0 < r.x * r.y) (h0 : 0 < rho0) (h1 : 0 < rho1)
    (hx : Rev r dir x rho0 y0 al0 be0 f0) (hy : Rev r dir y rho0 y0 al0 be0 f1)
    (hz : Rev r dir z rho1 y1 al1 be1 f1) (hw : Rev r dir w rho1 y1 al1 be1 f0)
    (g0 : 0 < Real.sin (f1 - f0) * (al0 * (y1 - y0) + be0 * (rho0 - rho1)))
    (g1 : 0 < Real.sin (f1 - f0) * (al1 * (y1 - y0) + be1 * (rho0 - rho1))) : Quad4 (InFront dir) x y z w :=
  ⟨rev_tri hr h0 (.inr rfl) hx hy hz g0 g1,
   inFront_cycle (inFront_cycle (rev_tri hr h1 (.inr rfl) hz hw hx (rev_neg g1) (rev_neg g0))),
   rev_tri hr h0 (.inl rfl) hx hy hw g0 g1,
   inFront_cycle (inFront_cycle (rev_tri hr h1 (.inl rfl) hz hw hy (rev_neg g1) (rev_neg g0)))⟩

theorem rev_quad' (hr : 0 < r.x * r.y) (h0 : 0 ≤ rho0) (h1 : 0 ≤ rho1)
    (hx : Rev r dir x rho0 y0 al0 be0 f0) (hy : Rev r dir y rho0 y0 al0 be0 f1)
    (hz : Rev r dir z rho1 y1 al1 be1 f1) (hw : Rev r dir w rho1 y1 al1 be1 f0)
    (g0 : 0 < Real.sin (f1 - f0) * (al0 * (y1 - y0) + be0 * (rho0 - rho1)))
    (g1 : 0 < Real.sin (f1 - f0) * (al1 * (y1 - y0) + be1 * (rho0 - rho1))) : Quad4 (InFrontOrFlat dir) x y z w :=
  ⟨rev_tri' hr h0 (.inr rfl) hx hy hz g0 g1,
   inFrontOrFlat_cycle (inFrontOrFlat_cycle (rev_tri' hr h1 (.inr rfl) hz hw hx (rev_neg g1) (rev_neg g0))),
   rev_tri' hr h0 (.inl rfl) hx hy hw g0 g1,
   inFrontOrFlat_cycle (inFrontOrFlat_cycle (rev_tri' hr h1 (.inl rfl) hz hw hy (rev_neg g1) (rev_neg g0)))⟩

end rev

theorem has_mono {m : M} {Q Q' : Vertex ℝ → Vertex ℝ → Vertex ℝ → Prop} (hq : ∀ a b c, Q a b c → Q' a b c) {t : Ix} (h : Has m Q t) : Has m Q' t := by
  obtain ⟨a, b, c, h1, h2, h3, h⟩ := h
  exact ⟨a, b, c, h1, h2, h3, hq _ _ _ h⟩

theorem winds_mono {p : Part} {Q Q' : Vertex ℝ → Vertex ℝ → Vertex ℝ → Prop} (hq : ∀ a b c, Q a b c → Q' a b c) (h : p.Winds Q) : p.Winds Q' :=
  fun m off hs t ht => has_mono hq (h m off hs t ht)

theorem adds_mono {m m' : M} {Q Q' : Vertex ℝ → Vertex ℝ → Vertex ℝ → Prop} (hq : ∀ a b c, Q a b c → Q' a b c) (h : AddsTriangles m m' Q) :
    AddsTriangles m m' Q' := by
  obtain ⟨ts, h1, h2, h3⟩ := h
  exact ⟨ts, h1, h2, fun t ht => has_mono hq (h3 t ht)⟩

/-! The parts. -/

section parts
variable {a b : ℝ} {r : V2 ℝ} {ang : ℕ → ℝ}

theorem mantleP_winds (ha : 0 < a) (hr : 0 < r.x * r.y) (flip alt : Bool) (h side : ℝ) (H V : ℕ) (hh : 0 < h) (hV : 1 ≤ V)
    (hs : side = if flip then -1 else 1) (hb : 2 * (V + 1) ≤ 2 ^ 32) {k : ℝ} (hk : 0 < k) (hang : ∀ u, u < H → 0 < Real.sin (ang (u + 1) - ang u))
    (q : V2 ℝ) (hq : q = scaled k r) :
    (mantleP flip alt ang q h side H V).Winds (InFront (stretched a b r)) := by
  subst hq
  intro m off hst
  refine mantleTrisIx_has flip alt H V off hst hb ?_
  intro u v hu hv
  have hV' : (0 : ℝ) < V := by exact_mod_cast hV
  have R : ∀ i j, Rev r (stretched a b r) (mantleV ang (scaled k r) h side H V i j) k (h / 2 - h * (j / V)) (a * side) 0 (ang i) := by
    intro i j
    constructor
    · simp only [mantleV, atAngle, scaled, V3.mk.injEq]
      exact ⟨by ring, trivial, by ring⟩
    · simp only [mantleV, stretched]
      ext <;> simp <;> ring
  have hy : h / 2 - h * (((v + 1 : ℕ) : ℝ) / V) - (h / 2 - h * ((v : ℝ) / V)) = -(h / V) := by push_cast; field_simp; ring
  have hp : 0 < h / V := by positivity
  have hs' := hang u hu
  unfold CellQ
  cases flip
  · simp only [Bool.false_eq_true, if_false] at hs ⊢
    subst hs
    refine rev_quad hr hk hk (R _ _) (R _ _) (R _ _) (R _ _) ?_ ?_ <;>
    · rw [hy, ← neg_sub (ang (u + 1)), Real.sin_neg]
      have := mul_pos hs' (mul_pos ha hp)
      linarith
  · simp only [if_true] at hs ⊢
    subst hs
    refine rev_quad hr hk hk (R _ _) (R _ _) (R _ _) (R _ _) ?_ ?_ <;>
    · rw [hy]
      have := mul_pos hs' (mul_pos ha hp)
      linarith

theorem discP0_winds (hb0 : 0 < b) (hr : 0 < r.x * r.y) (top alt : Bool) (y side : ℝ) (H C : ℕ) (hs : side = if top then 1 else -1)
    (hb : 2 * C ≤ 2 ^ 32) (hang : ∀ u, u < H → 0 < Real.sin (ang (u + 1) - ang u)) :
    (discP0 top alt ang r y side H C).Winds (InFront (stretched a b r)) := by
  unfold discP0
  split_ifs with hC
  · exact none_winds
  intro m off hst
  have hC' : (0 : ℝ) < C := by exact_mod_cast Nat.pos_of_ne_zero hC
  have R : ∀ i j, Rev r (stretched a b r) (discVx ang r y side top C i j) (j / C) y 0 (b * side) (ang i) := by
    intro i j
    constructor
    · simp only [discVx, atAngle, scaled, V3.mk.injEq]
      exact ⟨by ring, trivial, by ring⟩
    · simp only [discVx, stretched]
      ext <;> simp
  have R0 : ∀ phi, Rev r (stretched a b r) (discCenter y side) 0 y 0 (b * side) phi := by
    intro phi
    constructor
    · simp [discCenter]
    · simp only [discCenter, stretched]
      ext <;> simp
  refine discTrisIx_has top alt H C off hst (by omega) hb ?_ ?_
  · intro u hu
    have hs' := hang u hu
    have hp : (0 : ℝ) < ((1 : ℕ) : ℝ) / C := by positivity
    cases top
    · simp only [Bool.false_eq_true, if_false] at hs ⊢
      subst hs
      refine rev_tri hr hp (.inl rfl) (R _ _) (R _ _) (R0 _) ?_ ?_ <;>
      · rw [← neg_sub (ang (u + 1)), Real.sin_neg]
        have := mul_pos hs' (mul_pos hb0 hp)
        linarith
    · simp only [if_true] at hs ⊢
      subst hs
      refine inFront_cycle (inFront_cycle (rev_tri hr hp (.inl rfl) (R _ _) (R _ _) (R0 _) ?_ ?_)) <;>
      · have := mul_pos hs' (mul_pos hb0 hp)
        linarith
  · intro u v hu hv1 hv
    have hs' := hang u hu
    have hp : (0 : ℝ) < (v : ℝ) / C := div_pos (by exact_mod_cast hv1) hC'
    have hp' : (0 : ℝ) < ((v + 1 : ℕ) : ℝ) / C := by positivity
    have hd : (v : ℝ) / C - ((v + 1 : ℕ) : ℝ) / C = -(1 / C) := by push_cast; field_simp; ring
    have hc : (0 : ℝ) < 1 / C := by positivity
    unfold CellQ
    cases top
    · simp only [Bool.false_eq_true, if_false] at hs ⊢
      subst hs
      refine rev_quad hr hp hp' (R _ _) (R _ _) (R _ _) (R _ _) ?_ ?_ <;>
      · rw [hd]
        have := mul_pos hs' (mul_pos hb0 hc)
        linarith
    · simp only [if_true] at hs ⊢
      subst hs
      refine rev_quad hr hp hp' (R _ _) (R _ _) (R _ _) (R _ _) ?_ ?_ <;>
      · rw [hd, ← neg_sub (ang (u + 1)), Real.sin_neg]
        have := mul_pos hs' (mul_pos hb0 hc)
        linarith

theorem ringP0_winds (hb0 : 0 < b) (hr : 0 < r.x * r.y) (top alt : Bool) (y side : ℝ) (H C : ℕ) {k : ℝ} (hk : 0 < k) (hk1 : k < 1)
    (hs : side = if top then 1 else -1) (hb : 2 * (C + 1) ≤ 2 ^ 32) (hang : ∀ u, u < H → 0 < Real.sin (turn H (u + 1) - turn H u)) :
    (ringP0 top alt (scaled k r) r y side H C).Winds (InFront (stretched a b r)) := by
  unfold ringP0
  split_ifs with hC
  · exact none_winds
  intro m off hst
  have hC' : (0 : ℝ) < C := by exact_mod_cast Nat.pos_of_ne_zero hC
  have R : ∀ i j, Rev r (stretched a b r) (ringVx (scaled k r) r y side top H C i j) ((1 - j / C) * k + j / C) y 0 (b * side) (turn H i) := by
    intro i j
    constructor
    · simp only [ringVx, atAngle, scaled, between, V3.mk.injEq]
      exact ⟨by ring, trivial, by ring⟩
    · simp only [ringVx, stretched]
      ext <;> simp
  refine ringTrisIx_has top alt H C off hst hb ?_
  intro u v hu hv
  have hs' := hang u hu
  obtain ⟨l0, l1⟩ := frac_unit v C hv.le
  obtain ⟨l2, l3⟩ := frac_unit (v + 1) C hv
  have pos : ∀ t : ℝ, 0 ≤ t → t ≤ 1 → 0 < (1 - t) * k + t := by intro t h0 h1; nlinarith
  have hd : (1 - (v : ℝ) / C) * k + (v : ℝ) / C - ((1 - ((v + 1 : ℕ) : ℝ) / C) * k + ((v + 1 : ℕ) : ℝ) / C) = -((1 - k) * (1 / C)) := by
    push_cast; field_simp; ring
  have hc : (0 : ℝ) < (1 - k) * (1 / C) := mul_pos (by linarith) (by positivity)
  unfold CellQ
  cases top
  · simp only [Bool.false_eq_true, if_false] at hs ⊢
    subst hs
    refine rev_quad hr (pos _ l0 l1) (pos _ l2 l3) (R _ _) (R _ _) (R _ _) (R _ _) ?_ ?_ <;>
    · rw [hd]
      have := mul_pos hs' (mul_pos hb0 hc)
      linarith
  · simp only [if_true] at hs ⊢
    subst hs
    refine rev_quad hr (pos _ l0 l1) (pos _ l2 l3) (R _ _) (R _ _) (R _ _) (R _ _) ?_ ?_ <;>
    · rw [hd, ← neg_sub (turn H (u + 1)), Real.sin_neg]
      have := mul_pos hs' (mul_pos hb0 hc)
      linarith

theorem coneP_winds (ha : 0 < a) (hb0 : 0 < b) (hr : 0 < r.x * r.y) (alt : Bool) (h : ℝ) (H V : ℕ) (hh : 0 < h) (hV : 1 ≤ V)
    (hb : 2 * (V + 1) ≤ 2 ^ 32) (hang : ∀ u, u < H → 0 < Real.sin (turn H (u + 1) - turn H u)) :
    (coneP alt r h H V).Winds (InFront (stretched a b r)) := by
  intro m off hst
  have hV' : (0 : ℝ) < V := by exact_mod_cast hV
  have R : ∀ i j, Rev r (stretched a b r) (coneVx r h H V i j) (j / V) (h / 2 - j / V * h) (a * √(j / V)) (b * (1 - √(j / V))) (turn H i) := by
    intro i j
    constructor
    · simp only [coneVx, atAngle, scaled, V3.mk.injEq]
      exact ⟨by ring, trivial, by ring⟩
    · simp only [coneVx, stretched, lerpV, mul_one_div]
      ext
      · simp; ring
      · simp only [V3.add_y, V3.smul_y, V3.sub_y]; ring
      · simp; ring
  have R0 : ∀ i phi, Rev r (stretched a b r) (coneTip h H i) 0 (h / 2) 0 b phi := by
    intro i phi
    constructor
    · simp [coneTip]
    · simp only [coneTip, stretched]
      ext <;> simp
  have hn : ∀ t : ℝ, 0 ≤ t → t ≤ 1 → 0 < a * √t * h + b * (1 - √t) := by
    intro t h0 h1
    have s0 := Real.sqrt_nonneg t
    have s1 : √t ≤ 1 := Real.sqrt_le_one.2 h1
    have e : a * √t * h + b * (1 - √t) = √t * (a * h) + (1 - √t) * b := by ring
    rw [e]
    have p : 0 < a * h := mul_pos ha hh
    rcases s0.eq_or_lt with e | e
    · rw [← e]; linarith
    · have := mul_pos e p
      have := mul_nonneg (sub_nonneg.2 s1) hb0.le
      linarith
  refine coneTrisIx_has alt H V off hst hV hb ?_ ?_
  · intro u hu
    have hs' := hang u hu
    have hp : (0 : ℝ) < ((1 : ℕ) : ℝ) / V := by positivity
    have h1 : ((1 : ℕ) : ℝ) / V ≤ 1 := (frac_unit 1 V hV).2
    refine inFront_cycle (inFront_cycle (rev_tri hr hp (.inl rfl) (R _ _) (R _ _) (R0 u _) ?_ ?_))
    · have := mul_pos hs' (mul_pos hp (hn _ hp.le h1))
      linarith
    · have := mul_pos hs' (mul_pos hp hb0)
      linarith
  · intro u v hu hv1 hv
    have hs' := hang u hu
    have hp : (0 : ℝ) < (v : ℝ) / V := div_pos (by exact_mod_cast hv1) hV'
    have hp' : (0 : ℝ) < ((v + 1 : ℕ) : ℝ) / V := by positivity
    obtain ⟨l0, l1⟩ := frac_unit v V hv.le
    obtain ⟨l2, l3⟩ := frac_unit (v + 1) V hv
    have hd : (v : ℝ) / V - ((v + 1 : ℕ) : ℝ) / V = -(1 / V) := by push_cast; field_simp; ring
    have hc : (0 : ℝ) < 1 / V := by positivity
    have hd' : h / 2 - ((v + 1 : ℕ) : ℝ) / V * h - (h / 2 - (v : ℝ) / V * h) = -(1 / V * h) := by push_cast; field_simp; ring
    refine rev_quad hr hp hp' (R _ _) (R _ _) (R _ _) (R _ _) ?_ ?_
    · rw [hd, hd', ← neg_sub (turn H (u + 1)), Real.sin_neg]
      have := mul_pos hs' (mul_pos hc (hn _ l0 l1))
      linarith
    · rw [hd, hd', ← neg_sub (turn H (u + 1)), Real.sin_neg]
      have := mul_pos hs' (mul_pos hc (hn _ l2 l3))
      linarith

theorem sideP_winds (ha : 0 < a) (hr : 0 < r.x * r.y) (flip alt : Bool) (angle normalAngle tc0 tc1 h : ℝ) (C V : ℕ) (hh : 0 < h) (hC : 1 ≤ C) (hV : 1 ≤ V)
    (hn : (⟨Real.sin normalAngle, 0, Real.cos normalAngle⟩ : V3 ℝ) = if flip then ⟨Real.cos angle, 0, -Real.sin angle⟩ else ⟨-Real.cos angle, 0, Real.sin angle⟩)
    (hb : 2 * (V + 1) ≤ 2 ^ 32) :
    (sideP flip alt angle normalAngle tc0 tc1 r h C V).Winds (InFront (stretched a b r)) := by
  intro m off hst
  refine mantleTrisIx_has flip alt C V off hst hb ?_
  intro u v hu hv
  have hV' : (0 : ℝ) < V := by exact_mod_cast hV
  have hC' : (0 : ℝ) < C := by exact_mod_cast hC
  have P : ∀ i j, (sideVx angle normalAngle tc0 tc1 r h C V i j).position = ⟨i / C * r.x * Real.sin angle, h / 2 - h * (j / V), i / C * r.y * Real.cos angle⟩ := by
    intro i j; rfl
  have D : ∀ i j, stretched a b r (sideVx angle normalAngle tc0 tc1 r h C V i j) =
      if flip then ⟨a * r.x * Real.cos angle, 0, -(a * r.y * Real.sin angle)⟩ else ⟨-(a * r.x * Real.cos angle), 0, a * r.y * Real.sin angle⟩ := by
    intro i j
    have hx := congrArg V3.x hn
    have hz := congrArg V3.z hn
    simp only [stretched, sideVx] at hx hz ⊢
    rw [hx, hz]
    cases flip <;> simp
  have hp : 0 < a * (r.x * r.y) * (h / V * (1 / C)) := by positivity
  have hsc := Real.sin_sq_add_cos_sq angle
  have key : a * (r.x * r.y) * (h / V * (1 / C)) * (Real.sin angle ^ 2 + Real.cos angle ^ 2) > 0 := by rw [hsc, mul_one]; exact hp
  unfold CellQ
  cases flip
  · simp only [Bool.false_eq_true, if_false] at D ⊢
    constructor <;>
    · simp only [InFront, P, D, facet, V3.dot, V3.cross_x, V3.cross_y, V3.cross_z, V3.sub_x, V3.sub_y, V3.sub_z]
      refine ⟨?_, ?_, ?_⟩ <;>
      · convert key using 1
        push_cast
        field_simp
        ring
  · simp only [if_true] at D ⊢
    constructor <;>
    · simp only [InFront, P, D, facet, V3.dot, V3.cross_x, V3.cross_y, V3.cross_z, V3.sub_x, V3.sub_y, V3.sub_z]
      refine ⟨?_, ?_, ?_⟩ <;>
      · convert key using 1
        push_cast
        field_simp
        ring

end parts

end Geom.Gen
