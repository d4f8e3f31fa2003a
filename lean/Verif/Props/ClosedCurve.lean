import Verif.Props.Closed
import Verif.Props.GenCurve

/-
  C92 for curves, torus knots and spirals.
-/
set_option autoImplicit false
set_option linter.unusedSectionVars false

namespace Geom.Gen
open TMesh (Mesh Vertex Ix)
open Spec

/-- C92: the tube of a curve, whether the curve itself is closed or not. -/
theorem C92_curve (sg : ℝ) (d : CurveDesc) (f : ℝ → V3 ℝ) (m : M) (hf : d.curveFunction = some f) (hb : max 3 d.segsX * max 3 d.segsY ≤ 2 ^ 32) :
    ∃ m' fs, genCurve sg d m = .ok m' ∧ NewFaces m m' fs ∧ Watertight fs := by
  have h1 : 3 ≤ max 3 d.segsX := le_max_left _ _
  have h2 : 3 ≤ max 3 d.segsY := le_max_left _ _
  obtain ⟨m', e, _, hn⟩ := C47_curve sg d f m hf (by have := Nat.mul_le_mul_left (max 3 d.segsX) h2; omega) (by have := Nat.mul_le_mul_right (max 3 d.segsY) h1; omega)
  refine ⟨m', _, e, hn hb, watertight_of (grid_ne (by omega) (by omega) quad_ne) ?_⟩
  clear hn e
  intro w hw
  dsimp only
  generalize max 3 d.segsX = U at *
  generalize max 3 d.segsY = V at *
  let F := fun u v : ℕ => (curveVertex sg (f ((u : ℝ) / (U - 1 : ℕ))) (f (((u + 1) % (U - 1) : ℕ) / (U - 1 : ℕ))) d.radius d.vertexModifier
    ((u : ℝ) / (U - 1 : ℕ)) ((v : ℝ) / (V - 1 : ℕ))).1
  have hs := sum_grid hw U V fun u v => F (u % U) (v % V)
  rw [border_seam w (fun j _ => by simp), rowS_congr (w := w) (f := fun i => F (i % U) (V % V)) (g := fun i => F (i % U) (0 % V)) (fun i _ => by simp), sub_self] at hs
  rw [bsum_grid, ← hs]
  refine Finset.sum_congr rfl fun u hu => Finset.sum_congr rfl fun v hv => ?_
  rw [bsum_quad hw]
  show cyc w (F u v) (F u ((v + 1) % V)) (F ((u + 1) % U) ((v + 1) % V)) (F ((u + 1) % U) v) = _
  rw [Nat.mod_eq_of_lt (Finset.mem_range.1 hu), Nat.mod_eq_of_lt (Finset.mem_range.1 hv)]

example := C92_curve 1 ⟨some fun t => ⟨t, 0, t * t⟩, 1, 5, 4, true, none⟩ _ ⟨[], []⟩ rfl (by norm_num)

/-- C92: torus knot. -/
theorem C92_knot (sg : ℝ) (d : KnotDesc) (m : M) (hb : max 3 d.segsX * max 3 d.segsY ≤ 2 ^ 32) :
    ∃ m' fs, genTorusKnot sg d m = .ok m' ∧ NewFaces m m' fs ∧ Watertight fs :=
  C92_curve sg ⟨some (knotCurve d), d.tubeRadius, d.segsX, d.segsY, d.alternateGrid, d.vertexModifier⟩ (knotCurve d) m rfl hb

example := C92_knot 1 ⟨⟨4, 2, 3⟩, 1, 2, 3, 2, 50, 8, true, none⟩ ⟨[], []⟩ (by norm_num)

/-- C92: spiral with both covers, if the turns end with a segment. -/
theorem C92_spiral (d : SpiralDesc) (m : M) (N : ℕ) (hN : max 0 d.turns * (max 3 d.segsX : ℕ) = N) (hb : (max 3 d.segsY + 1) * (N + 1) ≤ 2 ^ 32)
    (hV : max 3 d.segsY + 1 < 2 ^ 32) (hB1 : 1 ≤ d.bottomCov) (hT1 : 1 ≤ d.topCov) (hB : 2 * d.bottomCov ≤ 2 ^ 32) (hT : 2 * d.topCov ≤ 2 ^ 32) :
    ∃ m' fs, genSpiral d m = .ok m' ∧ NewFaces m m' fs ∧ Watertight fs := by
  have h1 : 3 ≤ max 3 d.segsX := le_max_left _ _
  have h2 : 3 ≤ max 3 d.segsY := le_max_left _ _
  have hN' : N + 1 < 2 ^ 32 := by have := Nat.mul_le_mul_right (N + 1) (show 4 ≤ max 3 d.segsY + 1 by omega); omega
  obtain ⟨m', e, _, hf⟩ := C47_spiral d m (by rw [hN]; have : ((N + 1 : ℕ) : ℝ) < ((2 ^ 32 : ℕ) : ℝ) := (by exact_mod_cast hN'); push_cast at this; linarith)
    hV (by omega) (by omega)
  rw [hN, Nat.floor_natCast] at hf
  refine ⟨m', _, e, hf hb hB hT, watertight_of ?_ ?_⟩
  · intro e
    simp only [List.append_eq_nil_iff] at e
    have := e.1.2
    rw [if_neg (by omega)] at this
    simp only [disc, Bool.false_eq_true, if_false, List.flatMap_eq_nil_iff] at this
    have := this 0 (List.mem_range.2 (by omega))
    simp at this
  clear hf e
  intro w hw
  generalize max 0 d.turns = turns at *
  generalize max 3 d.segsX = U at *
  generalize max 3 d.segsY = V at *
  have hU' : (U : ℝ) ≠ 0 := by have : 0 < U := by omega
                               positivity
  let S := fun v u : ℕ => spiralPoint d.ringRadius d.tubeRadius d.displacement turns (2 * Real.pi * v / V) (2 * Real.pi * u / U)
  let E := fun (C : ℕ) (phi : ℝ) (v j : ℕ) => spiralDisc d.ringRadius d.tubeRadius d.displacement turns ((j : ℝ) / C) (2 * Real.pi * v / V) phi
  have c0 : ∀ C phi v, E C phi v 0 = spiralCenter d.ringRadius d.displacement turns phi := by
    intro C phi v; simp [E, spiralDisc]
  have cl : ∀ C phi v, 1 ≤ C → E C phi v C = spiralPoint d.ringRadius d.tubeRadius d.displacement turns (2 * Real.pi * v / V) phi := by
    intro C phi v hC
    have : (C : ℝ) ≠ 0 := by positivity
    simp [E, spiralDisc, div_self this]
  have sp : ∀ phi, spiralPoint d.ringRadius d.tubeRadius d.displacement turns (2 * Real.pi * (V : ℝ) / V) phi =
      spiralPoint d.ringRadius d.tubeRadius d.displacement turns (2 * Real.pi * ((0 : ℕ) : ℝ) / V) phi := by
    intro phi; rw [turn_last (show 0 < V by omega), turn_first]; simp [spiralPoint]
  have se : ∀ C phi j, E C phi V j = E C phi 0 j := by
    intro C phi j; simp only [E, spiralDisc]; rw [sp]
  dsimp only
  rw [if_neg (by omega), if_neg (by omega), bsum_append, bsum_append, show (bsum w (grid V N _)) = -border w V N S from ?_,
    disc_bsum hw _ _ _ _ hB1 _ (E d.bottomCov 0) (c0 _ _), disc_bsum hw _ _ _ _ hT1 _ (E d.topCov (turns * (Real.pi * 2))) (c0 _ _)]
  · simp only [Bool.false_eq_true, if_false, if_true]
    rw [border_seam w (D := S) (fun j _ => sp _), border_disc hw (fun j _ => se _ _ j) _ (c0 _ _), border_disc hw (fun j _ => se _ _ j) _ (c0 _ _)]
    simp only [cl _ _ _ hB1, cl _ _ _ hT1]
    have e0 : ∀ v, S v 0 = spiralPoint d.ringRadius d.tubeRadius d.displacement turns (2 * Real.pi * v / V) 0 := by intro v; simp [S]
    have e1 : ∀ v, S v N = spiralPoint d.ringRadius d.tubeRadius d.displacement turns (2 * Real.pi * v / V) (turns * (Real.pi * 2)) := by
      intro v
      simp only [S]
      rw [← hN, show 2 * Real.pi * (turns * U) / U = turns * (Real.pi * 2) by field_simp]
    simp only [e0, e1]
    ring
  · exact grid_torus hw d.alternateGrid V N S

/-- Descriptors that meet the hypotheses. -/
example : ∃ m' fs, genSpiral ⟨⟨4, 4⟩, ⟨1, 1, 1⟩, 3, 5 / 2, 8, 6, 1, 2, true⟩ ⟨[], []⟩ = .ok m' ∧ NewFaces ⟨[], []⟩ m' fs ∧ Watertight fs :=
  C92_spiral ⟨⟨4, 4⟩, ⟨1, 1, 1⟩, 3, 5 / 2, 8, 6, 1, 2, true⟩ _ 20 (by norm_num) (by norm_num) (by norm_num) (by norm_num) (by norm_num) (by norm_num) (by norm_num)

end Geom.Gen
