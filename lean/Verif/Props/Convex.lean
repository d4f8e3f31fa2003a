import Verif.Props.Winding
import Verif.Props.GenAttr
import Verif.Props.GenNormal
import Verif.Spec.Convex

/-
  C93: generated solids are convex.
-/
set_option autoImplicit false
set_option linter.unusedSectionVars false

namespace Geom.Gen
open TMesh (Mesh Vertex Ix)
open Spec

theorem behind_cycle {vs : List (Vertex ℝ)} {a b c : Vertex ℝ} (h : Behind vs a b c) : Behind vs b c a := by
  intro q hq
  have := h q hq
  rw [facet_cycle]
  refine le_of_eq_of_le ?_ this
  simp only [facet, V3.dot, V3.cross_x, V3.cross_y, V3.cross_z, V3.sub_x, V3.sub_y, V3.sub_z]
  ring

/-! The angles. -/

theorem cos_odd {H : ℕ} (hH : 3 ≤ H) (k : ℤ) : Real.cos ((2 * k - 1) * (Real.pi / H)) ≤ Real.cos (Real.pi / H) := by
  have hH' : (0 : ℝ) < H := by exact_mod_cast (show 0 < H by omega)
  have hp := Real.pi_pos
  have e : (2 * (k : ℝ) - 1) * (Real.pi / H) = (2 * ((k % H : ℤ) : ℝ) - 1) * (Real.pi / H) + ((k / H : ℤ) : ℝ) * (2 * Real.pi) := by
    have := Int.mul_ediv_add_emod k H
    have c : (k : ℝ) = H * ((k / H : ℤ) : ℝ) + ((k % H : ℤ) : ℝ) := by exact_mod_cast this.symm
    field_simp
    linear_combination 2 * c
  rw [e, Real.cos_add_int_mul_two_pi]
  have h0 := Int.emod_nonneg k (show (H : ℤ) ≠ 0 by omega)
  have h1 := Int.emod_lt_of_pos k (show (0 : ℤ) < H by omega)
  generalize k % (H : ℤ) = r at *
  have b0 : 0 < Real.pi / H := by positivity
  have b1 : Real.pi / H ≤ Real.pi := div_le_self hp.le (by exact_mod_cast (show 1 ≤ H by omega))
  rcases h0.eq_or_lt with h | h
  · rw [← h]
    rw [show (2 * ((0 : ℤ) : ℝ) - 1) * (Real.pi / H) = -(Real.pi / H) by push_cast; ring, Real.cos_neg]
  · have r1 : (1 : ℝ) ≤ r := by exact_mod_cast h
    have r2 : (r : ℝ) + 1 ≤ H := by exact_mod_cast h1
    have l : Real.pi / H ≤ (2 * (r : ℝ) - 1) * (Real.pi / H) := by nlinarith
    have u : (2 * (r : ℝ) - 1) * (Real.pi / H) ≤ 2 * Real.pi - Real.pi / H := by
      have : 2 * Real.pi - Real.pi / H = (2 * H - 1) * (Real.pi / H) := by field_simp
      rw [this]
      exact mul_le_mul_of_nonneg_right (by linarith) b0.le
    rcases le_total ((2 * (r : ℝ) - 1) * (Real.pi / H)) Real.pi with hle | hle
    · exact Real.cos_le_cos_of_nonneg_of_le_pi b0.le hle l
    · rw [← Real.cos_two_pi_sub]
      exact Real.cos_le_cos_of_nonneg_of_le_pi b0.le (by linarith) (by linarith)

/-- An angle of the grid, `c` is the first one. -/
noncomputable def angle (c : ℝ) (H : ℕ) (j : ℤ) : ℝ := c + 2 * Real.pi * j / H

/-- Two consecutive angles, in any order, seen from a third one. -/
def Beside (f0 f1 psi : ℝ) : Prop := ∃ t ≤ 1, Real.sin (psi - f0) + Real.sin (f1 - psi) = Real.sin (f1 - f0) * t

theorem beside_swap {f0 f1 psi : ℝ} (h : Beside f0 f1 psi) : Beside f1 f0 psi := by
  obtain ⟨t, ht, e⟩ := h
  refine ⟨t, ht, ?_⟩
  rw [← neg_sub f1 psi, ← neg_sub psi f0, ← neg_sub f1 f0, Real.sin_neg, Real.sin_neg, Real.sin_neg]
  linarith

theorem beside_angle {H : ℕ} (hH : 3 ≤ H) (c : ℝ) (i j : ℤ) : Beside (angle c H i) (angle c H (i + 1)) (angle c H j) := by
  have hH' : (0 : ℝ) < H := by exact_mod_cast (show 0 < H by omega)
  have hp := Real.pi_pos
  have b0 : 0 < Real.pi / H := by positivity
  have b1 : Real.pi / H < Real.pi / 2 := by
    apply div_lt_div_of_pos_left hp (by norm_num)
    exact_mod_cast (show 2 < H by omega)
  have hc : 0 < Real.cos (Real.pi / H) := Real.cos_pos_of_mem_Ioo ⟨by linarith, b1⟩
  refine ⟨Real.cos ((2 * ((j - i : ℤ) : ℝ) - 1) * (Real.pi / H)) / Real.cos (Real.pi / H), (div_le_one hc).2 (cos_odd hH _), ?_⟩
  have e1 : angle c H j - angle c H i = Real.pi / H + (2 * ((j - i : ℤ) : ℝ) - 1) * (Real.pi / H) := by
    unfold angle; push_cast; field_simp; ring
  have e2 : angle c H (i + 1) - angle c H j = Real.pi / H - (2 * ((j - i : ℤ) : ℝ) - 1) * (Real.pi / H) := by
    unfold angle; push_cast; field_simp; ring
  have e3 : angle c H (i + 1) - angle c H i = 2 * (Real.pi / H) := by unfold angle; push_cast; field_simp; ring
  rw [e1, e2, e3, Real.sin_two_mul, Real.sin_add, Real.sin_sub]
  field_simp
  ring

/-! Points of surfaces of revolution. -/

/-- The point in the half plane at the angle `phi`. -/
noncomputable def revAt (r : V2 ℝ) (rho y phi : ℝ) : V3 ℝ := ⟨r.x * rho * Real.sin phi, y, r.y * rho * Real.cos phi⟩

theorem rev_point {r : V2 ℝ} {rho y rho' y' f0 f1 f p Y psi : ℝ} (hf : f = f0 ∨ f = f1) :
    V3.dot (facet (revAt r rho y f0) (revAt r rho y f1) (revAt r rho' y' f)) (revAt r p Y psi - revAt r rho y f0) =
      r.x * r.y * rho * ((y' - y) * (p * (Real.sin (psi - f0) + Real.sin (f1 - psi)) - rho * Real.sin (f1 - f0)) + (Y - y) * (rho - rho') * Real.sin (f1 - f0)) := by
  rw [Real.sin_sub, Real.sin_sub, Real.sin_sub]
  rcases hf with rfl | rfl <;> simp only [revAt, facet, V3.dot, V3.cross_x, V3.cross_y, V3.cross_z, V3.sub_x, V3.sub_y, V3.sub_z] <;> ring

/-- The vertices are points of the solid of revolution with the profile `G`, at angles of the grid. -/
def InRev (r : V2 ℝ) (c : ℝ) (H : ℕ) (G : ℝ → ℝ → Prop) (vs : List (Vertex ℝ)) : Prop :=
  ∀ q ∈ vs, ∃ (rho y : ℝ) (j : ℤ), 0 ≤ rho ∧ G rho y ∧ q.position = revAt r rho y (angle c H j)

section
variable {r : V2 ℝ} {c : ℝ} {H : ℕ} {G : ℝ → ℝ → Prop} {vs : List (Vertex ℝ)} {x y z w : Vertex ℝ} {rho0 y0 rho1 y1 f0 f1 : ℝ}

theorem tri_behind (hr : 0 ≤ r.x * r.y) (hv : InRev r c H G vs) (h0 : 0 ≤ rho0) {f : ℝ} (hf : f = f0 ∨ f = f1) (hb : ∀ j, Beside f0 f1 (angle c H j))
    (hx : x.position = revAt r rho0 y0 f0) (hy : y.position = revAt r rho0 y0 f1) (hz : z.position = revAt r rho1 y1 f)
    (g0 : 0 ≤ Real.sin (f1 - f0) * (y1 - y0))
    (g1 : ∀ p Y, G p Y → Real.sin (f1 - f0) * ((y1 - y0) * (p - rho0) + (Y - y0) * (rho0 - rho1)) ≤ 0) : Behind vs x y z := by
  intro q hq
  obtain ⟨p, Y, j, hp, hG, e⟩ := hv q hq
  obtain ⟨t, ht, et⟩ := hb j
  rw [hx, hy, hz, e, rev_point hf, et]
  refine mul_nonpos_of_nonneg_of_nonpos (mul_nonneg hr h0) ?_
  have k := mul_nonneg g0 (mul_nonneg hp (sub_nonneg.2 ht))
  have := g1 p Y hG
  linarith

/-- The two triangles of a cell, for both diagonals. -/
theorem quad_behind (hr : 0 ≤ r.x * r.y) (hv : InRev r c H G vs) (h0 : 0 ≤ rho0) (h1 : 0 ≤ rho1) (hb : ∀ j, Beside f0 f1 (angle c H j))
    (hx : x.position = revAt r rho0 y0 f0) (hy : y.position = revAt r rho0 y0 f1)
    (hz : z.position = revAt r rho1 y1 f1) (hw : w.position = revAt r rho1 y1 f0)
    (g0 : 0 ≤ Real.sin (f1 - f0) * (y1 - y0))
    (g1 : ∀ p Y, G p Y → Real.sin (f1 - f0) * ((y1 - y0) * (p - rho0) + (Y - y0) * (rho0 - rho1)) ≤ 0) : Quad4 (Behind vs) x y z w := by
  have hb' := fun j => beside_swap (hb j)
  have g0' : 0 ≤ Real.sin (f0 - f1) * (y0 - y1) := by
    rw [← neg_sub f1 f0, Real.sin_neg]; linarith
  have g1' : ∀ p Y, G p Y → Real.sin (f0 - f1) * ((y0 - y1) * (p - rho1) + (Y - y1) * (rho1 - rho0)) ≤ 0 := by
    intro p Y h
    have := g1 p Y h
    rw [← neg_sub f1 f0, Real.sin_neg]
    refine le_of_eq_of_le ?_ this
    ring
  exact ⟨tri_behind hr hv h0 (.inr rfl) hb hx hy hz g0 g1,
   behind_cycle (behind_cycle (tri_behind hr hv h1 (.inr rfl) hb' hz hw hx g0' g1')),
   tri_behind hr hv h0 (.inl rfl) hb hx hy hw g0 g1,
   behind_cycle (behind_cycle (tri_behind hr hv h1 (.inl rfl) hb' hz hw hy g0' g1'))⟩

end

/-! The parts. -/

theorem turn_angle (H u : ℕ) : turn H u = angle 0 H u := by unfold turn angle; push_cast; ring

theorem beside_turn {H : ℕ} (hH : 3 ≤ H) (u : ℕ) (j : ℤ) : Beside (turn H u) (turn H (u + 1)) (angle 0 H j) := by
  rw [turn_angle, turn_angle]
  have := beside_angle hH 0 u j
  push_cast
  exact this

section
variable {r : V2 ℝ} {H : ℕ} {G : ℝ → ℝ → Prop} {vs : List (Vertex ℝ)}

theorem mantleP_behind (hr : 0 ≤ r.x * r.y) (hH : 3 ≤ H) (hv : InRev r 0 H G vs) (alt : Bool) (h side : ℝ) (V : ℕ) (hh : 0 ≤ h) (hV : 1 ≤ V)
    (hb : 2 * (V + 1) ≤ 2 ^ 32) (hG : ∀ p Y, G p Y → p ≤ 1) : (mantleP false alt (turn H) r h side H V).Winds (Behind vs) := by
  intro m off hst
  refine mantleTrisIx_has false alt H V off hst hb ?_
  intro u v hu hv'
  have hV' : (0 : ℝ) < V := by exact_mod_cast hV
  have R : ∀ i j, (mantleV (turn H) r h side H V i j).position = revAt r 1 (h / 2 - h * (j / V)) (turn H i) := by
    intro i j
    simp only [mantleV, atAngle, revAt, V3.mk.injEq]
    exact ⟨by ring, trivial, by ring⟩
  have hy : h / 2 - h * (((v + 1 : ℕ) : ℝ) / V) - (h / 2 - h * ((v : ℝ) / V)) = -(h / V) := by push_cast; field_simp; ring
  have hp : 0 ≤ h / V := by positivity
  have hs' := sin_turn hH u
  refine quad_behind hr hv zero_le_one zero_le_one (fun j => beside_swap (beside_turn hH u j)) (R _ _) (R _ _) (R _ _) (R _ _) ?_ ?_
  · rw [hy, ← neg_sub (turn H (u + 1)), Real.sin_neg]
    have := mul_nonneg hs'.le hp
    linarith
  · intro p Y hg
    rw [hy, ← neg_sub (turn H (u + 1)), Real.sin_neg]
    have := mul_nonneg (mul_nonneg hs'.le hp) (sub_nonneg.2 (hG p Y hg))
    linarith

theorem discP0_behind (hr : 0 ≤ r.x * r.y) (hH : 3 ≤ H) (hv : InRev r 0 H G vs) (top alt : Bool) (y side : ℝ) (C : ℕ) (hb : 2 * C ≤ 2 ^ 32)
    (hG : ∀ p Y, G p Y → if top then Y ≤ y else y ≤ Y) : (discP0 top alt (turn H) r y side H C).Winds (Behind vs) := by
  unfold discP0
  split_ifs with hC
  · exact none_winds
  intro m off hst
  have hC' : (0 : ℝ) < C := by exact_mod_cast Nat.pos_of_ne_zero hC
  have R : ∀ i j, (discVx (turn H) r y side top C i j).position = revAt r (j / C) y (turn H i) := by
    intro i j
    simp only [discVx, atAngle, scaled, revAt, V3.mk.injEq]
    exact ⟨by ring, trivial, by ring⟩
  have R0 : ∀ phi, (discCenter y side).position = revAt r 0 y phi := by
    intro phi
    simp [discCenter, revAt]
  refine discTrisIx_has top alt H C off hst (by omega) hb ?_ ?_
  · intro u hu
    have hs' := sin_turn hH u
    have hp : (0 : ℝ) ≤ ((1 : ℕ) : ℝ) / C := by positivity
    cases top
    · simp only [Bool.false_eq_true, if_false] at hG ⊢
      refine tri_behind hr hv hp (.inl rfl) (fun j => beside_swap (beside_turn hH u j)) (R _ _) (R _ _) (R0 _) (by simp) ?_
      intro p Y hg
      rw [← neg_sub (turn H (u + 1)), Real.sin_neg]
      have := mul_nonneg hs'.le (mul_nonneg (sub_nonneg.2 (hG p Y hg)) hp)
      linarith
    · simp only [if_true] at hG ⊢
      refine behind_cycle (behind_cycle (tri_behind hr hv hp (.inl rfl) (fun j => beside_turn hH u j) (R _ _) (R _ _) (R0 _) (by simp) ?_))
      intro p Y hg
      have := mul_nonneg hs'.le (mul_nonneg (sub_nonneg.2 (hG p Y hg)) hp)
      linarith
  · intro u v hu hv1 hv'
    have hs' := sin_turn hH u
    have hp : (0 : ℝ) ≤ (v : ℝ) / C := by positivity
    have hp' : (0 : ℝ) ≤ ((v + 1 : ℕ) : ℝ) / C := by positivity
    have hd : (v : ℝ) / C - ((v + 1 : ℕ) : ℝ) / C = -(1 / C) := by push_cast; field_simp; ring
    have hc : (0 : ℝ) ≤ 1 / C := by positivity
    unfold CellQ
    cases top
    · simp only [Bool.false_eq_true, if_false] at hG ⊢
      refine quad_behind hr hv hp hp' (fun j => beside_turn hH u j) (R _ _) (R _ _) (R _ _) (R _ _) (by simp) ?_
      intro p Y hg
      rw [hd]
      have := mul_nonneg hs'.le (mul_nonneg (sub_nonneg.2 (hG p Y hg)) hc)
      linarith
    · simp only [if_true] at hG ⊢
      refine quad_behind hr hv hp hp' (fun j => beside_swap (beside_turn hH u j)) (R _ _) (R _ _) (R _ _) (R _ _) (by simp) ?_
      intro p Y hg
      rw [hd, ← neg_sub (turn H (u + 1)), Real.sin_neg]
      have := mul_nonneg hs'.le (mul_nonneg (sub_nonneg.2 (hG p Y hg)) hc)
      linarith

theorem coneP_behind (hr : 0 ≤ r.x * r.y) (hH : 3 ≤ H) (hv : InRev r 0 H G vs) (alt : Bool) (h : ℝ) (V : ℕ) (hh : 0 ≤ h) (hV : 1 ≤ V)
    (hb : 2 * (V + 1) ≤ 2 ^ 32) (hG : ∀ p Y, G p Y → Y ≤ h / 2 - p * h) : (coneP alt r h H V).Winds (Behind vs) := by
  intro m off hst
  have hV' : (0 : ℝ) < V := by exact_mod_cast hV
  have R : ∀ i j, (coneVx r h H V i j).position = revAt r (j / V) (h / 2 - j / V * h) (turn H i) := by
    intro i j
    simp only [coneVx, atAngle, scaled, revAt, V3.mk.injEq]
    exact ⟨by ring, trivial, by ring⟩
  have R0 : ∀ i phi, (coneTip h H i).position = revAt r 0 (h / 2) phi := by
    intro i phi
    simp [coneTip, revAt]
  refine coneTrisIx_has alt H V off hst hV hb ?_ ?_
  · intro u hu
    have hs' := sin_turn hH u
    have hp : (0 : ℝ) ≤ ((1 : ℕ) : ℝ) / V := by positivity
    refine behind_cycle (behind_cycle (tri_behind hr hv hp (.inl rfl) (fun j => beside_turn hH u j) (R _ _) (R _ _) (R0 u _) ?_ ?_))
    · have := mul_nonneg hs'.le (mul_nonneg hp hh)
      linarith
    · intro p Y hg
      have := mul_nonneg hs'.le (mul_nonneg hp (sub_nonneg.2 (hG p Y hg)))
      linarith
  · intro u v hu hv1 hv'
    have hs' := sin_turn hH u
    have hp : (0 : ℝ) ≤ (v : ℝ) / V := by positivity
    have hp' : (0 : ℝ) ≤ ((v + 1 : ℕ) : ℝ) / V := by positivity
    have hd : ((v + 1 : ℕ) : ℝ) / V = (v : ℝ) / V + 1 / V := by push_cast; field_simp
    have hc : (0 : ℝ) ≤ 1 / V := by positivity
    refine quad_behind hr hv hp hp' (fun j => beside_swap (beside_turn hH u j)) (R _ _) (R _ _) (R _ _) (R _ _) ?_ ?_
    · rw [hd, ← neg_sub (turn H (u + 1)), Real.sin_neg]
      have := mul_nonneg hs'.le (mul_nonneg hc hh)
      linarith
    · intro p Y hg
      rw [hd, ← neg_sub (turn H (u + 1)), Real.sin_neg]
      have := mul_nonneg hs'.le (mul_nonneg hc (sub_nonneg.2 (hG p Y hg)))
      linarith

end

/-! The solids. -/

/-- C93: cylinder. -/
theorem C93_cylinder (d : CylinderDesc) (m : M) (hx : 0 ≤ d.radius.x) (hz : 0 ≤ d.radius.y) (hh : 0 ≤ d.height)
    (hH : max 3 d.segsX + 1 < 2 ^ 32) (hV : 2 * (max 1 d.segsY + 1) ≤ 2 ^ 32) (hB : 2 * d.bottomCov ≤ 2 ^ 32) (hT : 2 * d.topCov ≤ 2 ^ 32) :
    ∃ m', genCylinder d m = .ok m' ∧ AddsConvex m m' := by
  have h3 : 3 ≤ max 3 d.segsX := le_max_left _ _
  have h1 : 1 ≤ max 1 d.segsY := le_max_left _ _
  refine ⟨_, genCylinder_ok d m hH (by omega) (by omega) (by omega), _, ?_, rfl, asm_winds _ _ ?_ (asm_ne_nil (mantle_ne (by omega) h1))⟩
  · simp only [cylParts, allVs, List.flatMap_cons]
    exact List.append_ne_nil_of_left_ne_nil (gridV_ne _ _ _) _
  generalize max 3 d.segsX = H at *
  generalize max 1 d.segsY = V at *
  have hr : 0 ≤ d.radius.x * d.radius.y := mul_nonneg hx hz
  have inr : InRev d.radius 0 H (fun p Y => p ≤ 1 ∧ -(d.height / 2) ≤ Y ∧ Y ≤ d.height / 2) (allVs (cylParts d H V)) := by
    intro q hq
    obtain ⟨p, hp, hq⟩ := List.mem_flatMap.1 hq
    simp only [cylParts, List.mem_cons, List.not_mem_nil, or_false] at hp
    rcases hp with rfl | rfl | rfl
    · obtain ⟨y, u, hy, _, e, _⟩ := mantleP_mem hq
      rw [abs_of_nonneg hh] at hy
      refine ⟨1, y, u, zero_le_one, ⟨le_refl _, abs_le.1 hy⟩, ?_⟩
      rw [e, ← turn_angle]
      simp only [atAngle, revAt, V3.mk.injEq]
      exact ⟨by ring, trivial, by ring⟩
    · obtain ⟨s, u, h0, h1, _, e, n⟩ := discP0_mem hq
      refine ⟨s, d.height * (1 / 2) * -1, u, h0, ⟨h1, ?_⟩, ?_⟩
      rotate_left
      · rw [e, ← turn_angle]
        simp only [atAngle, revAt, scaled, V3.mk.injEq]
        exact ⟨by ring, trivial, by ring⟩
      · constructor <;> linarith
    · obtain ⟨s, u, h0, h1, _, e, n⟩ := discP0_mem hq
      refine ⟨s, d.height * (1 / 2) * 1, u, h0, ⟨h1, ?_⟩, ?_⟩
      rotate_left
      · rw [e, ← turn_angle]
        simp only [atAngle, revAt, scaled, V3.mk.injEq]
        exact ⟨by ring, trivial, by ring⟩
      · constructor <;> linarith
  intro p hp
  simp only [cylParts, List.mem_cons, List.not_mem_nil, or_false] at hp
  rcases hp with rfl | rfl | rfl
  · exact mantleP_behind hr h3 inr _ _ _ _ hh h1 hV (fun p Y h => h.1)
  · refine discP0_behind hr h3 inr false _ _ _ _ hB (fun p Y h => ?_)
    have := h.2.1
    simp only [Bool.false_eq_true, if_false]
    linarith
  · refine discP0_behind hr h3 inr true _ _ _ _ hT (fun p Y h => ?_)
    have := h.2.2
    simp only [if_true]
    linarith

example := C93_cylinder ⟨⟨4, 2⟩, 3, 5, 2, 1, 2, true⟩ ⟨[], []⟩ (by norm_num) (by norm_num) (by norm_num) (by norm_num) (by norm_num)
  (by norm_num) (by norm_num)

/-- C93: cone. -/
theorem C93_cone (d : ConeDesc) (m : M) (hx : 0 ≤ d.radius.x) (hz : 0 ≤ d.radius.y) (hh : 0 ≤ d.height)
    (hH : max 3 d.segsX + 1 < 2 ^ 32) (hV : 2 * (max 1 d.segsY + 1) ≤ 2 ^ 32) (hB : 2 * d.cov ≤ 2 ^ 32) :
    ∃ m', genCone d m = .ok m' ∧ AddsConvex m m' := by
  have h3 : 3 ≤ max 3 d.segsX := le_max_left _ _
  have h1 : 1 ≤ max 1 d.segsY := le_max_left _ _
  refine ⟨_, genCone_ok d m hH (by omega) (by omega), _, ?_, rfl, asm_winds _ _ ?_ (asm_ne_nil ?_)⟩
  · simp only [coneParts, allVs, List.flatMap_cons]
    exact List.append_ne_nil_of_left_ne_nil (List.ne_nil_of_mem (coneV_mem' (Nat.zero_le _) (le_refl 1) h1)) _
  · generalize max 3 d.segsX = H at *
    generalize max 1 d.segsY = V at *
    have hr : 0 ≤ d.radius.x * d.radius.y := mul_nonneg hx hz
    have inr : InRev d.radius 0 H (fun p Y => -(d.height / 2) ≤ Y ∧ Y ≤ d.height / 2 - p * d.height) (allVs (coneParts d H V)) := by
      intro q hq
      obtain ⟨p, hp, hq⟩ := List.mem_flatMap.1 hq
      simp only [coneParts, List.mem_cons, List.not_mem_nil, or_false] at hp
      rcases hp with rfl | rfl
      · rcases coneV_mem _ _ hq with ⟨u, _, rfl⟩ | ⟨u, v, _, _, hv, rfl⟩
        · exact ⟨0, d.height / 2, 0, le_refl _, ⟨by linarith, by linarith⟩, by simp [coneTip, revAt]⟩
        · obtain ⟨a, b⟩ := frac_unit v V hv
          refine ⟨v / V, _, u, a, ⟨?_, le_refl _⟩, ?_⟩
          · have := mul_nonneg (sub_nonneg.2 b) hh
            linarith
          · rw [← turn_angle]
            simp only [coneVx, atAngle, scaled, revAt, V3.mk.injEq]
            exact ⟨by ring, trivial, by ring⟩
      · obtain ⟨s, u, h0, h1, _, e, n⟩ := discP0_mem hq
        refine ⟨s, -(d.height * (1 / 2)), u, h0, ⟨?_, ?_⟩, ?_⟩
        rotate_left 2
        · rw [e, ← turn_angle]
          simp only [atAngle, revAt, scaled, V3.mk.injEq]
          exact ⟨by ring, trivial, by ring⟩
        · linarith
        · have := mul_nonneg (sub_nonneg.2 h1) hh
          linarith
    intro p hp
    simp only [coneParts, List.mem_cons, List.not_mem_nil, or_false] at hp
    rcases hp with rfl | rfl
    · exact coneP_behind hr h3 inr _ _ _ hh h1 hV (fun p Y h => h.2)
    · refine discP0_behind hr h3 inr false _ _ _ _ hB (fun p Y h => ?_)
      have := h.1
      simp only [Bool.false_eq_true, if_false]
      linarith
  · refine ne_nil_of_length (coneTrisIx_length _ _ _ _ h1) ?_
    have : 0 < 2 * max 1 d.segsY - 1 := by omega
    positivity

example := C93_cone ⟨⟨4, 2⟩, 3, 5, 2, 1, true⟩ ⟨[], []⟩ (by norm_num) (by norm_num) (by norm_num) (by norm_num) (by norm_num) (by norm_num)

/-- A chord of a circle, and a point that is not between its ends. -/
theorem chord {A B : ℝ} (h0 : 0 ≤ A) (h1 : A ≤ Real.pi) (hB : (0 ≤ B ∧ A + B ≤ 2 * Real.pi) ∨ (A + B ≤ 0 ∧ -(2 * Real.pi) ≤ B)) :
    Real.sin (A + B) ≤ Real.sin A + Real.sin B := by
  have hp := Real.pi_pos
  have e : Real.sin A + Real.sin B - Real.sin (A + B) = 4 * (Real.sin (A / 2) * (Real.sin (B / 2) * Real.sin ((A + B) / 2))) := by
    have ea : A = 2 * (A / 2) := by ring
    have eb : B = 2 * (B / 2) := by ring
    generalize A / 2 = x at *
    generalize B / 2 = y at *
    subst ea eb
    rw [show (2 * x + 2 * y) / 2 = x + y by ring, Real.sin_add (2 * x), Real.sin_two_mul, Real.sin_two_mul, Real.cos_two_mul', Real.cos_two_mul', Real.sin_add]
    have hx := Real.sin_sq_add_cos_sq x
    have hy := Real.sin_sq_add_cos_sq y
    linear_combination -2 * Real.sin x * Real.cos x * hy - 2 * Real.sin y * Real.cos y * hx
  have sA : 0 ≤ Real.sin (A / 2) := Real.sin_nonneg_of_nonneg_of_le_pi (by linarith) (by linarith)
  have sB : 0 ≤ Real.sin (B / 2) * Real.sin ((A + B) / 2) := by
    rcases hB with ⟨h, h'⟩ | ⟨h, h'⟩
    · exact mul_nonneg (Real.sin_nonneg_of_nonneg_of_le_pi (by linarith) (by linarith)) (Real.sin_nonneg_of_nonneg_of_le_pi (by linarith) (by linarith))
    · exact mul_nonneg_of_nonpos_of_nonpos (Real.sin_nonpos_of_nonpos_of_neg_pi_le (by linarith) (by linarith))
        (Real.sin_nonpos_of_nonpos_of_neg_pi_le (by linarith) (by linarith))
  have := mul_nonneg sA sB
  linarith

/-- The rows `v` and `v + 1` of an arc, and the row `i`. -/
theorem chord_rows {w : ℝ} {N i v : ℕ} (hw : 0 ≤ w) (hi : i ≤ N) (hv : v < N) (hN : w * N ≤ Real.pi) :
    (Real.cos (w * v) - Real.cos (w * (v + 1 : ℕ))) * (Real.sin (w * i) - Real.sin (w * v)) +
      (Real.cos (w * i) - Real.cos (w * v)) * (Real.sin (w * (v + 1 : ℕ)) - Real.sin (w * v)) ≤ 0 := by
  have hp := Real.pi_pos
  have b : ∀ n : ℕ, n ≤ N → w * n ≤ Real.pi := fun n hn => (mul_le_mul_of_nonneg_left (by exact_mod_cast hn) hw).trans hN
  have p : ∀ n : ℕ, 0 ≤ w * n := fun n => by positivity
  have hi1 := b i hi
  have hv1 := b _ hv
  have c := chord (A := w * (v + 1 : ℕ) - w * v) (B := w * i - w * (v + 1 : ℕ)) (by push_cast; linarith) (by linarith [p v]) (by
    rcases Nat.lt_or_ge v i with h | h
    · left
      have : w * (v + 1 : ℕ) ≤ w * i := mul_le_mul_of_nonneg_left (by exact_mod_cast h) hw
      exact ⟨by linarith, by linarith [p v]⟩
    · right
      have : w * i ≤ w * v := mul_le_mul_of_nonneg_left (by exact_mod_cast h) hw
      exact ⟨by linarith, by linarith [p i]⟩)
  rw [show w * (v + 1 : ℕ) - w * v + (w * i - w * (v + 1 : ℕ)) = w * i - w * v by ring, Real.sin_sub, Real.sin_sub, Real.sin_sub] at c
  linarith

/-- C93: ellipsoid. -/
theorem C93_ellipsoid (d : EllipsoidDesc) (m : M) (hx : 0 ≤ d.radius.x) (hy : 0 ≤ d.radius.y) (hz : 0 ≤ d.radius.z)
    (hb : (max 2 d.segsY + 1) * (max 3 d.segsX + 1) ≤ 2 ^ 32) : ∃ m', genEllipsoid d m = .ok m' ∧ AddsConvex m m' := by
  have h1 : 3 ≤ max 3 d.segsX := le_max_left _ _
  have h2 : 2 ≤ max 2 d.segsY := le_max_left _ _
  simp only [genEllipsoid]
  generalize max 3 d.segsX = U at *
  generalize max 2 d.segsY = V at *
  have hU : U + 1 < 2 ^ 32 := by have := Nat.mul_le_mul_right (U + 1) (show 3 ≤ V + 1 by omega); omega
  have hV : V + 1 < 2 ^ 32 := by have := Nat.mul_le_mul_left (V + 1) (show 4 ≤ U + 1 by omega); omega
  rw [ellipsoidVerts_ok _ _ _ _ hU hV, Res.bind_ok, gridTris_ok _ _ _ _ _ _ (by omega) (by omega), ext_ext, List.append_nil, List.nil_append]
  have hV' : (0 : ℝ) < V := by exact_mod_cast (show 0 < V by omega)
  have hpi := Real.pi_pos
  have R : ∀ i j : ℕ, (ellV d.radius U V i j).position =
      revAt ⟨d.radius.x, d.radius.z⟩ (Real.sin (Real.pi / V * i)) (d.radius.y * Real.cos (Real.pi / V * i)) (angle (Real.pi / 2) U (-j : ℤ)) := by
    intro i j
    have : angle (Real.pi / 2) U (-j : ℤ) = Real.pi / 2 - 2 * Real.pi * j / U := by unfold angle; push_cast; ring
    rw [this, show Real.pi / V * i = Real.pi * i / V by ring]
    simp only [ellV, ellipsoidPoint, revAt, Real.sin_pi_div_two_sub, Real.cos_pi_div_two_sub, V3.mk.injEq]
    exact ⟨by ring, trivial, by ring⟩
  have hN : Real.pi / V * V ≤ Real.pi := by rw [div_mul_cancel₀ _ hV'.ne']
  have hsin : ∀ i : ℕ, i ≤ V → 0 ≤ Real.sin (Real.pi / V * i) := by
    intro i hi
    apply Real.sin_nonneg_of_nonneg_of_le_pi
    · positivity
    · exact (mul_le_mul_of_nonneg_left (by exact_mod_cast hi) (by positivity)).trans hN
  have inr : InRev ⟨d.radius.x, d.radius.z⟩ (Real.pi / 2) U (fun p Y => ∃ i : ℕ, i ≤ V ∧ p = Real.sin (Real.pi / V * i) ∧ Y = d.radius.y * Real.cos (Real.pi / V * i))
      (gridV (V + 1) (U + 1) (ellV d.radius U V)) := by
    intro q hq
    obtain ⟨i, j, hi, hj, rfl⟩ := gridV_mem.1 hq
    exact ⟨_, _, (-j : ℤ), hsin i (by omega), ⟨i, by omega, rfl, rfl⟩, R i j⟩
  refine ⟨_, rfl, _, gridV_ne _ _ _, rfl, adds_of _ _ _ (ne_nil_of_length (gridTrisIx_length ..) (by positivity)) fun m' hs => ?_⟩
  refine gridTrisIx_has _ _ _ _ _ hs hb ?_
  intro v u hv hu
  have hstep : Real.sin (angle (Real.pi / 2) U (-(u + 1 : ℕ) : ℤ) - angle (Real.pi / 2) U (-u : ℤ)) = -Real.sin (2 * Real.pi / U) := by
    rw [← Real.sin_neg]
    congr 1
    unfold angle; push_cast; ring
  have hs' := sin_step h1
  refine quad_behind (mul_nonneg hx hz) inr (hsin v hv.le) (hsin (v + 1) hv) (fun j => ?_) (R _ _) (R _ _) (R _ _) (R _ _) ?_ ?_
  · have := beside_swap (beside_angle h1 (Real.pi / 2) (-(u + 1 : ℕ) : ℤ) j)
    rwa [show (-(u + 1 : ℕ) : ℤ) + 1 = -u by push_cast; ring] at this
  · rw [hstep]
    have c : Real.cos (Real.pi / V * (v + 1 : ℕ)) ≤ Real.cos (Real.pi / V * v) := by
      apply Real.cos_le_cos_of_nonneg_of_le_pi (by positivity)
      · exact (mul_le_mul_of_nonneg_left (by exact_mod_cast hv) (by positivity)).trans hN
      · exact mul_le_mul_of_nonneg_left (by push_cast; linarith) (by positivity)
    have := mul_nonneg hs'.le (mul_nonneg hy (sub_nonneg.2 c))
    linarith
  · rintro p Y ⟨i, hi, rfl, rfl⟩
    rw [hstep]
    have := mul_nonneg hs'.le (mul_nonneg hy (neg_nonneg.2 (chord_rows (w := Real.pi / V) (by positivity) hi hv hN)))
    linarith

example := C93_ellipsoid ⟨⟨4, 2, 3⟩, 5, 4, true⟩ ⟨[], []⟩ (by norm_num) (by norm_num) (by norm_num) (by norm_num)

/-- C93: capsule. -/
theorem C93_capsule (d : CapsuleDesc) (m : M) (hx : 0 ≤ d.radius.x) (hy : 0 ≤ d.radius.y) (hz : 0 ≤ d.radius.z) (hh : 0 ≤ d.height)
    (hV : 2 * (max 1 d.segsY + 1) ≤ 2 ^ 32) (hE : (max 2 d.ellipsoidSegs + 1) * (max 3 d.segsX + 1) ≤ 2 ^ 32) :
    ∃ m', genCapsule d m = .ok m' ∧ AddsConvex m m' := by
  have h3 : 3 ≤ max 3 d.segsX := le_max_left _ _
  have h1 : 1 ≤ max 1 d.segsY := le_max_left _ _
  have h2 : 2 ≤ max 2 d.ellipsoidSegs := le_max_left _ _
  have hU : max 3 d.segsX + 1 < 2 ^ 32 := by
    have := Nat.mul_le_mul_right (max 3 d.segsX + 1) (show 3 ≤ max 2 d.ellipsoidSegs + 1 by omega); omega
  have hE' : max 2 d.ellipsoidSegs + 1 < 2 ^ 32 := by
    have := Nat.mul_le_mul_left (max 2 d.ellipsoidSegs + 1) (show 4 ≤ max 3 d.segsX + 1 by omega); omega
  refine ⟨_, genCapsule_ok d m hU (by omega) hE', _, ?_, rfl, asm_winds _ _ ?_ (asm_ne_nil (mantle_ne (by omega) h1))⟩
  · simp only [capsuleParts, allVs, List.flatMap_cons]
    exact List.append_ne_nil_of_left_ne_nil (gridV_ne _ _ _) _
  generalize max 3 d.segsX = H at *
  generalize max 1 d.segsY = V at *
  generalize max 2 d.ellipsoidSegs = E at *
  have hpi := Real.pi_pos
  have hE0 : (0 : ℝ) < E := by exact_mod_cast (show 0 < E by omega)
  generalize hw : Real.pi / 2 / E = w
  have w0 : 0 ≤ w := by rw [← hw]; positivity
  have wE : w * E = Real.pi / 2 := by rw [← hw]; field_simp
  have hN : w * E ≤ Real.pi := by linarith
  have wb : ∀ i : ℕ, i ≤ E → w * i ≤ Real.pi / 2 := fun i hi => (mul_le_mul_of_nonneg_left (by exact_mod_cast hi) w0).trans wE.le
  have hsin : ∀ i : ℕ, i ≤ E → 0 ≤ Real.sin (w * i) := fun i hi => Real.sin_nonneg_of_nonneg_of_le_pi (by positivity) (by linarith [wb i hi])
  have hcos : ∀ i : ℕ, i ≤ E → 0 ≤ Real.cos (w * i) := fun i hi =>
    Real.cos_nonneg_of_neg_pi_div_two_le_of_le (by have : 0 ≤ w * i := by positivity
                                                   linarith) (wb i hi)
  have R : ∀ (k : ℤ) (i j : ℕ), (k = 1 ∨ k = -1) → (hemiVx d.radius d.height k H E i j).position =
      revAt ⟨d.radius.x, d.radius.z⟩ (Real.sin (w * i)) (k * (d.radius.y * Real.cos (w * i) + d.height / 2)) (angle 0 H (-(k * j))) := by
    intro k i j hk
    have e : angle 0 H (-(k * j)) = -(k * turn H j) := by unfold angle turn; push_cast; ring
    have e1 : Real.sin (angle 0 H (-(k * j))) = -(k : ℝ) * Real.sin (turn H j) := by
      rw [e]; rcases hk with rfl | rfl <;> simp
    have e2 : Real.cos (angle 0 H (-(k * j))) = Real.cos (turn H j) := by
      rw [e]; rcases hk with rfl | rfl <;> simp
    have e3 : Real.pi / 2 * ((i : ℝ) / E) = w * i := by rw [← hw]; ring
    simp only [hemiVx, hemiPoint, revAt, e1, e2, e3, V3.mk.injEq]
    exact ⟨by ring, trivial, by ring⟩
  have inr : InRev ⟨d.radius.x, d.radius.z⟩ 0 H (fun p Y => ∃ i : ℕ, i ≤ E ∧ p = Real.sin (w * i) ∧
      |Y| ≤ d.radius.y * Real.cos (w * i) + d.height / 2) (allVs (capsuleParts d H V E)) := by
    have part : ∀ k : ℤ, (k = 1 ∨ k = -1) → ∀ q ∈ (hemiP d.alternateGrid d.radius d.height k H E).vs, ∃ (rho y : ℝ) (j : ℤ), 0 ≤ rho ∧
        (∃ i : ℕ, i ≤ E ∧ rho = Real.sin (w * i) ∧ |y| ≤ d.radius.y * Real.cos (w * i) + d.height / 2) ∧ q.position = revAt ⟨d.radius.x, d.radius.z⟩ rho y (angle 0 H j) := by
      intro k hk q hq
      obtain ⟨i, j, hi, hj, rfl⟩ := gridV_mem.1 hq
      refine ⟨_, _, _, hsin i (by omega), ⟨i, by omega, rfl, ?_⟩, R k i j hk⟩
      have : 0 ≤ d.radius.y * Real.cos (w * i) + d.height / 2 := add_nonneg (mul_nonneg hy (hcos i (by omega))) (by linarith)
      rcases hk with rfl | rfl
      · rw [Int.cast_one, one_mul, abs_of_nonneg this]
      · rw [Int.cast_neg, Int.cast_one, neg_one_mul, abs_neg, abs_of_nonneg this]
    intro q hq
    obtain ⟨p, hp, hq⟩ := List.mem_flatMap.1 hq
    simp only [capsuleParts, List.mem_cons, List.not_mem_nil, or_false] at hp
    rcases hp with rfl | rfl | rfl
    · obtain ⟨y, u, hy', _, e, _⟩ := mantleP_mem hq
      rw [abs_of_nonneg hh] at hy'
      refine ⟨1, y, u, zero_le_one, ⟨E, le_refl _, ?_, ?_⟩, ?_⟩
      · rw [wE, Real.sin_pi_div_two]
      · rw [wE, Real.cos_pi_div_two]; linarith
      · rw [e, ← turn_angle]
        simp only [atAngle, revAt, V3.mk.injEq]
        exact ⟨by ring, trivial, by ring⟩
    · exact part 1 (.inl rfl) q (by push_cast; exact hq)
    · exact part (-1) (.inr rfl) q (by push_cast; exact hq)
  have part : ∀ k : ℤ, (k = 1 ∨ k = -1) → (hemiP d.alternateGrid d.radius d.height k H E).Winds (Behind (allVs (capsuleParts d H V E))) := by
    intro k hk m' off hst
    refine gridTrisIx_has false d.alternateGrid H E off hst hE ?_
    intro v u hv hu
    have k2 : (k : ℝ) * k = 1 := by rcases hk with rfl | rfl <;> norm_num
    have hstep : Real.sin (angle 0 H (-(k * (u + 1 : ℕ))) - angle 0 H (-(k * u))) = -(k * Real.sin (2 * Real.pi / H)) := by
      have : angle 0 H (-(k * (u + 1 : ℕ))) - angle 0 H (-(k * u)) = -(k * (2 * Real.pi / H)) := by unfold angle; push_cast; ring
      rw [this, Real.sin_neg]
      rcases hk with rfl | rfl <;> simp
    have hs' := sin_step h3
    have c : Real.cos (w * (v + 1 : ℕ)) ≤ Real.cos (w * v) := by
      apply Real.cos_le_cos_of_nonneg_of_le_pi (by positivity) (by linarith [wb (v + 1) hv])
      exact mul_le_mul_of_nonneg_left (by push_cast; linarith) w0
    have s : Real.sin (w * v) ≤ Real.sin (w * (v + 1 : ℕ)) := by
      have : 0 ≤ w * v := by positivity
      apply Real.sin_le_sin_of_le_of_le_pi_div_two (by linarith) (wb (v + 1) hv)
      exact mul_le_mul_of_nonneg_left (by push_cast; linarith) w0
    refine quad_behind (mul_nonneg hx hz) inr (hsin v hv.le) (hsin (v + 1) hv) (fun j => ?_) (R k _ _ hk) (R k _ _ hk) (R k _ _ hk) (R k _ _ hk) ?_ ?_
    · rcases hk with rfl | rfl
      · have := beside_swap (beside_angle h3 0 (-(u + 1 : ℕ) : ℤ) j)
        rw [show (-(u + 1 : ℕ) : ℤ) + 1 = -(1 * u) by push_cast; ring] at this
        rwa [one_mul ((u + 1 : ℕ) : ℤ)]
      · have := beside_angle h3 0 (u : ℤ) j
        rw [show (-(-1 * (u : ℤ)) : ℤ) = u by ring, show (-(-1 * ((u + 1 : ℕ) : ℤ)) : ℤ) = u + 1 by push_cast; ring]
        exact this
    · rw [hstep]
      have := mul_nonneg hs'.le (mul_nonneg hy (sub_nonneg.2 c))
      refine this.trans_eq ?_
      linear_combination -(Real.sin (2 * Real.pi / H) * d.radius.y * (Real.cos (w * v) - Real.cos (w * (v + 1 : ℕ)))) * k2
    · rintro p Y ⟨i, hi, rfl, hY⟩
      rw [hstep]
      have kY : k * Y ≤ d.radius.y * Real.cos (w * i) + d.height / 2 := by
        refine le_trans ?_ hY
        rcases hk with rfl | rfl
        · simpa using le_abs_self Y
        · simpa using neg_le_abs Y
      have g1 := mul_nonneg hs'.le (mul_nonneg hy (neg_nonneg.2 (chord_rows (w := w) w0 hi hv hN)))
      have g2 := mul_nonneg hs'.le (mul_nonneg (sub_nonneg.2 kY) (sub_nonneg.2 s))
      refine le_of_eq_of_le ?_ (neg_nonpos.2 (add_nonneg g1 g2))
      linear_combination -(Real.sin (2 * Real.pi / H) * (d.radius.y * (Real.cos (w * (v + 1 : ℕ)) - Real.cos (w * v)) * (Real.sin (w * i) - Real.sin (w * v)) -
        (d.radius.y * Real.cos (w * v) + d.height / 2) * (Real.sin (w * v) - Real.sin (w * (v + 1 : ℕ))))) * k2
  intro p hp
  simp only [capsuleParts, List.mem_cons, List.not_mem_nil, or_false] at hp
  rcases hp with rfl | rfl | rfl
  · refine mantleP_behind (mul_nonneg hx hz) h3 inr _ _ _ _ hh h1 hV ?_
    rintro p Y ⟨i, _, rfl, _⟩
    exact Real.sin_le_one _
  · have := part 1 (.inl rfl)
    rwa [Int.cast_one] at this
  · have := part (-1) (.inr rfl)
    rwa [Int.cast_neg, Int.cast_one] at this

example := C93_capsule ⟨⟨4, 2, 3⟩, 1, 5, 2, 3, true⟩ ⟨[], []⟩ (by norm_num) (by norm_num) (by norm_num) (by norm_num) (by norm_num)
  (by norm_num)

theorem face_behind (m : M) {rot : V3 ℝ → V3 ℝ} (hrot : Turns rot) (hlin : ∀ a b, rot a - rot b = rot (a - b)) {sh sv : ℝ} (oz : ℝ) (hsh : 0 ≤ sh) (hsv : 0 ≤ sv)
    (H V : ℕ) (alt : Bool) (hH : 1 ≤ H) (hV : 1 ≤ V) (hb : (V + 1) * (H + 1) ≤ 2 ^ 32) {P : V3 ℝ → Prop} (hP : ∀ q, P q → ∃ p, q = rot p ∧ oz / 2 ≤ p.z) :
    ∃ m' vs, buildFace m rot sh sv oz H V alt = .ok m' ∧ m'.vertices = m.vertices ++ vs ∧ AddsTriangles m m' (fun a b c => ∀ us : List (Vertex ℝ),
      (∀ q ∈ us, P q.position) → Behind us a b c) := by
  have hU' : H + 1 < 2 ^ 32 := by have := Nat.mul_le_mul_right (H + 1) (show 2 ≤ V + 1 by omega); omega
  have hV' : V + 1 < 2 ^ 32 := by have := Nat.mul_le_mul_left (V + 1) (show 2 ≤ H + 1 by omega); omega
  rw [buildFace_ok _ _ _ _ _ _ _ _ hU' hV']
  refine ⟨_, _, rfl, rfl, adds_of _ _ _ (ne_nil_of_length (faceTrisIx_length ..) (by positivity)) fun m' hs => ?_⟩
  refine faceTrisIx_has false alt H V _ hs hb ?_
  intro v u hv hu
  have hHr : (0 : ℝ) < H := by exact_mod_cast hH
  have hVr : (0 : ℝ) < V := by exact_mod_cast hV
  have p : 0 ≤ sh / H * (sv / V) := by positivity
  have ej : sh * (((u + 1 : ℕ) : ℝ) / H) = sh * ((u : ℝ) / H) + sh / H := by push_cast; ring
  have ei : sv * (((v + 1 : ℕ) : ℝ) / V) = sv * ((v : ℝ) / V) + sv / V := by push_cast; ring
  show Quad4 _ _ _ _ _
  constructor <;> intro us hus q hq <;> obtain ⟨x, ex, hx⟩ := hP _ (hus q hq) <;> rw [ex] <;>
    simp only [faceV, hlin, hrot _ _ _ _, ej, ei] <;>
    simp only [facet, V3.dot, V3.cross_x, V3.cross_y, V3.cross_z, V3.sub_x, V3.sub_y, V3.sub_z] <;>
    have k := mul_nonneg p (sub_nonneg.2 hx) <;> linarith

/-- C93: cuboid. -/
theorem C93_cuboid (sx sy : ℝ) (hsx : sx = 1 ∨ sx = -1) (hsy : sy = 1 ∨ sy = -1) (d : CuboidDesc) (m : M) (hx : 0 ≤ d.size.x) (hy : 0 ≤ d.size.y) (hz : 0 ≤ d.size.z)
    (h1 : (max 1 d.segsY + 1) * (max 1 d.segsX + 1) ≤ 2 ^ 32) (h2 : (max 1 d.segsY + 1) * (max 1 d.segsZ + 1) ≤ 2 ^ 32)
    (h3 : (max 1 d.segsZ + 1) * (max 1 d.segsX + 1) ≤ 2 ^ 32) :
    ∃ m', genCuboid sx sy d m = .ok m' ∧ AddsConvex m m' := by
  have p1 : 1 ≤ max 1 d.segsX := le_max_left _ _
  have p2 : 1 ≤ max 1 d.segsY := le_max_left _ _
  have p3 : 1 ≤ max 1 d.segsZ := le_max_left _ _
  have q1 := Nat.mul_le_mul_left (max 1 d.segsY + 1) (show 2 ≤ max 1 d.segsX + 1 by omega)
  have q2 := Nat.mul_le_mul_right (max 1 d.segsX + 1) (show 2 ≤ max 1 d.segsY + 1 by omega)
  have q3 := Nat.mul_le_mul_left (max 1 d.segsZ + 1) (show 2 ≤ max 1 d.segsX + 1 by omega)
  obtain ⟨m', e, ⟨vs, ev, el, hP⟩, _⟩ := C42_appends sx sy hsx hsy d m (by omega) (by omega) (by omega)
  have linY : ∀ t a b, rotY t a - rotY t b = rotY t (a - b) := by
    intro t a b; ext <;> simp only [rotY, V3.sub_x, V3.sub_y, V3.sub_z] <;> ring
  have linX : ∀ t a b, rotX t a - rotX t b = rotX t (a - b) := by
    intro t a b; ext <;> simp only [rotX, V3.sub_x, V3.sub_y, V3.sub_z] <;> ring
  have invY : ∀ t q, q = rotY t (rotY (-t) q) := by
    intro t q
    have := Real.sin_sq_add_cos_sq t
    ext <;> simp only [rotY, Real.sin_neg, Real.cos_neg]
    · linear_combination -q.x * this
    · linear_combination -q.z * this
  have invX : ∀ t q, q = rotX t (rotX (-t) q) := by
    intro t q
    have := Real.sin_sq_add_cos_sq t
    ext <;> simp only [rotX, Real.sin_neg, Real.cos_neg]
    · linear_combination -q.y * this
    · linear_combination -q.z * this
  let P : V3 ℝ → Prop := OnBox d.size
  have bx : ∀ q, P q → (-(d.size.x / 2) ≤ q.x ∧ q.x ≤ d.size.x / 2) ∧ (-(d.size.y / 2) ≤ q.y ∧ q.y ≤ d.size.y / 2) ∧ (-(d.size.z / 2) ≤ q.z ∧ q.z ≤ d.size.z / 2) := by
    rintro q ⟨a, b, c, _⟩
    rw [abs_of_nonneg hx] at a
    rw [abs_of_nonneg hy] at b
    rw [abs_of_nonneg hz] at c
    exact ⟨abs_le.1 a, abs_le.1 b, abs_le.1 c⟩
  simp only [genCuboid] at e ⊢
  obtain ⟨m1, v1, e1, w1, g1⟩ := face_behind (P := P) m turns_id (fun _ _ => rfl) (-d.size.z) hx hy (max 1 d.segsX) (max 1 d.segsY) d.alternateGrid p1 p2 h1
    (fun q hq => ⟨q, rfl, by linarith [(bx q hq).2.2.1]⟩)
  obtain ⟨m2, v2, e2, w2, g2⟩ := face_behind (P := P) m1 (turns_rotY (sy * Real.pi)) (linY _) (-d.size.z) hx hy (max 1 d.segsX) (max 1 d.segsY) d.alternateGrid p1 p2 h1
    (fun q hq => ⟨_, invY _ q, by
      obtain ⟨⟨_, _⟩, ⟨_, _⟩, ⟨_, _⟩⟩ := bx q hq
      rcases hsy with rfl | rfl <;> simp [rotY] <;> linarith⟩)
  obtain ⟨m3, v3, e3, w3, g3⟩ := face_behind (P := P) m2 (turns_rotY (sy * -(Real.pi / 2))) (linY _) (-d.size.x) hz hy (max 1 d.segsZ) (max 1 d.segsY) d.alternateGrid p3 p2 h2
    (fun q hq => ⟨_, invY _ q, by
      obtain ⟨⟨_, _⟩, ⟨_, _⟩, ⟨_, _⟩⟩ := bx q hq
      rcases hsy with rfl | rfl <;> simp [rotY] <;> linarith⟩)
  obtain ⟨m4, v4, e4, w4, g4⟩ := face_behind (P := P) m3 (turns_rotY (sy * (Real.pi / 2))) (linY _) (-d.size.x) hz hy (max 1 d.segsZ) (max 1 d.segsY) d.alternateGrid p3 p2 h2
    (fun q hq => ⟨_, invY _ q, by
      obtain ⟨⟨_, _⟩, ⟨_, _⟩, ⟨_, _⟩⟩ := bx q hq
      rcases hsy with rfl | rfl <;> simp [rotY] <;> linarith⟩)
  obtain ⟨m5, v5, e5, w5, g5⟩ := face_behind (P := P) m4 (turns_rotX (sx * (Real.pi / 2))) (linX _) (-d.size.y) hx hz (max 1 d.segsX) (max 1 d.segsZ) d.alternateGrid p1 p3 h3
    (fun q hq => ⟨_, invX _ q, by
      obtain ⟨⟨_, _⟩, ⟨_, _⟩, ⟨_, _⟩⟩ := bx q hq
      rcases hsx with rfl | rfl <;> simp [rotX] <;> linarith⟩)
  obtain ⟨m6, v6, e6, w6, g6⟩ := face_behind (P := P) m5 (turns_rotX (sx * -(Real.pi / 2))) (linX _) (-d.size.y) hx hz (max 1 d.segsX) (max 1 d.segsZ) d.alternateGrid p1 p3 h3
    (fun q hq => ⟨_, invX _ q, by
      obtain ⟨⟨_, _⟩, ⟨_, _⟩, ⟨_, _⟩⟩ := bx q hq
      rcases hsx with rfl | rfl <;> simp [rotX] <;> linarith⟩)
  rw [e1, Res.bind_ok, e2, Res.bind_ok, e3, Res.bind_ok, e4, Res.bind_ok, e5, Res.bind_ok, e6] at e ⊢
  cases e
  refine ⟨_, rfl, vs, ?_, ev, ?_⟩
  · intro h
    rw [h] at el
    simp at el
  · exact adds_mono (fun a b c h => h vs fun q hq => (hP q hq).1) (adds_trans w6 (adds_trans w5 (adds_trans w4 (adds_trans w3 (adds_trans w2 g1 g2) g3) g4) g5) g6)

/-! Descriptors that meet the hypotheses. -/

example : ∃ m', genCapsule ⟨⟨3, 1, 2⟩, 1, 5, 1, 3, true⟩ ⟨[], []⟩ = .ok m' ∧ AddsConvex ⟨[], []⟩ m' :=
  C93_capsule ⟨⟨3, 1, 2⟩, 1, 5, 1, 3, true⟩ _ (by norm_num) (by norm_num) (by norm_num) (by norm_num) (by norm_num) (by norm_num)
example : ∃ m', genCuboid 1 (-1) ⟨⟨3, 1, 2⟩, 5, 1, 3, true⟩ ⟨[], []⟩ = .ok m' ∧ AddsConvex ⟨[], []⟩ m' :=
  C93_cuboid 1 (-1) (.inl rfl) (.inr rfl) ⟨⟨3, 1, 2⟩, 5, 1, 3, true⟩ _ (by norm_num) (by norm_num) (by norm_num) (by norm_num) (by norm_num) (by norm_num)

/-- A point in front of a triangle. -/
example : ¬ Behind [⟨⟨0, 0, 1⟩, ⟨0, 0, 1⟩, ⟨0, 0⟩⟩] ⟨⟨0, 0, 0⟩, ⟨0, 0, 1⟩, ⟨0, 0⟩⟩ ⟨⟨1, 0, 0⟩, ⟨0, 0, 1⟩, ⟨0, 0⟩⟩ ⟨⟨0, 1, 0⟩, ⟨0, 0, 1⟩, ⟨0, 0⟩⟩ := by
  intro h
  have := h _ (List.mem_singleton_self _)
  norm_num [facet, V3.dot, V3.cross_x, V3.cross_y, V3.cross_z, V3.sub_x, V3.sub_y, V3.sub_z] at this

end Geom.Gen
