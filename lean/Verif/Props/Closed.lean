import Verif.Props.GenRound
import Verif.Spec.Closed
import Mathlib.Algebra.BigOperators.Intervals

/-
  C92: generated solids are closed surfaces.
-/
set_option autoImplicit false
set_option linter.unusedSectionVars false

namespace Geom.Gen
open TMesh (Mesh Vertex Ix)
open Spec

/-- The sum of a function over the edges. -/
noncomputable def bsum (w : V3 ℝ → V3 ℝ → ℝ) (fs : List Face) : ℝ := ((fs.flatMap edges).map fun e => w e.1 e.2).sum

/-- The function changes its sign with the direction of the edge. -/
def Anti (w : V3 ℝ → V3 ℝ → ℝ) : Prop := ∀ x y, w y x = -w x y

theorem anti_self {w : V3 ℝ → V3 ℝ → ℝ} (hw : Anti w) (x : V3 ℝ) : w x x = 0 := by have := hw x x; linarith

theorem watertight_of {fs : List Face} (hn : fs ≠ []) (h : ∀ w, Anti w → bsum w fs = 0) : Watertight fs := by
  classical
  refine ⟨hn, fun p q hpq => ?_⟩
  have key : ∀ es : List (V3 ℝ × V3 ℝ), (es.map fun e => (if e = (p, q) then (1 : ℝ) else 0) - if e = (q, p) then (1 : ℝ) else 0).sum =
      (es.count (p, q) : ℝ) - es.count (q, p) := by
    intro es
    induction es with
    | nil => simp
    | cons e es ih =>
      rw [List.map_cons, List.sum_cons, ih, List.count_cons, List.count_cons]
      by_cases h1 : e = (p, q) <;> by_cases h2 : e = (q, p) <;> simp [h1, h2] <;> ring
  have := h (fun x y => (if (x, y) = (p, q) then (1 : ℝ) else 0) - if (x, y) = (q, p) then (1 : ℝ) else 0) (by
    intro x y
    simp only [Prod.mk.injEq]
    by_cases h1 : x = p <;> by_cases h2 : y = q <;> by_cases h3 : x = q <;> by_cases h4 : y = p <;> simp [h1, h2, h3, h4] <;> simp_all)
  unfold bsum at this
  rw [key] at this
  have e : ((fs.flatMap edges).count (p, q) : ℝ) = (fs.flatMap edges).count (q, p) := by linarith
  have e' := Nat.cast_injective e
  unfold uses
  convert e' using 1

section
variable {w : V3 ℝ → V3 ℝ → ℝ}

theorem bsum_nil : bsum w [] = 0 := rfl

theorem bsum_append (a b : List Face) : bsum w (a ++ b) = bsum w a + bsum w b := by
  simp [bsum, List.flatMap_append]

theorem bsum_cons (f : Face) (b : List Face) : bsum w (f :: b) = w f.1 f.2.1 + w f.2.1 f.2.2 + w f.2.2 f.1 + bsum w b := by
  simp [bsum, edges]; ring

theorem bsum_range (n : ℕ) (f : ℕ → List Face) : bsum w ((List.range n).flatMap f) = ∑ i ∈ Finset.range n, bsum w (f i) := by
  induction n with
  | zero => rfl
  | succ n ih => rw [List.range_succ, List.flatMap_append, bsum_append, ih, Finset.sum_range_succ]; simp

theorem bsum_grid (R C : ℕ) (f : ℕ → ℕ → List Face) : bsum w (grid R C f) = ∑ i ∈ Finset.range R, ∑ j ∈ Finset.range C, bsum w (f i j) := by
  rw [grid, bsum_range]
  exact Finset.sum_congr rfl fun i _ => bsum_range _ _

/-- The sum around a cell. -/
def cyc (w : V3 ℝ → V3 ℝ → ℝ) (a b c d : V3 ℝ) : ℝ := w a b + w b c + w c d + w d a

variable (hw : Anti w)
include hw

theorem bsum_quad (alt : Bool) (u v : ℕ) (a b c d : V3 ℝ) : bsum w (quad alt u v a b c d) = cyc w a b c d := by
  unfold quad cyc
  have h1 := hw a c
  have h2 := hw b d
  split_ifs <;> simp only [bsum_cons, bsum_nil] <;> linarith

theorem cyc_rev (a b c d : V3 ℝ) : cyc w b a d c = -cyc w a b c d := by
  unfold cyc; rw [hw a b, hw d a, hw c d, hw b c]; ring

/-- The sum over the edges of a row, and of a column, of a grid. -/
def rowS (w : V3 ℝ → V3 ℝ → ℝ) (C : ℕ) (f : ℕ → V3 ℝ) : ℝ := ∑ j ∈ Finset.range C, w (f j) (f (j + 1))

omit hw in
theorem rowS_congr {C : ℕ} {f g : ℕ → V3 ℝ} (h : ∀ j, j ≤ C → f j = g j) : rowS w C f = rowS w C g := by
  unfold rowS
  refine Finset.sum_congr rfl fun j hj => ?_
  have := Finset.mem_range.1 hj
  rw [h j (by omega), h (j + 1) (by omega)]

theorem rowS_const {C : ℕ} {f : ℕ → V3 ℝ} (p : V3 ℝ) (h : ∀ j, j ≤ C → f j = p) : rowS w C f = 0 := by
  rw [rowS_congr (g := fun _ => p) h]
  simp [rowS, anti_self hw]

theorem rowS_rev {C : ℕ} {f g : ℕ → V3 ℝ} (h : ∀ j, j ≤ C → f j = g (C - j)) : rowS w C f = -rowS w C g := by
  rw [rowS_congr h]
  unfold rowS
  rw [← Finset.sum_neg_distrib, ← Finset.sum_range_reflect (fun j => -w (g j) (g (j + 1)))]
  refine Finset.sum_congr rfl fun j hj => ?_
  have := Finset.mem_range.1 hj
  dsimp only
  rw [← hw, show C - (j + 1) = C - 1 - j by omega, show C - j = C - 1 - j + 1 by omega]

/-- The border of a grid. -/
def border (w : V3 ℝ → V3 ℝ → ℝ) (R C : ℕ) (D : ℕ → ℕ → V3 ℝ) : ℝ :=
  rowS w C (D 0) - rowS w C (D R) + rowS w R (fun i => D i C) - rowS w R (fun i => D i 0)

theorem sum_grid (R C : ℕ) (D : ℕ → ℕ → V3 ℝ) :
    ∑ i ∈ Finset.range R, ∑ j ∈ Finset.range C, cyc w (D i j) (D i (j + 1)) (D (i + 1) (j + 1)) (D (i + 1) j) = border w R C D := by
  have inner : ∀ i, ∑ j ∈ Finset.range C, cyc w (D i j) (D i (j + 1)) (D (i + 1) (j + 1)) (D (i + 1) j) =
      rowS w C (D i) - rowS w C (D (i + 1)) + (w (D i C) (D (i + 1) C) - w (D i 0) (D (i + 1) 0)) := by
    intro i
    have e : ∀ j, cyc w (D i j) (D i (j + 1)) (D (i + 1) (j + 1)) (D (i + 1) j) = w (D i j) (D i (j + 1)) - w (D (i + 1) j) (D (i + 1) (j + 1)) +
        (w (D i (j + 1)) (D (i + 1) (j + 1)) - w (D i j) (D (i + 1) j)) := by
      intro j
      unfold cyc
      rw [hw (D (i + 1) j) (D (i + 1) (j + 1)), hw (D i j) (D (i + 1) j)]; ring
    rw [Finset.sum_congr rfl fun j _ => e j, Finset.sum_add_distrib, Finset.sum_sub_distrib, Finset.sum_range_sub (fun j => w (D i j) (D (i + 1) j))]
    rfl
  rw [Finset.sum_congr rfl fun i _ => inner i, Finset.sum_add_distrib, Finset.sum_range_sub' (fun i => rowS w C (D i)), Finset.sum_sub_distrib]
  unfold border rowS
  ring

/-- Quads in the order of the rows. -/
theorem grid_plus (alt : Bool) (R C : ℕ) (D : ℕ → ℕ → V3 ℝ) :
    bsum w (grid R C fun i j => quad alt j i (D i j) (D i (j + 1)) (D (i + 1) (j + 1)) (D (i + 1) j)) = border w R C D := by
  rw [bsum_grid, ← sum_grid hw]
  simp only [bsum_quad hw]

/-- Mantles. -/
theorem grid_mantle (alt : Bool) (R C : ℕ) (D : ℕ → ℕ → V3 ℝ) :
    bsum w (grid R C fun i j => quad alt i j (D (i + 1) j) (D i j) (D i (j + 1)) (D (i + 1) (j + 1))) = border w R C D := by
  rw [bsum_grid, ← sum_grid hw]
  refine Finset.sum_congr rfl fun i _ => Finset.sum_congr rfl fun j _ => ?_
  rw [bsum_quad hw, cyc, cyc]; ring

/-- Mantles with the opposite orientation. -/
theorem grid_minus (alt : Bool) (R C : ℕ) (D : ℕ → ℕ → V3 ℝ) :
    bsum w (grid R C fun i j => quad alt i j (D i j) (D (i + 1) j) (D (i + 1) (j + 1)) (D i (j + 1))) = -border w R C D := by
  rw [bsum_grid, ← sum_grid hw, ← Finset.sum_neg_distrib]
  refine Finset.sum_congr rfl fun i _ => ?_
  rw [← Finset.sum_neg_distrib]
  refine Finset.sum_congr rfl fun j _ => ?_
  rw [bsum_quad hw, ← cyc_rev hw]
  unfold cyc; ring

theorem grid_face (alt : Bool) (R C : ℕ) (D : ℕ → ℕ → V3 ℝ) :
    bsum w (grid R C fun i j => quad alt j i (D i j) (D (i + 1) j) (D (i + 1) (j + 1)) (D i (j + 1))) = -border w R C D := by
  rw [← grid_minus hw alt, bsum_grid, bsum_grid]
  simp only [bsum_quad hw]

theorem grid_torus (alt : Bool) (R C : ℕ) (D : ℕ → ℕ → V3 ℝ) :
    bsum w (grid R C fun i j => quad alt j i (D i (j + 1)) (D i j) (D (i + 1) j) (D (i + 1) (j + 1))) = -border w R C D := by
  rw [← grid_minus hw alt, bsum_grid, bsum_grid]
  refine Finset.sum_congr rfl fun i _ => Finset.sum_congr rfl fun j _ => ?_
  rw [bsum_quad hw, bsum_quad hw, cyc, cyc]; ring

/-- Discs: a grid whose first column is the center. -/
theorem disc_bsum (top alt : Bool) (H C : ℕ) (hC : 1 ≤ C) (center : V3 ℝ) (D : ℕ → ℕ → V3 ℝ) (h0 : ∀ u, D u 0 = center) :
    bsum w (disc top alt H C center D) = if top then border w H C D else -border w H C D := by
  obtain ⟨C, rfl⟩ : ∃ k, C = k + 1 := ⟨C - 1, by omega⟩
  have hs := sum_grid hw H (C + 1) D
  cases top
  · simp only [disc, Bool.false_eq_true, if_false]
    rw [bsum_range, ← hs, ← Finset.sum_neg_distrib]
    refine Finset.sum_congr rfl fun u _ => ?_
    rw [bsum_cons, Nat.add_sub_cancel, bsum_range, Finset.sum_range_succ', neg_add, add_comm, ← Finset.sum_neg_distrib]
    simp only [bsum_quad hw]
    congr 1
    · refine Finset.sum_congr rfl fun j _ => ?_
      rw [← cyc_rev hw]; unfold cyc; ring
    · simp only [cyc, h0, anti_self hw, Nat.zero_add]
      rw [hw (D u 1) (D (u + 1) 1), hw center (D u 1), hw center (D (u + 1) 1)]; ring
  · simp only [disc, if_true]
    rw [bsum_range, ← hs]
    refine Finset.sum_congr rfl fun u _ => ?_
    rw [bsum_cons, Nat.add_sub_cancel, bsum_range, Finset.sum_range_succ', add_comm]
    simp only [bsum_quad hw]
    congr 1
    · refine Finset.sum_congr rfl fun j _ => ?_
      rw [cyc, cyc]; ring
    · simp only [cyc, h0, anti_self hw, Nat.zero_add]
      ring

theorem cone_bsum (alt : Bool) (H C : ℕ) (hC : 1 ≤ C) (tip : V3 ℝ) (D : ℕ → ℕ → V3 ℝ) (h0 : ∀ u, D u 0 = tip) :
    bsum w (mantleOfCone alt H C tip D) = border w H C D := by
  have := disc_bsum hw true alt H C hC tip D h0
  simpa [disc, mantleOfCone] using this

end

theorem quad_ne {alt : Bool} {u v : ℕ} {a b c d : V3 ℝ} : quad alt u v a b c d ≠ [] := by
  unfold quad; split_ifs <;> simp

theorem grid_ne {R C : ℕ} {f : ℕ → ℕ → List Face} (hR : 0 < R) (hC : 0 < C) (h : f 0 0 ≠ []) : grid R C f ≠ [] := by
  intro e
  rw [grid, List.flatMap_eq_nil_iff] at e
  have := e 0 (List.mem_range.2 hR)
  rw [List.flatMap_eq_nil_iff] at this
  exact h (this 0 (List.mem_range.2 hC))

theorem turn_last {H : ℕ} (hH : 0 < H) : 2 * Real.pi * (H : ℝ) / H = 2 * Real.pi := by
  have : (H : ℝ) ≠ 0 := by positivity
  field_simp

theorem turn_first (H : ℕ) : 2 * Real.pi * ((0 : ℕ) : ℝ) / H = 0 := by simp

theorem atAngle_seam {H : ℕ} (hH : 0 < H) (r : V2 ℝ) (y : ℝ) : atAngle r y (2 * Real.pi * (H : ℝ) / H) = atAngle r y (2 * Real.pi * ((0 : ℕ) : ℝ) / H) := by
  rw [turn_last hH, turn_first]; simp [atAngle]

/-- The border of a surface that is closed in the direction of its rows. -/
theorem border_seam (w : V3 ℝ → V3 ℝ → ℝ) {R C : ℕ} {D : ℕ → ℕ → V3 ℝ} (h : ∀ j, j ≤ C → D R j = D 0 j) :
    border w R C D = rowS w R (fun i => D i C) - rowS w R (fun i => D i 0) := by
  unfold border
  rw [rowS_congr (w := w) (f := D R) (g := D 0) h]; ring

theorem border_seam' (w : V3 ℝ → V3 ℝ → ℝ) {R C : ℕ} {D : ℕ → ℕ → V3 ℝ} (h : ∀ i, i ≤ R → D i C = D i 0) :
    border w R C D = rowS w C (D 0) - rowS w C (D R) := by
  unfold border
  rw [rowS_congr (w := w) (f := fun i => D i C) (g := fun i => D i 0) h]; ring

/-- A border column that is a point. -/
theorem border_disc {w : V3 ℝ → V3 ℝ → ℝ} (hw : Anti w) {R C : ℕ} {D : ℕ → ℕ → V3 ℝ} (h : ∀ j, j ≤ C → D R j = D 0 j) (p : V3 ℝ) (hp : ∀ i, D i 0 = p) :
    border w R C D = rowS w R (fun i => D i C) := by
  rw [border_seam w h, rowS_const hw (f := fun i => D i 0) p (fun i _ => hp i), sub_zero]

theorem scaled_zero (r : V2 ℝ) (C : ℕ) : scaled (((0 : ℕ) : ℝ) / C) r = ⟨0, 0⟩ := by simp [scaled]

theorem scaled_last {C : ℕ} (hC : 1 ≤ C) (r : V2 ℝ) : scaled ((C : ℝ) / C) r = r := by
  have : (C : ℝ) ≠ 0 := by positivity
  simp [scaled, div_self this]

theorem atAngle_zero (y phi : ℝ) : atAngle ⟨0, 0⟩ y phi = ⟨0, y, 0⟩ := by simp [atAngle]

/-- C92: cylinder with both covers. -/
theorem C92_cylinder (d : CylinderDesc) (m : M) (hB1 : 1 ≤ d.bottomCov) (hT1 : 1 ≤ d.topCov) (hH : max 3 d.segsX + 1 < 2 ^ 32)
    (hV : 2 * (max 1 d.segsY + 1) ≤ 2 ^ 32) (hB : 2 * d.bottomCov ≤ 2 ^ 32) (hT : 2 * d.topCov ≤ 2 ^ 32) :
    ∃ m' fs, genCylinder d m = .ok m' ∧ NewFaces m m' fs ∧ Watertight fs := by
  have h3 : 3 ≤ max 3 d.segsX := le_max_left _ _
  have h1 : 1 ≤ max 1 d.segsY := le_max_left _ _
  obtain ⟨m', e, _, hf⟩ := C44_cylinder d m hH (by omega) (by omega) (by omega)
  refine ⟨m', _, e, hf hV hB hT, watertight_of ?_ ?_⟩
  · intro e
    simp only [List.append_eq_nil_iff] at e
    exact grid_ne (by omega) (by omega) quad_ne e.1.1
  intro w hw
  generalize max 3 d.segsX = H at *
  generalize max 1 d.segsY = V at *
  have hV' : (V : ℝ) ≠ 0 := by positivity
  dsimp only
  rw [if_neg (by omega), if_neg (by omega), bsum_append, bsum_append, grid_mantle hw d.alternateGrid H V (fun u v => atAngle d.radius (d.height / 2 - d.height * (v / V)) (2 * Real.pi * u / H)),
    disc_bsum hw _ _ _ _ hB1 _ _ (fun u => by rw [scaled_zero, atAngle_zero]), disc_bsum hw _ _ _ _ hT1 _ _ (fun u => by rw [scaled_zero, atAngle_zero])]
  simp only [Bool.false_eq_true, if_false, if_true]
  rw [border_seam w (fun j _ => atAngle_seam (by omega) _ _), border_disc hw (fun j _ => atAngle_seam (by omega) _ _) _ (fun u => by rw [scaled_zero, atAngle_zero]),
    border_disc hw (fun j _ => atAngle_seam (by omega) _ _) _ (fun u => by rw [scaled_zero, atAngle_zero]), scaled_last hB1, scaled_last hT1, div_self hV']
  simp only [Nat.cast_zero, zero_div]
  rw [show d.height * (1 / 2) * -1 = d.height / 2 - d.height * 1 by ring, show d.height * (1 / 2) * 1 = d.height / 2 - d.height * 0 by ring]
  ring

example := C92_cylinder ⟨⟨4, 2⟩, 3, 5, 2, 1, 2, true⟩ ⟨[], []⟩ (by norm_num) (by norm_num) (by norm_num) (by norm_num) (by norm_num)
  (by norm_num)

/-- C92: cone with a cover. -/
theorem C92_cone (d : ConeDesc) (m : M) (hB1 : 1 ≤ d.cov) (hH : max 3 d.segsX + 1 < 2 ^ 32)
    (hV : 2 * (max 1 d.segsY + 1) ≤ 2 ^ 32) (hB : 2 * d.cov ≤ 2 ^ 32) :
    ∃ m' fs, genCone d m = .ok m' ∧ NewFaces m m' fs ∧ Watertight fs := by
  have h3 : 3 ≤ max 3 d.segsX := le_max_left _ _
  have h1 : 1 ≤ max 1 d.segsY := le_max_left _ _
  obtain ⟨m', e, _, hf⟩ := C44_cone d m hH (by omega) (by omega)
  refine ⟨m', _, e, hf hV hB, watertight_of ?_ ?_⟩
  · intro e
    simp only [List.append_eq_nil_iff] at e
    have := e.1
    rw [mantleOfCone, List.flatMap_eq_nil_iff] at this
    have := this 0 (List.mem_range.2 (by omega))
    simp at this
  intro w hw
  generalize max 3 d.segsX = H at *
  generalize max 1 d.segsY = V at *
  have hV' : (V : ℝ) ≠ 0 := by positivity
  rw [if_neg (by omega), bsum_append, cone_bsum hw _ _ _ h1 _ _ (fun u => by rw [scaled_zero, atAngle_zero]; simp),
    disc_bsum hw _ _ _ _ hB1 _ _ (fun u => by rw [scaled_zero, atAngle_zero])]
  simp only [Bool.false_eq_true, if_false]
  rw [border_disc hw (fun j _ => atAngle_seam (by omega) _ _) ⟨0, d.height / 2, 0⟩ (fun u => by rw [scaled_zero, atAngle_zero]; simp),
    border_disc hw (fun j _ => atAngle_seam (by omega) _ _) _ (fun u => by rw [scaled_zero, atAngle_zero]), scaled_last hB1, scaled_last h1, div_self hV']
  rw [show -(d.height * (1 / 2)) = d.height / 2 - 1 * d.height by ring]
  ring

example := C92_cone ⟨⟨4, 2⟩, 3, 5, 2, 1, true⟩ ⟨[], []⟩ (by norm_num) (by norm_num) (by norm_num) (by norm_num)

theorem between_zero (C : ℕ) (r q : V2 ℝ) : between (((0 : ℕ) : ℝ) / C) r q = r := by simp [between]

theorem between_last {C : ℕ} (hC : 1 ≤ C) (r q : V2 ℝ) : between ((C : ℝ) / C) r q = q := by
  have : (C : ℝ) ≠ 0 := by positivity
  simp [between, div_self this]

/-- C92: pipe with both covers. -/
theorem C92_pipe (d : PipeDesc) (m : M) (hB1 : 1 ≤ d.bottomCov) (hT1 : 1 ≤ d.topCov) (hH : max 3 d.segsX + 1 < 2 ^ 32)
    (hV : 2 * (max 1 d.segsY + 1) ≤ 2 ^ 32) (hB : 2 * (d.bottomCov + 1) ≤ 2 ^ 32) (hT : 2 * (d.topCov + 1) ≤ 2 ^ 32) :
    ∃ m' fs, genPipe d m = .ok m' ∧ NewFaces m m' fs ∧ Watertight fs := by
  have h3 : 3 ≤ max 3 d.segsX := le_max_left _ _
  have h1 : 1 ≤ max 1 d.segsY := le_max_left _ _
  obtain ⟨m', e, _, hf⟩ := C45_pipe d m hH (by omega) (by omega) (by omega)
  refine ⟨m', _, e, hf hV hB hT, watertight_of ?_ ?_⟩
  · intro e
    simp only [List.append_eq_nil_iff] at e
    exact grid_ne (by omega) (by omega) quad_ne e.1.1.1
  intro w hw
  generalize max 3 d.segsX = H at *
  generalize max 1 d.segsY = V at *
  have hV' : (V : ℝ) ≠ 0 := by positivity
  dsimp only
  rw [if_neg (by omega), if_neg (by omega), bsum_append, bsum_append, bsum_append,
    grid_mantle hw d.alternateGrid H V (fun u v => atAngle d.outerRadius (d.height / 2 - d.height * (v / V)) (2 * Real.pi * u / H)),
    grid_minus hw d.alternateGrid H V (fun u v => atAngle d.innerRadius (d.height / 2 - d.height * (v / V)) (2 * Real.pi * u / H)),
    grid_minus hw d.alternateGrid H d.bottomCov (fun u v => atAngle (between (v / d.bottomCov) d.innerRadius d.outerRadius) (d.height * (1 / 2) * -1) (2 * Real.pi * u / H)),
    grid_mantle hw d.alternateGrid H d.topCov (fun u v => atAngle (between (v / d.topCov) d.innerRadius d.outerRadius) (d.height * (1 / 2) * 1) (2 * Real.pi * u / H))]
  rw [border_seam w (fun j _ => atAngle_seam (by omega) _ _), border_seam w (fun j _ => atAngle_seam (by omega) _ _),
    border_seam w (fun j _ => atAngle_seam (by omega) _ _), border_seam w (fun j _ => atAngle_seam (by omega) _ _),
    between_last hB1, between_last hT1, between_zero, between_zero, div_self hV']
  simp only [Nat.cast_zero, zero_div]
  rw [show d.height * (1 / 2) * -1 = d.height / 2 - d.height * 1 by ring, show d.height * (1 / 2) * 1 = d.height / 2 - d.height * 0 by ring]
  ring

example := C92_pipe ⟨⟨2, 1⟩, ⟨4, 2⟩, 3, 5, 2, 1, 2, true⟩ ⟨[], []⟩ (by norm_num) (by norm_num) (by norm_num) (by norm_num) (by norm_num)
  (by norm_num)

/-- C92: ellipsoid. -/
theorem C92_ellipsoid (d : EllipsoidDesc) (m : M) (hb : (max 2 d.segsY + 1) * (max 3 d.segsX + 1) ≤ 2 ^ 32) :
    ∃ m' fs, genEllipsoid d m = .ok m' ∧ NewFaces m m' fs ∧ Watertight fs := by
  have h1 : 3 ≤ max 3 d.segsX := le_max_left _ _
  have h2 : 2 ≤ max 2 d.segsY := le_max_left _ _
  obtain ⟨m', e, hf⟩ := C43_faces d m hb
  refine ⟨m', _, e, hf, watertight_of (grid_ne (by omega) (by omega) quad_ne) ?_⟩
  intro w hw
  generalize max 3 d.segsX = H at *
  generalize max 2 d.segsY = V at *
  rw [grid_plus hw d.alternateGrid V H (fun v u => ellipsoidPoint d.radius (Real.pi * v / V) (2 * Real.pi * u / H))]
  rw [border_seam' w (fun i _ => by rw [turn_last (by omega), turn_first]; simp [ellipsoidPoint])]
  have hV' : (V : ℝ) ≠ 0 := by positivity
  rw [rowS_const hw ⟨0, d.radius.y, 0⟩ (fun j _ => by simp [ellipsoidPoint]),
    rowS_const hw ⟨0, -d.radius.y, 0⟩ (fun j _ => by simp [ellipsoidPoint, mul_div_assoc, div_self hV']), sub_zero]

example := C92_ellipsoid ⟨⟨4, 2, 3⟩, 5, 4, true⟩ ⟨[], []⟩ (by norm_num)

/-- C92: torus. -/
theorem C92_torus (d : TorusDesc) (m : M) (hb : (max 3 d.segsY + 1) * (max 3 d.segsX + 1) ≤ 2 ^ 32) :
    ∃ m' fs, genTorus d m = .ok m' ∧ NewFaces m m' fs ∧ Watertight fs := by
  have h1 : 3 ≤ max 3 d.segsX := le_max_left _ _
  have h2 : 3 ≤ max 3 d.segsY := le_max_left _ _
  obtain ⟨m', e, hf⟩ := C46_faces d m hb
  refine ⟨m', _, e, hf, watertight_of (grid_ne (by omega) (by omega) quad_ne) ?_⟩
  intro w hw
  generalize max 3 d.segsX = H at *
  generalize max 3 d.segsY = V at *
  rw [grid_torus hw d.alternateGrid V H (fun v u => torusPoint d.ringRadius d.tubeRadius (2 * Real.pi * v / V) (2 * Real.pi * u / H))]
  rw [border_seam' w (fun i _ => by rw [turn_last (by omega), turn_first]; simp [torusPoint])]
  rw [turn_last (show 0 < V by omega), turn_first]
  simp [torusPoint]

example := C92_torus ⟨⟨4, 2⟩, ⟨2, 3, 1⟩, 5, 4, true⟩ ⟨[], []⟩ (by norm_num)

/-- C92: pie with covers. -/
theorem C92_pie (d : PieDesc) (m : M) (hC1 : 1 ≤ d.cov) (hH : max 3 d.segsX + 1 < 2 ^ 32)
    (hV : 2 * (max 1 d.segsY + 1) ≤ 2 ^ 32) (hC : 2 * d.cov ≤ 2 ^ 32) :
    ∃ m' fs, genPie d m = .ok m' ∧ NewFaces m m' fs ∧ Watertight fs := by
  have h3 : 3 ≤ max 3 d.segsX := le_max_left _ _
  have h1 : 1 ≤ max 1 d.segsY := le_max_left _ _
  obtain ⟨m', e, _, hf⟩ := C45_pie d m hH (by omega) (by omega)
  refine ⟨m', _, e, hf hV hC, watertight_of ?_ ?_⟩
  · intro e
    simp only [List.append_eq_nil_iff] at e
    exact grid_ne (by omega) (by omega) quad_ne e.1.1.1.1
  clear hf e
  intro w hw
  rw [max_eq_right hC1]
  generalize max 0 (min d.angle (Real.pi * 2)) = cut at *
  generalize max 3 d.segsX = H at *
  generalize max 1 d.segsY = V at *
  generalize d.cov = C at *
  have hV' : (V : ℝ) ≠ 0 := by positivity
  have hH' : (H : ℝ) ≠ 0 := by have : 0 < H := by omega
                               positivity
  let ang := fun u : ℕ => d.angleOffset + cut + (2 * Real.pi - cut) * ((u : ℝ) / H)
  let D := fun u v : ℕ => atAngle d.radius (d.height / 2 - d.height * ((v : ℝ) / V)) (ang u)
  let S := fun (a : ℝ) (u v : ℕ) => atAngle (scaled ((u : ℝ) / C) d.radius) (d.height / 2 - d.height * ((v : ℝ) / V)) a
  let E := fun (y : ℝ) (u v : ℕ) => atAngle (scaled ((v : ℝ) / C) d.radius) y (ang u)
  dsimp only
  rw [if_neg (by omega), if_neg (by omega), bsum_append, bsum_append, bsum_append, bsum_append, grid_mantle hw d.alternateGrid H V D,
    grid_mantle hw d.alternateGrid C V (S (d.angleOffset + cut)), grid_minus hw d.alternateGrid C V (S (d.angleOffset + cut - cut)),
    disc_bsum hw _ _ _ _ hC1 _ (E (d.height * (1 / 2) * -1)) (fun u => by simp only [E]; rw [scaled_zero, atAngle_zero]),
    disc_bsum hw _ _ _ _ hC1 _ (E (d.height * (1 / 2) * 1)) (fun u => by simp only [E]; rw [scaled_zero, atAngle_zero])]
  simp only [Bool.false_eq_true, if_false, if_true, border]
  have a0 : ang 0 = d.angleOffset + cut := by simp [ang]
  have a1 : ang H = d.angleOffset + cut - cut + 2 * Real.pi := by simp only [ang]; rw [div_self hH']; ring
  have per : ∀ (r : V2 ℝ) (y a : ℝ), atAngle r y (a + 2 * Real.pi) = atAngle r y a := by intro r y a; simp [atAngle]
  have yb : d.height * (1 / 2) * -1 = d.height / 2 - d.height * ((V : ℝ) / V) := by rw [div_self hV']; ring
  have yt : d.height * (1 / 2) * 1 = d.height / 2 - d.height * (((0 : ℕ) : ℝ) / V) := by simp; ring
  -- the rims
  have e1 : ∀ u, E (d.height * (1 / 2) * -1) u C = D u V := by intro u; simp only [E, D]; rw [scaled_last hC1, yb]
  have e2 : ∀ u, E (d.height * (1 / 2) * 1) u C = D u 0 := by intro u; simp only [E, D]; rw [scaled_last hC1, yt]
  have e3 : ∀ y u, E y u 0 = ⟨0, y, 0⟩ := by intro y u; simp only [E]; rw [scaled_zero, atAngle_zero]
  -- the edges of the mantle
  have e4 : ∀ v, S (d.angleOffset + cut) C v = D 0 v := by intro v; simp only [S, D]; rw [scaled_last hC1, a0]
  have e5 : ∀ v, S (d.angleOffset + cut - cut) C v = D H v := by intro v; simp only [S, D]; rw [scaled_last hC1, a1, per]
  -- the axis
  have e6 : ∀ v, S (d.angleOffset + cut) 0 v = S (d.angleOffset + cut - cut) 0 v := by
    intro v; simp only [S]; rw [scaled_zero, atAngle_zero, atAngle_zero]
  -- the edges between covers and sides
  have e7 : ∀ u, S (d.angleOffset + cut) u V = E (d.height * (1 / 2) * -1) 0 u := by intro u; simp only [S, E]; rw [a0, yb]
  have e8 : ∀ u, S (d.angleOffset + cut) u 0 = E (d.height * (1 / 2) * 1) 0 u := by intro u; simp only [S, E]; rw [a0, yt]
  have e9 : ∀ u, S (d.angleOffset + cut - cut) u V = E (d.height * (1 / 2) * -1) H u := by intro u; simp only [S, E]; rw [a1, per, yb]
  have e10 : ∀ u, S (d.angleOffset + cut - cut) u 0 = E (d.height * (1 / 2) * 1) H u := by intro u; simp only [S, E]; rw [a1, per, yt]
  rw [show S (d.angleOffset + cut) C = D 0 from funext e4, show S (d.angleOffset + cut - cut) C = D H from funext e5,
    show S (d.angleOffset + cut) 0 = S (d.angleOffset + cut - cut) 0 from funext e6]
  simp only [e1, e2, e3, e7, e8, e9, e10]
  rw [rowS_const hw _ (fun j _ => rfl), rowS_const hw _ (fun j _ => rfl)]
  ring

example := C92_pie ⟨⟨4, 2⟩, 3, 5, 2, 1, 2, 1 / 2, true⟩ ⟨[], []⟩ (by norm_num) (by norm_num) (by norm_num) (by norm_num)

/-- C92: capsule. -/
theorem C92_capsule (d : CapsuleDesc) (m : M) (hV : 2 * (max 1 d.segsY + 1) ≤ 2 ^ 32) (hE : (max 2 d.ellipsoidSegs + 1) * (max 3 d.segsX + 1) ≤ 2 ^ 32) :
    ∃ m' fs, genCapsule d m = .ok m' ∧ NewFaces m m' fs ∧ Watertight fs := by
  have h3 : 3 ≤ max 3 d.segsX := le_max_left _ _
  have h1 : 1 ≤ max 1 d.segsY := le_max_left _ _
  have h2 : 2 ≤ max 2 d.ellipsoidSegs := le_max_left _ _
  have hU : max 3 d.segsX + 1 < 2 ^ 32 := by
    have := Nat.mul_le_mul_right (max 3 d.segsX + 1) (show 3 ≤ max 2 d.ellipsoidSegs + 1 by omega); omega
  have hE' : max 2 d.ellipsoidSegs + 1 < 2 ^ 32 := by
    have := Nat.mul_le_mul_left (max 2 d.ellipsoidSegs + 1) (show 4 ≤ max 3 d.segsX + 1 by omega); omega
  obtain ⟨m', e, _, hf⟩ := C45_capsule d m hU (by omega) hE'
  refine ⟨m', _, e, hf hV hE, watertight_of ?_ ?_⟩
  · intro e
    simp only [List.append_eq_nil_iff] at e
    exact grid_ne (by omega) (by omega) quad_ne e.1.1
  clear hf e
  intro w hw
  generalize max 3 d.segsX = H at *
  generalize max 1 d.segsY = V at *
  generalize max 2 d.ellipsoidSegs = E at *
  have hV' : (V : ℝ) ≠ 0 := by positivity
  have hH0 : 0 < H := by omega
  have hE0 : (E : ℝ) ≠ 0 := by have : 0 < E := by omega
                               positivity
  let D := fun u v : ℕ => atAngle ⟨d.radius.x, d.radius.z⟩ (d.height / 2 - d.height * ((v : ℝ) / V)) (2 * Real.pi * u / H)
  let S := fun (side : ℝ) (v u : ℕ) => (⟨-side * (d.radius.x * (Real.sin (Real.pi / 2 * ((v : ℝ) / E)) * Real.sin (2 * Real.pi * u / H))),
    side * (d.radius.y * Real.cos (Real.pi / 2 * ((v : ℝ) / E)) + d.height / 2),
    d.radius.z * (Real.sin (Real.pi / 2 * ((v : ℝ) / E)) * Real.cos (2 * Real.pi * u / H))⟩ : V3 ℝ)
  dsimp only
  rw [bsum_append, bsum_append, grid_mantle hw d.alternateGrid H V D, grid_plus hw d.alternateGrid E H (S 1), grid_plus hw d.alternateGrid E H (S (-1))]
  have seam : ∀ s i, S s i H = S s i 0 := by intro s i; simp only [S]; rw [turn_last hH0, turn_first]; simp
  rw [border_seam w (D := D) (fun j _ => atAngle_seam hH0 _ _), border_seam' w (fun i _ => seam 1 i), border_seam' w (fun i _ => seam (-1) i)]
  have pole : ∀ s u, S s 0 u = ⟨0, s * (d.radius.y + d.height / 2), 0⟩ := by intro s u; simp [S]
  rw [rowS_const hw _ (fun u _ => pole 1 u), rowS_const hw _ (fun u _ => pole (-1) u)]
  have top : rowS w H (S 1 E) = -rowS w H (fun i => D i 0) := by
    refine rowS_rev hw fun j hj => ?_
    have e : 2 * Real.pi * ((H - j : ℕ) : ℝ) / H = 2 * Real.pi - 2 * Real.pi * j / H := by
      rw [Nat.cast_sub hj, mul_sub, sub_div, turn_last hH0]
    simp only [S, D, atAngle, e, div_self hE0]
    simp [Real.sin_two_pi_sub, Real.cos_two_pi_sub]
  have bottom : rowS w H (S (-1) E) = rowS w H (fun i => D i V) := by
    refine rowS_congr fun j hj => ?_
    simp only [S, D, atAngle, div_self hE0, div_self hV']
    simp
    ring
  rw [top, bottom]
  ring

example := C92_capsule ⟨⟨4, 2, 3⟩, 1, 5, 2, 3, true⟩ ⟨[], []⟩ (by norm_num) (by norm_num)

/-- C92: cuboid. -/
theorem C92_cuboid (sx sy : ℝ) (hx : sx = 1 ∨ sx = -1) (hy : sy = 1 ∨ sy = -1) (d : CuboidDesc) (m : M)
    (h1 : (max 1 d.segsY + 1) * (max 1 d.segsX + 1) ≤ 2 ^ 32) (h2 : (max 1 d.segsY + 1) * (max 1 d.segsZ + 1) ≤ 2 ^ 32)
    (h3 : (max 1 d.segsZ + 1) * (max 1 d.segsX + 1) ≤ 2 ^ 32) :
    ∃ m' fs, genCuboid sx sy d m = .ok m' ∧ NewFaces m m' fs ∧ Watertight fs := by
  obtain ⟨m', e, hf⟩ := C42_faces sx sy hx hy d m h1 h2 h3
  have p1 : 1 ≤ max 1 d.segsX := le_max_left _ _
  have p2 : 1 ≤ max 1 d.segsY := le_max_left _ _
  have p3 : 1 ≤ max 1 d.segsZ := le_max_left _ _
  refine ⟨m', _, e, hf, watertight_of ?_ ?_⟩
  · intro e
    simp only [List.append_eq_nil_iff] at e
    exact grid_ne (by omega) (by omega) quad_ne e.1.1.1.1.1
  clear hf e
  intro w hw
  generalize max 1 d.segsX = X at *
  generalize max 1 d.segsY = Y at *
  generalize max 1 d.segsZ = Z at *
  obtain ⟨sx', sy', sz'⟩ := d.size
  dsimp only
  let at' := fun (s : ℝ) (k n : ℕ) => s * ((k : ℝ) / n) - s / 2
  have atn : ∀ s n, 1 ≤ n → at' s n n = s / 2 := by
    intro s n hn
    have : (n : ℝ) ≠ 0 := by positivity
    simp only [at']; rw [div_self this]; ring
  have at0 : ∀ s n, at' s 0 n = -(s / 2) := by intro s n; simp [at']
  have atr : ∀ s k n, 1 ≤ n → k ≤ n → -at' s k n = at' s (n - k) n := by
    intro s k n hn hk
    have : (n : ℝ) ≠ 0 := by positivity
    simp only [at']; rw [Nat.cast_sub hk, sub_div, div_self this]; ring
  simp only [bsum_append]
  rw [grid_face hw d.alternateGrid Y X (fun i j => ⟨at' sx' j X, at' sy' i Y, -sz' / 2⟩),
    grid_face hw d.alternateGrid Y X (fun i j => ⟨-at' sx' j X, at' sy' i Y, sz' / 2⟩),
    grid_face hw d.alternateGrid Y Z (fun i j => ⟨sy * (sx' / 2), at' sy' i Y, sy * at' sz' j Z⟩),
    grid_face hw d.alternateGrid Y Z (fun i j => ⟨-sy * (sx' / 2), at' sy' i Y, -sy * at' sz' j Z⟩),
    grid_face hw d.alternateGrid Z X (fun i j => ⟨at' sx' j X, sx * (sy' / 2), sx * at' sz' i Z⟩),
    grid_face hw d.alternateGrid Z X (fun i j => ⟨at' sx' j X, -sx * (sy' / 2), -sx * at' sz' i Z⟩)]
  simp only [border, atn _ _ p1, atn _ _ p2, atn _ _ p3, at0]
  have rx : ∀ y z, rowS w X (fun j => ⟨-at' sx' j X, y, z⟩) = -rowS w X (fun j => ⟨at' sx' j X, y, z⟩) := by
    intro y z
    refine rowS_rev hw fun j hj => ?_
    rw [atr _ _ _ p1 hj]
  have rz : ∀ x y, rowS w Z (fun j => ⟨x, y, -at' sz' j Z⟩) = -rowS w Z (fun j => ⟨x, y, at' sz' j Z⟩) := by
    intro x y
    refine rowS_rev hw fun j hj => ?_
    rw [atr _ _ _ p3 hj]
  have ez : -sz' / 2 = -(sz' / 2) := by ring
  rcases hx with rfl | rfl <;> rcases hy with rfl | rfl <;>
    simp only [rx, rz, ez, one_mul, neg_mul, neg_neg] <;> ring

/-- Descriptors that meet the hypotheses. -/
example : ∃ m' fs, genCylinder ⟨⟨4, 1⟩, 1, 3, 1, 1, 2, true⟩ ⟨[], []⟩ = .ok m' ∧ NewFaces ⟨[], []⟩ m' fs ∧ Watertight fs :=
  C92_cylinder ⟨⟨4, 1⟩, 1, 3, 1, 1, 2, true⟩ _ (by norm_num) (by norm_num) (by norm_num) (by norm_num) (by norm_num) (by norm_num)

/-- A single triangle is not a closed surface. -/
example : ¬ Watertight [((⟨0, 0, 0⟩ : V3 ℝ), ⟨1, 0, 0⟩, ⟨0, 1, 0⟩)] := by
  classical
  intro h
  have := h.2 ⟨0, 0, 0⟩ ⟨1, 0, 0⟩ (by simp)
  simp [uses, edges] at this

end Geom.Gen
