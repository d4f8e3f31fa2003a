import Verif.Props.Closed
import Verif.Model.Shapes
import Verif.Model.Sphere
import Mathlib.Analysis.SpecialFunctions.Trigonometric.Bounds
import Verif.Spec.Volume

/-
  C95: the volumes enclosed by generated solids.
-/
set_option autoImplicit false
set_option linter.unusedSectionVars false

namespace Geom.Gen
open TMesh (Mesh Vertex Ix)
open Spec

noncomputable def vsum (fs : List Face) : ℝ := (fs.map spat).sum

theorem volume_eq (fs : List Face) : volume fs = vsum fs / 6 := rfl

theorem vsum_nil : vsum [] = 0 := rfl

theorem vsum_cons (f : Face) (b : List Face) : vsum (f :: b) = spat f + vsum b := by simp [vsum]

theorem vsum_append (a b : List Face) : vsum (a ++ b) = vsum a + vsum b := by simp [vsum]

theorem vsum_range (n : ℕ) (f : ℕ → List Face) : vsum ((List.range n).flatMap f) = ∑ i ∈ Finset.range n, vsum (f i) := by
  induction n with
  | zero => rfl
  | succ n ih => rw [List.range_succ, List.flatMap_append, vsum_append, ih, Finset.sum_range_succ]; simp

theorem vsum_grid (R C : ℕ) (f : ℕ → ℕ → List Face) : vsum (grid R C f) = ∑ i ∈ Finset.range R, ∑ j ∈ Finset.range C, vsum (f i j) := by
  rw [grid, vsum_range]
  exact Finset.sum_congr rfl fun i _ => vsum_range _ _

/-- A point of a row: the point (X, Z) of a profile, scaled, at a height. -/
def rowPoint (rho y X Z : ℝ) : V3 ℝ := ⟨rho * X, y, rho * Z⟩

/-- A quad between two rows. -/
theorem vsum_cell (alt : Bool) (u v : ℕ) (r0 y0 r1 y1 X0 Z0 X1 Z1 : ℝ) :
    vsum (quad alt u v (rowPoint r0 y0 X0 Z0) (rowPoint r0 y0 X1 Z1) (rowPoint r1 y1 X1 Z1) (rowPoint r1 y1 X0 Z0)) =
      (r0 + r1) * (r1 * y0 - r0 * y1) * (X0 * Z1 - X1 * Z0) := by
  unfold quad
  split_ifs <;> simp only [vsum_cons, vsum_nil, spat, rowPoint, V3.dot, V3.cross_x, V3.cross_y, V3.cross_z] <;> ring

/-- What the rows contribute. -/
def rows (R : ℕ) (r y : ℕ → ℝ) : ℝ := ∑ i ∈ Finset.range R, (r i + r (i + 1)) * (r (i + 1) * y i - r i * y (i + 1))

/-- What the angles contribute. -/
def cols (C : ℕ) (X Z : ℕ → ℝ) : ℝ := ∑ j ∈ Finset.range C, (X j * Z (j + 1) - X (j + 1) * Z j)

theorem vgrid_plus (alt : Bool) (R C : ℕ) (r y X Z : ℕ → ℝ) (D : ℕ → ℕ → V3 ℝ) (hD : ∀ i j, D i j = rowPoint (r i) (y i) (X j) (Z j)) :
    vsum (grid R C fun i j => quad alt j i (D i j) (D i (j + 1)) (D (i + 1) (j + 1)) (D (i + 1) j)) = rows R r y * cols C X Z := by
  rw [vsum_grid, rows, cols, Finset.sum_mul_sum]
  simp only [hD, vsum_cell]

theorem vgrid_torus (alt : Bool) (R C : ℕ) (r y X Z : ℕ → ℝ) (D : ℕ → ℕ → V3 ℝ) (hD : ∀ i j, D i j = rowPoint (r i) (y i) (X j) (Z j)) :
    vsum (grid R C fun i j => quad alt j i (D i (j + 1)) (D i j) (D (i + 1) j) (D (i + 1) (j + 1))) = -(rows R r y * cols C X Z) := by
  rw [vsum_grid, rows, cols, Finset.sum_mul_sum, ← Finset.sum_neg_distrib]
  refine Finset.sum_congr rfl fun i _ => ?_
  rw [← Finset.sum_neg_distrib]
  refine Finset.sum_congr rfl fun j _ => ?_
  simp only [hD, vsum_cell]
  ring

theorem vgrid_mantle (alt : Bool) (R C : ℕ) (r y X Z : ℕ → ℝ) (D : ℕ → ℕ → V3 ℝ) (hD : ∀ i j, D i j = rowPoint (r j) (y j) (X i) (Z i)) :
    vsum (grid R C fun i j => quad alt i j (D (i + 1) j) (D i j) (D i (j + 1)) (D (i + 1) (j + 1))) = -(rows C r y * cols R X Z) := by
  rw [vsum_grid, rows, cols, mul_comm, Finset.sum_mul_sum, ← Finset.sum_neg_distrib]
  refine Finset.sum_congr rfl fun i _ => ?_
  rw [← Finset.sum_neg_distrib]
  refine Finset.sum_congr rfl fun j _ => ?_
  simp only [hD, vsum_cell]
  ring

theorem vgrid_minus (alt : Bool) (R C : ℕ) (r y X Z : ℕ → ℝ) (D : ℕ → ℕ → V3 ℝ) (hD : ∀ i j, D i j = rowPoint (r j) (y j) (X i) (Z i)) :
    vsum (grid R C fun i j => quad alt i j (D i j) (D (i + 1) j) (D (i + 1) (j + 1)) (D i (j + 1))) = rows C r y * cols R X Z := by
  rw [vsum_grid, rows, cols, mul_comm, Finset.sum_mul_sum]
  refine Finset.sum_congr rfl fun i _ => Finset.sum_congr rfl fun j _ => ?_
  simp only [hD, vsum_cell]
  ring

theorem vdisc (top alt : Bool) (H C : ℕ) (hC : 1 ≤ C) (r y X Z : ℕ → ℝ) (center : V3 ℝ) (D : ℕ → ℕ → V3 ℝ)
    (hD : ∀ i j, D i j = rowPoint (r j) (y j) (X i) (Z i)) (h0 : r 0 = 0) (hc : center = ⟨0, y 0, 0⟩) :
    vsum (disc top alt H C center D) = if top then -(rows C r y * cols H X Z) else rows C r y * cols H X Z := by
  obtain ⟨C, rfl⟩ : ∃ k, C = k + 1 := ⟨C - 1, by omega⟩
  have key : (if top then -(rows (C + 1) r y * cols H X Z) else rows (C + 1) r y * cols H X Z) =
      ∑ u ∈ Finset.range H, (if top then -1 else 1) * ((∑ j ∈ Finset.range C, (r (j + 1) + r (j + 2)) * (r (j + 2) * y (j + 1) - r (j + 1) * y (j + 2))) *
        (X u * Z (u + 1) - X (u + 1) * Z u) + r 1 * (r 1 * y 0) * (X u * Z (u + 1) - X (u + 1) * Z u)) := by
    rw [← Finset.mul_sum, Finset.sum_add_distrib, ← Finset.mul_sum, ← Finset.mul_sum, ← add_mul, rows, Finset.sum_range_succ', h0, ← cols]
    split_ifs <;> ring
  rw [key]
  unfold disc
  rw [vsum_range]
  refine Finset.sum_congr rfl fun u _ => ?_
  rw [vsum_cons, vsum_range, Nat.add_sub_cancel, Finset.sum_mul, mul_add, Finset.mul_sum, add_comm]
  congr 1
  · refine Finset.sum_congr rfl fun j _ => ?_
    cases top
    · simp only [Bool.false_eq_true, if_false, hD, vsum_cell]; ring
    · simp only [if_true, hD, vsum_cell]; ring
  · cases top <;> simp only [Bool.false_eq_true, if_false, if_true, hD, hc, spat, rowPoint, V3.dot, V3.cross_x, V3.cross_y, V3.cross_z] <;> ring

theorem vcone (alt : Bool) (H C : ℕ) (hC : 1 ≤ C) (r y X Z : ℕ → ℝ) (tip : V3 ℝ) (D : ℕ → ℕ → V3 ℝ)
    (hD : ∀ i j, D i j = rowPoint (r j) (y j) (X i) (Z i)) (h0 : r 0 = 0) (hc : tip = ⟨0, y 0, 0⟩) :
    vsum (mantleOfCone alt H C tip D) = -(rows C r y * cols H X Z) := by
  have := vdisc true alt H C hC r y X Z tip D hD h0 hc
  simpa [disc, mantleOfCone] using this

/-! Rows and columns. -/

theorem rows_flat (C : ℕ) (r : ℕ → ℝ) (y : ℝ) : rows C r (fun _ => y) = y * (r C ^ 2 - r 0 ^ 2) := by
  unfold rows
  rw [← Finset.sum_range_sub (fun i => r i ^ 2), Finset.mul_sum]
  exact Finset.sum_congr rfl fun i _ => by ring

theorem rows_one (C : ℕ) (y : ℕ → ℝ) : rows C (fun _ => 1) y = 2 * (y 0 - y C) := by
  unfold rows
  rw [← Finset.sum_range_sub' y, Finset.mul_sum]
  exact Finset.sum_congr rfl fun i _ => by ring

/-- The columns of a regular polygon. -/
theorem cols_sin (H : ℕ) (rx rz a s : ℝ) : cols H (fun u => rx * Real.sin (a + s * u)) (fun u => rz * Real.cos (a + s * u)) = -(H * (rx * rz * Real.sin s)) := by
  unfold cols
  have : ∀ u : ℕ, rx * Real.sin (a + s * u) * (rz * Real.cos (a + s * (u + 1 : ℕ))) - rx * Real.sin (a + s * (u + 1 : ℕ)) * (rz * Real.cos (a + s * u)) =
      -(rx * rz * Real.sin s) := by
    intro u
    have e : s = a + s * ((u + 1 : ℕ) : ℝ) - (a + s * u) := by push_cast; ring
    have : Real.sin s = Real.sin (a + s * (u + 1 : ℕ)) * Real.cos (a + s * u) - Real.cos (a + s * (u + 1 : ℕ)) * Real.sin (a + s * u) := by
      conv_lhs => rw [e]
      exact Real.sin_sub _ _
    rw [this]; ring
  rw [Finset.sum_congr rfl fun u _ => this u, Finset.sum_const, Finset.card_range, nsmul_eq_mul]
  ring

/-- The full turn. -/
theorem cols_turn (H : ℕ) (rx rz : ℝ) :
    cols H (fun u => rx * Real.sin (2 * Real.pi * u / H)) (fun u => rz * Real.cos (2 * Real.pi * u / H)) = -(2 * fan H (2 * Real.pi) * (rx * rz)) := by
  have := cols_sin H rx rz 0 (2 * Real.pi / H)
  simp only [zero_add] at this
  have e : ∀ u : ℕ, 2 * Real.pi / H * (u : ℝ) = 2 * Real.pi * u / H := fun u => by ring
  simp only [e] at this
  rw [this, fan]; ring

theorem cols_turn' (H : ℕ) (rx rz : ℝ) :
    cols H (fun u => rx * Real.cos (2 * Real.pi * u / H)) (fun u => rz * Real.sin (2 * Real.pi * u / H)) = 2 * fan H (2 * Real.pi) * (rx * rz) := by
  have := cols_turn H rz rx
  unfold cols at this ⊢
  have e : ∀ j : ℕ, rx * Real.cos (2 * Real.pi * j / H) * (rz * Real.sin (2 * Real.pi * (j + 1 : ℕ) / H)) - rx * Real.cos (2 * Real.pi * (j + 1 : ℕ) / H) * (rz * Real.sin (2 * Real.pi * j / H)) =
    -(rz * Real.sin (2 * Real.pi * j / H) * (rx * Real.cos (2 * Real.pi * (j + 1 : ℕ) / H)) - rz * Real.sin (2 * Real.pi * (j + 1 : ℕ) / H) * (rx * Real.cos (2 * Real.pi * j / H))) := fun j => by ring
  rw [Finset.sum_congr rfl fun j _ => e j, Finset.sum_neg_distrib, this]; ring

theorem atAngle_row (r : V2 ℝ) (y phi : ℝ) : atAngle r y phi = rowPoint 1 y (r.x * Real.sin phi) (r.y * Real.cos phi) := by
  simp [atAngle, rowPoint]

theorem scaled_row (s : ℝ) (r : V2 ℝ) (y phi : ℝ) : atAngle (scaled s r) y phi = rowPoint s y (r.x * Real.sin phi) (r.y * Real.cos phi) := by
  simp [atAngle, rowPoint, scaled, mul_assoc]

theorem mantleA (alt : Bool) (H V : ℕ) (r : V2 ℝ) (y phi : ℕ → ℝ) :
    vsum (grid H V fun u v => quad alt u v (atAngle r (y v) (phi (u + 1))) (atAngle r (y v) (phi u)) (atAngle r (y (v + 1)) (phi u)) (atAngle r (y (v + 1)) (phi (u + 1)))) =
      -(rows V (fun _ => 1) y * cols H (fun u => r.x * Real.sin (phi u)) (fun u => r.y * Real.cos (phi u))) :=
  vgrid_mantle alt H V _ _ _ _ (fun u v => atAngle r (y v) (phi u)) (fun _ _ => atAngle_row _ _ _)

theorem mantleB (alt : Bool) (H V : ℕ) (r : V2 ℝ) (y phi : ℕ → ℝ) :
    vsum (grid H V fun u v => quad alt u v (atAngle r (y v) (phi u)) (atAngle r (y v) (phi (u + 1))) (atAngle r (y (v + 1)) (phi (u + 1))) (atAngle r (y (v + 1)) (phi u))) =
      rows V (fun _ => 1) y * cols H (fun u => r.x * Real.sin (phi u)) (fun u => r.y * Real.cos (phi u)) :=
  vgrid_minus alt H V _ _ _ _ (fun u v => atAngle r (y v) (phi u)) (fun _ _ => atAngle_row _ _ _)

theorem discA (top alt : Bool) (H C : ℕ) (hC : 1 ≤ C) (r : V2 ℝ) (y : ℝ) (phi : ℕ → ℝ) :
    vsum (disc top alt H C ⟨0, y, 0⟩ fun u v => atAngle (scaled (v / C) r) y (phi u)) =
      (if top then -1 else 1) * (y * cols H (fun u => r.x * Real.sin (phi u)) (fun u => r.y * Real.cos (phi u))) := by
  have hC' : (C : ℝ) ≠ 0 := by positivity
  rw [vdisc top alt H C hC (fun v => v / C) (fun _ => y) (fun u => r.x * Real.sin (phi u)) (fun u => r.y * Real.cos (phi u)) _ _ (fun _ _ => scaled_row _ _ _ _) (by simp) rfl, rows_flat, div_self hC']
  split_ifs <;> simp

/-- C95: cylinder with both covers. -/
theorem C95_cylinder (d : CylinderDesc) (m : M) (hB1 : 1 ≤ d.bottomCov) (hT1 : 1 ≤ d.topCov) (hH : max 3 d.segsX + 1 < 2 ^ 32)
    (hV : 2 * (max 1 d.segsY + 1) ≤ 2 ^ 32) (hB : 2 * d.bottomCov ≤ 2 ^ 32) (hT : 2 * d.topCov ≤ 2 ^ 32) :
    ∃ m' fs, genCylinder d m = .ok m' ∧ NewFaces m m' fs ∧ volume fs = fan (max 3 d.segsX) (2 * Real.pi) * d.radius.x * d.radius.y * d.height := by
  have h1 : 1 ≤ max 1 d.segsY := le_max_left _ _
  obtain ⟨m', e, _, hf⟩ := C44_cylinder d m hH (by omega) (by omega) (by omega)
  refine ⟨m', _, e, hf hV hB hT, ?_⟩
  clear hf e
  generalize max 3 d.segsX = H at *
  generalize max 1 d.segsY = V at *
  have hV' : (V : ℝ) ≠ 0 := by positivity
  dsimp only
  rw [volume_eq, if_neg (by omega), if_neg (by omega), vsum_append, vsum_append,
    mantleA d.alternateGrid H V d.radius (fun v => d.height / 2 - d.height * (v / V)) (fun u => 2 * Real.pi * u / H),
    discA false d.alternateGrid H d.bottomCov hB1 d.radius _ (fun u => 2 * Real.pi * u / H),
    discA true d.alternateGrid H d.topCov hT1 d.radius _ (fun u => 2 * Real.pi * u / H)]
  simp only [Bool.false_eq_true, if_false, if_true]
  rw [rows_one, cols_turn, div_self hV']
  simp only [Nat.cast_zero, zero_div]
  ring

example := C95_cylinder ⟨⟨4, 2⟩, 3, 5, 2, 1, 2, true⟩ ⟨[], []⟩ (by norm_num) (by norm_num) (by norm_num) (by norm_num) (by norm_num)
  (by norm_num)

/-- C95: cone with a cover. -/
theorem C95_cone (d : ConeDesc) (m : M) (hB1 : 1 ≤ d.cov) (hH : max 3 d.segsX + 1 < 2 ^ 32)
    (hV : 2 * (max 1 d.segsY + 1) ≤ 2 ^ 32) (hB : 2 * d.cov ≤ 2 ^ 32) :
    ∃ m' fs, genCone d m = .ok m' ∧ NewFaces m m' fs ∧ volume fs = fan (max 3 d.segsX) (2 * Real.pi) * d.radius.x * d.radius.y * d.height / 3 := by
  have h1 : 1 ≤ max 1 d.segsY := le_max_left _ _
  obtain ⟨m', e, _, hf⟩ := C44_cone d m hH (by omega) (by omega)
  refine ⟨m', _, e, hf hV hB, ?_⟩
  clear hf e
  generalize max 3 d.segsX = H at *
  generalize max 1 d.segsY = V at *
  have hV' : (V : ℝ) ≠ 0 := by positivity
  rw [volume_eq, if_neg (by omega), vsum_append,
    vcone d.alternateGrid H V h1 (fun v => v / V) (fun v => d.height / 2 - v / V * d.height) (fun u => d.radius.x * Real.sin (2 * Real.pi * u / H))
      (fun u => d.radius.y * Real.cos (2 * Real.pi * u / H)) _ _ (fun i j => scaled_row _ _ _ _) (by simp) (by simp),
    discA false d.alternateGrid H d.cov hB1 d.radius _ (fun u => 2 * Real.pi * u / H)]
  simp only [Bool.false_eq_true, if_false]
  have hr : rows V (fun v => (v : ℝ) / V) (fun v => d.height / 2 - v / V * d.height) = d.height / 2 := by
    have : d.height / 2 = d.height / 2 * ((V : ℝ) / V) ^ 2 - d.height / 2 * (((0 : ℕ) : ℝ) / V) ^ 2 := by rw [div_self hV']; simp
    rw [rows]
    refine Eq.trans ?_ this.symm
    rw [← Finset.sum_range_sub (fun i : ℕ => d.height / 2 * ((i : ℝ) / V) ^ 2)]
    exact Finset.sum_congr rfl fun i _ => by ring
  rw [hr, cols_turn]
  ring

example := C95_cone ⟨⟨4, 2⟩, 3, 5, 2, 1, true⟩ ⟨[], []⟩ (by norm_num) (by norm_num) (by norm_num) (by norm_num)

/-- Faces in a plane orthogonal to the Y axis. -/
def crossY (a b : V3 ℝ) : ℝ := a.z * b.x - a.x * b.z

theorem crossY_anti : Anti crossY := by intro x y; unfold crossY; ring

theorem vsum_flatY (y : ℝ) (fs : List Face) (h : ∀ f ∈ fs, f.1.y = y ∧ f.2.1.y = y ∧ f.2.2.y = y) : vsum fs = y * bsum crossY fs := by
  induction fs with
  | nil => simp [vsum, bsum]
  | cons f fs ih =>
    obtain ⟨h1, h2, h3⟩ := h f (by simp)
    rw [vsum_cons, bsum_cons, ih fun g hg => h g (by simp [hg])]
    simp only [spat, crossY, V3.dot, V3.cross_x, V3.cross_y, V3.cross_z, h1, h2, h3]
    ring

theorem quad_all {P : V3 ℝ → Prop} {alt : Bool} {u v : ℕ} {a b c d : V3 ℝ} (ha : P a) (hb : P b) (hc : P c) (hd : P d) :
    ∀ f ∈ quad alt u v a b c d, P f.1 ∧ P f.2.1 ∧ P f.2.2 := by
  intro f hf
  unfold quad at hf
  split_ifs at hf <;> simp only [List.mem_cons, List.not_mem_nil, or_false] at hf <;> rcases hf with rfl | rfl <;> simp [ha, hb, hc, hd]

theorem grid_all {P : V3 ℝ → Prop} {R C : ℕ} {g : ℕ → ℕ → List Face} (h : ∀ i j, ∀ f ∈ g i j, P f.1 ∧ P f.2.1 ∧ P f.2.2) :
    ∀ f ∈ grid R C g, P f.1 ∧ P f.2.1 ∧ P f.2.2 := by
  intro f hf
  simp only [grid, List.mem_flatMap] at hf
  obtain ⟨i, _, j, _, hf⟩ := hf
  exact h i j f hf

theorem rowS_polygon (H : ℕ) (r : V2 ℝ) (y : ℝ) : rowS crossY H (fun u => atAngle r y (2 * Real.pi * u / H)) = 2 * fan H (2 * Real.pi) * (r.x * r.y) := by
  have := cols_turn H r.x r.y
  unfold cols at this
  unfold rowS
  have e : ∀ u : ℕ, crossY (atAngle r y (2 * Real.pi * u / H)) (atAngle r y (2 * Real.pi * (u + 1 : ℕ) / H)) =
      -(r.x * Real.sin (2 * Real.pi * u / H) * (r.y * Real.cos (2 * Real.pi * (u + 1 : ℕ) / H)) - r.x * Real.sin (2 * Real.pi * (u + 1 : ℕ) / H) * (r.y * Real.cos (2 * Real.pi * u / H))) := by
    intro u; simp only [crossY, atAngle]; ring
  rw [Finset.sum_congr rfl fun u _ => e u, Finset.sum_neg_distrib, this]; ring

/-- C95: pipe with both covers. -/
theorem C95_pipe (d : PipeDesc) (m : M) (hB1 : 1 ≤ d.bottomCov) (hT1 : 1 ≤ d.topCov) (hH : max 3 d.segsX + 1 < 2 ^ 32)
    (hV : 2 * (max 1 d.segsY + 1) ≤ 2 ^ 32) (hB : 2 * (d.bottomCov + 1) ≤ 2 ^ 32) (hT : 2 * (d.topCov + 1) ≤ 2 ^ 32) :
    ∃ m' fs, genPipe d m = .ok m' ∧ NewFaces m m' fs ∧
      volume fs = fan (max 3 d.segsX) (2 * Real.pi) * (d.outerRadius.x * d.outerRadius.y - d.innerRadius.x * d.innerRadius.y) * d.height := by
  have h3 : 3 ≤ max 3 d.segsX := le_max_left _ _
  have h1 : 1 ≤ max 1 d.segsY := le_max_left _ _
  obtain ⟨m', e, _, hf⟩ := C45_pipe d m hH (by omega) (by omega) (by omega)
  refine ⟨m', _, e, hf hV hB hT, ?_⟩
  clear hf e
  generalize max 3 d.segsX = H at *
  generalize max 1 d.segsY = V at *
  have hV' : (V : ℝ) ≠ 0 := by positivity
  dsimp only
  rw [volume_eq, if_neg (by omega), if_neg (by omega), vsum_append, vsum_append, vsum_append,
    mantleA d.alternateGrid H V d.outerRadius (fun v => d.height / 2 - d.height * (v / V)) (fun u => 2 * Real.pi * u / H),
    mantleB d.alternateGrid H V d.innerRadius (fun v => d.height / 2 - d.height * (v / V)) (fun u => 2 * Real.pi * u / H),
    vsum_flatY (d.height * (1 / 2) * -1) _ (grid_all (P := fun p => p.y = d.height * (1 / 2) * -1) fun i j => quad_all (P := fun p => p.y = d.height * (1 / 2) * -1) rfl rfl rfl rfl),
    vsum_flatY (d.height * (1 / 2) * 1) _ (grid_all (P := fun p => p.y = d.height * (1 / 2) * 1) fun i j => quad_all (P := fun p => p.y = d.height * (1 / 2) * 1) rfl rfl rfl rfl),
    grid_minus crossY_anti d.alternateGrid H d.bottomCov (fun u v => atAngle (between (v / d.bottomCov) d.innerRadius d.outerRadius) (d.height * (1 / 2) * -1) (2 * Real.pi * u / H)),
    grid_mantle crossY_anti d.alternateGrid H d.topCov (fun u v => atAngle (between (v / d.topCov) d.innerRadius d.outerRadius) (d.height * (1 / 2) * 1) (2 * Real.pi * u / H)),
    border_seam crossY (fun j _ => atAngle_seam (by omega) _ _), border_seam crossY (fun j _ => atAngle_seam (by omega) _ _),
    between_last hB1, between_last hT1, between_zero, between_zero, rowS_polygon, rowS_polygon, rowS_polygon, rowS_polygon, rows_one, cols_turn, cols_turn, div_self hV']
  simp only [Nat.cast_zero, zero_div]
  ring

example := C95_pipe ⟨⟨2, 1⟩, ⟨4, 2⟩, 3, 5, 2, 1, 2, true⟩ ⟨[], []⟩ (by norm_num) (by norm_num) (by norm_num) (by norm_num) (by norm_num)
  (by norm_num)

/-- Plane sides through the axis contribute nothing. -/
theorem vside (alt : Bool) (C V : ℕ) (r y : ℕ → ℝ) (X Z : ℝ) (D : ℕ → ℕ → V3 ℝ) (hD : ∀ i j, D i j = rowPoint (r i) (y j) X Z) :
    vsum (grid C V fun i j => quad alt i j (D (i + 1) j) (D i j) (D i (j + 1)) (D (i + 1) (j + 1))) = 0 ∧
    vsum (grid C V fun i j => quad alt i j (D i j) (D (i + 1) j) (D (i + 1) (j + 1)) (D i (j + 1))) = 0 := by
  constructor <;> rw [vsum_grid] <;> refine Finset.sum_eq_zero fun i _ => Finset.sum_eq_zero fun j _ => ?_ <;>
    unfold quad <;> simp only [hD] <;>
    split_ifs <;> simp only [vsum_cons, vsum_nil, spat, rowPoint, V3.dot, V3.cross_x, V3.cross_y, V3.cross_z] <;> ring

/-- C95: pie with covers. The angle is the one that is left, i.e. without the piece cut out. -/
theorem C95_pie (d : PieDesc) (m : M) (hC1 : 1 ≤ d.cov) (hH : max 3 d.segsX + 1 < 2 ^ 32)
    (hV : 2 * (max 1 d.segsY + 1) ≤ 2 ^ 32) (hC : 2 * d.cov ≤ 2 ^ 32) :
    ∃ m' fs, genPie d m = .ok m' ∧ NewFaces m m' fs ∧
      volume fs = fan (max 3 d.segsX) (2 * Real.pi - max 0 (min d.angle (Real.pi * 2))) * d.radius.x * d.radius.y * d.height := by
  have h3 : 3 ≤ max 3 d.segsX := le_max_left _ _
  have h1 : 1 ≤ max 1 d.segsY := le_max_left _ _
  obtain ⟨m', e, _, hf⟩ := C45_pie d m hH (by omega) (by omega)
  refine ⟨m', _, e, hf hV hC, ?_⟩
  clear hf e
  rw [max_eq_right hC1]
  generalize max 0 (min d.angle (Real.pi * 2)) = cut at *
  generalize max 3 d.segsX = H at *
  generalize max 1 d.segsY = V at *
  generalize d.cov = C at *
  have hV' : (V : ℝ) ≠ 0 := by positivity
  have hcols := cols_sin H d.radius.x d.radius.y (d.angleOffset + cut) ((2 * Real.pi - cut) / H)
  have ea : ∀ u : ℕ, d.angleOffset + cut + (2 * Real.pi - cut) / H * (u : ℝ) = d.angleOffset + cut + (2 * Real.pi - cut) * ((u : ℝ) / H) := fun u => by ring
  simp only [ea] at hcols
  dsimp only
  rw [volume_eq, if_neg (by omega), if_neg (by omega), vsum_append, vsum_append, vsum_append, vsum_append,
    mantleA d.alternateGrid H V d.radius (fun v => d.height / 2 - d.height * (v / V)) (fun u => d.angleOffset + cut + (2 * Real.pi - cut) * (u / H)),
    (vside d.alternateGrid C V (fun u => (u : ℝ) / C) (fun v => d.height / 2 - d.height * ((v : ℝ) / V)) _ _
      (fun u v => atAngle (scaled ((u : ℝ) / C) d.radius) (d.height / 2 - d.height * ((v : ℝ) / V)) (d.angleOffset + cut)) (fun i j => scaled_row _ _ _ _)).1,
    (vside d.alternateGrid C V (fun u => (u : ℝ) / C) (fun v => d.height / 2 - d.height * ((v : ℝ) / V)) _ _
      (fun u v => atAngle (scaled ((u : ℝ) / C) d.radius) (d.height / 2 - d.height * ((v : ℝ) / V)) (d.angleOffset + cut - cut)) (fun i j => scaled_row _ _ _ _)).2,
    discA false d.alternateGrid H C hC1 d.radius _ (fun u => d.angleOffset + cut + (2 * Real.pi - cut) * (u / H)),
    discA true d.alternateGrid H C hC1 d.radius _ (fun u => d.angleOffset + cut + (2 * Real.pi - cut) * (u / H))]
  simp only [Bool.false_eq_true, if_false, if_true]
  rw [rows_one, hcols, div_self hV', fan]
  simp only [Nat.cast_zero, zero_div]
  ring

example := C95_pie ⟨⟨4, 2⟩, 3, 5, 2, 1, 2, 1 / 2, true⟩ ⟨[], []⟩ (by norm_num) (by norm_num) (by norm_num) (by norm_num)

/-- The rows of a part of a sphere (from the pole on). -/
theorem rows_sphere (n : ℕ) (r h t : ℝ) :
    rows n (fun i => Real.sin (t * i)) (fun i => r * Real.cos (t * i) + h) = r * (1 + Real.cos t) * (1 - Real.cos (t * n)) + h * Real.sin (t * n) ^ 2 := by
  unfold rows
  have e : ∀ i : ℕ, (Real.sin (t * i) + Real.sin (t * (i + 1 : ℕ))) * (Real.sin (t * (i + 1 : ℕ)) * (r * Real.cos (t * i) + h) - Real.sin (t * i) * (r * Real.cos (t * (i + 1 : ℕ)) + h)) =
      (-(r * (1 + Real.cos t)) * Real.cos (t * (i + 1 : ℕ)) + h * Real.sin (t * (i + 1 : ℕ)) ^ 2) - (-(r * (1 + Real.cos t)) * Real.cos (t * i) + h * Real.sin (t * i) ^ 2) := by
    intro i
    have ea : t * ((i + 1 : ℕ) : ℝ) = t * i + t := by push_cast; ring
    rw [ea, Real.sin_add, Real.cos_add]
    have s1 := Real.sin_sq_add_cos_sq (t * i)
    have s2 := Real.sin_sq_add_cos_sq t
    generalize Real.sin (t * i) = a at *
    generalize Real.cos (t * i) = b at *
    generalize Real.sin t = c at *
    generalize Real.cos t = g at *
    linear_combination (r * c * (a + (a * g + b * c))) * s1 + (r * b) * s2
  rw [Finset.sum_congr rfl fun i _ => e i, Finset.sum_range_sub (fun i : ℕ => -(r * (1 + Real.cos t)) * Real.cos (t * i) + h * Real.sin (t * i) ^ 2)]
  simp
  ring

theorem rows_congr {C : ℕ} {r y r' y' : ℕ → ℝ} (hr : ∀ i, r i = r' i) (hy : ∀ i, y i = y' i) : rows C r y = rows C r' y' := by
  rw [show r = r' from funext hr, show y = y' from funext hy]

/-- C95: ellipsoid. -/
theorem C95_ellipsoid (d : EllipsoidDesc) (m : M) (hb : (max 2 d.segsY + 1) * (max 3 d.segsX + 1) ≤ 2 ^ 32) :
    ∃ m' fs, genEllipsoid d m = .ok m' ∧ NewFaces m m' fs ∧
      volume fs = fan (max 3 d.segsX) (2 * Real.pi) * (2 / 3 * (1 + Real.cos (Real.pi / (max 2 d.segsY : ℕ)))) * d.radius.x * d.radius.y * d.radius.z := by
  have h2 : 2 ≤ max 2 d.segsY := le_max_left _ _
  obtain ⟨m', e, hf⟩ := C43_faces d m hb
  refine ⟨m', _, e, hf, ?_⟩
  clear hf e
  generalize max 3 d.segsX = H at *
  generalize max 2 d.segsY = V at *
  have hV' : (V : ℝ) ≠ 0 := by positivity
  rw [volume_eq, vgrid_plus d.alternateGrid V H (fun v => Real.sin (Real.pi / V * v)) (fun v => d.radius.y * Real.cos (Real.pi / V * v) + 0)
    (fun u => d.radius.x * Real.cos (2 * Real.pi * u / H)) (fun u => d.radius.z * Real.sin (2 * Real.pi * u / H))
    (fun v u => ellipsoidPoint d.radius (Real.pi * v / V) (2 * Real.pi * u / H)) (fun v u => by
      rw [ellipsoidPoint, rowPoint, show Real.pi * (v : ℝ) / V = Real.pi / V * v by ring]; ext <;> ring), rows_sphere, cols_turn', div_mul_cancel₀ _ hV', Real.cos_pi]
  ring

example := C95_ellipsoid ⟨⟨4, 2, 3⟩, 5, 4, true⟩ ⟨[], []⟩ (by norm_num)

/-- C95: capsule. -/
theorem C95_capsule (d : CapsuleDesc) (m : M) (hV : 2 * (max 1 d.segsY + 1) ≤ 2 ^ 32) (hE : (max 2 d.ellipsoidSegs + 1) * (max 3 d.segsX + 1) ≤ 2 ^ 32) :
    ∃ m' fs, genCapsule d m = .ok m' ∧ NewFaces m m' fs ∧
      volume fs = fan (max 3 d.segsX) (2 * Real.pi) * d.radius.x * d.radius.z *
        (d.height + 2 / 3 * (1 + Real.cos (Real.pi / 2 / (max 2 d.ellipsoidSegs : ℕ))) * d.radius.y) := by
  have h3 : 3 ≤ max 3 d.segsX := le_max_left _ _
  have h1 : 1 ≤ max 1 d.segsY := le_max_left _ _
  have h2 : 2 ≤ max 2 d.ellipsoidSegs := le_max_left _ _
  have hU : max 3 d.segsX + 1 < 2 ^ 32 := by
    have := Nat.mul_le_mul_right (max 3 d.segsX + 1) (show 3 ≤ max 2 d.ellipsoidSegs + 1 by omega); omega
  have hE' : max 2 d.ellipsoidSegs + 1 < 2 ^ 32 := by
    have := Nat.mul_le_mul_left (max 2 d.ellipsoidSegs + 1) (show 4 ≤ max 3 d.segsX + 1 by omega); omega
  obtain ⟨m', e, _, hf⟩ := C45_capsule d m hU (by omega) hE'
  refine ⟨m', _, e, hf hV hE, ?_⟩
  clear hf e
  generalize max 3 d.segsX = H at *
  generalize max 1 d.segsY = V at *
  generalize max 2 d.ellipsoidSegs = E at *
  have hV' : (V : ℝ) ≠ 0 := by positivity
  have hE0 : (E : ℝ) ≠ 0 := by positivity
  let S := fun (side : ℝ) (v u : ℕ) => (⟨-side * (d.radius.x * (Real.sin (Real.pi / 2 * ((v : ℝ) / E)) * Real.sin (2 * Real.pi * u / H))),
    side * (d.radius.y * Real.cos (Real.pi / 2 * ((v : ℝ) / E)) + d.height / 2),
    d.radius.z * (Real.sin (Real.pi / 2 * ((v : ℝ) / E)) * Real.cos (2 * Real.pi * u / H))⟩ : V3 ℝ)
  have hS : ∀ side v u, S side v u = rowPoint (Real.sin (Real.pi / 2 / E * v)) (side * d.radius.y * Real.cos (Real.pi / 2 / E * v) + side * (d.height / 2))
      (-side * d.radius.x * Real.sin (2 * Real.pi * u / H)) (d.radius.z * Real.cos (2 * Real.pi * u / H)) := by
    intro side v u
    simp only [S, rowPoint]
    rw [show Real.pi / 2 * ((v : ℝ) / E) = Real.pi / 2 / E * v by ring]
    ext <;> ring
  dsimp only
  rw [volume_eq, vsum_append, vsum_append, mantleA d.alternateGrid H V ⟨d.radius.x, d.radius.z⟩ (fun v => d.height / 2 - d.height * (v / V)) (fun u => 2 * Real.pi * u / H),
    vgrid_plus d.alternateGrid E H _ _ _ _ (S 1) (hS 1), vgrid_plus d.alternateGrid E H _ _ _ _ (S (-1)) (hS (-1)), rows_sphere, rows_sphere, cols_turn, cols_turn, cols_turn,
    rows_one, div_mul_cancel₀ _ hE0, Real.cos_pi_div_two, Real.sin_pi_div_two, div_self hV']
  simp only [Nat.cast_zero, zero_div]
  ring

example := C95_capsule ⟨⟨4, 2, 3⟩, 1, 5, 2, 3, true⟩ ⟨[], []⟩ (by norm_num) (by norm_num)

/-- The rows of a tube. -/
theorem rows_tube (n : ℕ) (hn : 0 < n) (q ty : ℝ) :
    rows n (fun i => 1 + q * Real.sin (2 * Real.pi * i / n)) (fun i => ty * Real.cos (2 * Real.pi * i / n)) = 6 * fan n (2 * Real.pi) * (q * ty) := by
  have hn' : (n : ℝ) ≠ 0 := by positivity
  let F := fun i : ℕ => -(ty * (2 * Real.cos (2 * Real.pi * i / n) + q * (Real.sin (2 * Real.pi * i / n) * Real.cos (2 * Real.pi * i / n)) +
    q ^ 2 * (1 + Real.cos (2 * Real.pi / n)) * Real.cos (2 * Real.pi * i / n)))
  have e : ∀ i : ℕ, (1 + q * Real.sin (2 * Real.pi * i / n) + (1 + q * Real.sin (2 * Real.pi * (i + 1 : ℕ) / n))) *
      ((1 + q * Real.sin (2 * Real.pi * (i + 1 : ℕ) / n)) * (ty * Real.cos (2 * Real.pi * i / n)) - (1 + q * Real.sin (2 * Real.pi * i / n)) * (ty * Real.cos (2 * Real.pi * (i + 1 : ℕ) / n))) =
      (F (i + 1) - F i) + 3 * q * ty * Real.sin (2 * Real.pi / n) := by
    intro i
    simp only [F]
    have ea : 2 * Real.pi * ((i + 1 : ℕ) : ℝ) / n = 2 * Real.pi * i / n + 2 * Real.pi / n := by push_cast; ring
    rw [ea, Real.sin_add, Real.cos_add]
    have s1 := Real.sin_sq_add_cos_sq (2 * Real.pi * i / n)
    have s2 := Real.sin_sq_add_cos_sq (2 * Real.pi / n)
    generalize Real.sin (2 * Real.pi * i / n) = a at *
    generalize Real.cos (2 * Real.pi * i / n) = b at *
    generalize Real.sin (2 * Real.pi / n) = c at *
    generalize Real.cos (2 * Real.pi / n) = g at *
    linear_combination (ty * (3 * q * c + q ^ 2 * (a + (a * g + b * c)) * c)) * s1 + (ty * q ^ 2 * b) * s2
  unfold rows
  rw [Finset.sum_congr rfl fun i _ => e i, Finset.sum_add_distrib, Finset.sum_range_sub F, Finset.sum_const, Finset.card_range, nsmul_eq_mul, fan]
  have : F n = F 0 := by simp only [F]; rw [turn_last hn, turn_first]; simp
  rw [this]; ring

/-- C95: torus whose tube has the proportions of the ring. -/
theorem C95_torus (d : TorusDesc) (m : M) (hb : (max 3 d.segsY + 1) * (max 3 d.segsX + 1) ≤ 2 ^ 32)
    (q : ℝ) (hx : d.tubeRadius.x = q * d.ringRadius.x) (hz : d.tubeRadius.z = q * d.ringRadius.y) :
    ∃ m' fs, genTorus d m = .ok m' ∧ NewFaces m m' fs ∧
      volume fs = 2 * fan (max 3 d.segsX) (2 * Real.pi) * fan (max 3 d.segsY) (2 * Real.pi) * d.ringRadius.x * d.tubeRadius.y * d.tubeRadius.z := by
  have h2 : 3 ≤ max 3 d.segsY := le_max_left _ _
  obtain ⟨m', e, hf⟩ := C46_faces d m hb
  refine ⟨m', _, e, hf, ?_⟩
  clear hf e
  generalize max 3 d.segsX = H at *
  generalize max 3 d.segsY = V at *
  rw [volume_eq, vgrid_torus d.alternateGrid V H (fun v => 1 + q * Real.sin (2 * Real.pi * v / V)) (fun v => d.tubeRadius.y * Real.cos (2 * Real.pi * v / V))
    (fun u => d.ringRadius.x * Real.sin (2 * Real.pi * u / H)) (fun u => d.ringRadius.y * Real.cos (2 * Real.pi * u / H))
    (fun v u => torusPoint d.ringRadius d.tubeRadius (2 * Real.pi * v / V) (2 * Real.pi * u / H)) (fun v u => by
      rw [torusPoint, rowPoint, hx, hz]; ext <;> ring), rows_tube V (by omega), cols_turn, hz]
  ring

example := C95_torus ⟨⟨4, 2⟩, ⟨2, 3, 1⟩, 5, 4, true⟩ ⟨[], []⟩ (by norm_num) (1 / 2) (by norm_num) (by norm_num)

/-- A plane grid. -/
theorem vgrid_plane (alt : Bool) (R C : ℕ) (hR : 1 ≤ R) (hC : 1 ≤ C) (B e f : V3 ℝ) (D : ℕ → ℕ → V3 ℝ)
    (hD : ∀ i j : ℕ, D i j = ⟨B.x + e.x * (i / R) + f.x * (j / C), B.y + e.y * (i / R) + f.y * (j / C), B.z + e.z * (i / R) + f.z * (j / C)⟩) :
    vsum (grid R C fun i j => quad alt j i (D i j) (D (i + 1) j) (D (i + 1) (j + 1)) (D i (j + 1))) = 2 * V3.dot B (V3.cross e f) := by
  have hR' : (R : ℝ) ≠ 0 := by positivity
  have hC' : (C : ℝ) ≠ 0 := by positivity
  have cell : ∀ i j : ℕ, vsum (quad alt j i (D i j) (D (i + 1) j) (D (i + 1) (j + 1)) (D i (j + 1))) = 2 * V3.dot B (V3.cross e f) * ((1 / R) * (1 / C)) := by
    intro i j
    unfold quad
    simp only [hD]
    have e1 : ((i + 1 : ℕ) : ℝ) / R = i / R + 1 / R := by push_cast; ring
    have e2 : ((j + 1 : ℕ) : ℝ) / C = j / C + 1 / C := by push_cast; ring
    rw [e1, e2]
    generalize (i : ℝ) / R = s
    generalize (j : ℝ) / C = t
    generalize 1 / (R : ℝ) = s'
    generalize 1 / (C : ℝ) = t'
    split_ifs <;> simp only [vsum_cons, vsum_nil, spat, V3.dot, V3.cross_x, V3.cross_y, V3.cross_z] <;> ring
  rw [vsum_grid]
  simp only [cell, Finset.sum_const, Finset.card_range, nsmul_eq_mul]
  field_simp

/-- C95: cuboid. -/
theorem C95_cuboid (sx sy : ℝ) (hx : sx = 1 ∨ sx = -1) (hy : sy = 1 ∨ sy = -1) (d : CuboidDesc) (m : M)
    (h1 : (max 1 d.segsY + 1) * (max 1 d.segsX + 1) ≤ 2 ^ 32) (h2 : (max 1 d.segsY + 1) * (max 1 d.segsZ + 1) ≤ 2 ^ 32)
    (h3 : (max 1 d.segsZ + 1) * (max 1 d.segsX + 1) ≤ 2 ^ 32) :
    ∃ m' fs, genCuboid sx sy d m = .ok m' ∧ NewFaces m m' fs ∧ volume fs = d.size.x * d.size.y * d.size.z := by
  obtain ⟨m', e, hf⟩ := C42_faces sx sy hx hy d m h1 h2 h3
  have p1 : 1 ≤ max 1 d.segsX := le_max_left _ _
  have p2 : 1 ≤ max 1 d.segsY := le_max_left _ _
  have p3 : 1 ≤ max 1 d.segsZ := le_max_left _ _
  refine ⟨m', _, e, hf, ?_⟩
  clear hf e
  generalize max 1 d.segsX = X at *
  generalize max 1 d.segsY = Y at *
  generalize max 1 d.segsZ = Z at *
  obtain ⟨a, b, c⟩ := d.size
  have sx2 : sx ^ 2 = 1 := by rcases hx with rfl | rfl <;> norm_num
  have sy2 : sy ^ 2 = 1 := by rcases hy with rfl | rfl <;> norm_num
  dsimp only
  let at' := fun (s : ℝ) (k n : ℕ) => s * ((k : ℝ) / n) - s / 2
  simp only [volume_eq, vsum_append]
  rw [vgrid_plane d.alternateGrid Y X p2 p1 ⟨-(a / 2), -(b / 2), -c / 2⟩ ⟨0, b, 0⟩ ⟨a, 0, 0⟩ (fun i j => ⟨at' a j X, at' b i Y, -c / 2⟩) (fun i j => by ext <;> simp only [at'] <;> ring),
    vgrid_plane d.alternateGrid Y X p2 p1 ⟨a / 2, -(b / 2), c / 2⟩ ⟨0, b, 0⟩ ⟨-a, 0, 0⟩ (fun i j => ⟨-at' a j X, at' b i Y, c / 2⟩) (fun i j => by ext <;> simp only [at'] <;> ring),
    vgrid_plane d.alternateGrid Y Z p2 p3 ⟨sy * (a / 2), -(b / 2), -(sy * (c / 2))⟩ ⟨0, b, 0⟩ ⟨0, 0, sy * c⟩ (fun i j => ⟨sy * (a / 2), at' b i Y, sy * at' c j Z⟩) (fun i j => by ext <;> simp only [at'] <;> ring),
    vgrid_plane d.alternateGrid Y Z p2 p3 ⟨-sy * (a / 2), -(b / 2), sy * (c / 2)⟩ ⟨0, b, 0⟩ ⟨0, 0, -sy * c⟩ (fun i j => ⟨-sy * (a / 2), at' b i Y, -sy * at' c j Z⟩) (fun i j => by ext <;> simp only [at'] <;> ring),
    vgrid_plane d.alternateGrid Z X p3 p1 ⟨-(a / 2), sx * (b / 2), -(sx * (c / 2))⟩ ⟨0, 0, sx * c⟩ ⟨a, 0, 0⟩ (fun i j => ⟨at' a j X, sx * (b / 2), sx * at' c i Z⟩) (fun i j => by ext <;> simp only [at'] <;> ring),
    vgrid_plane d.alternateGrid Z X p3 p1 ⟨-(a / 2), -sx * (b / 2), sx * (c / 2)⟩ ⟨0, 0, -sx * c⟩ ⟨a, 0, 0⟩ (fun i j => ⟨at' a j X, -sx * (b / 2), -sx * at' c i Z⟩) (fun i j => by ext <;> simp only [at'] <;> ring)]
  simp only [V3.dot, V3.cross_x, V3.cross_y, V3.cross_z]
  linear_combination (a * b * c / 3) * sx2 + (a * b * c / 3) * sy2

example := C95_cuboid 1 1 (by norm_num) (by norm_num) ⟨⟨4, 1, 3⟩, 3, 2, 1, true⟩ ⟨[], []⟩ (by norm_num) (by norm_num) (by norm_num)

/-! The volume of a closed surface does not depend on the point the tetrahedra are taken from. -/

theorem watertight_bsum {w : V3 ℝ → V3 ℝ → ℝ} (hw : Anti w) {fs : List Face} (h : Watertight fs) : bsum w fs = 0 := by
  classical
  let L := (fs.flatMap edges).filter fun e => decide (e.1 ≠ e.2)
  have hL : ((fs.flatMap edges).map fun e => w e.1 e.2).sum = (L.map fun e => w e.1 e.2).sum := by
    simp only [L]
    generalize fs.flatMap edges = es
    induction es with
    | nil => rfl
    | cons e es ih =>
      rw [List.map_cons, List.sum_cons, ih, List.filter_cons]
      split_ifs with he
      · simp
      · have : e.1 = e.2 := by simpa using he
        rw [this, anti_self hw, zero_add]
  have hp : (L.map Prod.swap).Perm L := by
    rw [List.perm_iff_count]
    rintro ⟨p, q⟩
    have e1 : (L.map Prod.swap).count (p, q) = L.count (q, p) := by
      rw [show (p, q) = Prod.swap (q, p) from rfl, List.count_map_of_injective _ _ Prod.swap_injective]
    rw [e1]
    by_cases hpq : p = q
    · subst hpq; rfl
    · have h1 : L.count (q, p) = uses fs q p := by
        simp only [L]; rw [List.count_filter (by simpa using fun h => hpq h.symm)]; unfold uses; congr 1
      have h2 : L.count (p, q) = uses fs p q := by
        simp only [L]; rw [List.count_filter (by simpa using hpq)]; unfold uses; congr 1
      rw [h1, h2, h.2 p q hpq]
  have hs := (hp.map fun e => w e.1 e.2).sum_eq
  rw [List.map_map] at hs
  have hn : (L.map ((fun e : V3 ℝ × V3 ℝ => w e.1 e.2) ∘ Prod.swap)).sum = -(L.map fun e => w e.1 e.2).sum := by
    generalize L = L'
    induction L' with
    | nil => simp
    | cons e L' ih => rw [List.map_cons, List.sum_cons, ih, List.map_cons, List.sum_cons]; simp only [Function.comp, Prod.fst_swap, Prod.snd_swap]; rw [hw]; ring
  unfold bsum
  rw [hL]
  linarith

/-- C95: moving a closed surface leaves its volume as it is. -/
theorem C95_moved (fs : List Face) (h : Watertight fs) (t : V3 ℝ) : volume (fs.map fun f => (f.1 + t, f.2.1 + t, f.2.2 + t)) = volume fs := by
  have hw : Anti fun a b => V3.dot t (V3.cross a b) := by intro a b; simp only [V3.dot, V3.cross_x, V3.cross_y, V3.cross_z]; ring
  have h0 := watertight_bsum hw h
  have : ∀ fs : List Face, vsum (fs.map fun f => (f.1 + t, f.2.1 + t, f.2.2 + t)) = vsum fs + bsum (fun a b => V3.dot t (V3.cross a b)) fs := by
    intro fs
    induction fs with
    | nil => simp [vsum, bsum]
    | cons f fs ih =>
      rw [List.map_cons, vsum_cons, ih, vsum_cons, bsum_cons]
      simp only [spat, V3.dot, V3.cross_x, V3.cross_y, V3.cross_z, V3.add_x, V3.add_y, V3.add_z]
      ring
  rw [volume_eq, this, h0, add_zero, volume_eq]

example := (C92_cylinder ⟨⟨4, 2⟩, 3, 5, 2, 1, 2, true⟩ ⟨[], []⟩ (by norm_num) (by norm_num) (by norm_num) (by norm_num) (by norm_num)
  (by norm_num)).imp fun _ h => h.imp fun fs h => C95_moved fs h.2.2 ⟨1, 2, 3⟩

/-! How close the volumes are to those of the round bodies. -/

theorem fan_le (n : ℕ) {phi : ℝ} (h0 : 0 ≤ phi) : fan n phi ≤ phi / 2 := by
  rcases Nat.eq_zero_or_pos n with rfl | hn
  · simp [fan]; linarith
  have hn' : (0 : ℝ) < n := by positivity
  have := Real.sin_le (show 0 ≤ phi / n by positivity)
  unfold fan
  calc (n : ℝ) / 2 * Real.sin (phi / n) ≤ n / 2 * (phi / n) := by gcongr
    _ = phi / 2 := by field_simp

theorem le_fan (n : ℕ) (hn : 0 < n) {phi : ℝ} (h0 : 0 ≤ phi) : phi / 2 * (1 - phi ^ 2 / (6 * n ^ 2)) ≤ fan n phi := by
  have hn' : (0 : ℝ) < n := by positivity
  have := Real.sin_ge_sub_cube (show 0 ≤ phi / n by positivity)
  unfold fan
  calc phi / 2 * (1 - phi ^ 2 / (6 * n ^ 2)) = n / 2 * (phi / n - (phi / n) ^ 3 / 6) := by field_simp
    _ ≤ n / 2 * Real.sin (phi / n) := by gcongr

theorem fan_nonneg (n : ℕ) (hn : 2 ≤ n) : 0 ≤ fan n (2 * Real.pi) := by
  have hn' : (2 : ℝ) ≤ n := by exact_mod_cast hn
  have := Real.pi_pos
  unfold fan
  refine mul_nonneg (by positivity) (Real.sin_nonneg_of_nonneg_of_le_pi (by positivity) ?_)
  rw [div_le_iff₀ (by linarith)]
  nlinarith

/-- C95: the volume of a generated sphere is at most that of the sphere, and the relative error is at most
`2 π² / 3 H² + π² / 4 V²`. -/
theorem C95_sphere (d : EllipsoidDesc) (m : M) (s : Sphere.Sphere ℝ) (hs : 0 ≤ s.radius) (hr : d.radius = ⟨s.radius, s.radius, s.radius⟩)
    (hb : (max 2 d.segsY + 1) * (max 3 d.segsX + 1) ≤ 2 ^ 32) :
    ∃ m' fs, genEllipsoid d m = .ok m' ∧ NewFaces m m' fs ∧ volume fs ≤ Sphere.getVolume s ∧
      Sphere.getVolume s * (1 - 2 * Real.pi ^ 2 / (3 * (max 3 d.segsX : ℕ) ^ 2) - Real.pi ^ 2 / (4 * (max 2 d.segsY : ℕ) ^ 2)) ≤ volume fs := by
  obtain ⟨m', fs, e, hf, hv⟩ := C95_ellipsoid d m hb
  refine ⟨m', fs, e, hf, ?_⟩
  have h3 : 3 ≤ max 3 d.segsX := le_max_left _ _
  have h2 : 2 ≤ max 2 d.segsY := le_max_left _ _
  rw [hv, hr]
  clear hv hf e hb
  generalize max 3 d.segsX = H at *
  generalize max 2 d.segsY = V at *
  have hpi := Real.pi_pos
  have hH' : (0 : ℝ) < H := by positivity
  have hV' : (0 : ℝ) < V := by positivity
  have f1 := fan_le H (show 0 ≤ 2 * Real.pi by positivity)
  have f2 := le_fan H (by omega) (show 0 ≤ 2 * Real.pi by positivity)
  have f0 := fan_nonneg H (by omega)
  have c1 := Real.cos_le_one (Real.pi / V)
  have c2 := Real.one_sub_sq_div_two_le_cos (x := Real.pi / V)
  have c0 := Real.neg_one_le_cos (Real.pi / V)
  simp only [Sphere.getVolume]
  have hr3 : 0 ≤ s.radius ^ 3 := by positivity
  generalize fan H (2 * Real.pi) = f at *
  generalize Real.cos (Real.pi / V) = c at *
  have ea : 2 * Real.pi / 2 * (1 - (2 * Real.pi) ^ 2 / (6 * (H : ℝ) ^ 2)) = Real.pi * (1 - 2 * Real.pi ^ 2 / (3 * (H : ℝ) ^ 2)) := by field_simp; ring
  have eb : (Real.pi / (V : ℝ)) ^ 2 / 2 = 2 * (Real.pi ^ 2 / (4 * (V : ℝ) ^ 2)) := by field_simp; ring
  rw [ea] at f2
  rw [eb] at c2
  have a0 : 0 ≤ 2 * Real.pi ^ 2 / (3 * (H : ℝ) ^ 2) := by positivity
  have b0 : 0 ≤ Real.pi ^ 2 / (4 * (V : ℝ) ^ 2) := by positivity
  generalize 2 * Real.pi ^ 2 / (3 * (H : ℝ) ^ 2) = A at *
  generalize Real.pi ^ 2 / (4 * (V : ℝ) ^ 2) = B at *
  have k1 : f * (1 + c) ≤ Real.pi * 2 := mul_le_mul (by linarith) (by linarith) (by linarith) hpi.le
  have k2 : Real.pi * 2 * (1 - A - B) ≤ f * (1 + c) := by
    have g1 : 0 ≤ (f - Real.pi * (1 - A)) * (1 + c) := mul_nonneg (by linarith) (by linarith)
    have g2 : 0 ≤ Real.pi * A * (1 - c) := mul_nonneg (by positivity) (by linarith)
    have g3 : 0 ≤ Real.pi * (1 + c - 2 * (1 - B)) := mul_nonneg hpi.le (by linarith)
    nlinarith
  constructor
  · linear_combination (2 / 3 * s.radius ^ 3) * k1
  · linear_combination (2 / 3 * s.radius ^ 3) * k2

example := C95_sphere ⟨⟨2, 2, 2⟩, 5, 4, true⟩ ⟨[], []⟩ ⟨0, 2⟩ (by norm_num) (by norm_num) (by norm_num)

/-- C95: the volume of a generated cone is at most that of the cone, and the relative error is at most `2 π² / 3 H²`. -/
theorem C95_cone_error (d : ConeDesc) (m : M) (c : Plane.Cone) (hh : 0 ≤ c.height) (hr : d.radius = ⟨c.radius, c.radius⟩) (hd : d.height = c.height) (hB1 : 1 ≤ d.cov)
    (hH : max 3 d.segsX + 1 < 2 ^ 32) (hV : 2 * (max 1 d.segsY + 1) ≤ 2 ^ 32) (hB : 2 * d.cov ≤ 2 ^ 32) :
    ∃ m' fs, genCone d m = .ok m' ∧ NewFaces m m' fs ∧ volume fs ≤ Shapes.coneVolume c ∧
      Shapes.coneVolume c * (1 - 2 * Real.pi ^ 2 / (3 * (max 3 d.segsX : ℕ) ^ 2)) ≤ volume fs := by
  obtain ⟨m', fs, e, hf, hv⟩ := C95_cone d m hB1 hH hV hB
  refine ⟨m', fs, e, hf, ?_⟩
  have h3 : 3 ≤ max 3 d.segsX := le_max_left _ _
  rw [hv, hr, hd]
  clear hv hf e hH
  generalize max 3 d.segsX = H at *
  have hpi := Real.pi_pos
  have hH' : (0 : ℝ) < H := by positivity
  have f1 := fan_le H (show 0 ≤ 2 * Real.pi by positivity)
  have f2 := le_fan H (by omega) (show 0 ≤ 2 * Real.pi by positivity)
  have ea : 2 * Real.pi / 2 * (1 - (2 * Real.pi) ^ 2 / (6 * (H : ℝ) ^ 2)) = Real.pi * (1 - 2 * Real.pi ^ 2 / (3 * (H : ℝ) ^ 2)) := by field_simp; ring
  rw [ea] at f2
  simp only [Shapes.coneVolume]
  have hr3 : 0 ≤ c.radius ^ 2 * c.height := by positivity
  constructor
  · linear_combination (c.radius ^ 2 * c.height / 3) * f1
  · linear_combination (c.radius ^ 2 * c.height / 3) * f2

/-! Descriptors that meet the hypotheses. -/

example : ∃ m' fs, genCylinder ⟨⟨4, 1⟩, 3, 4, 1, 1, 2, true⟩ ⟨[], []⟩ = .ok m' ∧ NewFaces ⟨[], []⟩ m' fs ∧ volume fs = 24 := by
  obtain ⟨m', fs, h1, h2, h3⟩ := C95_cylinder ⟨⟨4, 1⟩, 3, 4, 1, 1, 2, true⟩ ⟨[], []⟩ (by norm_num) (by norm_num) (by norm_num) (by norm_num) (by norm_num) (by norm_num)
  refine ⟨m', fs, h1, h2, ?_⟩
  rw [h3, fan, show max 3 4 = 4 from rfl, show 2 * Real.pi / (4 : ℕ) = Real.pi / 2 by push_cast; ring, Real.sin_pi_div_two]
  norm_num

example : ∃ m' fs, genCuboid 1 (-1) ⟨⟨4, 1, 2⟩, 3, 2, 5, true⟩ ⟨[], []⟩ = .ok m' ∧ NewFaces ⟨[], []⟩ m' fs ∧ volume fs = 8 := by
  obtain ⟨m', fs, h1, h2, h3⟩ := C95_cuboid 1 (-1) (by norm_num) (by norm_num) ⟨⟨4, 1, 2⟩, 3, 2, 5, true⟩ ⟨[], []⟩ (by norm_num) (by norm_num) (by norm_num)
  exact ⟨m', fs, h1, h2, h3.trans (by norm_num)⟩

example : ∃ m' fs, genEllipsoid ⟨⟨1, 1, 1⟩, 4, 2, false⟩ ⟨[], []⟩ = .ok m' ∧ NewFaces ⟨[], []⟩ m' fs ∧ volume fs = 4 / 3 := by
  obtain ⟨m', fs, h1, h2, h3⟩ := C95_ellipsoid ⟨⟨1, 1, 1⟩, 4, 2, false⟩ ⟨[], []⟩ (by norm_num)
  refine ⟨m', fs, h1, h2, ?_⟩
  rw [h3, fan, show max 3 4 = 4 from rfl, show max 2 2 = 2 from rfl, show 2 * Real.pi / (4 : ℕ) = Real.pi / 2 by push_cast; ring, Real.sin_pi_div_two, Nat.cast_two, Real.cos_pi_div_two]
  norm_num

example : ∃ m' fs, genTorus ⟨⟨2, 2⟩, ⟨1, 3, 1⟩, 4, 4, false⟩ ⟨[], []⟩ = .ok m' ∧ NewFaces ⟨[], []⟩ m' fs ∧ volume fs = 48 := by
  obtain ⟨m', fs, h1, h2, h3⟩ := C95_torus ⟨⟨2, 2⟩, ⟨1, 3, 1⟩, 4, 4, false⟩ ⟨[], []⟩ (by norm_num) (1 / 2) (by norm_num) (by norm_num)
  refine ⟨m', fs, h1, h2, ?_⟩
  rw [h3, fan, show max 3 4 = 4 from rfl, show 2 * Real.pi / (4 : ℕ) = Real.pi / 2 by push_cast; ring, Real.sin_pi_div_two]
  norm_num

end Geom.Gen
