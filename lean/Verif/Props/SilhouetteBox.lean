import Verif.Proof.GridSides
import Verif.Props.Silhouette
import Verif.Props.Pick
import Verif.Spec.BoxEdges

/-
  C104: the silhouette of a generated cuboid.
-/
set_option autoImplicit false
set_option linter.unusedSectionVars false

namespace Geom.Gen
open TMesh (Mesh Vertex Ix Edge edges silhouetteEdges)
open TMesh.Spec (Adj Flat Valid corner)
open Spec

/-- The point of a grid with the given parameters. -/
noncomputable def GSide.pt (g : GSide) (s t : ℝ) : V3 ℝ := g.o + s • g.a + t • g.b

/-- The grid is the side of the box across the axis `i`. -/
structure BoxSide (size : V3 ℝ) (g : GSide) (i : Fin 3) (e : ℝ) : Prop where
  cross : V3.cross g.a g.b ≠ 0
  inside : ∀ s t, 0 ≤ s → s ≤ 1 → 0 ≤ t → t ≤ 1 → comps (g.pt s t) ∈ AABB.pts (centered size)
  along : ∀ s t s' t', (s = 0 ∧ s' = 0) ∨ (s = 1 ∧ s' = 1) ∨ (t = 0 ∧ t' = 0) ∨ (t = 1 ∧ t' = 1) ↔ AlongBoxEdge size (g.pt s t) (g.pt s' t')
  onto : ∀ p, comps p ∈ AABB.pts (centered size) → e * comps p i = comps size i / 2 →
    ∃ s t, 0 ≤ s ∧ s ≤ 1 ∧ 0 ≤ t ∧ t ≤ 1 ∧ p = g.pt s t

theorem along_iff (size p q : V3 ℝ) : AlongBoxEdge size p q ↔ (SameSide size p q 0 ∧ SameSide size p q 1) ∨ (SameSide size p q 0 ∧ SameSide size p q 2) ∨
    (SameSide size p q 1 ∧ SameSide size p q 2) := by
  constructor
  · rintro ⟨i, j, hne, hi, hj⟩
    fin_cases i <;> fin_cases j <;> simp at hne hi hj <;> tauto
  · rintro (h | h | h)
    · exact ⟨0, 1, by decide, h⟩
    · exact ⟨0, 2, by decide, h⟩
    · exact ⟨1, 2, by decide, h⟩

theorem half_iff {X : ℝ} (hX : 0 < X) (e s s' x x' : ℝ) (he : e = 1 ∨ e = -1) (hx : x = e * (X * (s - 1 / 2))) (hx' : x' = e * (X * (s' - 1 / 2))) :
    (x = x' ∧ |x| = X / 2) ↔ (s = 0 ∧ s' = 0) ∨ (s = 1 ∧ s' = 1) := by
  have e0 : e ≠ 0 := by rcases he with rfl | rfl <;> norm_num
  have e1 : |e| = 1 := by rcases he with rfl | rfl <;> simp
  rw [hx, hx', abs_mul, e1, one_mul, abs_mul, abs_of_pos hX]
  constructor
  · rintro ⟨h1, h2⟩
    have h1 := mul_left_cancel₀ hX.ne' (mul_left_cancel₀ e0 h1)
    have h2 : |s - 1 / 2| = 1 / 2 := mul_left_cancel₀ hX.ne' (by rw [h2]; ring)
    rcases (abs_eq (by norm_num)).1 h2 with h | h
    · right; constructor <;> linarith
    · left; constructor <;> linarith
  · rintro (⟨rfl, rfl⟩ | ⟨rfl, rfl⟩)
    · refine ⟨rfl, ?_⟩; norm_num; ring
    · refine ⟨rfl, ?_⟩; norm_num; ring

theorem or_z {A B C D : Prop} : A ∨ B ∨ C ∨ D ↔ ((C ∨ D) ∧ (A ∨ B)) ∨ (C ∨ D) ∨ (A ∨ B) := by tauto
theorem or_x {A B C D : Prop} : A ∨ B ∨ C ∨ D ↔ (A ∨ B) ∨ (C ∨ D) ∨ ((A ∨ B) ∧ (C ∨ D)) := by tauto
theorem or_y {A B C D : Prop} : A ∨ B ∨ C ∨ D ↔ (C ∨ D) ∨ ((C ∨ D) ∧ (A ∨ B)) ∨ (A ∨ B) := by tauto

theorem boxSide_z (H V off : ℕ) (X Y Z : ℝ) (hX : 0 < X) (hY : 0 < Y) (hZ : 0 < Z) (e : ℝ) (he : e = 1 ∨ e = -1) :
    BoxSide ⟨X, Y, Z⟩ ⟨H, V, off, ⟨e * X / 2, -Y / 2, e * Z / 2⟩, ⟨0, Y, 0⟩, ⟨-e * X, 0, 0⟩⟩ 2 e := by
  have e0 : e ≠ 0 := by rcases he with rfl | rfl <;> norm_num
  refine ⟨?_, ?_, ?_, ?_⟩
  · intro h
    have := congrArg V3.z h
    simp at this
    rcases this with h | h | h
    · exact hY.ne' h
    · exact e0 h
    · exact hX.ne' h
  · intro s t k1 k2 k3 k4
    rw [mem_centered]
    have q1 : s * Y ≤ Y := by nlinarith
    have q2 : 0 ≤ s * Y := by positivity
    have q3 : t * X ≤ X := by nlinarith
    have q4 : 0 ≤ t * X := by positivity
    rcases he with rfl | rfl <;> simp [GSide.pt] <;> and_intros <;> linarith
  · intro s t s' t'
    rw [along_iff]
    have hz : SameSide ⟨X, Y, Z⟩ (GSide.pt ⟨H, V, off, ⟨e * X / 2, -Y / 2, e * Z / 2⟩, ⟨0, Y, 0⟩, ⟨-e * X, 0, 0⟩⟩ s t)
        (GSide.pt ⟨H, V, off, ⟨e * X / 2, -Y / 2, e * Z / 2⟩, ⟨0, Y, 0⟩, ⟨-e * X, 0, 0⟩⟩ s' t') 2 := by
      simp only [SameSide, comps, GSide.pt, Matrix.cons_val]
      refine ⟨by simp, ?_⟩
      rcases he with rfl | rfl <;> simp [abs_of_pos hZ, abs_div, abs_neg]
    have hx := half_iff hX (-e) t t' (comps (GSide.pt ⟨H, V, off, ⟨e * X / 2, -Y / 2, e * Z / 2⟩, ⟨0, Y, 0⟩, ⟨-e * X, 0, 0⟩⟩ s t) 0)
      (comps (GSide.pt ⟨H, V, off, ⟨e * X / 2, -Y / 2, e * Z / 2⟩, ⟨0, Y, 0⟩, ⟨-e * X, 0, 0⟩⟩ s' t') 0) (by rcases he with rfl | rfl <;> simp)
      (by simp [comps, GSide.pt]; ring) (by simp [comps, GSide.pt]; ring)
    have hy := half_iff hY 1 s s' (comps (GSide.pt ⟨H, V, off, ⟨e * X / 2, -Y / 2, e * Z / 2⟩, ⟨0, Y, 0⟩, ⟨-e * X, 0, 0⟩⟩ s t) 1)
      (comps (GSide.pt ⟨H, V, off, ⟨e * X / 2, -Y / 2, e * Z / 2⟩, ⟨0, Y, 0⟩, ⟨-e * X, 0, 0⟩⟩ s' t') 1) (.inl rfl)
      (by simp [comps, GSide.pt]; ring) (by simp [comps, GSide.pt]; ring)
    simp only [hz, and_true]
    simp only [SameSide, show comps ⟨X, Y, Z⟩ 0 = X from rfl, show comps ⟨X, Y, Z⟩ 1 = Y from rfl, hx, hy]
    exact or_z
  · intro x hx hi
    rw [mem_centered] at hx
    simp [comps] at hx hi
    obtain ⟨⟨a1, a2⟩, ⟨a3, a4⟩, -⟩ := hx
    rcases he with rfl | rfl
    · refine ⟨(x.y + Y / 2) / Y, (X / 2 - x.x) / X, by apply div_nonneg <;> linarith, by rw [div_le_one hY]; linarith,
        by apply div_nonneg <;> linarith, by rw [div_le_one hX]; linarith, ?_⟩
      apply V3.ext <;> simp [GSide.pt] <;> field_simp <;> linarith
    · refine ⟨(x.y + Y / 2) / Y, (x.x + X / 2) / X, by apply div_nonneg <;> linarith, by rw [div_le_one hY]; linarith,
        by apply div_nonneg <;> linarith, by rw [div_le_one hX]; linarith, ?_⟩
      apply V3.ext <;> simp [GSide.pt] <;> field_simp <;> linarith

theorem boxSide_x (H V off : ℕ) (X Y Z : ℝ) (hX : 0 < X) (hY : 0 < Y) (hZ : 0 < Z) (e : ℝ) (he : e = 1 ∨ e = -1) :
    BoxSide ⟨X, Y, Z⟩ ⟨H, V, off, ⟨e * X / 2, -Y / 2, -e * Z / 2⟩, ⟨0, Y, 0⟩, ⟨0, 0, e * Z⟩⟩ 0 e := by
  have e0 : e ≠ 0 := by rcases he with rfl | rfl <;> norm_num
  refine ⟨?_, ?_, ?_, ?_⟩
  · intro h
    have := congrArg V3.x h
    simp at this
    rcases this with h | h | h
    · exact hY.ne' h
    · exact e0 h
    · exact hZ.ne' h
  · intro s t k1 k2 k3 k4
    rw [mem_centered]
    have q1 : s * Y ≤ Y := by nlinarith
    have q2 : 0 ≤ s * Y := by positivity
    have q3 : t * Z ≤ Z := by nlinarith
    have q4 : 0 ≤ t * Z := by positivity
    rcases he with rfl | rfl <;> simp [GSide.pt] <;> and_intros <;> linarith
  · intro s t s' t'
    rw [along_iff]
    have hz : SameSide ⟨X, Y, Z⟩ (GSide.pt ⟨H, V, off, ⟨e * X / 2, -Y / 2, -e * Z / 2⟩, ⟨0, Y, 0⟩, ⟨0, 0, e * Z⟩⟩ s t)
        (GSide.pt ⟨H, V, off, ⟨e * X / 2, -Y / 2, -e * Z / 2⟩, ⟨0, Y, 0⟩, ⟨0, 0, e * Z⟩⟩ s' t') 0 := by
      simp only [SameSide, comps, GSide.pt, Matrix.cons_val]
      refine ⟨by simp, ?_⟩
      rcases he with rfl | rfl <;> simp [abs_of_pos hX, abs_div, abs_neg]
    have hx := half_iff hZ e t t' (comps (GSide.pt ⟨H, V, off, ⟨e * X / 2, -Y / 2, -e * Z / 2⟩, ⟨0, Y, 0⟩, ⟨0, 0, e * Z⟩⟩ s t) 2)
      (comps (GSide.pt ⟨H, V, off, ⟨e * X / 2, -Y / 2, -e * Z / 2⟩, ⟨0, Y, 0⟩, ⟨0, 0, e * Z⟩⟩ s' t') 2) he
      (by simp [comps, GSide.pt]; ring) (by simp [comps, GSide.pt]; ring)
    have hy := half_iff hY 1 s s' (comps (GSide.pt ⟨H, V, off, ⟨e * X / 2, -Y / 2, -e * Z / 2⟩, ⟨0, Y, 0⟩, ⟨0, 0, e * Z⟩⟩ s t) 1)
      (comps (GSide.pt ⟨H, V, off, ⟨e * X / 2, -Y / 2, -e * Z / 2⟩, ⟨0, Y, 0⟩, ⟨0, 0, e * Z⟩⟩ s' t') 1) (.inl rfl)
      (by simp [comps, GSide.pt]; ring) (by simp [comps, GSide.pt]; ring)
    simp only [hz, true_and]
    simp only [SameSide, show comps ⟨X, Y, Z⟩ 2 = Z from rfl, show comps ⟨X, Y, Z⟩ 1 = Y from rfl, hx, hy]
    exact or_x
  · intro x hx hi
    rw [mem_centered] at hx
    simp [comps] at hx hi
    obtain ⟨-, ⟨a3, a4⟩, a1, a2⟩ := hx
    rcases he with rfl | rfl
    · refine ⟨(x.y + Y / 2) / Y, (x.z + Z / 2) / Z, by apply div_nonneg <;> linarith, by rw [div_le_one hY]; linarith,
        by apply div_nonneg <;> linarith, by rw [div_le_one hZ]; linarith, ?_⟩
      apply V3.ext <;> simp [GSide.pt] <;> field_simp <;> linarith
    · refine ⟨(x.y + Y / 2) / Y, (Z / 2 - x.z) / Z, by apply div_nonneg <;> linarith, by rw [div_le_one hY]; linarith,
        by apply div_nonneg <;> linarith, by rw [div_le_one hZ]; linarith, ?_⟩
      apply V3.ext <;> simp [GSide.pt] <;> field_simp <;> linarith

theorem boxSide_y (H V off : ℕ) (X Y Z : ℝ) (hX : 0 < X) (hY : 0 < Y) (hZ : 0 < Z) (e : ℝ) (he : e = 1 ∨ e = -1) :
    BoxSide ⟨X, Y, Z⟩ ⟨H, V, off, ⟨-X / 2, e * Y / 2, -e * Z / 2⟩, ⟨0, 0, e * Z⟩, ⟨X, 0, 0⟩⟩ 1 e := by
  have e0 : e ≠ 0 := by rcases he with rfl | rfl <;> norm_num
  refine ⟨?_, ?_, ?_, ?_⟩
  · intro h
    have := congrArg V3.y h
    simp at this
    rcases this with (h | h) | h
    · exact e0 h
    · exact hZ.ne' h
    · exact hX.ne' h
  · intro s t k1 k2 k3 k4
    rw [mem_centered]
    have q1 : s * Z ≤ Z := by nlinarith
    have q2 : 0 ≤ s * Z := by positivity
    have q3 : t * X ≤ X := by nlinarith
    have q4 : 0 ≤ t * X := by positivity
    rcases he with rfl | rfl <;> simp [GSide.pt] <;> and_intros <;> linarith
  · intro s t s' t'
    rw [along_iff]
    have hz : SameSide ⟨X, Y, Z⟩ (GSide.pt ⟨H, V, off, ⟨-X / 2, e * Y / 2, -e * Z / 2⟩, ⟨0, 0, e * Z⟩, ⟨X, 0, 0⟩⟩ s t)
        (GSide.pt ⟨H, V, off, ⟨-X / 2, e * Y / 2, -e * Z / 2⟩, ⟨0, 0, e * Z⟩, ⟨X, 0, 0⟩⟩ s' t') 1 := by
      simp only [SameSide, comps, GSide.pt, Matrix.cons_val]
      refine ⟨by simp, ?_⟩
      rcases he with rfl | rfl <;> simp [abs_of_pos hY, abs_div, abs_neg]
    have hx := half_iff hX 1 t t' (comps (GSide.pt ⟨H, V, off, ⟨-X / 2, e * Y / 2, -e * Z / 2⟩, ⟨0, 0, e * Z⟩, ⟨X, 0, 0⟩⟩ s t) 0)
      (comps (GSide.pt ⟨H, V, off, ⟨-X / 2, e * Y / 2, -e * Z / 2⟩, ⟨0, 0, e * Z⟩, ⟨X, 0, 0⟩⟩ s' t') 0) (.inl rfl)
      (by simp [comps, GSide.pt]; ring) (by simp [comps, GSide.pt]; ring)
    have hy := half_iff hZ e s s' (comps (GSide.pt ⟨H, V, off, ⟨-X / 2, e * Y / 2, -e * Z / 2⟩, ⟨0, 0, e * Z⟩, ⟨X, 0, 0⟩⟩ s t) 2)
      (comps (GSide.pt ⟨H, V, off, ⟨-X / 2, e * Y / 2, -e * Z / 2⟩, ⟨0, 0, e * Z⟩, ⟨X, 0, 0⟩⟩ s' t') 2) he
      (by simp [comps, GSide.pt]; ring) (by simp [comps, GSide.pt]; ring)
    simp only [hz, true_and, and_true]
    simp only [SameSide, show comps ⟨X, Y, Z⟩ 0 = X from rfl, show comps ⟨X, Y, Z⟩ 2 = Z from rfl, hx, hy]
    exact or_y
  · intro x hx hi
    rw [mem_centered] at hx
    simp [comps] at hx hi
    obtain ⟨⟨a1, a2⟩, -, ⟨a3, a4⟩⟩ := hx
    rcases he with rfl | rfl
    · refine ⟨(x.z + Z / 2) / Z, (x.x + X / 2) / X, by apply div_nonneg <;> linarith, by rw [div_le_one hZ]; linarith,
        by apply div_nonneg <;> linarith, by rw [div_le_one hX]; linarith, ?_⟩
      apply V3.ext <;> simp [GSide.pt] <;> field_simp <;> linarith
    · refine ⟨(Z / 2 - x.z) / Z, (x.x + X / 2) / X, by apply div_nonneg <;> linarith, by rw [div_le_one hZ]; linarith,
        by apply div_nonneg <;> linarith, by rw [div_le_one hX]; linarith, ?_⟩
      apply V3.ext <;> simp [GSide.pt] <;> field_simp <;> linarith

/-- Every point of the border of a grid is on an edge of a triangle. -/
theorem Sided.cover {alt : Bool} {m : Mesh ℝ} {L : List GSide} (h : Sided alt m L) {g : GSide} (hg : g ∈ L) (hV : 1 ≤ g.V) (hH : 1 ≤ g.H) (s t : ℝ)
    (h1 : 0 ≤ s) (h2 : s ≤ 1) (h3 : 0 ≤ t) (h4 : t ≤ 1) (hb : s = 0 ∨ s = 1 ∨ t = 0 ∨ t = 1) :
    ∃ T ∈ m.triangles, ∃ x y x' y', x ≤ g.V ∧ y ≤ g.H ∧ x' ≤ g.V ∧ y' ≤ g.H ∧ Adj T (gridP g.off g.H x y) (gridP g.off g.H x' y') ∧
      BorderE g.V g.H x y x' y' ∧ ∃ τ : ℝ, 0 ≤ τ ∧ τ ≤ 1 ∧ g.pt s t = g.at x y + τ • (g.at x' y' - g.at x y) := by
  have hV' : (g.V : ℝ) ≠ 0 := by positivity
  have hH' : (g.H : ℝ) ≠ 0 := by positivity
  have row : ∀ x v u w, v < g.V → u < g.H → x ≤ g.V → (x = 0 ∨ x = g.V) → EdgeE (splitAt alt v u) w v u x u x (u + 1) → ∀ τ : ℝ, 0 ≤ τ → τ ≤ 1 →
      s = (x : ℝ) / g.V → t = (u : ℝ) / g.H + τ * (1 / g.H) →
      ∃ T ∈ m.triangles, ∃ x y x' y', x ≤ g.V ∧ y ≤ g.H ∧ x' ≤ g.V ∧ y' ≤ g.H ∧ Adj T (gridP g.off g.H x y) (gridP g.off g.H x' y') ∧
      BorderE g.V g.H x y x' y' ∧ ∃ τ : ℝ, 0 ≤ τ ∧ τ ≤ 1 ∧ g.pt s t = g.at x y + τ • (g.at x' y' - g.at x y) := by
    intro x v u w hv hu hx hxx he τ t0 t1 es et
    obtain ⟨k1, k2⟩ := (h.has hg hx (y := u) (y' := u + 1) (x' := x) (by omega) (by omega)).2 ⟨v, u, w, hv, hu, rfl, he⟩
    refine ⟨_, k1, x, u, x, u + 1, hx, by omega, hx, by omega, k2, by unfold BorderE; omega, τ, t0, t1, ?_⟩
    rw [es, et]; unfold GSide.pt GSide.at; push_cast; apply V3.ext <;> simp <;> field_simp <;> ring
  have col : ∀ y v u w, v < g.V → u < g.H → y ≤ g.H → (y = 0 ∨ y = g.H) → EdgeE (splitAt alt v u) w v u v y (v + 1) y → ∀ τ : ℝ, 0 ≤ τ → τ ≤ 1 →
      t = (y : ℝ) / g.H → s = (v : ℝ) / g.V + τ * (1 / g.V) →
      ∃ T ∈ m.triangles, ∃ x y x' y', x ≤ g.V ∧ y ≤ g.H ∧ x' ≤ g.V ∧ y' ≤ g.H ∧ Adj T (gridP g.off g.H x y) (gridP g.off g.H x' y') ∧
      BorderE g.V g.H x y x' y' ∧ ∃ τ : ℝ, 0 ≤ τ ∧ τ ≤ 1 ∧ g.pt s t = g.at x y + τ • (g.at x' y' - g.at x y) := by
    intro y v u w hv hu hy hyy he τ t0 t1 es et
    obtain ⟨k1, k2⟩ := (h.has hg (x := v) (y := y) (y' := y) (x' := v + 1) (by omega) (by omega) (by omega)).2 ⟨v, u, w, hv, hu, rfl, he⟩
    refine ⟨_, k1, v, y, v + 1, y, by omega, by omega, by omega, by omega, k2, by unfold BorderE; omega, τ, t0, t1, ?_⟩
    rw [es, et]; unfold GSide.pt GSide.at; push_cast; apply V3.ext <;> simp <;> field_simp <;> ring
  obtain ⟨v, hv, σ, s0, s1, es⟩ := cell g.V hV s h1 h2
  obtain ⟨u, hu, τ, t0, t1, et⟩ := cell g.H hH t h3 h4
  rcases hb with h0 | h0 | h0 | h0
  · exact row 0 0 u _ (by omega) hu (by omega) (.inl rfl) (edgeE_above _ (by omega)) τ t0 t1 (by rw [h0]; simp) et
  · exact row g.V (g.V - 1) u _ (by omega) hu le_rfl (.inr rfl) (edgeE_below _ (by omega)) τ t0 t1 (by rw [h0]; field_simp) et
  · exact col 0 v 0 _ hv (by omega) (by omega) (.inl rfl) (edgeE_right _ (by omega)) σ s0 s1 (by rw [h0]; simp) es
  · exact col g.H v (g.H - 1) _ hv (by omega) le_rfl (.inr rfl) (edgeE_left _ (by omega)) σ s0 s1 (by rw [h0]; field_simp) es

theorem frac_eq {x n : ℕ} (hn : 1 ≤ n) : ((x : ℝ) / n = 0 ↔ x = 0) ∧ ((x : ℝ) / n = 1 ↔ x = n) := by
  have h : (n : ℝ) ≠ 0 := by positivity
  constructor
  · rw [div_eq_zero_iff]; simp [h]
  · rw [div_eq_one_iff_eq h]; norm_cast

theorem frac_mem {x n : ℕ} (hn : 1 ≤ n) (h : x ≤ n) : 0 ≤ (x : ℝ) / n ∧ (x : ℝ) / n ≤ 1 := by
  have h0 : (0 : ℝ) < n := by exact_mod_cast hn
  refine ⟨by positivity, ?_⟩
  rw [div_le_one h0]; exact_mod_cast h

theorem borderE_along {size : V3 ℝ} {g : GSide} {i : Fin 3} {e : ℝ} (hs : BoxSide size g i e) (hV : 1 ≤ g.V) (hH : 1 ≤ g.H) (x y x' y' : ℕ) :
    BorderE g.V g.H x y x' y' ↔ AlongBoxEdge size (g.at x y) (g.at x' y') := by
  have := hs.along ((x : ℝ) / g.V) ((y : ℝ) / g.H) ((x' : ℝ) / g.V) ((y' : ℝ) / g.H)
  simp only [(frac_eq hV).1, (frac_eq hV).2, (frac_eq hH).1, (frac_eq hH).2] at this
  exact this

/-- The silhouette of six grids that are the sides of a box. -/
theorem sided_silhouette {alt : Bool} {m : Mesh ℝ} {L : List GSide} (h : Sided alt m L) (size : V3 ℝ)
    (hL : ∀ g ∈ L, 1 ≤ g.V ∧ 1 ≤ g.H ∧ ∃ i e, BoxSide size g i e) (hi : ∀ (i : Fin 3) (e : ℝ), (e = 1 ∨ e = -1) → ∃ g ∈ L, BoxSide size g i e)
    (eps tol : ℝ) (hd : 0 < eps + Real.sin |tol|) :
    ∃ l, silhouetteEdges m eps tol = .ok l ∧
      (∀ e, e ∈ l ↔ e ∈ edges m ∧ ∃ a b, m.vertices[e.a]? = some a ∧ m.vertices[e.b]? = some b ∧ AlongBoxEdge size a.position b.position) ∧
      ∀ p, OnBoxEdge size p ↔ ∃ e ∈ l, ∃ a b, m.vertices[e.a]? = some a ∧ m.vertices[e.b]? = some b ∧
        ∃ τ : ℝ, 0 ≤ τ ∧ τ ≤ 1 ∧ p = a.position + τ • (b.position - a.position) := by
  have hc : ∀ g ∈ L, V3.cross g.a g.b ≠ 0 := fun g hg => by obtain ⟨-, -, i, e, hs⟩ := hL g hg; exact hs.cross
  have hv : Valid m := by
    intro t ht i
    have ha : Adj t (corner t i) (corner t (i + 1)) := ⟨i, .inl ⟨rfl, rfl⟩⟩
    obtain ⟨g, hg, htg⟩ := h.mem.1 ht
    obtain ⟨v, u, w, x, y, x', y', -, -, -, hx, hy, -, -, e1, -⟩ := tris_coords htg ha
    obtain ⟨p, hp, -⟩ := h.pos g hg x y hx hy
    rw [e1]
    exact (List.getElem?_eq_some_iff.1 hp).1
  obtain ⟨l, hl, -, hmem⟩ := TMesh.C35_partial m hv eps tol
  have main : ∀ e, e ∈ l ↔ e ∈ edges m ∧ ∃ a b, m.vertices[e.a]? = some a ∧ m.vertices[e.b]? = some b ∧ AlongBoxEdge size a.position b.position := by
    intro e
    rw [hmem]
    refine and_congr_right fun he => ?_
    obtain ⟨-, t, ht, ha⟩ := (TMesh.C32_edges m e).1 he
    obtain ⟨g, hg, x, y, x', y', hx, hy, hx', hy', hV, hH, ⟨a, ha1, ha2⟩, ⟨b, hb1, hb2⟩, hf⟩ := h.flat hc _ hd e ht ha
    obtain ⟨-, -, i, s, hs⟩ := hL g hg
    rw [hf, not_not, borderE_along hs hV hH]
    constructor
    · intro hk; exact ⟨a, b, ha1, hb1, by rw [ha2, hb2]; exact hk⟩
    · rintro ⟨a', b', e1, e2, hk⟩
      rw [ha1] at e1; rw [hb1] at e2
      obtain rfl := Option.some.inj e1
      obtain rfl := Option.some.inj e2
      rwa [ha2, hb2] at hk
  refine ⟨l, hl, main, fun p => ⟨?_, ?_⟩⟩
  · rintro ⟨hp, hal⟩
    obtain ⟨i, e, he, hpe⟩ : ∃ (i : Fin 3) (e : ℝ), (e = 1 ∨ e = -1) ∧ e * comps p i = comps size i / 2 := by
      obtain ⟨i, j, -, ⟨-, hi⟩, -⟩ := hal
      rcases abs_choice (comps p i) with h | h
      · exact ⟨i, 1, .inl rfl, by rw [← hi, h]; ring⟩
      · exact ⟨i, -1, .inr rfl, by rw [← hi, h]; ring⟩
    obtain ⟨g, hg, hs⟩ := hi i e he
    obtain ⟨hV, hH, -⟩ := hL g hg
    obtain ⟨s, t, h1, h2, h3, h4, rfl⟩ := hs.onto p hp hpe
    have hb := (hs.along s t s t).2 hal
    simp only [and_self] at hb
    obtain ⟨T, hT, x, y, x', y', hx, hy, hx', hy', ha, hbd, τ, t0, t1, hpt⟩ := h.cover hg hV hH s t h1 h2 h3 h4 hb
    obtain ⟨a, ha1, ha2⟩ := h.pos g hg x y hx hy
    obtain ⟨b, hb1, hb2⟩ := h.pos g hg x' y' hx' hy'
    have hab := (borderE_along hs hV hH x y x' y').1 hbd
    rcases le_total (gridP g.off g.H x y) (gridP g.off g.H x' y') with hle | hle
    · refine ⟨⟨_, _⟩, (main _).2 ⟨(TMesh.C32_edges m _).2 ⟨hle, T, hT, ha⟩, a, b, ha1, hb1, by rw [ha2, hb2]; exact hab⟩, a, b, ha1, hb1, τ, t0, t1, ?_⟩
      rw [ha2, hb2, hpt]
    · have hba : AlongBoxEdge size (g.at x' y') (g.at x y) := by
        obtain ⟨i, j, hne, ⟨i1, i2⟩, j1, j2⟩ := hab
        exact ⟨i, j, hne, ⟨i1.symm, i1 ▸ i2⟩, j1.symm, j1 ▸ j2⟩
      have ha' : Adj T (gridP g.off g.H x' y') (gridP g.off g.H x y) := by
        obtain ⟨k, hk⟩ := ha
        exact ⟨k, hk.symm⟩
      refine ⟨⟨_, _⟩, (main _).2 ⟨(TMesh.C32_edges m _).2 ⟨hle, T, hT, ha'⟩, b, a, hb1, ha1, by rw [ha2, hb2]; exact hba⟩, b, a, hb1, ha1,
        1 - τ, by linarith, by linarith, ?_⟩
      rw [ha2, hb2, hpt]
      apply V3.ext <;> simp <;> ring
  · rintro ⟨e, he, a, b, ha, hb, τ, t0, t1, rfl⟩
    obtain ⟨hee, a', b', ha', hb', hal⟩ := (main e).1 he
    rw [ha] at ha'; rw [hb] at hb'
    obtain rfl := Option.some.inj ha'
    obtain rfl := Option.some.inj hb'
    obtain ⟨-, t, ht, hadj⟩ := (TMesh.C32_edges m e).1 hee
    obtain ⟨g, hg, x, y, x', y', hx, hy, hx', hy', hV, hH, ⟨a', ha1, ha2⟩, ⟨b', hb1, hb2⟩, -⟩ := h.flat hc _ hd e ht hadj
    rw [ha] at ha1; rw [hb] at hb1
    obtain rfl := Option.some.inj ha1
    obtain rfl := Option.some.inj hb1
    obtain ⟨-, -, i, s, hs⟩ := hL g hg
    have lin : ∀ i, comps (a.position + τ • (b.position - a.position)) i = comps a.position i + τ * (comps b.position i - comps a.position i) := by
      intro i; fin_cases i <;> simp [comps]
    refine ⟨?_, ?_⟩
    · have ia := hs.inside _ _ (frac_mem hV hx).1 (frac_mem hV hx).2 (frac_mem hH hy).1 (frac_mem hH hy).2
      have ib := hs.inside _ _ (frac_mem hV hx').1 (frac_mem hV hx').2 (frac_mem hH hy').1 (frac_mem hH hy').2
      rw [show g.pt ((x : ℝ) / g.V) ((y : ℝ) / g.H) = a.position from ha2.symm] at ia
      rw [show g.pt ((x' : ℝ) / g.V) ((y' : ℝ) / g.H) = b.position from hb2.symm] at ib
      intro i
      rw [lin]
      obtain ⟨a1, a2⟩ := ia i
      obtain ⟨b1, b2⟩ := ib i
      constructor <;> nlinarith
    · obtain ⟨i, j, hne, ⟨i1, i2⟩, j1, j2⟩ := hal
      refine ⟨i, j, hne, ⟨rfl, ?_⟩, rfl, ?_⟩
      · rw [lin, i1, sub_self, mul_zero, add_zero, ← i1, i2]
      · rw [lin, j1, sub_self, mul_zero, add_zero, ← j1, j2]

/-- C104: the silhouette of a generated cuboid is made of its twelve edges: an edge of the mesh is returned exactly if it is along an edge
of the box, and the returned edges cover all of the edges of the box. The tolerance only has to be positive. -/
theorem C104_cuboid (sx sy : ℝ) (hx : sx = 1 ∨ sx = -1) (hy : sy = 1 ∨ sy = -1) (d : CuboidDesc)
    (h0 : 0 < d.size.x ∧ 0 < d.size.y ∧ 0 < d.size.z)
    (h1 : (max 1 d.segsY + 1) * (max 1 d.segsX + 1) ≤ 2 ^ 32) (h2 : (max 1 d.segsY + 1) * (max 1 d.segsZ + 1) ≤ 2 ^ 32)
    (h3 : (max 1 d.segsZ + 1) * (max 1 d.segsX + 1) ≤ 2 ^ 32) (eps tol : ℝ) (hd : 0 < eps + Real.sin |tol|) :
    ∃ m l, genCuboid sx sy d Mesh.empty = .ok m ∧ silhouetteEdges m eps tol = .ok l ∧
      (∀ e, e ∈ l ↔ e ∈ edges m ∧ ∃ a b, m.vertices[e.a]? = some a ∧ m.vertices[e.b]? = some b ∧ AlongBoxEdge d.size a.position b.position) ∧
      ∀ p, OnBoxEdge d.size p ↔ ∃ e ∈ l, ∃ a b, m.vertices[e.a]? = some a ∧ m.vertices[e.b]? = some b ∧
        ∃ τ : ℝ, 0 ≤ τ ∧ τ ≤ 1 ∧ p = a.position + τ • (b.position - a.position) := by
  have p1 : 1 ≤ max 1 d.segsX := le_max_left _ _
  have p2 : 1 ≤ max 1 d.segsY := le_max_left _ _
  have p3 : 1 ≤ max 1 d.segsZ := le_max_left _ _
  obtain ⟨⟨X, Y, Z⟩, segsX, segsY, segsZ, alt⟩ := d
  obtain ⟨hX, hY, hZ⟩ := h0
  simp only [genCuboid]
  dsimp only at *
  generalize max 1 segsX = A at *
  generalize max 1 segsY = B at *
  generalize max 1 segsZ = C at *
  obtain ⟨m1, o1, e1, g1⟩ := (sided_nil alt).face id X Y (-Z) A B p1 p2 h1 ⟨(-1) * X / 2, -Y / 2, (-1) * Z / 2⟩ ⟨0, Y, 0⟩ ⟨-(-1) * X, 0, 0⟩
    (fun v u => by apply V3.ext <;> simp <;> ring)
  obtain ⟨m2, o2, e2, g2⟩ := g1.face (rotY (sy * Real.pi)) X Y (-Z) A B p1 p2 h1 ⟨1 * X / 2, -Y / 2, 1 * Z / 2⟩ ⟨0, Y, 0⟩ ⟨-1 * X, 0, 0⟩
    (fun v u => by rw [rotY_pi sy hy]; apply V3.ext <;> simp <;> ring)
  obtain ⟨m3, o3, e3, g3⟩ := g2.face (rotY (sy * -(Real.pi / 2))) Z Y (-X) C B p3 p2 h2 ⟨sy * X / 2, -Y / 2, -sy * Z / 2⟩ ⟨0, Y, 0⟩ ⟨0, 0, sy * Z⟩
    (fun v u => by rw [rotY_neg sy hy]; apply V3.ext <;> simp <;> ring)
  obtain ⟨m4, o4, e4, g4⟩ := g3.face (rotY (sy * (Real.pi / 2))) Z Y (-X) C B p3 p2 h2 ⟨-sy * X / 2, -Y / 2, -(-sy) * Z / 2⟩ ⟨0, Y, 0⟩ ⟨0, 0, -sy * Z⟩
    (fun v u => by rw [rotY_half sy hy]; apply V3.ext <;> simp <;> ring)
  obtain ⟨m5, o5, e5, g5⟩ := g4.face (rotX (sx * (Real.pi / 2))) X Z (-Y) A C p1 p3 h3 ⟨-X / 2, sx * Y / 2, -sx * Z / 2⟩ ⟨0, 0, sx * Z⟩ ⟨X, 0, 0⟩
    (fun v u => by rw [rotX_half sx hx]; apply V3.ext <;> simp <;> ring)
  obtain ⟨m6, o6, e6, g6⟩ := g5.face (rotX (sx * -(Real.pi / 2))) X Z (-Y) A C p1 p3 h3 ⟨-X / 2, -sx * Y / 2, -(-sx) * Z / 2⟩ ⟨0, 0, -sx * Z⟩ ⟨X, 0, 0⟩
    (fun v u => by rw [rotX_neg sx hx]; apply V3.ext <;> simp <;> ring)
  have hx' : -sx = 1 ∨ -sx = -1 := by rcases hx with rfl | rfl <;> simp
  have hy' : -sy = 1 ∨ -sy = -1 := by rcases hy with rfl | rfl <;> simp
  have b1 := boxSide_z A B o1 X Y Z hX hY hZ (-1) (.inr rfl)
  have b2 := boxSide_z A B o2 X Y Z hX hY hZ 1 (.inl rfl)
  have b3 := boxSide_x C B o3 X Y Z hX hY hZ sy hy
  have b4 := boxSide_x C B o4 X Y Z hX hY hZ (-sy) hy'
  have b5 := boxSide_y A C o5 X Y Z hX hY hZ sx hx
  have b6 := boxSide_y A C o6 X Y Z hX hY hZ (-sx) hx'
  obtain ⟨l, hl, r1, r2⟩ := sided_silhouette g6 ⟨X, Y, Z⟩ (by
    intro g hg
    simp only [List.nil_append, List.mem_append, List.mem_singleton] at hg
    rcases hg with ((((rfl | rfl) | rfl) | rfl) | rfl) | rfl
    · exact ⟨p2, p1, _, _, b1⟩
    · exact ⟨p2, p1, _, _, b2⟩
    · exact ⟨p2, p3, _, _, b3⟩
    · exact ⟨p2, p3, _, _, b4⟩
    · exact ⟨p3, p1, _, _, b5⟩
    · exact ⟨p3, p1, _, _, b6⟩) (by
    intro i e he
    simp only [List.nil_append, List.mem_append, List.mem_singleton]
    fin_cases i
    · have : e = sy ∨ e = -sy := by rcases hy with rfl | rfl <;> rcases he with rfl | rfl <;> simp
      rcases this with rfl | rfl
      · exact ⟨_, by simp, b3⟩
      · exact ⟨_, by simp, b4⟩
    · have : e = sx ∨ e = -sx := by rcases hx with rfl | rfl <;> rcases he with rfl | rfl <;> simp
      rcases this with rfl | rfl
      · exact ⟨_, by simp, b5⟩
      · exact ⟨_, by simp, b6⟩
    · rcases he with rfl | rfl
      · exact ⟨_, by simp, b2⟩
      · exact ⟨_, by simp, b1⟩) eps tol hd
  refine ⟨m6, l, ?_, hl, r1, r2⟩
  rw [e1, Res.bind_ok, e2, Res.bind_ok, e3, Res.bind_ok, e4, Res.bind_ok, e5, Res.bind_ok, e6]

/-- A cuboid with several segments; a point of its edges and one that is not. -/
example : (max 1 3 + 1) * (max 1 2 + 1) ≤ 2 ^ 32 := by norm_num
example : OnBoxEdge ⟨2, 4, 6⟩ ⟨1, 2, 1 / 2⟩ := by
  refine ⟨(mem_centered _ _).2 (by norm_num), (along_iff _ _ _).2 (.inl ⟨⟨rfl, ?_⟩, rfl, ?_⟩)⟩ <;> norm_num [comps]
example : ¬ OnBoxEdge ⟨2, 4, 6⟩ ⟨1, 1, 1 / 2⟩ := by
  rintro ⟨-, h⟩
  rw [along_iff] at h
  simp only [SameSide, comps, Matrix.cons_val] at h
  norm_num at h

end Geom.Gen
