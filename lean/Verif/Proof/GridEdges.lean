import Verif.Props.GenParts
import Verif.Spec.TriangleMesh
import Mathlib.Tactic.Linarith

/-
  The edges of the triangles of a rectangular grid.
-/
set_option autoImplicit false

namespace Geom.Gen
open TMesh (Ix)
open TMesh.Spec (Adj corner)

/-- The directed edges of a triangle of the cell (v, u): `s` tells how the cell is cut, `w` which triangle it is. -/
def DirE (s w : Bool) (v u x y x' y' : ℕ) : Prop :=
  match s, w with
  | false, false => (x = v ∧ y = u ∧ x' = v + 1 ∧ y' = u) ∨ (x = v + 1 ∧ y = u ∧ x' = v + 1 ∧ y' = u + 1) ∨ (x = v + 1 ∧ y = u + 1 ∧ x' = v ∧ y' = u)
  | false, true => (x = v ∧ y = u ∧ x' = v + 1 ∧ y' = u + 1) ∨ (x = v + 1 ∧ y = u + 1 ∧ x' = v ∧ y' = u + 1) ∨ (x = v ∧ y = u + 1 ∧ x' = v ∧ y' = u)
  | true, false => (x = v ∧ y = u ∧ x' = v + 1 ∧ y' = u) ∨ (x = v + 1 ∧ y = u ∧ x' = v ∧ y' = u + 1) ∨ (x = v ∧ y = u + 1 ∧ x' = v ∧ y' = u)
  | true, true => (x = v + 1 ∧ y = u ∧ x' = v + 1 ∧ y' = u + 1) ∨ (x = v + 1 ∧ y = u + 1 ∧ x' = v ∧ y' = u + 1) ∨ (x = v ∧ y = u + 1 ∧ x' = v + 1 ∧ y' = u)

/-- The edges in any direction. -/
def EdgeE (s w : Bool) (v u x y x' y' : ℕ) : Prop := DirE s w v u x y x' y' ∨ DirE s w v u x' y' x y

/-- The edge is on the border of the grid. -/
def BorderE (V H x y x' y' : ℕ) : Prop := (x = 0 ∧ x' = 0) ∨ (x = V ∧ x' = V) ∨ (y = 0 ∧ y' = 0) ∨ (y = H ∧ y' = H)

theorem border_char {s w : Bool} {v u V H x y x' y' : ℕ} (h : EdgeE s w v u x y x' y') (hv : v < V) (hu : u < H) (hb : BorderE V H x y x' y') :
    (x = 0 ∧ x' = 0 ∧ v = 0 ∧ u = min y y' ∧ y ≠ y' ∧ w = !s) ∨ (x = V ∧ x' = V ∧ v + 1 = V ∧ u = min y y' ∧ y ≠ y' ∧ w = s) ∨
      (y = 0 ∧ y' = 0 ∧ u = 0 ∧ v = min x x' ∧ x ≠ x' ∧ w = false) ∨ (y = H ∧ y' = H ∧ u + 1 = H ∧ v = min x x' ∧ x ≠ x' ∧ w = true) := by
  unfold BorderE at hb
  cases s <;> cases w <;> simp only [EdgeE, DirE] at h <;> simp only [Bool.not_true, Bool.not_false, reduceCtorEq, and_true, and_false, or_false, false_or] <;>
    rcases h with (h | h | h) | (h | h | h) <;> omega

theorem border_unique {s w s' w' : Bool} {v u v' u' V H x y x' y' : ℕ} (h : EdgeE s w v u x y x' y') (h' : EdgeE s' w' v' u' x y x' y')
    (hv : v < V) (hu : u < H) (hv' : v' < V) (hu' : u' < H) (hb : BorderE V H x y x' y') : v = v' ∧ u = u' ∧ (s = s' → w = w') := by
  rcases border_char h hv hu hb with ⟨a1, a2, a3, a4, a5, a6⟩ | ⟨a1, a2, a3, a4, a5, a6⟩ | ⟨a1, a2, a3, a4, a5, a6⟩ | ⟨a1, a2, a3, a4, a5, a6⟩ <;>
    rcases border_char h' hv' hu' hb with ⟨b1, b2, b3, b4, b5, b6⟩ | ⟨b1, b2, b3, b4, b5, b6⟩ | ⟨b1, b2, b3, b4, b5, b6⟩ | ⟨b1, b2, b3, b4, b5, b6⟩ <;>
    first
    | (exfalso; omega)
    | exact ⟨by omega, by omega, fun e => by rw [a6, b6, e]⟩
    | exact ⟨by omega, by omega, fun _ => by rw [a6, b6]⟩

theorem edgeE_left (s : Bool) {v u x y x' y' : ℕ} (h : (x = v ∧ y = u + 1 ∧ x' = v + 1 ∧ y' = u + 1) ∨ (x' = v ∧ y' = u + 1 ∧ x = v + 1 ∧ y = u + 1)) :
    EdgeE s true v u x y x' y' := by
  rcases h with ⟨rfl, rfl, rfl, rfl⟩ | ⟨rfl, rfl, rfl, rfl⟩ <;> cases s <;> simp [EdgeE, DirE]

theorem edgeE_right (s : Bool) {v u x y x' y' : ℕ} (h : (x = v ∧ y = u ∧ x' = v + 1 ∧ y' = u) ∨ (x' = v ∧ y' = u ∧ x = v + 1 ∧ y = u)) :
    EdgeE s false v u x y x' y' := by
  rcases h with ⟨rfl, rfl, rfl, rfl⟩ | ⟨rfl, rfl, rfl, rfl⟩ <;> cases s <;> simp [EdgeE, DirE]

theorem edgeE_above (s : Bool) {v u x y x' y' : ℕ} (h : (x = v ∧ y = u ∧ x' = v ∧ y' = u + 1) ∨ (x' = v ∧ y' = u ∧ x = v ∧ y = u + 1)) :
    EdgeE s (!s) v u x y x' y' := by
  rcases h with ⟨rfl, rfl, rfl, rfl⟩ | ⟨rfl, rfl, rfl, rfl⟩ <;> cases s <;> simp [EdgeE, DirE]

theorem edgeE_below (s : Bool) {v u x y x' y' : ℕ} (h : (x = v + 1 ∧ y = u ∧ x' = v + 1 ∧ y' = u + 1) ∨ (x' = v + 1 ∧ y' = u ∧ x = v + 1 ∧ y = u + 1)) :
    EdgeE s s v u x y x' y' := by
  rcases h with ⟨rfl, rfl, rfl, rfl⟩ | ⟨rfl, rfl, rfl, rfl⟩ <;> cases s <;> simp [EdgeE, DirE]

theorem edgeE_kinds {s w : Bool} {v u x y x' y' : ℕ} (h : EdgeE s w v u x y x' y') :
    ((x = v ∧ y = u ∧ x' = v + 1 ∧ y' = u) ∨ (x' = v ∧ y' = u ∧ x = v + 1 ∧ y = u)) ∨
      ((x = v ∧ y = u + 1 ∧ x' = v + 1 ∧ y' = u + 1) ∨ (x' = v ∧ y' = u + 1 ∧ x = v + 1 ∧ y = u + 1)) ∨
      ((x = v ∧ y = u ∧ x' = v ∧ y' = u + 1) ∨ (x' = v ∧ y' = u ∧ x = v ∧ y = u + 1)) ∨
      ((x = v + 1 ∧ y = u ∧ x' = v + 1 ∧ y' = u + 1) ∨ (x' = v + 1 ∧ y' = u ∧ x = v + 1 ∧ y = u + 1)) ∨
      EdgeE s (!w) v u x y x' y' := by
  cases s <;> cases w <;> simp only [EdgeE, DirE, Bool.not_true, Bool.not_false] at h ⊢ <;>
    rcases h with (⟨rfl, rfl, rfl, rfl⟩ | ⟨rfl, rfl, rfl, rfl⟩ | ⟨rfl, rfl, rfl, rfl⟩) | (⟨rfl, rfl, rfl, rfl⟩ | ⟨rfl, rfl, rfl, rfl⟩ | ⟨rfl, rfl, rfl, rfl⟩) <;>
    simp

theorem interior_other (S : ℕ → ℕ → Bool) {w : Bool} {v u V H x y x' y' : ℕ} (h : EdgeE (S v u) w v u x y x' y')
    (hv : v < V) (hu : u < H) (hb : ¬ BorderE V H x y x' y') :
    ∃ v' u' w', v' < V ∧ u' < H ∧ ¬ (v' = v ∧ u' = u ∧ w' = w) ∧ EdgeE (S v' u') w' v' u' x y x' y' := by
  unfold BorderE at hb
  rcases edgeE_kinds h with k | k | k | k | k
  · obtain ⟨u', rfl⟩ : ∃ u', u = u' + 1 := ⟨u - 1, by omega⟩
    exact ⟨v, u', true, hv, by omega, by omega, edgeE_left _ k⟩
  · exact ⟨v, u + 1, false, hv, by omega, by omega, edgeE_right _ k⟩
  · obtain ⟨v', rfl⟩ : ∃ v', v = v' + 1 := ⟨v - 1, by omega⟩
    exact ⟨v', u, _, by omega, hu, by omega, edgeE_below _ k⟩
  · exact ⟨v + 1, u, _, by omega, hu, by omega, edgeE_above _ k⟩
  · exact ⟨v, u, !w, hv, hu, by simp, k⟩

/-- A triangle of a cell. -/
def cellTri (s w : Bool) (p : ℕ → ℕ → ℕ) (v u : ℕ) : Ix :=
  match s, w with
  | false, false => ⟨p v u, p (v + 1) u, p (v + 1) (u + 1)⟩
  | false, true => ⟨p v u, p (v + 1) (u + 1), p v (u + 1)⟩
  | true, false => ⟨p v u, p (v + 1) u, p v (u + 1)⟩
  | true, true => ⟨p (v + 1) u, p (v + 1) (u + 1), p v (u + 1)⟩

theorem adj_iff (a b c i j : ℕ) : Adj ⟨a, b, c⟩ i j ↔ ((a = i ∧ b = j) ∨ (b = i ∧ c = j) ∨ (c = i ∧ a = j)) ∨
    ((a = j ∧ b = i) ∨ (b = j ∧ c = i) ∨ (c = j ∧ a = i)) := by
  unfold Adj
  constructor
  · rintro ⟨k, h⟩
    fin_cases k <;> simp [corner] at h <;> tauto
  · rintro ((h | h | h) | (h | h | h))
    · exact ⟨0, .inl (by simpa [corner] using h)⟩
    · exact ⟨1, .inl (by simpa [corner] using h)⟩
    · exact ⟨2, .inl (by simpa [corner] using h)⟩
    · exact ⟨0, .inr (by simpa [corner] using h)⟩
    · exact ⟨1, .inr (by simpa [corner] using h)⟩
    · exact ⟨2, .inr (by simpa [corner] using h)⟩

theorem adj_edge {s w : Bool} {p : ℕ → ℕ → ℕ} {v u i j : ℕ} (h : Adj (cellTri s w p v u) i j) :
    ∃ x y x' y', i = p x y ∧ j = p x' y' ∧ EdgeE s w v u x y x' y' := by
  cases s <;> cases w <;> simp only [cellTri, adj_iff] at h <;> rcases h with (⟨rfl, rfl⟩ | ⟨rfl, rfl⟩ | ⟨rfl, rfl⟩) | (⟨rfl, rfl⟩ | ⟨rfl, rfl⟩ | ⟨rfl, rfl⟩) <;>
    exact ⟨_, _, _, _, rfl, rfl, by simp [EdgeE, DirE]⟩

theorem edge_adj {s w : Bool} {p : ℕ → ℕ → ℕ} {v u x y x' y' : ℕ} (h : EdgeE s w v u x y x' y') : Adj (cellTri s w p v u) (p x y) (p x' y') := by
  cases s <;> cases w <;> simp only [EdgeE, DirE] at h <;> simp only [cellTri, adj_iff] <;>
    rcases h with (⟨rfl, rfl, rfl, rfl⟩ | ⟨rfl, rfl, rfl, rfl⟩ | ⟨rfl, rfl, rfl, rfl⟩) | (⟨rfl, rfl, rfl, rfl⟩ | ⟨rfl, rfl, rfl, rfl⟩ | ⟨rfl, rfl, rfl, rfl⟩) <;>
    simp

/-- The indices of the vertices of a grid. -/
def gridP (off H v u : ℕ) : ℕ := off + (v * (H + 1) + u)

theorem gridP_inj {off H v u v' u' : ℕ} (hu : u ≤ H) (hu' : u' ≤ H) (h : gridP off H v u = gridP off H v' u') : v = v' ∧ u = u' := by
  unfold gridP at h
  have h : v * (H + 1) + u = v' * (H + 1) + u' := by omega
  have d1 : (v * (H + 1) + u) / (H + 1) = v := by
    rw [Nat.add_comm, Nat.add_mul_div_right _ _ (by omega), Nat.div_eq_of_lt (by omega), Nat.zero_add]
  have d2 : (v' * (H + 1) + u') / (H + 1) = v' := by
    rw [Nat.add_comm, Nat.add_mul_div_right _ _ (by omega), Nat.div_eq_of_lt (by omega), Nat.zero_add]
  have e : v = v' := by rw [← d1, h, d2]
  subst e
  exact ⟨rfl, by omega⟩

theorem cellTri_inj {S : ℕ → ℕ → Bool} {w w' : Bool} {off H v u v' u' : ℕ} (hu : u < H) (hu' : u' < H)
    (h : cellTri (S v u) w (gridP off H) v u = cellTri (S v' u') w' (gridP off H) v' u') : v = v' ∧ u = u' ∧ w = w' := by
  have inj : ∀ x y x' y', y ≤ u + 1 → y' ≤ u' + 1 → gridP off H x y = gridP off H x' y' → x = x' ∧ y = y' := fun x y x' y' h1 h2 h =>
    gridP_inj (by omega) (by omega) h
  have i1 := fun x x' => inj x u x' u' (by omega) (by omega)
  have i2 := fun x x' => inj x (u + 1) x' (u' + 1) (by omega) (by omega)
  have i3 := fun x x' => inj x u x' (u' + 1) (by omega) (by omega)
  have i4 := fun x x' => inj x (u + 1) x' u' (by omega) (by omega)
  have key : v = v' ∧ u = u' ∧ (S v u = S v' u' → w = w') := by
    generalize S v u = s at *
    generalize S v' u' = s' at *
    cases s <;> cases w <;> cases s' <;> cases w' <;> simp only [cellTri, Ix.mk.injEq] at h <;> obtain ⟨h1, h2, h3⟩ := h <;>
      replace h1 := i1 _ _ h1 <;>
      (first | replace h2 := i1 _ _ h2 | replace h2 := i2 _ _ h2 | replace h2 := i3 _ _ h2 | replace h2 := i4 _ _ h2) <;>
      replace h3 := i2 _ _ h3 <;>
      first | exact ⟨by omega, by omega, fun _ => rfl⟩ | (refine ⟨by omega, by omega, fun e => ?_⟩; first | (cases e; done) | (exfalso; omega))
  obtain ⟨rfl, rfl, k⟩ := key
  exact ⟨rfl, rfl, k rfl⟩

end Geom.Gen
