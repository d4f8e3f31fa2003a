import Verif.Model.AABB
import Mathlib.Order.Lattice
import Mathlib.Data.Fintype.Pi

/-
  Specification of axis-aligned boxes: a box stands for the set of the points between
  its corners.
-/
set_option autoImplicit false

namespace Geom.AABB

variable {n : Nat} {T : Type} [LinearOrder T]

/-- The set of points of a box. -/
def pts (b : Box n T) : Set (Fin n → T) := {p | ∀ i, b.min i ≤ p i ∧ p i ≤ b.max i}

/-- A box is valid if its corners are ordered on each axis. -/
def Valid (b : Box n T) : Prop := ∀ i, b.min i ≤ b.max i

/-- All coordinates of the point are between the limits of the number type. -/
def InLimits (lowest highest : T) (p : Fin n → T) : Prop := ∀ i, lowest ≤ p i ∧ p i ≤ highest

/-- Box `b` is the tightest box around the set `S`: it covers `S`, and each box which
covers `S` covers `b` on each axis. -/
def IsHull (S : Set (Fin n → T)) (b : Box n T) : Prop :=
  S ⊆ pts b ∧ ∀ c : Box n T, S ⊆ pts c → ∀ i, c.min i ≤ b.min i ∧ b.max i ≤ c.max i

/-- One insertion of a client: a point or a whole box. -/
inductive Ins (n : Nat) (T : Type) where
  | point (p : Fin n → T)
  | box (b : Box n T)

/-- The set of points that the client wants to be covered. -/
def Ins.set : Ins n T → Set (Fin n → T)
  | .point p => {p}
  | .box b => pts b

/-- The call for an insertion. -/
def Ins.apply (b : Box n T) : Ins n T → Box n T
  | .point p => insert b p
  | .box c => insertBox b c

/-- The corner of the box which takes the upper coordinate on the axes selected by `s`. -/
def corner {T : Type} (b : Box n T) (s : Fin n → Bool) : Fin n → T :=
  fun i => if s i then b.max i else b.min i

/-- The two corner selections differ on exactly one axis. -/
def Adjacent (s t : Fin n → Bool) : Prop := ∃! i, s i ≠ t i

/-- `E` lists each of the edges of a box (as pairs of corner selections) exactly once. -/
def EachEdgeOnce (E : List ((Fin n → Bool) × (Fin n → Bool))) : Prop :=
  (∀ e ∈ E, Adjacent e.1 e.2) ∧
  ∀ s t, Adjacent s t → (E.countP fun e => decide ((e.1 = s ∧ e.2 = t) ∨ (e.1 = t ∧ e.2 = s))) = 1

/-- The box over numbers as a box over numbers with NaN. -/
def lift {T : Type} (b : Box n T) : Box n (Flt T) := ⟨fun i => .num (b.min i), fun i => .num (b.max i)⟩

end Geom.AABB
