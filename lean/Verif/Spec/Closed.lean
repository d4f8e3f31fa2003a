import Verif.Spec.Gen

/-
  Specification of closed surfaces.
-/
set_option autoImplicit false

namespace Geom.Gen.Spec

/-- The directed edges of a face, from position to position. -/
def edges (f : Face) : List (V3 ℝ × V3 ℝ) := [(f.1, f.2.1), (f.2.1, f.2.2), (f.2.2, f.1)]

open Classical in
/-- How often the faces use the edge from `p` to `q`. -/
noncomputable def uses (fs : List Face) (p q : V3 ℝ) : ℕ := (fs.flatMap edges).count (p, q)

/-- There are faces, and each edge between different points is used as often in one direction as in the other one: the surface
has no border, and neighbouring faces have the same orientation. -/
def Watertight (fs : List Face) : Prop := fs ≠ [] ∧ ∀ p q, p ≠ q → uses fs p q = uses fs q p

end Geom.Gen.Spec
