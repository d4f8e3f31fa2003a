import Verif.Model.MeshMove
import Verif.Spec.TriangleMesh

/-
  Specification of moves of meshes.
-/
set_option autoImplicit false

namespace Geom.TMesh.Spec

/-- The library empties the source of a move assignment, and either empties or keeps a vector which is assigned to itself: the usual libraries. -/
def Usual (lib : Lib) : Prop :=
  (∀ (α : Type) (a b : List α), lib.left a b = []) ∧
  ((∀ (α : Type) (a : List α), lib.self a = []) ∨ ∀ (α : Type) (a : List α), lib.self a = a)

end Geom.TMesh.Spec
