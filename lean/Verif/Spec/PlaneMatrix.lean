import Verif.Spec.Plane

/-! The matrices for which a plane has the right image. -/
set_option autoImplicit false

namespace Geom.Plane.Spec

variable {K : Type} [CommRing K]

/-- The columns of the 3x3 part of a matrix. -/
def column (m : Transform.Mat K) (j : Fin 4) : V3 K := ⟨m 0 j, m 1 j, m 2 j⟩

/-- The matrix changes all lengths by the same factor, whose square is `l`. -/
def Similar (m : Transform.Mat K) (l : K) : Prop :=
  (∀ i : Fin 3, V3.dot (column m i.castSucc) (column m i.castSucc) = l) ∧
    ∀ i j : Fin 3, i ≠ j → V3.dot (column m i.castSucc) (column m j.castSucc) = 0

/-- A vector in the direction `n` and a vector orthogonal to `n` have orthogonal images: the transposed 3x3 part times the 3x3 part takes `n` to
`l` times `n`. -/
def Principal (m : Transform.Mat K) (n : V3 K) (l : K) : Prop :=
  let c := fun j => n.x * V3.dot (column m j) (column m 0) + n.y * V3.dot (column m j) (column m 1) + n.z * V3.dot (column m j) (column m 2)
  c 0 = l * n.x ∧ c 1 = l * n.y ∧ c 2 = l * n.z

end Geom.Plane.Spec
