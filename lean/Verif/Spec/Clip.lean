import Verif.Base.Vec

/-
  What clipping a triangle means.
-/
set_option autoImplicit false

namespace Geom.Clip.Spec

variable {K : Type} [Field K]

/-- Twice the vector area of a triangle. -/
def area (p q r : V3 K) : V3 K := V3.cross (q - p) (r - p)

/-- The triangles of the fan of a polygon: the first vertex with each pair of consecutive others. -/
def fan : List (V3 K) → List (V3 K × V3 K × V3 K)
  | [] => []
  | p :: rest => (rest.zip rest.tail).map fun e => (p, e.1, e.2)

/-- Twice the vector area of a polygon: the sum over its fan. -/
def polyArea (l : List (V3 K)) : V3 K := ((fan l).map fun t => area t.1 t.2.1 t.2.2).sum

end Geom.Clip.Spec
