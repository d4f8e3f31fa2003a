import Verif.Model.Lines

/-
  Segments as sets of points.
-/
set_option autoImplicit false

namespace Geom.Lines.Spec

variable {K V : Type} [Field K] [LinearOrder K] [AddCommGroup V] [Module K V] [DotSpace K V]

/-- The points of a segment: the convex combinations of its end points. -/
def InSeg (l : Seg V) (x : V) : Prop := ∃ u v : K, 0 ≤ u ∧ 0 ≤ v ∧ u + v = 1 ∧ x = u • l.a + v • l.b

/-- Squared distance. -/
def distSq (x y : V) : K := DotSpace.dot (x - y) (x - y)

end Geom.Lines.Spec
