import Verif.Spec.Gen

/-
  Specification of the volume that is enclosed by faces.
-/
set_option autoImplicit false

namespace Geom.Gen.Spec

/-- Six times the volume of the tetrahedron of the origin and a face, positive if the origin is behind the face. -/
def spat (f : Face) : ℝ := V3.dot f.1 (V3.cross f.2.1 f.2.2)

/-- The volume enclosed by a closed surface whose faces are ordered counter-clockwise seen from the outside (in a right-handed
system of axes): the sum over the tetrahedra of the origin and the faces. -/
noncomputable def volume (fs : List Face) : ℝ := (fs.map spat).sum / 6

/-- `n` times the area of the triangle with two sides of length one and the `n`-th part of the angle `phi` between them: for the
full turn, the area of the regular polygon with `n` corners in the unit circle. -/
noncomputable def fan (n : ℕ) (phi : ℝ) : ℝ := n / 2 * Real.sin (phi / n)

end Geom.Gen.Spec
