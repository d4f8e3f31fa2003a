import Verif.Base.Float

/-
  Model of the coordinates of grids in generated meshes in floating-point arithmetic: each operation of the code is the exact operation
  followed by a rounding `fl`. Overflow is not modelled.
-/
set_option autoImplicit false

namespace Geom.Gen

/-- sources/MeshGeneratorCuboid.cpp 33, 46, the coordinate `u` of column `j` of `n`: the product of the reciprocal of the number of segments
and the number of the column. The same expression gives the texture coordinates of other generators, e.g.
sources/MeshGeneratorTorus.cpp 25, 46 and sources/MeshGeneratorBezierPatch.cpp 25, 47, and the parameter of the rings of covers,
sources/MeshGeneratorCylinder.cpp 79, 102. -/
def gridFl (fl : ℚ → ℚ) (n j : ℕ) : ℚ := fl (fl (1 / fl n) * fl j)

/-- sources/MeshGeneratorCuboid.cpp 49-50: the position of column `j` of a face of a cuboid. -/
def faceFl (fl : ℚ → ℚ) (size : ℚ) (n j : ℕ) : ℚ := fl (fl (size * gridFl fl n j) - fl (size / 2))

/-- sources/MeshGeneratorCuboid.cpp 55: the second texture coordinate of row `i`. -/
def texFl (fl : ℚ → ℚ) (n i : ℕ) : ℚ := fl (1 - gridFl fl n i)

end Geom.Gen
