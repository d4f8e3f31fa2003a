import Verif.Model.Plane
import Mathlib.Algebra.Field.Rat

/-
  The conversion of planes to another floating-point type: `fl` is the rounding to this type, which `static_cast` uses.
-/
set_option autoImplicit false

namespace Geom.Plane

/-- include/Geom/Plane.h 197-202, `Cast<C>`; `Gs::Vector3T::Cast` converts each component (assumed meaning). -/
def cast (fl : ℚ → ℚ) (pl : Pl ℚ) : Pl ℚ := ⟨⟨fl pl.normal.x, fl pl.normal.y, fl pl.normal.z⟩, fl pl.distance⟩

end Geom.Plane
