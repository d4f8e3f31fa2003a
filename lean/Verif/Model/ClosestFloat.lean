import Verif.Model.ClipFloat

/-
  Model of `ClosestPointOnPlane` in floating-point arithmetic, as in `ClipFloat.lean`.
-/
set_option autoImplicit false

namespace Geom.Plane

open Clip (subFl sgnDistanceFl)

/-- include/Geom/PlaneCollision.h 76-81, `ClosestPointOnPlane`: the product of the normal and the distance is rounded, then the difference. -/
def closestPointFl (fl : ℚ → ℚ) (eq : Eqn) (p : Pl ℚ) (x : V3 ℚ) : V3 ℚ :=
  let d := sgnDistanceFl fl eq p x
  subFl fl x ⟨fl (p.normal.x * d), fl (p.normal.y * d), fl (p.normal.z * d)⟩

end Geom.Plane
