import Verif.Model.SphereFloat

/-
  Model of the intersection of a plane and a ray in floating-point arithmetic, as in `ClipFloat.lean`. The quotient by zero is an infinity or NaN.
-/
set_option autoImplicit false

namespace Geom.Plane

/-- include/Geom/PlaneCollision.h 101-115, `IntersectionWithPlane(plane, ray, intersection)`; `nz` tells if a divisor which is zero is `-0.0`. -/
def intersectRayFl (fl : ℚ → ℚ) (nz : Bool) (eq : Eqn) (p : Pl ℚ) (r : Ray ℚ) : Hit (V3 ℚ) :=
  let t := Clip.interpFl fl nz eq p r.origin r.direction
  if t.ge 0 then
    (match t with
    | .fin k => .point (Sphere.lerpFl fl r k)
    | _ => .infinite)
  else .none

end Geom.Plane
