import Verif.Model.SphereFloat

/-
  Model of the intersection of a plane and a line segment in floating-point arithmetic, as in `RayPlaneFloat.lean`.
-/
set_option autoImplicit false

namespace Geom.Plane

open Clip (subFl interpFl)

/-- include/Geom/Line.h 138-141, `Lerp`: `Gs::Lerp(a, b, t)`, assumed to compute `(b - a)*t + a` for each coordinate. -/
def Line.lerpFl (fl : ℚ → ℚ) (l : Line ℚ) (t : ℚ) : V3 ℚ :=
  ⟨fl (fl (fl (l.b.x - l.a.x) * t) + l.a.x), fl (fl (fl (l.b.y - l.a.y) * t) + l.a.y), fl (fl (fl (l.b.z - l.a.z) * t) + l.a.z)⟩

/-- include/Geom/PlaneCollision.h 117-131, `IntersectionWithPlane(plane, line, intersection)`; `Direction` (include/Geom/Line.h 132-135) is a
rounded difference. -/
def intersectLineFl (fl : ℚ → ℚ) (nz : Bool) (eq : Eqn) (p : Pl ℚ) (l : Line ℚ) : Hit (V3 ℚ) :=
  let t := interpFl fl nz eq p l.a (subFl fl l.b l.a)
  if t.ge 0 && t.le 1 then
    (match t with
    | .fin k => .point (l.lerpFl fl k)
    | _ => .infinite)
  else .none

end Geom.Plane
