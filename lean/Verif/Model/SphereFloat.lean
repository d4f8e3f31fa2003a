import Verif.Model.Sphere
import Verif.Model.ClipFloat

/-
  Model of include/Geom/SphereCollision.h in floating-point arithmetic: each operation of the code is the exact operation followed by a
  rounding `fl`, and `sq` is `std::sqrt`. The numbers are rationals; overflow to infinity and NaN are not modelled.
-/
set_option autoImplicit false

namespace Geom.Sphere

open Clip (dotFl subFl)
open Plane (Ray)

/-- include/Geom/SphereCollision.h 35-62, `IntersectionWithSphereInterp`; `none` is `false`. `LengthSq` is assumed to be the product of the
vector with itself. -/
def interpFl (fl sq : ℚ → ℚ) (s : Sphere ℚ) (origin direction : V3 ℚ) : Option ℚ :=
  let dif := subFl fl origin s.origin
  let c := fl (dotFl fl dif dif - fl (s.radius * s.radius))
  if c < 0 then none
  else
    let b := dotFl fl dif direction
    if b > 0 then none
    else
      let d := fl (fl (b * b) - c)
      if d < 0 then none
      else some (fl (-b - sq d))

/-- include/Geom/Ray.h 44-50, `Lerp`. -/
def lerpFl (fl : ℚ → ℚ) (r : Ray ℚ) (t : ℚ) : V3 ℚ :=
  ⟨fl (fl (r.direction.x * t) + r.origin.x), fl (fl (r.direction.y * t) + r.origin.y), fl (fl (r.direction.z * t) + r.origin.z)⟩

/-- include/Geom/SphereCollision.h 64-79, `IntersectionWithSphere`. -/
def intersectionFl (fl sq : ℚ → ℚ) (s : Sphere ℚ) (r : Ray ℚ) : Option (V3 ℚ) :=
  match interpFl fl sq s r.origin r.direction with
  | some t => some (lerpFl fl r t)
  | none => none

end Geom.Sphere
