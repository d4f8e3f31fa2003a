import Verif.Model.ClipFloat
import Verif.Model.ConvexHull

/-
  Model of tests for planes and convex hulls in floating-point arithmetic: each operation of the code is the exact operation followed by a
  rounding `fl`. The numbers are rationals; overflow to infinity is not modelled. `SgnDistanceToPlane` and `RelationToPlane` for points are
  in `ClipFloat.lean`.
-/
set_option autoImplicit false

namespace Geom.Plane

open Clip (dotFl sgnDistanceFl)

/-- include/Geom/PlaneCollision.h 228-232, `IsFrontFacingPlane(plane, point)`. -/
def isFrontFacingFl (fl : ℚ → ℚ) (eq : Eqn) (p : Pl ℚ) (x : V3 ℚ) : Bool :=
  decide (dotFl fl p.normal x > eq.distanceSign p.distance)

/-- include/Geom/PlaneCollision.h 182-212, `RelationToPlane(plane, aabb)`. -/
def relationBoxFl (fl : ℚ → ℚ) (eq : Eqn) (p : Pl ℚ) (b : Box ℚ) : Relation :=
  let near : V3 ℚ := ⟨if p.normal.x > 0 then b.min.x else b.max.x,
    if p.normal.y > 0 then b.min.y else b.max.y, if p.normal.z > 0 then b.min.z else b.max.z⟩
  let far : V3 ℚ := ⟨if p.normal.x > 0 then b.max.x else b.min.x,
    if p.normal.y > 0 then b.max.y else b.min.y, if p.normal.z > 0 then b.max.z else b.min.z⟩
  if isFrontFacingFl fl eq p near then .inFrontOf
  else if isFrontFacingFl fl eq p far then .clipped
  else .behind

end Geom.Plane

namespace Geom.Hull

open Plane (Eqn Pl)

/-- include/Geom/ConvexHull.h 55-63, `IsPointInside`. -/
def isPointInsideFl (fl : ℚ → ℚ) (eq : Eqn) : List (Pl ℚ) → V3 ℚ → Bool
  | [], _ => true
  | p :: l, x => if Plane.isFrontFacingFl fl eq p x then false else isPointInsideFl fl eq l x

/-- include/Geom/ConvexHull.h 66-74, `IsSphereInside`. -/
def isSphereInsideFl (fl : ℚ → ℚ) (eq : Eqn) : List (Pl ℚ) → Sphere.Sphere ℚ → Bool
  | [], _ => true
  | p :: l, s => if Clip.sgnDistanceFl fl eq p s.origin > s.radius then false else isSphereInsideFl fl eq l s

end Geom.Hull
