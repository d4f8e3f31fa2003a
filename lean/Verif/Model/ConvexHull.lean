import Verif.Model.Sphere
import Verif.Model.TriangleMesh

/-
  Model of include/Geom/ConvexHull.h and include/Geom/Frustum.h.
-/
set_option autoImplicit false

namespace Geom.Hull

open Plane (Eqn Pl Hit)
open Sphere (Sphere)

section order
variable {K : Type} [Field K] [LinearOrder K]

/-- include/Geom/ConvexHull.h 55-63, `IsPointInside`. -/
def isPointInside (eq : Eqn) : List (Pl K) → V3 K → Bool
  | [], _ => true
  | p :: l, x => if Plane.isFrontFacing eq p x then false else isPointInside eq l x

/-- include/Geom/ConvexHull.h 66-74, `IsSphereInside`. -/
def isSphereInside (eq : Eqn) : List (Pl K) → Sphere K → Bool
  | [], _ => true
  | p :: l, s => if Plane.sgnDistance eq p s.origin > s.radius then false else isSphereInside eq l s

end order

/-- include/Geom/ConvexHull.h 48-52, `Normalize`. -/
noncomputable def normalize (l : List (Pl ℝ)) : List (Pl ℝ) := l.map Plane.normalize

/-! Frustum. The six planes are in the order of `FrustumPlane`, include/Geom/Frustum.h 25-33; `m i j` is
`m(i, j)`, row and column. -/

/-- include/Geom/Frustum.h 53-102: the planes before they are normalized. -/
def rawPlanes (eq : Eqn) (m : Fin 4 → Fin 4 → ℝ) : List (Pl ℝ) :=
  [Plane.ofCoeffs eq (-(m 2 0)) (-(m 2 1)) (-(m 2 2)) (-(m 2 3)),
   Plane.ofCoeffs eq (-(m 3 0 + m 0 0)) (-(m 3 1 + m 0 1)) (-(m 3 2 + m 0 2)) (-(m 3 3 + m 0 3)),
   Plane.ofCoeffs eq (-(m 3 0 - m 0 0)) (-(m 3 1 - m 0 1)) (-(m 3 2 - m 0 2)) (-(m 3 3 - m 0 3)),
   Plane.ofCoeffs eq (-(m 3 0 - m 1 0)) (-(m 3 1 - m 1 1)) (-(m 3 2 - m 1 2)) (-(m 3 3 - m 1 3)),
   Plane.ofCoeffs eq (-(m 3 0 + m 1 0)) (-(m 3 1 + m 1 1)) (-(m 3 2 + m 1 2)) (-(m 3 3 + m 1 3)),
   Plane.ofCoeffs eq (-(m 3 0 - m 2 0)) (-(m 3 1 - m 2 1)) (-(m 3 2 - m 2 2)) (-(m 3 3 - m 2 3))]

/-- include/Geom/Frustum.h 53-106, `SetFromMatrix`. -/
noncomputable def setFromMatrix (eq : Eqn) (m : Fin 4 → Fin 4 → ℝ) : List (Pl ℝ) := normalize (rawPlanes eq m)

/-- include/Geom/Frustum.h 25-33: The planes of a frustum by name. -/
structure Frustum (K : Type) where
  near : Pl K
  left : Pl K
  right : Pl K
  top : Pl K
  bottom : Pl K
  far : Pl K

section order
variable {K : Type} [Field K] [LinearOrder K]

/-- include/Geom/Frustum.h 109-138: a corner; the result of the query is ignored and a default constructed
vector stays zero. `none` is a point which is not finite. `nz` is the sign of a zero divisor. -/
def corner (nz : Bool) (eq : Eqn) (epsilon : K) (a b c : Pl K) : Option (V3 K) :=
  match Plane.intersect3 nz eq a b c epsilon with
  | .none => some 0
  | .point x => some x
  | .infinite => none

/-- include/Geom/Frustum.h 109-114, `LeftTop`. -/
def leftTop (nz : Bool) (eq : Eqn) (epsilon : K) (f : Frustum K) : Option (V3 K) := corner nz eq epsilon f.far f.top f.left

/-- include/Geom/Frustum.h 117-122, `LeftBottom`. -/
def leftBottom (nz : Bool) (eq : Eqn) (epsilon : K) (f : Frustum K) : Option (V3 K) :=
  corner nz eq epsilon f.far f.bottom f.left

/-- include/Geom/Frustum.h 125-130, `RightTop`. -/
def rightTop (nz : Bool) (eq : Eqn) (epsilon : K) (f : Frustum K) : Option (V3 K) := corner nz eq epsilon f.far f.top f.right

/-- include/Geom/Frustum.h 133-138, `RightBottom`. -/
def rightBottom (nz : Bool) (eq : Eqn) (epsilon : K) (f : Frustum K) : Option (V3 K) :=
  corner nz eq epsilon f.far f.bottom f.right

/-- include/Geom/Frustum.h 153-163, `GetBoundingBox`; `none` if a corner is not finite. -/
def getBoundingBox (nz : Bool) (eq : Eqn) (epsilon : K) (f : Frustum K) (origin : V3 K) : Option (AABB.Box 3 K) :=
  let aabb : AABB.Box 3 K := ⟨TMesh.coords origin, TMesh.coords origin⟩
  match leftTop nz eq epsilon f, leftBottom nz eq epsilon f, rightTop nz eq epsilon f, rightBottom nz eq epsilon f with
  | some lt, some lb, some rt, some rb =>
    some (AABB.insert (AABB.insert (AABB.insert (AABB.insert aabb (TMesh.coords lt)) (TMesh.coords lb)) (TMesh.coords rt))
      (TMesh.coords rb))
  | _, _, _, _ => none

end order

end Geom.Hull
