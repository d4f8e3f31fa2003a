import Verif.Base.Vec
import Verif.Base.Ext
import Verif.Model.Transform
import Mathlib.Analysis.Real.Sqrt

/-
  Model of include/Geom/Plane.h and include/Geom/PlaneCollision.h (with Ray.h, Line.h, OBB.h, Cone.h
  as far as they are used).

  Scalars are an ordered field; where the code takes a root they are the reals. A division whose
  divisor may be zero gives an `Ext` (see Base/Ext); `nz` is the sign of the zero divisor.
-/
set_option autoImplicit false

namespace Geom.Plane

/-- include/Geom/Plane.h 40-73: the two plane equations. -/
inductive Eqn where
  /-- `PlaneEquation_NX_eq_D` -/
  | nxEqD
  /-- `PlaneEquation_NXD_eq_Zero` -/
  | nxdEqZero
  deriving DecidableEq

section ring
variable {K : Type} [CommRing K]

/-- include/Geom/Plane.h 44-47 and 70-73, `DistanceSign`. -/
def Eqn.distanceSign : Eqn → K → K
  | .nxEqD, d => d
  | .nxdEqZero, d => -d

/-- include/Geom/Plane.h 204-205: the members. -/
@[ext] structure Pl (K : Type) where
  normal : V3 K
  distance : K
  deriving DecidableEq

/-- include/Geom/Plane.h 118-122, constructor from four coefficients. -/
def ofCoeffs (eq : Eqn) (x y z d : K) : Pl K := ⟨⟨x, y, z⟩, eq.distanceSign d⟩

/-- include/Geom/Plane.h 158-161, `UpdateDistance`. -/
def updateDistance (eq : Eqn) (normal memberPoint : V3 K) : Pl K :=
  ⟨normal, eq.distanceSign (V3.dot normal memberPoint)⟩

/-- include/Geom/Plane.h 151-155, `Build(normal, memberPoint)`. -/
def buildMember (eq : Eqn) (normal memberPoint : V3 K) : Pl K := updateDistance eq normal memberPoint

/-- include/Geom/Plane.h 179-182, `MemberPoint`. -/
def memberPoint (eq : Eqn) (p : Pl K) : V3 K := eq.distanceSign p.distance • p.normal

/-- include/Geom/Plane.h 185-189, `Flip`. -/
def flip (p : Pl K) : Pl K := ⟨-p.normal, -p.distance⟩

/-- include/Geom/Plane.h 192-195, `Flipped`. -/
def flipped (p : Pl K) : Pl K := ⟨-p.normal, -p.distance⟩

/-- include/Geom/PlaneCollision.h 29-33, `SgnDistanceToPlane`. -/
def sgnDistance (eq : Eqn) (p : Pl K) (x : V3 K) : K := V3.dot p.normal x - eq.distanceSign p.distance

/-- include/Geom/PlaneCollision.h 77-81, `ClosestPointOnPlane`. -/
def closestPoint (eq : Eqn) (p : Pl K) (x : V3 K) : V3 K := x - sgnDistance eq p x • p.normal

/-- include/Geom/Plane.h 218: `Gs::RotateVector(mat, v)`: the 3x3 part of the matrix (assumed meaning). -/
def rotateVector (m : Transform.Mat K) (v : V3 K) : V3 K :=
  ⟨m 0 0 * v.x + m 0 1 * v.y + m 0 2 * v.z,
   m 1 0 * v.x + m 1 1 * v.y + m 1 2 * v.z,
   m 2 0 * v.x + m 2 1 * v.y + m 2 2 * v.z⟩

/-- include/Geom/Plane.h 213-220, `TransformPlane`; `Gs::TransformVector` is `Transform.apply`. -/
def transformPlane (eq : Eqn) (m : Transform.Mat K) (p : Pl K) : Pl K :=
  let member := Transform.apply m (memberPoint eq p)
  let normal := rotateVector m p.normal
  ⟨normal, V3.dot normal member⟩

end ring

section root

/-- include/Geom/Plane.h 146: `Normalize` of a vector of GaussianLib (assumed meaning: the zero vector stays). -/
noncomputable def normalizeVec (v : V3 ℝ) : V3 ℝ :=
  if v.lenSq = 0 then v else (1 / √ v.lenSq) • v

/-- include/Geom/Plane.h 142-148, `Build(a, b, c)`; also the constructors 109-112 and 124-127. -/
noncomputable def build (eq : Eqn) (a b c : V3 ℝ) : Pl ℝ :=
  updateDistance eq (normalizeVec (V3.cross (b - a) (c - a))) a

/-- include/Geom/Plane.h 164-173, `Normalize`. -/
noncomputable def normalize (p : Pl ℝ) : Pl ℝ :=
  let len := √ p.normal.lenSq
  if 0 < len then ⟨(1 / len) • p.normal, p.distance * (1 / len)⟩ else p

/-- include/Geom/Cone.h 56-59: the members. -/
structure Cone where
  point : V3 ℝ
  direction : V3 ℝ
  height : ℝ
  radius : ℝ

end root

section order
variable {K : Type} [Field K] [LinearOrder K]

/-- include/Geom/PlaneCollision.h 36-40, `DistanceToPlane(plane, point)`. -/
def distance (eq : Eqn) (p : Pl K) (x : V3 K) : K := |sgnDistance eq p x|

/-- include/Geom/AABB.h 27, 167, 175: `AABB3T<T>`. -/
structure Box (K : Type) where
  min : V3 K
  max : V3 K

/-- include/Geom/PlaneCollision.h 43-60, `DistanceToPlane(plane, aabb)`. -/
def distanceBox (eq : Eqn) (p : Pl K) (b : Box K) : K :=
  let center : V3 K := (1 / 2 : K) • (b.min + b.max)
  let extent := b.max - center
  let radius := extent.x * |p.normal.x| + extent.y * |p.normal.y| + extent.z * |p.normal.z|
  distance eq p center - radius

/-- include/Geom/OBB.h 60-62: the members. -/
structure OBox (K : Type) where
  center : V3 K
  halfSize : V3 K
  axisX : V3 K
  axisY : V3 K
  axisZ : V3 K

/-- include/Geom/PlaneCollision.h 63-74, `DistanceToPlane(plane, obb)`. -/
def distanceOBox (eq : Eqn) (p : Pl K) (b : OBox K) : K :=
  let radius := b.halfSize.x * |V3.dot p.normal b.axisX| + b.halfSize.y * |V3.dot p.normal b.axisY| +
    b.halfSize.z * |V3.dot p.normal b.axisZ|
  distance eq p b.center - radius

/-- include/Geom/PlaneCollision.h 103-210: The outcome of an intersection query: no hit, a hit with a point, or a hit whose point is not
finite (the interpolation factor is infinite). -/
inductive Hit (α : Type) where
  | none
  | point (x : α)
  | infinite
  deriving DecidableEq

/-- include/Geom/Ray.h 58: the members. -/
structure Ray (K : Type) where
  origin : V3 K
  direction : V3 K
  deriving DecidableEq

/-- include/Geom/Ray.h 44-50, `Lerp`. -/
def Ray.lerp (r : Ray K) (t : K) : V3 K := t • r.direction + r.origin

/-- include/Geom/Line.h, `Line3T`. -/
structure Line (K : Type) where
  a : V3 K
  b : V3 K

/-- include/Geom/Line.h 132-135, `Direction`. -/
def Line.direction (l : Line K) : V3 K := l.b - l.a

/-- include/Geom/Line.h 138-141, `Lerp`: `Gs::Lerp(a, b, t)`. -/
def Line.lerp (l : Line K) (t : K) : V3 K := l.a + t • (l.b - l.a)

/-- include/Geom/PlaneCollision.h 95-99, `IntersectionWithPlaneInterp`. -/
def interp (nz : Bool) (eq : Eqn) (p : Pl K) (origin direction : V3 K) : Ext K :=
  Ext.div nz (-sgnDistance eq p origin) (V3.dot p.normal direction)

/-- include/Geom/PlaneCollision.h 102-115, `IntersectionWithPlane(plane, ray, intersection)`. -/
def intersectRay (nz : Bool) (eq : Eqn) (p : Pl K) (r : Ray K) : Hit (V3 K) :=
  let t := interp nz eq p r.origin r.direction
  if t.ge 0 then
    (match t with
    | .fin k => .point (r.lerp k)
    | _ => .infinite)
  else .none

/-- include/Geom/PlaneCollision.h 118-131, `IntersectionWithPlane(plane, line, intersection)`. -/
def intersectLine (nz : Bool) (eq : Eqn) (p : Pl K) (l : Line K) : Hit (V3 K) :=
  let t := interp nz eq p l.a l.direction
  if t.ge 0 && t.le 1 then
    (match t with
    | .fin k => .point (l.lerp k)
    | _ => .infinite)
  else .none

/-- include/Geom/PlaneCollision.h 134-155, `IntersectionWithPlane(planeA, planeB, ray)`. -/
def intersect2 (eq : Eqn) (a b : Pl K) (epsilon : K) : Option (Ray K) :=
  let direction := V3.cross a.normal b.normal
  let denom := V3.dot direction direction
  if denom > epsilon then
    let o := eq.distanceSign a.distance • b.normal - eq.distanceSign b.distance • a.normal
    some ⟨(1 / denom) • V3.cross o direction, direction⟩
  else none

/-- include/Geom/PlaneCollision.h 158-167, `IntersectionWithPlane(planeA, planeB, planeC, point)`. -/
def intersect3 (nz : Bool) (eq : Eqn) (a b c : Pl K) (epsilon : K) : Hit (V3 K) :=
  match intersect2 eq a b epsilon with
  | some ray => intersectRay nz eq c ray
  | none => .none

/-- include/Geom/PlaneCollision.h 173-179, `PlaneRelation`. -/
inductive Relation where
  | inFrontOf
  | clipped
  | behind
  | onto
  deriving DecidableEq

/-- include/Geom/PlaneCollision.h 228-232, `IsFrontFacingPlane(plane, point)`. -/
def isFrontFacing (eq : Eqn) (p : Pl K) (x : V3 K) : Bool :=
  decide (V3.dot p.normal x > eq.distanceSign p.distance)

/-- include/Geom/PlaneCollision.h 182-212, `RelationToPlane(plane, aabb)`. -/
def relationBox (eq : Eqn) (p : Pl K) (b : Box K) : Relation :=
  let near : V3 K := ⟨if p.normal.x > 0 then b.min.x else b.max.x,
    if p.normal.y > 0 then b.min.y else b.max.y, if p.normal.z > 0 then b.min.z else b.max.z⟩
  let far : V3 K := ⟨if p.normal.x > 0 then b.max.x else b.min.x,
    if p.normal.y > 0 then b.max.y else b.min.y, if p.normal.z > 0 then b.max.z else b.min.z⟩
  if isFrontFacing eq p near then .inFrontOf
  else if isFrontFacing eq p far then .clipped
  else .behind

/-- include/Geom/PlaneCollision.h 214-225, `RelationToPlane(plane, point, epsilon)`. -/
def relationPoint (eq : Eqn) (p : Pl K) (x : V3 K) (epsilon : K) : Relation :=
  let d := sgnDistance eq p x
  if d > epsilon then .inFrontOf
  else if d < -epsilon then .behind
  else .onto

end order

/-- include/Geom/PlaneCollision.h 235-251, `IsFrontFacingPlane(plane, cone)`. -/
noncomputable def isFrontFacingCone (eq : Eqn) (p : Pl ℝ) (c : Cone) : Bool :=
  if isFrontFacing eq p c.point then
    let offsetVec := normalizeVec (V3.cross (V3.cross p.normal c.direction) c.direction)
    let closestPoint := c.point + c.height • c.direction + c.radius • offsetVec
    isFrontFacing eq p closestPoint
  else false

end Geom.Plane
