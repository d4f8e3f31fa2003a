import Verif.Model.Plane
import Verif.Base.Dot
import Mathlib.Analysis.SpecialFunctions.Trigonometric.Arctan

/-
  Model of include/Geom/RayCollision.h, include/Geom/ConeCollision.h, include/Geom/Cone.h and include/Geom/OBB.h.
-/
set_option autoImplicit false

namespace Geom.Shapes

open Plane (Eqn Pl Cone OBox)

section rays
variable {K V : Type} [Field K] [LinearOrder K] [AddCommGroup V] [Module K V] [DotSpace K V]

/-- include/Geom/Ray.h 21-60, `Ray<Vec>`, for any vector type. -/
structure RayV (V : Type) where
  origin : V
  direction : V

/-- include/Geom/Ray.h 43-50, `Lerp`. -/
def RayV.lerp (r : RayV V) (t : K) : V := t • r.direction + r.origin

/-- include/Geom/RayCollision.h 28-52, `ClosestSegmentBetweenRays`: the end points of the segment. -/
def closestSegment (rayA rayB : RayV V) : V × V :=
  let r := rayA.origin - rayB.origin
  let c := DotSpace.dot rayA.direction r
  let f := DotSpace.dot rayB.direction r
  let b := DotSpace.dot rayA.direction rayB.direction
  let denom : K := 1 - b * b
  if denom ≠ 0 then
    let s := (b * f - c) / denom
    let t := b * s + f
    (rayA.lerp s, rayB.lerp t)
  else (rayA.origin, rayB.origin)

end rays

/-! Cones. -/

open Classical in
/-- include/Geom/ConeCollision.h 25-40, `ClosestPointOnCone`. -/
noncomputable def closestPointOnCone (eq : Eqn) (c : Cone) (p : Pl ℝ) : V3 ℝ :=
  let offsetVec := Plane.normalizeVec (V3.cross (V3.cross p.normal c.direction) c.direction)
  let closestPoint := c.point + c.height • c.direction + c.radius • offsetVec
  if Plane.distance eq p closestPoint < Plane.distance eq p c.point then closestPoint else c.point

/-- include/Geom/Cone.h 41-44, `GetVolume`. -/
noncomputable def coneVolume (c : Cone) : ℝ := 1 / 3 * Real.pi * c.radius * c.radius * c.height

/-- include/Geom/Cone.h 46-49, `SetAngle`. -/
noncomputable def setAngle (c : Cone) (angle : ℝ) : Cone := { c with radius := c.height * Real.tan angle }

/-- include/Geom/Cone.h 51-54, `GetAngle`, for a height other than zero. -/
noncomputable def getAngle (c : Cone) : ℝ := Real.arctan (c.radius / c.height)

/-! Oriented boxes; the members are in `Plane.OBox`. -/

/-- include/Geom/OBB.h 35-42, constructor from corners. The axes are zero vectors before the diagonal is
set (default constructed vectors). -/
def obbOfCorners {K : Type} [Field K] (min max : V3 K) : OBox K :=
  ⟨(1 / 2 : K) • (min + max), (1 / 2 : K) • (max - min), ⟨1, 0, 0⟩, ⟨0, 1, 0⟩, ⟨0, 0, 1⟩⟩

/-- include/Geom/OBB.h 51-58, `UpdateHalfSize`; `none` if an axis has length zero (the axis gets NaN
components then). -/
noncomputable def updateHalfSize (b : OBox ℝ) : Option (OBox ℝ) :=
  let x := √ b.axisX.lenSq
  let y := √ b.axisY.lenSq
  let z := √ b.axisZ.lenSq
  if x = 0 ∨ y = 0 ∨ z = 0 then none
  else some ⟨b.center, ⟨x, y, z⟩, (1 / x) • b.axisX, (1 / y) • b.axisY, (1 / z) • b.axisZ⟩

/-- include/Geom/OBB.h 44-49, constructor from axes. -/
noncomputable def obbOfAxes (center xAxis yAxis zAxis : V3 ℝ) : Option (OBox ℝ) :=
  updateHalfSize ⟨center, 0, xAxis, yAxis, zAxis⟩

end Geom.Shapes
