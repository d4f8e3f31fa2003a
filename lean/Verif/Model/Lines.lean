import Verif.Base.Dot
import Mathlib.Analysis.Real.Sqrt

/-
  Model of include/Geom/LineCollision.h. The functions are templates over the vector type; the model
  is over any space with a dot product.
-/
set_option autoImplicit false

namespace Geom.Lines

/-- include/Geom/Line.h 52-107 (2D) and 109-164 (3D), `Line<Vec>`: the end points. -/
@[ext] structure Seg (V : Type) where
  a : V
  b : V
  deriving DecidableEq

/-- include/Geom/Line.h 75-78 and 132-135, `Direction`. -/
def Seg.direction {V : Type} [Sub V] (l : Seg V) : V := l.b - l.a

/-- include/Geom/LineCollision.h 96-138: `Gs::Saturate` (assumed meaning): clamp to [0, 1]. -/
def saturate {K : Type} [Field K] [LinearOrder K] (t : K) : K := max 0 (min 1 t)

/-- include/Geom/LineCollision.h 25-47, `ClosestPointOnLine`. For `line.a = line.b` the code divides
by zero, the direction is NaN, both comparisons fail, and the result is not a number: `none`. -/
noncomputable def closestPointOnLine {V : Type} [AddCommGroup V] [Module ℝ V] [DotSpace ℝ V] (line : Seg V)
    (point : V) : Option V :=
  let pos := point - line.a
  let dir := line.direction
  let len := √ (DotSpace.dot dir dir)
  if len = 0 then none
  else
    let dir := (1 / len) • dir
    let factor := DotSpace.dot dir pos
    if factor < 0 then some line.a
    else if factor > len then some line.b
    else some (line.a + factor • dir)

/-- include/Geom/LineCollision.h 49-54, `DistanceToLine`; `Gs::Distance` is the length of the
difference. -/
noncomputable def distanceToLine {V : Type} [AddCommGroup V] [Module ℝ V] [DotSpace ℝ V] (line : Seg V)
    (point : V) : Option ℝ :=
  (closestPointOnLine line point).map fun q => √ (DotSpace.dot (q - point) (q - point))

/-- include/Geom/LineCollision.h 56-61, `DistanceSqToLine`; `Gs::DistanceSq` is the squared length of
the difference. -/
noncomputable def distanceSqToLine {V : Type} [AddCommGroup V] [Module ℝ V] [DotSpace ℝ V] (line : Seg V)
    (point : V) : Option ℝ :=
  (closestPointOnLine line point).map fun q => DotSpace.dot (q - point) (q - point)

section
variable {K V : Type} [Field K] [LinearOrder K] [AddCommGroup V] [Module K V] [DotSpace K V]

/-- include/Geom/LineCollision.h 63-153, `ClosestSegmentBetweenLines`: the parameters `s` and `t`;
`none` for the early return with both segments degenerate. `eps` is `Gs::Epsilon<T>()`. -/
def closestParams (eps : K) (lineA lineB : Seg V) : Option (K × K) :=
  let dirA := lineA.direction
  let dirB := lineB.direction
  let r := lineA.a - lineB.a
  let a := DotSpace.dot dirA dirA
  let e := DotSpace.dot dirB dirB
  let f := DotSpace.dot dirB r
  if a ≤ eps ∧ e ≤ eps then none
  else if a ≤ eps then some (0, saturate (f / e))
  else
    let c := DotSpace.dot dirA r
    if e ≤ eps then some (saturate (-c / a), 0)
    else
      let b := DotSpace.dot dirA dirB
      let denom := a * e - b * b
      let s := if denom ≠ 0 then saturate ((b * f - c * e) / denom) else 0
      let t := (b * s + f) / e
      if t < 0 then some (saturate (-c / a), 0)
      else if t > 1 then some (saturate ((b - c) / a), 1)
      else some (s, t)

/-- include/Geom/LineCollision.h 63-153, `ClosestSegmentBetweenLines`. -/
def closestSegment (eps : K) (lineA lineB : Seg V) : Seg V :=
  match closestParams eps lineA lineB with
  | none => ⟨lineA.a, lineB.a⟩
  | some (s, t) => ⟨s • lineA.direction + lineA.a, t • lineB.direction + lineB.a⟩

/-- include/Geom/LineCollision.h 162-167, `DistanceSqBetweenLines`. -/
def distanceSqBetween (eps : K) (lineA lineB : Seg V) : K :=
  let l := closestSegment eps lineA lineB
  DotSpace.dot l.direction l.direction

end

/-- include/Geom/LineCollision.h 155-160, `DistanceBetweenLines`; `Gs::Length` of a line is the length
of its direction. -/
noncomputable def distanceBetween {V : Type} [AddCommGroup V] [Module ℝ V] [DotSpace ℝ V] (eps : ℝ) (lineA lineB : Seg V) : ℝ :=
  let l := closestSegment eps lineA lineB
  √ (DotSpace.dot l.direction l.direction)

end Geom.Lines
