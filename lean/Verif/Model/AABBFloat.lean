import Verif.Model.AABBCollision
import Verif.Base.Float

/-
  Model of IntersectionWithAABBInterp (include/Geom/AABBCollision.h) with floating-point numbers: each operation is the exact one,
  followed by a rounding `fl`. Comparisons, absolute values, minima and maxima are exact. No overflow, no infinities, no NaN.
-/
set_option autoImplicit false

namespace Geom.AABB

variable {n : Nat}

/-- include/Geom/AABBCollision.h 51-53: the parameter of the plane at `b`, for the component `o` of the origin and `d` of the direction. -/
def planeFl (fl : ℚ → ℚ) (o d b : ℚ) : ℚ := fl (fl (b - o) * fl (1 / d))

/-- include/Geom/AABBCollision.h 40-67: the loop over the remaining components. -/
def slabsFl (fl : ℚ → ℚ) (eps : ℚ) (box : Box n ℚ) (o d : Fin n → ℚ) : List (Fin n) → ℚ → ℚ → Option ℚ
  | [], tmin, _ => some tmin
  | i :: is, tmin, tmax =>
    if |d i| < eps then
      if o i < box.min i ∨ o i > box.max i then none else slabsFl fl eps box o d is tmin tmax
    else
      let t1 := planeFl fl (o i) (d i) (box.min i)
      let t2 := planeFl fl (o i) (d i) (box.max i)
      let (t1, t2) := if t1 > t2 then (t2, t1) else (t1, t2)
      let tmin := max tmin t1
      let tmax := min tmax t2
      if tmin > tmax then none else slabsFl fl eps box o d is tmin tmax

/-- include/Geom/AABBCollision.h 30-73, `IntersectionWithAABBInterp`. -/
def interpFl (fl : ℚ → ℚ) (eps big : ℚ) (box : Box n ℚ) (o d : Fin n → ℚ) : Option ℚ :=
  slabsFl fl eps box o d (List.finRange n) 0 big

/-- include/Geom/AABBCollision.h 138-155, `IntersectionWithAABB(box, ray, intersection)`, with include/Geom/Ray.h 44-50
(`direction * t + origin`). -/
def rayHitPointFl (fl : ℚ → ℚ) (eps big : ℚ) (box : Box n ℚ) (o d : Fin n → ℚ) : Option (Fin n → ℚ) :=
  match interpFl fl eps big box o d with
  | none => none
  | some t => if t < 0 then none else some fun i => fl (fl (d i * t) + o i)

end Geom.AABB
