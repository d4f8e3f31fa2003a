import Verif.Model.AABB
import Mathlib.Analysis.Real.Sqrt
import Mathlib.Algebra.BigOperators.Fin

/-
  Model of include/Geom/AABBCollision.h over exact scalars.

  `eps` stands for `Gs::Epsilon<T>()` (GaussianLib, a positive constant) and `big` for
  `std::numeric_limits<T>::max()`.
-/
set_option autoImplicit false

namespace Geom.AABB

variable {n : Nat} {K : Type} [Field K] [LinearOrder K]

/-- include/Geom/Ray.h 44-50, `Ray::Lerp` (and `operator ()`): `direction * t + origin`. -/
def rayAt (o d : Fin n → K) (t : K) : Fin n → K := fun i => d i * t + o i

/-- include/Geom/AABBCollision.h 40-67: the loop over the remaining components `is`; `none` is
`return false`. The division is only reached for `|d i| >= eps > 0`. -/
def slabs (eps : K) (box : Box n K) (o d : Fin n → K) : List (Fin n) → K → K → Option K
  | [], tmin, _ => some tmin
  | i :: is, tmin, tmax =>
    if |d i| < eps then
      if o i < box.min i ∨ o i > box.max i then none else slabs eps box o d is tmin tmax
    else
      let ood := 1 / d i
      let t1 := (box.min i - o i) * ood
      let t2 := (box.max i - o i) * ood
      let (t1, t2) := if t1 > t2 then (t2, t1) else (t1, t2)
      let tmin := max tmin t1
      let tmax := min tmax t2
      if tmin > tmax then none else slabs eps box o d is tmin tmax

/-- include/Geom/AABBCollision.h 30-73, `IntersectionWithAABBInterp`: `some t` is `true` with the
output `t`, `none` is `false` (the output is not written). -/
def interp (eps big : K) (box : Box n K) (o d : Fin n → K) : Option K :=
  slabs eps box o d (List.finRange n) 0 big

/-- include/Geom/AABBCollision.h 138-155, `IntersectionWithAABB(box, ray, intersection)`. -/
def rayHitPoint (eps big : K) (box : Box n K) (o d : Fin n → K) : Option (Fin n → K) :=
  match interp eps big box o d with
  | none => none
  | some t => if t < 0 then none else some (rayAt o d t)

/-- include/Geom/AABBCollision.h 163-173, `IntersectionWithAABB(box, ray)`. -/
def rayHit (eps big : K) (box : Box n K) (o d : Fin n → K) : Bool :=
  match interp eps big box o d with
  | some t => decide (t ≥ 0)
  | none => false

/-- include/Geom/Line.h 75-78, 132-135, `Line::Direction`. -/
def Seg.direction (l : Seg n K) : Fin n → K := fun i => l.b i - l.a i

/-- include/Geom/AABBCollision.h 83-102, `IntersectionWithAABB(box, line, intersection)`. -/
def lineHitPoint (eps big : K) (box : Box n K) (l : Seg n K) : Option (Fin n → K) :=
  match interp eps big box l.a l.direction with
  | none => none
  | some t => if t < 0 ∨ t > 1 then none else some (rayAt l.a l.direction t)

/-- include/Geom/Line.h 93-96, 150-153, `Line::Length`; `Gs::Distance` is the Euclidean distance. -/
noncomputable def Seg.length (l : Seg n ℝ) : ℝ := Real.sqrt (∑ i, (l.b i - l.a i) ^ 2)

open Classical in
/-- include/Geom/AABBCollision.h 110-128, `IntersectionWithAABB(box, line)`. -/
noncomputable def lineHit (eps big : ℝ) (box : Box n ℝ) (l : Seg n ℝ) : Bool :=
  match interp eps big box l.a l.direction with
  | none => false
  | some t => if t < 0 then false else if t > l.length then false else true

end Geom.AABB
