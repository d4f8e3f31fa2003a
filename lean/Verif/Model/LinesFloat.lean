import Verif.Model.Lines
import Verif.Model.ClipFloat

/-
  Model of include/Geom/LineCollision.h for 3D segments in floating-point arithmetic: each operation of the code is the exact operation
  followed by a rounding `fl`. The numbers are rationals; overflow to infinity is not modelled, the division by zero is `Res.ub`.
-/
set_option autoImplicit false

namespace Geom.Lines

open Clip (dotFl subFl)

/-- include/Geom/LineCollision.h 95, 107, 119, 126, 132, 138: the divisions. -/
def divFl (fl : ℚ → ℚ) (x y : ℚ) : Res ℚ := if y = 0 then .ub else .ok (fl (x / y))

/-- include/Geom/LineCollision.h 63-141, `ClosestSegmentBetweenLines`: the parameters `s` and `t`; `none` for the early return with both
segments degenerate. `eps` is `Gs::Epsilon<T>()`; `LengthSq` is assumed to be the product of the vector with itself. -/
def closestParamsFl (fl : ℚ → ℚ) (eps : ℚ) (lineA lineB : Seg (V3 ℚ)) : Res (Option (ℚ × ℚ)) :=
  let dirA := subFl fl lineA.b lineA.a
  let dirB := subFl fl lineB.b lineB.a
  let r := subFl fl lineA.a lineB.a
  let a := dotFl fl dirA dirA
  let e := dotFl fl dirB dirB
  let f := dotFl fl dirB r
  if a ≤ eps ∧ e ≤ eps then .ok none
  else if a ≤ eps then (divFl fl f e).map fun t => some (0, saturate t)
  else
    let c := dotFl fl dirA r
    if e ≤ eps then (divFl fl (-c) a).map fun s => some (saturate s, 0)
    else
      let b := dotFl fl dirA dirB
      let denom := fl (fl (a * e) - fl (b * b))
      (if denom ≠ 0 then (divFl fl (fl (fl (b * f) - fl (c * e))) denom).map saturate else .ok 0).bind fun s =>
      (divFl fl (fl (fl (b * s) + f)) e).bind fun t =>
      if t < 0 then (divFl fl (-c) a).map fun s => some (saturate s, 0)
      else if t > 1 then (divFl fl (fl (b - c)) a).map fun s => some (saturate s, 1)
      else .ok (some (s, t))

/-- include/Geom/LineCollision.h 143-152: a vector times a parameter, plus the start of the segment. -/
def alongFl (fl : ℚ → ℚ) (dir : V3 ℚ) (s : ℚ) (start : V3 ℚ) : V3 ℚ :=
  ⟨fl (fl (dir.x * s) + start.x), fl (fl (dir.y * s) + start.y), fl (fl (dir.z * s) + start.z)⟩

/-- include/Geom/LineCollision.h 63-153, `ClosestSegmentBetweenLines`. -/
def closestSegmentFl (fl : ℚ → ℚ) (eps : ℚ) (lineA lineB : Seg (V3 ℚ)) : Res (Seg (V3 ℚ)) :=
  (closestParamsFl fl eps lineA lineB).map fun o =>
    match o with
    | none => ⟨lineA.a, lineB.a⟩
    | some (s, t) => ⟨alongFl fl (subFl fl lineA.b lineA.a) s lineA.a, alongFl fl (subFl fl lineB.b lineB.a) t lineB.a⟩

end Geom.Lines
