import Verif.Model.ClipFloat

/-
  Model of the intersection of rays and triangles in floating-point arithmetic: each operation of the code is the exact operation followed
  by a rounding `fl`. The numbers are rationals; overflow to infinity is not modelled, the division by zero is `Res.ub` (with IEEE numbers
  the result is not a number).
-/
set_option autoImplicit false

namespace Geom.Triangle

open Clip (dotFl subFl)
open Plane (Ray)

/-- include/Geom/TriangleCollision.h 267, 277, 282: `Gs::Cross`: two products and a difference for each component. -/
def crossFl (fl : ℚ → ℚ) (a b : V3 ℚ) : V3 ℚ :=
  ⟨fl (fl (a.y * b.z) - fl (a.z * b.y)), fl (fl (a.z * b.x) - fl (a.x * b.z)), fl (fl (a.x * b.y) - fl (a.y * b.x))⟩

/-- include/Geom/TriangleCollision.h 257-295, `IntersectionWithTriangleBarycentric`; `none` is `false`. -/
def barycentricFl (fl : ℚ → ℚ) (t : Tri ℚ) (r : Ray ℚ) : Res (Option (V3 ℚ)) :=
  let pa := subFl fl t.a r.origin
  let pb := subFl fl t.b r.origin
  let pc := subFl fl t.c r.origin
  let m := crossFl fl r.direction pc
  let x := dotFl fl pb m
  if x < 0 then .ok none
  else
    let y := -dotFl fl pa m
    if y < 0 then .ok none
    else
      let z := dotFl fl pa (crossFl fl r.direction pb)
      if z < 0 then .ok none
      else
        let normal := crossFl fl (subFl fl t.b t.a) (subFl fl t.c t.a)
        if dotFl fl normal r.direction ≥ 0 then .ok none
        else if dotFl fl normal r.origin ≤ dotFl fl normal t.a then .ok none
        else
          let sum := fl (fl (x + y) + z)
          if sum = 0 then .ub
          else
            let denom := fl (1 / sum)
            .ok (some ⟨fl (x * denom), fl (y * denom), fl (z * denom)⟩)

end Geom.Triangle
