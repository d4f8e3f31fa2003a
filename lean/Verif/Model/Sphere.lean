import Verif.Model.Plane
import Mathlib.Analysis.SpecialFunctions.Pow.Real
import Mathlib.Analysis.SpecialFunctions.Trigonometric.Basic

/-
  Model of include/Geom/Sphere.h and include/Geom/SphereCollision.h.
-/
set_option autoImplicit false

namespace Geom.Sphere

open Plane (Ray)

/-- include/Geom/Sphere.h 65-69: the members. -/
structure Sphere (K : Type) where
  origin : V3 K
  radius : K

/-- include/Geom/Sphere.h 42-45, `GetVolume`. -/
noncomputable def getVolume (s : Sphere ℝ) : ℝ := 4 / 3 * Real.pi * s.radius * s.radius * s.radius

/-- include/Geom/Sphere.h 48-51, `SetVolume`; `std::pow` is the real power function (the base is not negative
for the volumes that matter). -/
noncomputable def setVolume (s : Sphere ℝ) (volume : ℝ) : Sphere ℝ :=
  { s with radius := (volume * 3 / (4 * Real.pi)) ^ (1 / 3 : ℝ) }

/-- include/Geom/Sphere.h 54-57, `GetArea`. -/
noncomputable def getArea (s : Sphere ℝ) : ℝ := 4 * Real.pi * s.radius * s.radius

/-- include/Geom/Sphere.h 60-63, `SetArea`. -/
noncomputable def setArea (s : Sphere ℝ) (area : ℝ) : Sphere ℝ := { s with radius := √(area / (4 * Real.pi)) }

open Classical in
/-- include/Geom/SphereCollision.h 35-62, `IntersectionWithSphereInterp`. -/
noncomputable def interp (s : Sphere ℝ) (origin direction : V3 ℝ) : Option ℝ :=
  let dif := origin - s.origin
  let c := dif.lenSq - s.radius * s.radius
  if c < 0 then none
  else
    let b := V3.dot dif direction
    if b > 0 then none
    else
      let d := b * b - c
      if d < 0 then none
      else some (-b - √d)

/-- include/Geom/SphereCollision.h 64-79, `IntersectionWithSphere`. -/
noncomputable def intersection (s : Sphere ℝ) (r : Ray ℝ) : Option (V3 ℝ) :=
  match interp s r.origin r.direction with
  | some t => some (r.lerp t)
  | none => none

end Geom.Sphere
