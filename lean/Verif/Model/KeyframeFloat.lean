import Verif.Model.Keyframe
import Mathlib.Data.Rat.Cast.Order
import Mathlib.Algebra.Field.Rat

/-
  Keyframe channels of vectors in floating-point arithmetic: `fl` is the rounding. `Gs::Lerp` is not part of the repository; it is assumed to
  compute `x = b; x -= a; x *= t; x += a` for each component.
-/
set_option autoImplicit false

namespace Geom.Keyframe

variable {ι : Type}

/-- sources/KeyframeSequence.cpp 43 and 149-151: a component of `Gs::Lerp(a, b, t)`. -/
def lerpFl (fl : ℚ → ℚ) (a b t : ℚ) : ℚ := fl (fl (fl (b - a) * t) + a)

/-- sources/KeyframeSequence.cpp 35-38, `FrameInterpolator`: both differences are converted to floats. -/
def frameInterpolatorFl (fl : ℚ → ℚ) (frm til current : Nat) : ℚ :=
  fl (fl ((current - frm : Nat) : ℚ) / fl ((til - frm : Nat) : ℚ))

/-- sources/KeyframeSequence.cpp 40-44: `InterpolateKeys<Vector3>` for an exact parameter, which is rounded first; for frames less than `2 ^ p` apart
this is the parameter of `FrameInterpolator` (C126_frame), and for the parameter of `Interpolate`, which is a float, the rounding has no effect. -/
def mixFl (fl : ℚ → ℚ) (a b : ι → ℚ) (t : ℚ) : ι → ℚ := fun i => lerpFl fl (a i) (b i) (fl t)

end Geom.Keyframe
