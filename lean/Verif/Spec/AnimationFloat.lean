import Verif.Spec.KeyframeFloat

/-! The film in exact arithmetic. -/
set_option autoImplicit false

namespace Geom.Animation.Spec
open Geom.Keyframe Geom.Keyframe.Spec

variable {ι R : Type}

/-- The channels of vectors are mixed in exact arithmetic. -/
def exactEnv (e : Env (ι → ℚ) R (ι → ℚ) ℚ) : Env (ι → ℚ) R (ι → ℚ) ℚ := ⟨{ e.p with mix := mixExact }, e.r, { e.s with mix := mixExact }⟩

end Geom.Animation.Spec
