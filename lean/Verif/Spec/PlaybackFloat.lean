import Verif.Spec.Playback
import Mathlib.Data.Rat.Floor

/-! Where a playback is, with the parts of frames: what the drift by rounding is measured on. -/
set_option autoImplicit false

namespace Geom.Playback.Spec

/-- Frames that have passed in a forward playback: one for each `OnNextFrame`, and the part of the current one. -/
def forwardPosition (s : PB ℚ) : ℚ := nextFrameCount s.log + s.interpolator

/-- The same for a backward playback; the frames that have passed count negative. -/
def backwardPosition (s : PB ℚ) : ℚ := s.interpolator - nextFrameCount s.log

end Geom.Playback.Spec
