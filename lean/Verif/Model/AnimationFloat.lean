import Verif.Model.Animation
import Verif.Model.PlaybackFloat
import Verif.Model.KeyframeFloat

/-
  `Gm::KeyframeSequence` driven by a `Gm::Playback`, in floating-point arithmetic: the playback and the channels of vectors are rounded.
-/
set_option autoImplicit false

namespace Geom.Animation

open Geom.Keyframe Geom.Playback

variable {P R S M : Type}

/-- include/Geom/KeyframeSequence.h 60-98, include/Geom/Playback.h 167-228: a client which builds the keys of the sequence `q`, starts its playback, calls `Update`
for each time step and asks for the matrix then. `Play` does not compute with floats. The loops of `Update` are cut off after `n` rounds. -/
def filmFl (fl : ℚ → ℚ) (n : ℕ) (e : Env P R S ℚ) (compose : M → P → R → S → M) (out0 : P × R × S) (q : Seq P R S)
    (pk : List (KF P)) (rk : List (KF R)) (sk : List (KF S)) (pb : PB ℚ) (first last : ℕ) (speed : ℚ) (l : LArg) (dts : List ℚ)
    (m : M) : Res M :=
  (buildKeys e q pk rk sk).bind fun q =>
  (play pb first last speed l).bind fun pb =>
  (updatesFl fl n pb dts).bind fun pb => animate e compose out0 q m pb

end Geom.Animation
