import Verif.Model.Keyframe
import Verif.Model.Playback

/-
  `Gm::KeyframeSequence` driven by a `Gm::Playback`.
  Source: sources/KeyframeSequence.cpp.
-/
set_option autoImplicit false

namespace Geom.Animation

open Geom.Keyframe Geom.Playback

variable {P R S M K : Type} [Field K]

/-- sources/KeyframeSequence.cpp 172-175, `Interpolate(matrix, playback)`: the new value of the
matrix. `compose` and `out0` are as in `interpolateMatrix`. -/
def animate (e : Env P R S K) (compose : M → P → R → S → M) (out0 : P × R × S) (q : Seq P R S)
    (m : M) (pb : PB K) : Res M :=
  interpolateMatrix e compose out0 q m pb.frame pb.nextFrame pb.interpolator

variable [LinearOrder K] [IsStrictOrderedRing K] [FloorRing K]

/-- include/Geom/KeyframeSequence.h 60-98, include/Geom/Playback.h 167-228: A client which builds the keys of the sequence `q`, makes some calls to its playback and asks
for the matrix then. -/
def film (e : Env P R S K) (compose : M → P → R → S → M) (out0 : P × R × S) (q : Seq P R S)
    (pk : List (KF P)) (rk : List (KF R)) (sk : List (KF S)) (pb : PB K) (ops : List (Playback.Op K))
    (m : M) : Res M :=
  (buildKeys e q pk rk sk).bind fun q =>
  (Playback.run pb ops).bind fun pb => animate e compose out0 q m pb

end Geom.Animation
