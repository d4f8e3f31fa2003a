import Verif.Spec.Keyframe
import Verif.Spec.Playback

/-
  Specification of an animation: what a film of keyframes shows at a time.
-/
set_option autoImplicit false

namespace Geom.Animation

open Geom.Keyframe

variable {V P R S M K : Type} [Field K] [LinearOrder K] [IsStrictOrderedRing K] [FloorRing K]

/-- What is assumed about mixing two keys (`Gs::Lerp`, `Gs::Slerp`): it starts at the first key,
keeps equal keys, and is the same in both directions. -/
structure Mixes (mix : V → V → K → V) : Prop where
  start : ∀ a b, mix a b 0 = a
  same : ∀ a t, mix a a t = a
  flip : ∀ a b t, mix b a (1 - t) = mix a b t

/-- `v` is the value of a channel at the time `x` (in frames), if the frames `F 0, F 1, ...` are
shown one after another: at a whole number `n` the value at frame `F n`, in between the mixture of
the values of two consecutive frames. `last` is the last frame that exists. -/
def ChanAt (mix : V → V → K → V) (dflt : V) (kfs : List (KF V)) (last : Nat) (F : Nat → Nat) (x : K)
    (v : V) : Prop :=
  ∃ a b, ChanValue mix dflt kfs (min (F ⌊x⌋₊) last) a ∧
    ChanValue mix dflt kfs (min (F (⌊x⌋₊ + 1)) last) b ∧ v = mix a b (x - ⌊x⌋₊)

end Geom.Animation
