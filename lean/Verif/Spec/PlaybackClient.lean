import Verif.Model.PlaybackClient
import Verif.Spec.Playback

/-! What handlers of a client may call. -/
set_option autoImplicit false

namespace Geom.Playback.Client.Spec

variable {K σ : Type}

/-- All calls in the text of a handler satisfy `P`. -/
def Calls (P : Call K → Prop) : Prog K σ → Prop
  | .done => True
  | .get k => ∀ s c, Calls P (k s c)
  | .put _ p => Calls P p
  | .call c p => P c ∧ Calls P p

/-- The call posts no event: it only assigns fields. -/
def Quiet : Call K → Prop
  | .play .. => False
  | .pause _ => False
  | .stop => False
  | .update _ => False
  | _ => True

/-- The call does not pause. -/
def NoPause : Call K → Prop
  | .pause true => False
  | _ => True

/-- The call leaves the progress of the animation to `Update`: it does not start, update or move within a frame. -/
def NoMove : Call K → Prop
  | .play .. => False
  | .update _ => False
  | .setInterpolator _ => False
  | _ => True

/-- The handlers of the state events only assign fields, and `OnNextFrame` does not pause. -/
def Calm (H : Listener → Ev → Prog K σ) : Prop :=
  (∀ l ev, ev ≠ .onNextFrame → Calls Quiet (H l ev)) ∧ ∀ l, Calls NoPause (H l .onNextFrame)

/-- The handlers leave the progress of the animation to `Update`, and those of the state events only assign fields. -/
def Passive (H : Listener → Ev → Prog K σ) : Prop :=
  (∀ l ev, ev ≠ .onNextFrame → Calls (fun c => Quiet c ∧ NoMove c) (H l ev)) ∧ ∀ l, Calls NoMove (H l .onNextFrame)

end Geom.Playback.Client.Spec
