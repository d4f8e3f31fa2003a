import Verif.Model.Playback

/-! Specification vocabulary for the playback properties. It only refers to the
observable fields of a playback and to the events received by listeners. -/
set_option autoImplicit false

namespace Geom.Playback.Spec

/-- `n` lies in the closed range with end points `a` and `b` (in any order). -/
def Between (a b n : Nat) : Prop := min a b ≤ n ∧ n ≤ max a b

/-- What a listener may observe: `(state, id)` is the announced state and the
listener which received the last `OnPlay`. An event is legal only as listed:
* `OnPlay` while stopped (new listener) or while paused (resume, same listener);
* `OnPause` while playing, `OnStop` while playing or paused;
* `OnNextFrame` while playing or after the end has been announced. -/
def monitor : State × Nat → Nat × Ev → Option (State × Nat)
  | (.stopped, _), (j, .onPlay) => some (.playing, j)
  | (.paused, i), (j, .onPlay) => if i = j then some (.playing, j) else none
  | (.playing, i), (j, .onPause) => if i = j then some (.paused, j) else none
  | (.playing, i), (j, .onStop) => if i = j then some (.stopped, j) else none
  | (.paused, i), (j, .onStop) => if i = j then some (.stopped, j) else none
  | (.playing, i), (j, .onNextFrame) => if i = j then some (.playing, j) else none
  | (.stopped, i), (j, .onNextFrame) => if i = j then some (.stopped, j) else none
  | _, _ => none

/-- Run the monitor over a log whose newest event comes first. -/
def observe (log : List (Nat × Ev)) : Option (State × Nat) :=
  log.foldr (fun e st => st.bind (fun st => monitor st e)) (some (.stopped, 0))

/-- Number of `OnNextFrame` events in a log. -/
def nextFrameCount (log : List (Nat × Ev)) : Nat :=
  (log.filter (fun e => e.2 = .onNextFrame)).length

/-- Frame shown after `n` whole frames by a one-shot playback from `f` to `l`. -/
def oneShotFrame (f l n : Nat) : Nat := if f ≤ l then min (f + n) l else max (f - n) l

/-- Frame shown after `n` whole frames by a loop from `f` to `l`. -/
def loopFrame (f l n : Nat) : Nat :=
  if f ≤ l then f + n % (l - f + 1) else f - n % (f - l + 1)

/-- Offset from the start of a ping-pong movement over a distance `d > 0`. -/
def pingPongOffset (d n : Nat) : Nat :=
  if n % (2 * d) ≤ d then n % (2 * d) else 2 * d - n % (2 * d)

/-- Frame shown after `n` whole frames by a ping-pong loop from `f` to `l`. -/
def pingPongFrame (f l n : Nat) : Nat :=
  if f ≤ l then f + pingPongOffset (l - f) n else f - pingPongOffset (f - l) n

end Geom.Playback.Spec
