import Verif.Base.Res
import Mathlib.Algebra.Order.Field.Basic
import Mathlib.Algebra.Order.Floor.Ring

/-
  Model of `Gm::Playback` and its four library listeners.
  Source: sources/Playback.cpp, include/Geom/Playback.h.

  Simplifications
  * `Gs::Real` is an ordered field `K` (exact arithmetic).
  * Frame indices are natural numbers below 2^64 with explicit wrap-around.
  * A listener is a value (identity number + kind + the fields of `ListLoop`);
    one listener object is used by one playback only. Passing the currently
    installed listener object again is the argument `.same`.
  * Events received by listeners are recorded in `log`, newest first.
-/
set_option autoImplicit false

namespace Geom.Playback

/-- include/Geom/Playback.h 44-49, `Playback::State`. -/
inductive State where
  | playing | paused | stopped
  deriving DecidableEq, Repr

/-- Dynamic type of the listener object: the base class `EventListener`
(include/Geom/Playback.h 52-100, all handlers empty), `OneShot` (106-113),
`Loop` (119-126), `PingPongLoop` (132-139), `ListLoop` with its two fields (145-156). -/
inductive Kind where
  | base
  | oneShot
  | loop
  | pingPong
  | listLoop (frames : List Nat) (iterator : Nat)
  deriving DecidableEq, Repr

/-- include/Geom/Playback.h 292: the listener object, with a number as identity. -/
structure Listener where
  id : Nat
  kind : Kind
  deriving DecidableEq, Repr

/-- Handlers of `EventListener`, include/Geom/Playback.h 65-98. -/
inductive Ev where
  | onPlay | onPause | onStop | onNextFrame
  deriving DecidableEq, Repr

/-- Fields of `Playback`, include/Geom/Playback.h 267-286, and the event log. -/
structure PB (K : Type) where
  listener : Listener
  state : State
  firstFrame : Nat
  lastFrame : Nat
  frame : Nat
  nextFrame : Nat
  interpolator : K
  speed : K
  log : List (Nat × Ev)
  deriving DecidableEq, Repr

/-- include/Geom/Playback.h 41: `std::size_t` values. -/
def W : Nat := 2 ^ 64

/-- sources/Playback.cpp 56, 181: `n + 1` on `std::size_t`. -/
def inc (n : Nat) : Nat := (n + 1) % W

/-- sources/Playback.cpp 63, 181: `n - 1` on `std::size_t`. -/
def dec (n : Nat) : Nat := (n + (W - 1)) % W

variable {K : Type} [Field K] [LinearOrder K]

/-- sources/Playback.cpp 73-76 with the member initialisers of
include/Geom/Playback.h 267-286. The default listener gets identity 0. -/
def init : PB K where
  listener := ⟨0, .oneShot⟩
  state := .stopped
  firstFrame := 0
  lastFrame := 0
  frame := 0
  nextFrame := 0
  interpolator := 0
  speed := 1
  log := []

/-- include/Geom/Playback.h 250-253, `AreFramesChrono`. -/
def areFramesChrono (s : PB K) : Bool := decide (s.firstFrame ≤ s.lastFrame)

/-- include/Geom/Playback.h 260-263, `IsForward`. -/
def isForward (s : PB K) : Bool := decide (0 ≤ s.speed)

/-- sources/Playback.cpp 169-175, `SetNextFrame(FrameIndex)`. -/
def setNextFrameTo (s : PB K) (n : Nat) : PB K :=
  if isForward s then { s with nextFrame := n } else { s with frame := n }

/-- sources/Playback.cpp 177-184, `SetNextFrame()`. -/
def setNextFrame (s : PB K) : PB K :=
  if isForward s then
    { s with nextFrame := if areFramesChrono s then inc s.frame else dec s.frame }
  else
    { s with frame := if areFramesChrono s then dec s.frame else inc s.frame }

/-- sources/Playback.cpp 186-192, `HasEndReached`. -/
def hasEndReached (s : PB K) : Bool :=
  if isForward s then
    (if areFramesChrono s then decide (s.lastFrame ≤ s.frame) else decide (s.frame ≤ s.lastFrame))
  else
    (if areFramesChrono s then decide (s.frame ≤ s.firstFrame) else decide (s.firstFrame ≤ s.frame))

/-- sources/Playback.cpp 199-222: Record the delivery of an event to the installed listener. -/
def post (s : PB K) (e : Ev) : PB K := { s with log := (s.listener.id, e) :: s.log }

/-- sources/Playback.cpp 40-43, `ListLoop::OnStop`; empty for the other listeners. -/
def onStop (s : PB K) : PB K :=
  match s.listener.kind with
  | .listLoop fs _ => { s with listener := { s.listener with kind := .listLoop fs 0 } }
  | _ => s

/-- sources/Playback.cpp 199-217, `SetState`. `OnPlay` and `OnPause` are empty in
each library listener. -/
def setState (s : PB K) (st : State) : PB K :=
  let s := { s with state := st }
  match st with
  | .playing => post s .onPlay
  | .paused => post s .onPause
  | .stopped => onStop (post s .onStop)

/-- sources/Playback.cpp 126-130, `Stop`. -/
def stop (s : PB K) : PB K :=
  if s.state ≠ .stopped then setState s .stopped else s

/-- sources/Playback.cpp 51-64: the new value of `ListLoop::iterator`. -/
def listIterator (forward : Bool) (count it : Nat) : Nat :=
  if forward then
    (if it ≥ count - 1 then 0 else it + 1)
  else
    (if it = 0 then count - 1 else it - 1)

/-- The four `OnNextFrame` handlers: sources/Playback.cpp 17-23 (`OneShot`),
25-31 (`Loop`), 33-38 (`PingPongLoop`), 45-68 (`ListLoop`).
`frames[iterator]` with `iterator >= frames.size()` is undefined behaviour. -/
def onNextFrame (s : PB K) : Res (PB K) :=
  match s.listener.kind with
  | .base => .ok s
  | .oneShot => .ok (if hasEndReached s then stop s else setNextFrame s)
  | .loop =>
    .ok (if hasEndReached s then
           setNextFrameTo s (if isForward s then s.firstFrame else s.lastFrame)
         else setNextFrame s)
  | .pingPong =>
    let s := if hasEndReached s then
        { s with firstFrame := s.lastFrame, lastFrame := s.firstFrame } else s
    .ok (setNextFrame s)
  | .listLoop fs it =>
    if fs.length ≥ 2 then
      let it' := listIterator (isForward s) fs.length it
      let s := { s with listener := { s.listener with kind := .listLoop fs it' } }
      match fs[it']? with
      | some f => .ok (setNextFrameTo s f)
      | none => .ub
    else .ok s

/-- sources/Playback.cpp 219-222, `PostNextFrame`. -/
def postNextFrame (s : PB K) : Res (PB K) := onNextFrame (post s .onNextFrame)

/-- include/Geom/Playback.h 165-179: The `eventListener` argument of `Play`: null, the listener object which is
already installed, or another listener object. -/
inductive LArg where
  | null
  | same
  | other (l : Listener)
  deriving DecidableEq, Repr

/-- sources/Playback.cpp 83-84: the listener installed by `Play`; a null argument
creates a new `OneShot`, recorded with identity 0. -/
def pickListener (cur : Listener) : LArg → Listener
  | .null => ⟨0, .oneShot⟩
  | .same => cur
  | .other l => l

/-- sources/Playback.cpp 78-98, `Play(first, last, speed, listener)`. -/
def play (s : PB K) (first last : Nat) (speed : K) (l : LArg) : Res (PB K) :=
  let s := stop s
  let s := { s with listener := pickListener s.listener l }
  let s := { s with firstFrame := first, lastFrame := last, frame := first }
  let s := { s with interpolator := 0, speed := speed }
  postNextFrame (setState s .playing)

/-- sources/Playback.cpp 110-124, `Pause`. -/
def pause (s : PB K) (paused : Bool) : PB K :=
  if paused then
    (if s.state = .playing then setState s .paused else s)
  else
    (if s.state = .paused then setState s .playing else s)

/-- sources/Playback.cpp 144-152: body of the forward loop. -/
def bodyForward (s : PB K) : Res (PB K) :=
  let s := { s with interpolator := s.interpolator - 1 }
  let s := { s with frame := s.nextFrame }
  postNextFrame s

/-- sources/Playback.cpp 157-165: body of the backward loop. -/
def bodyBackward (s : PB K) : Res (PB K) :=
  let s := { s with interpolator := s.interpolator + 1 }
  let s := { s with nextFrame := s.frame }
  postNextFrame s

variable [IsStrictOrderedRing K] [FloorRing K]

/-- sources/Playback.cpp 132-167, `Update`. The loop budget is the number of whole
frames to be skipped; if it did not suffice the outcome would be `Res.fuel`. -/
def update (s : PB K) (deltaTime : K) : Res (PB K) :=
  if s.state ≠ .playing ∨ deltaTime ≤ 0 then .ok s
  else
    let s := { s with interpolator := s.interpolator + deltaTime * s.speed }
    if isForward s then
      whileFuel (fun s : PB K => s.interpolator ≥ 1) bodyForward ⌊s.interpolator⌋₊ s
    else
      whileFuel (fun s : PB K => s.interpolator ≤ 0) bodyBackward (⌊-s.interpolator⌋₊ + 1) s

/-- Calls of a client. `play3`/`play1` are the overloads of sources/Playback.cpp
100-108. `setSpeed` is a write to the public field `speed`, `setListFrames` a write
to the public field `ListLoop::frames` of the installed listener. -/
inductive Op (K : Type) where
  | play (first last : Nat) (speed : K) (l : LArg)
  | play3 (first last : Nat) (l : LArg)
  | play1 (l : LArg)
  | pause (paused : Bool)
  | stop
  | update (deltaTime : K)
  | setSpeed (v : K)
  | setListFrames (fs : List Nat)

/-- include/Geom/Playback.h 167-228: One client call. -/
def step (s : PB K) : Op K → Res (PB K)
  | .play f l v a => play s f l v a
  | .play3 f l a => play s f l s.speed a
  | .play1 a => play s s.firstFrame s.lastFrame s.speed a
  | .pause b => .ok (pause s b)
  | .stop => .ok (stop s)
  | .update dt => update s dt
  | .setSpeed v => .ok { s with speed := v }
  | .setListFrames fs =>
    match s.listener.kind with
    | .listLoop _ it => .ok { s with listener := { s.listener with kind := .listLoop fs it } }
    | _ => .ok s

/-- include/Geom/Playback.h 167-228: A history of client calls. -/
def run (s : PB K) : List (Op K) → Res (PB K)
  | [] => .ok s
  | op :: ops => (step s op).bind (fun s => run s ops)

end Geom.Playback
