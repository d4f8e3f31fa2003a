import Verif.Model.Playback

/-
  `Gm::Playback` with listeners of the client, whose handlers may call the playback again.
  Source: sources/Playback.cpp, include/Geom/Playback.h.

  Simplifications
  * A handler is a program which may read the playback and the state `σ` of the client, change the state of the client, and call the
    playback. Each of its runs is finite, apart from the calls.
  * Calls of handlers and playback nest without bound, so the execution has a budget, with the outcome `Res.fuel` if it does not suffice.
  * `Gs::Real` is an ordered field; a listener lives as long as it is used (an object which is destroyed by `Play` while its handler runs
    is not modelled).
-/
set_option autoImplicit false

namespace Geom.Playback.Client

/-- include/Geom/Playback.h 165-263, 267-286: what a client can do with a playback. A null listener is `none`; `set...` are assignments to
the public fields. -/
inductive Call (K : Type) where
  | play (first last : Nat) (speed : K) (l : Option Listener)
  | pause (paused : Bool)
  | stop
  | update (deltaTime : K)
  | setNextFrame
  | setNextFrameTo (n : Nat)
  | setFirst (n : Nat)
  | setLast (n : Nat)
  | setFrame (n : Nat)
  | setNext (n : Nat)
  | setInterpolator (x : K)
  | setSpeed (v : K)

/-- include/Geom/Playback.h 52-100: the body of a handler of a class derived from `EventListener`. -/
inductive Prog (K σ : Type) where
  | done
  | get (k : PB K → σ → Prog K σ)
  | put (c : σ) (p : Prog K σ)
  | call (c : Call K) (p : Prog K σ)

/-- sources/Playback.cpp 78-222: What is executed: a handler, a call, `SetState` (199-217), `PostNextFrame` (219-222), the forward loop (143-152) and the backward
loop (156-165) of `Update`. -/
inductive Task (K σ : Type) where
  | prog (p : Prog K σ)
  | call (c : Call K)
  | state (st : State)
  | next
  | forward
  | backward

/-- sources/Playback.cpp 205-216: the event of a state. -/
def event : State → Ev
  | .playing => .onPlay
  | .paused => .onPause
  | .stopped => .onStop

variable {K σ : Type} [Field K] [LinearOrder K]

/-- sources/Playback.cpp 86-93: the assignments of `Play` after `Stop`. -/
def configure (s : PB K) (first last : Nat) (speed : K) (l : Option Listener) : PB K :=
  let s := { s with listener := l.getD ⟨0, .oneShot⟩ }
  let s := { s with firstFrame := first, lastFrame := last, frame := first }
  { s with interpolator := 0, speed := speed }

/-- sources/Playback.cpp 78-222: the execution. `H` gives the handlers of each listener. -/
def run (H : Listener → Ev → Prog K σ) : Nat → Task K σ → PB K × σ → Res (PB K × σ)
  | 0, _, _ => .fuel
  | n + 1, .prog p, w =>
    match p with
    | .done => .ok w
    | .get k => run H n (.prog (k w.1 w.2)) w
    | .put c p => run H n (.prog p) (w.1, c)
    | .call c p => (run H n (.call c) w).bind (run H n (.prog p))
  | n + 1, .call c, w =>
    match c with
    | .play first last speed l =>
      (run H n (.call .stop) w).bind fun w =>
      (run H n (.state .playing) (configure w.1 first last speed l, w.2)).bind (run H n .next)
    | .pause b =>
      if b then (if w.1.state = .playing then run H n (.state .paused) w else .ok w)
      else (if w.1.state = .paused then run H n (.state .playing) w else .ok w)
    | .stop => if w.1.state ≠ .stopped then run H n (.state .stopped) w else .ok w
    | .update dt =>
      if w.1.state ≠ .playing ∨ dt ≤ 0 then .ok w
      else
        let s := { w.1 with interpolator := w.1.interpolator + dt * w.1.speed }
        if isForward s then run H n .forward (s, w.2) else run H n .backward (s, w.2)
    | .setNextFrame => .ok (Playback.setNextFrame w.1, w.2)
    | .setNextFrameTo k => .ok (Playback.setNextFrameTo w.1 k, w.2)
    | .setFirst k => .ok ({ w.1 with firstFrame := k }, w.2)
    | .setLast k => .ok ({ w.1 with lastFrame := k }, w.2)
    | .setFrame k => .ok ({ w.1 with frame := k }, w.2)
    | .setNext k => .ok ({ w.1 with nextFrame := k }, w.2)
    | .setInterpolator x => .ok ({ w.1 with interpolator := x }, w.2)
    | .setSpeed v => .ok ({ w.1 with speed := v }, w.2)
  | n + 1, .state st, w =>
    run H n (.prog (H w.1.listener (event st))) (post { w.1 with state := st } (event st), w.2)
  | n + 1, .next, w => run H n (.prog (H w.1.listener .onNextFrame)) (post w.1 .onNextFrame, w.2)
  | n + 1, .forward, w =>
    if 1 ≤ w.1.interpolator then
      (run H n .next ({ w.1 with interpolator := w.1.interpolator - 1, frame := w.1.nextFrame }, w.2)).bind (run H n .forward)
    else .ok w
  | n + 1, .backward, w =>
    if w.1.interpolator ≤ 0 then
      (run H n .next ({ w.1 with interpolator := w.1.interpolator + 1, nextFrame := w.1.frame }, w.2)).bind (run H n .backward)
    else .ok w

/-- include/Geom/Playback.h 165-228: calls of the client one after the other. -/
def history (H : Listener → Ev → Prog K σ) (n : Nat) : List (Call K) → PB K × σ → Res (PB K × σ)
  | [], w => .ok w
  | c :: cs, w => (run H n (.call c) w).bind (history H n cs)

/-- sources/Playback.cpp 17-38: `OnNextFrame` of the library listeners without own state (`OneShot`, `Loop`, `PingPongLoop`), as programs; the other handlers
are empty. -/
def library (l : Listener) : Ev → Prog K σ
  | .onNextFrame =>
    match l.kind with
    | .oneShot => .get fun s _ => if hasEndReached s then .call .stop .done else .call .setNextFrame .done
    | .loop => .get fun s _ =>
      if hasEndReached s then .call (.setNextFrameTo (if isForward s then s.firstFrame else s.lastFrame)) .done
      else .call .setNextFrame .done
    | .pingPong => .get fun s _ =>
      if hasEndReached s then .call (.setFirst s.lastFrame) (.call (.setLast s.firstFrame) (.call .setNextFrame .done))
      else .call .setNextFrame .done
    | _ => .done
  | _ => .done

end Geom.Playback.Client
