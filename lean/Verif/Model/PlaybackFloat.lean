import Verif.Model.Playback
import Mathlib.Data.Rat.Floor

/-
  `Playback::Update` with the rounding of the machine. Source: sources/Playback.cpp 132-167.

  Simplifications
  * Numbers are rationals, `fl` is the rounding that follows each operation (see Base/Float). There is no overflow and no NaN.
  * Each operation is rounded on its own (no fused or extended operations).
  * The loops are cut off after `n` rounds, with the outcome `Res.fuel`; `n` is a parameter.
-/
set_option autoImplicit false

namespace Geom.Playback

/-- sources/Playback.cpp 144-152: body of the forward loop. -/
def bodyForwardFl (fl : ℚ → ℚ) (s : PB ℚ) : Res (PB ℚ) :=
  let s := { s with interpolator := fl (s.interpolator - 1) }
  let s := { s with frame := s.nextFrame }
  postNextFrame s

/-- sources/Playback.cpp 157-165: body of the backward loop. -/
def bodyBackwardFl (fl : ℚ → ℚ) (s : PB ℚ) : Res (PB ℚ) :=
  let s := { s with interpolator := fl (s.interpolator + 1) }
  let s := { s with nextFrame := s.frame }
  postNextFrame s

/-- sources/Playback.cpp 132-167, `Update`, cut off after `n` rounds of the loop. -/
def updateFl (fl : ℚ → ℚ) (n : ℕ) (s : PB ℚ) (deltaTime : ℚ) : Res (PB ℚ) :=
  if s.state ≠ .playing ∨ deltaTime ≤ 0 then .ok s
  else
    let s := { s with interpolator := fl (s.interpolator + fl (deltaTime * s.speed)) }
    if isForward s then
      whileFuel (fun s : PB ℚ => s.interpolator ≥ 1) (bodyForwardFl fl) n s
    else
      whileFuel (fun s : PB ℚ => s.interpolator ≤ 0) (bodyBackwardFl fl) n s

/-- include/Geom/Playback.h 212: Calls of `Update` one after the other. -/
def updatesFl (fl : ℚ → ℚ) (n : ℕ) (s : PB ℚ) : List ℚ → Res (PB ℚ)
  | [] => .ok s
  | d :: ds => (updateFl fl n s d).bind (fun s => updatesFl fl n s ds)

end Geom.Playback
