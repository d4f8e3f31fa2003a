import Verif.Model.Playback
import Mathlib.Tactic.Linarith
import Mathlib.Tactic.Ring
import Mathlib.Algebra.Order.Floor.Semiring

set_option linter.unusedSectionVars false

set_option autoImplicit false

namespace Geom.Playback

variable {K : Type} [Field K] [LinearOrder K]

/-- Set the interpolator only. -/
def withI (x : K) (s : PB K) : PB K := { s with interpolator := x }

@[simp] theorem withI_withI (x y : K) (s : PB K) : withI x (withI y s) = withI x s := rfl
@[simp] theorem withI_interp (x : K) (s : PB K) : (withI x s).interpolator = x := rfl
@[simp] theorem withI_self (s : PB K) : withI s.interpolator s = s := rfl

/-- One frame step without interpolator, forward and backward. -/
def stepF (s : PB K) : Res (PB K) := postNextFrame { s with frame := s.nextFrame }
def stepB (s : PB K) : Res (PB K) := postNextFrame { s with nextFrame := s.frame }

@[simp] theorem hasEndReached_withI (s : PB K) (x : K) :
    hasEndReached (withI x s) = hasEndReached s := rfl
@[simp] theorem isForward_withI (s : PB K) (x : K) :
    isForward (withI x s) = isForward s := rfl
theorem setNextFrame_withI (s : PB K) (x : K) :
    setNextFrame (withI x s) = withI x (setNextFrame s) := by
  unfold setNextFrame
  by_cases h : isForward s = true
  · rw [if_pos h, if_pos (show isForward (withI x s) = true from h)]; rfl
  · rw [if_neg h, if_neg (show ¬ isForward (withI x s) = true from h)]; rfl
theorem setNextFrameTo_withI (s : PB K) (x : K) (n : Nat) :
    setNextFrameTo (withI x s) n = withI x (setNextFrameTo s n) := by
  unfold setNextFrameTo
  by_cases h : isForward s = true
  · rw [if_pos h, if_pos (show isForward (withI x s) = true from h)]; rfl
  · rw [if_neg h, if_neg (show ¬ isForward (withI x s) = true from h)]; rfl
theorem onStop_withI (s : PB K) (x : K) : onStop (withI x s) = withI x (onStop s) := by
  unfold onStop
  have : (withI x s).listener = s.listener := rfl
  rw [this]
  cases s.listener.kind <;> rfl
theorem stop_withI (s : PB K) (x : K) : stop (withI x s) = withI x (stop s) := by
  unfold stop
  have : (withI x s).state = s.state := rfl
  rw [this]
  split_ifs
  · exact onStop_withI (post { s with state := .stopped } .onStop) x
  · rfl

theorem onNextFrame_withI (s : PB K) (x : K) :
    onNextFrame (withI x s) = (onNextFrame s).map (withI x) := by
  unfold onNextFrame
  have hl : (withI x s).listener = s.listener := rfl
  rw [hl]
  cases hk : s.listener.kind with
  | base => rfl
  | oneShot =>
    simp only [Res.map, Res.bind_ok]
    by_cases h : hasEndReached s = true
    · rw [if_pos h, if_pos (show hasEndReached (withI x s) = true from h), stop_withI]
    · rw [if_neg h, if_neg (show ¬ hasEndReached (withI x s) = true from h), setNextFrame_withI]
  | loop =>
    simp only [Res.map, Res.bind_ok]
    by_cases h : hasEndReached s = true
    · rw [if_pos h, if_pos (show hasEndReached (withI x s) = true from h), setNextFrameTo_withI]; rfl
    · rw [if_neg h, if_neg (show ¬ hasEndReached (withI x s) = true from h), setNextFrame_withI]
  | pingPong =>
    simp only [Res.map, Res.bind_ok]
    by_cases h : hasEndReached s = true
    · rw [if_pos h, if_pos (show hasEndReached (withI x s) = true from h)]
      exact congrArg Res.ok (setNextFrame_withI
        { s with firstFrame := s.lastFrame, lastFrame := s.firstFrame } x)
    · rw [if_neg h, if_neg (show ¬ hasEndReached (withI x s) = true from h), setNextFrame_withI]
  | listLoop fs it =>
    simp only [Res.map]
    split_ifs
    · have hf : isForward (withI x s) = isForward s := rfl
      rw [hf]
      cases hg : fs[listIterator (isForward s) fs.length it]? with
      | some f => exact congrArg Res.ok (setNextFrameTo_withI
          { s with listener := { s.listener with
            kind := .listLoop fs (listIterator (isForward s) fs.length it) } } x f)
      | none => rfl
    · rfl

theorem postNextFrame_withI (s : PB K) (x : K) :
    postNextFrame (withI x s) = (postNextFrame s).map (withI x) :=
  onNextFrame_withI (post s .onNextFrame) x

theorem bodyForward_eq (s : PB K) :
    bodyForward s = (stepF s).map (withI (s.interpolator - 1)) := by
  unfold bodyForward stepF
  rw [← postNextFrame_withI]; rfl

theorem bodyBackward_eq (s : PB K) :
    bodyBackward s = (stepB s).map (withI (s.interpolator + 1)) := by
  unfold bodyBackward stepB
  rw [← postNextFrame_withI]; rfl

theorem stepF_withI (s : PB K) (x : K) : stepF (withI x s) = (stepF s).map (withI x) := by
  unfold stepF; rw [← postNextFrame_withI]; rfl

theorem stepB_withI (s : PB K) (x : K) : stepB (withI x s) = (stepB s).map (withI x) := by
  unfold stepB; rw [← postNextFrame_withI]; rfl

theorem iter_withI (f : PB K → Res (PB K))
    (hf : ∀ s x, f (withI x s) = (f s).map (withI x)) (n : Nat) (s : PB K) (x : K) :
    iterRes f n (withI x s) = (iterRes f n s).map (withI x) := by
  induction n generalizing s with
  | zero => rfl
  | succ n ih =>
    simp only [iterRes, hf]
    cases f s with
    | ok a => simp [Res.map, Res.bind_ok]; exact ih a
    | _ => rfl

@[simp] theorem setNextFrame_speed (s : PB K) : (setNextFrame s).speed = s.speed := by
  unfold setNextFrame; split <;> rfl
@[simp] theorem setNextFrameTo_speed (s : PB K) (n : Nat) :
    (setNextFrameTo s n).speed = s.speed := by
  unfold setNextFrameTo; split <;> rfl
@[simp] theorem onStop_speed (s : PB K) : (onStop s).speed = s.speed := by
  unfold onStop; split <;> rfl
@[simp] theorem stop_speed (s : PB K) : (stop s).speed = s.speed := by
  unfold stop setState; split
  · exact onStop_speed _
  · rfl

/-- A frame step does not change the speed. -/
theorem onNextFrame_speed {s s' : PB K} (h : onNextFrame s = .ok s') : s'.speed = s.speed := by
  unfold onNextFrame at h
  cases hk : s.listener.kind with
  | base => simp [hk] at h; subst h; rfl
  | oneShot =>
    simp only [hk, Res.ok.injEq] at h
    subst h
    split <;> simp
  | loop =>
    simp only [hk, Res.ok.injEq] at h
    subst h
    split <;> simp
  | pingPong =>
    simp only [hk, Res.ok.injEq] at h
    subst h
    rw [setNextFrame_speed]
    split <;> simp
  | listLoop fs it =>
    simp only [hk] at h
    split at h
    · split at h
      · simp only [Res.ok.injEq] at h
        subst h
        simp
      · simp at h
    · simp only [Res.ok.injEq] at h; subst h; simp

theorem stepF_speed {s s' : PB K} (h : stepF s = .ok s') : s'.speed = s.speed :=
  onNextFrame_speed (s := post { s with frame := s.nextFrame } .onNextFrame) h

theorem stepB_speed {s s' : PB K} (h : stepB s = .ok s') : s'.speed = s.speed :=
  onNextFrame_speed (s := post { s with nextFrame := s.frame } .onNextFrame) h

variable [IsStrictOrderedRing K] [FloorRing K]

theorem while_forward (n : Nat) (s : PB K) (hn : ⌊s.interpolator⌋₊ = n) :
    whileFuel (fun s : PB K => s.interpolator ≥ 1) bodyForward n s
      = (iterRes stepF n s).map (withI (s.interpolator - n)) := by
  induction n generalizing s with
  | zero =>
    have : s.interpolator < 1 := Nat.floor_eq_zero.1 hn
    simp [whileFuel, iterRes, Res.map, not_le.2 this]
  | succ n ih =>
    have h1 : (1 : K) ≤ s.interpolator := by
      have : 1 ≤ ⌊s.interpolator⌋₊ := by omega
      exact (Nat.one_le_floor_iff _).1 this
    simp only [whileFuel, ge_iff_le, h1, if_true, bodyForward_eq, iterRes]
    have hfl : ⌊s.interpolator - 1⌋₊ = n := by
      rw [Nat.floor_sub_one, hn]; rfl
    cases hs : stepF s with
    | ok a =>
      simp only [Res.map, Res.bind_ok]
      have := ih (withI (s.interpolator - 1) a) (by simpa using hfl)
      simp only [ge_iff_le] at this
      rw [this, iter_withI _ stepF_withI]
      cases iterRes stepF n a <;> simp [Res.map]
      ring_nf
    | _ => rfl

theorem while_backward (n : Nat) (s : PB K) (hle : s.interpolator ≤ 0)
    (hn : ⌊-s.interpolator⌋₊ = n) :
    whileFuel (fun s : PB K => s.interpolator ≤ 0) bodyBackward (n + 1) s
      = (iterRes stepB (n + 1) s).map (withI (s.interpolator + (n + 1))) := by
  induction n generalizing s with
  | zero =>
    have : -s.interpolator < 1 := Nat.floor_eq_zero.1 hn
    simp only [whileFuel, hle, if_true, bodyBackward_eq, iterRes]
    cases hs : stepB s with
    | ok a =>
      have h2 : ¬ (s.interpolator + 1 ≤ 0) := by linarith
      simp [Res.map, h2]
    | _ => rfl
  | succ n ih =>
    have h1 : (1 : K) ≤ -s.interpolator := by
      have : 1 ≤ ⌊-s.interpolator⌋₊ := by omega
      exact (Nat.one_le_floor_iff _).1 this
    rw [whileFuel]
    simp only [hle, if_true, bodyBackward_eq]
    rw [iterRes]
    have hfl : ⌊-(s.interpolator + 1)⌋₊ = n := by
      have : -(s.interpolator + 1) = -s.interpolator - 1 := by ring
      rw [this, Nat.floor_sub_one, hn]; rfl
    cases hs : stepB s with
    | ok a =>
      simp only [Res.map, Res.bind_ok]
      have := ih (withI (s.interpolator + 1) a) (by simp; linarith) (by simpa using hfl)
      rw [this, iter_withI _ stepB_withI]
      cases iterRes stepB (n + 1) a <;> simp [Res.map]
      ring_nf
    | _ => rfl

/-- Closed form of `update`, forward. -/
theorem update_forward (s : PB K) (dt : K) (hp : s.state = .playing) (hd : 0 < dt)
    (hf : 0 ≤ s.speed) :
    update s dt = (iterRes stepF ⌊s.interpolator + dt * s.speed⌋₊ s).map
      (withI (s.interpolator + dt * s.speed - ⌊s.interpolator + dt * s.speed⌋₊)) := by
  unfold update
  rw [if_neg (by simp [hp, hd])]
  simp only [isForward, hf, decide_true, if_true]
  have := while_forward ⌊s.interpolator + dt * s.speed⌋₊
    (withI (s.interpolator + dt * s.speed) s) rfl
  simp only [withI] at this
  rw [this]
  have h2 := iter_withI stepF stepF_withI ⌊s.interpolator + dt * s.speed⌋₊ s
    (s.interpolator + dt * s.speed)
  simp only [withI] at h2
  rw [h2]
  cases iterRes stepF _ s <;> rfl

/-- Closed form of `update`, backward. -/
theorem update_backward (s : PB K) (dt : K) (hp : s.state = .playing) (hd : 0 < dt)
    (hf : s.speed < 0) :
    update s dt =
      if s.interpolator + dt * s.speed ≤ 0 then
        (iterRes stepB (⌊-(s.interpolator + dt * s.speed)⌋₊ + 1) s).map
          (withI (s.interpolator + dt * s.speed + (⌊-(s.interpolator + dt * s.speed)⌋₊ + 1)))
      else .ok (withI (s.interpolator + dt * s.speed) s) := by
  unfold update
  rw [if_neg (by simp [hp, hd])]
  have hnf : ¬ isForward { s with interpolator := s.interpolator + dt * s.speed } = true := by
    simpa [isForward] using hf
  rw [if_neg hnf]
  by_cases h : s.interpolator + dt * s.speed ≤ 0
  · rw [if_pos h]
    have := while_backward ⌊-(s.interpolator + dt * s.speed)⌋₊
      (withI (s.interpolator + dt * s.speed) s) h rfl
    simp only [withI] at this
    rw [this]
    have h2 := iter_withI stepB stepB_withI (⌊-(s.interpolator + dt * s.speed)⌋₊ + 1) s
      (s.interpolator + dt * s.speed)
    simp only [withI] at h2
    rw [h2]
    cases iterRes stepB _ s <;> rfl
  · rw [if_neg h]; simp [whileFuel, h, withI]

theorem update_idle (s : PB K) (dt : K) (h : s.state ≠ .playing ∨ dt ≤ 0) :
    update s dt = .ok s := by
  unfold update; rw [if_pos h]

end Geom.Playback
