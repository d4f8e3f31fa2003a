import Verif.Proof.Playback

set_option linter.unusedSectionVars false

/-! Explicit effect of one `PostNextFrame` for each library listener. -/
set_option autoImplicit false

namespace Geom.Playback

variable {K : Type} [Field K] [LinearOrder K]

theorem inc_eq {n m : Nat} (h : n < m) (hm : m < W) : inc n = n + 1 := by
  unfold inc; exact Nat.mod_eq_of_lt (by omega)

theorem dec_eq {n m : Nat} (h : m < n) (hn : n < W) : dec n = n - 1 := by
  unfold dec
  have : n + (W - 1) = (n - 1) + W := by unfold W at *; omega
  rw [this, Nat.add_mod_right, Nat.mod_eq_of_lt (by omega)]

/-- The fields relevant for the frame sequence, without `log`. -/
structure Frames where
  first : Nat
  last : Nat
  frame : Nat
  next : Nat
  deriving DecidableEq

def frames (s : PB K) : Frames := ⟨s.firstFrame, s.lastFrame, s.frame, s.nextFrame⟩

theorem post_oneShot (s : PB K) (hk : s.listener.kind = .oneShot) :
    ∃ s', postNextFrame s = .ok s' ∧ s'.listener = s.listener ∧ s'.speed = s.speed ∧
      s'.interpolator = s.interpolator ∧
      (if hasEndReached s then s'.state = .stopped ∧ frames s' = frames s
       else s'.state = s.state ∧ frames s' = frames (setNextFrame s)) := by
  refine ⟨_, by unfold postNextFrame onNextFrame post; simp only [hk]; rfl, ?_⟩
  have he : hasEndReached { s with log := (s.listener.id, Ev.onNextFrame) :: s.log }
      = hasEndReached s := rfl
  rw [he]
  by_cases h : hasEndReached s = true
  · simp only [h, if_true, stop, setState, onStop, post]
    split_ifs with h2 <;> simp_all [frames]
  · simp only [h]
    have hf : ∀ l, setNextFrame { s with log := l } = { setNextFrame s with log := l } := by
      intro l
      unfold setNextFrame
      by_cases hh : isForward s = true
      · rw [if_pos hh, if_pos (show isForward { s with log := l } = true from hh)]; rfl
      · rw [if_neg hh, if_neg (show ¬ isForward { s with log := l } = true from hh)]; rfl
    simp only [if_false, Bool.false_eq_true]
    rw [hf]
    refine ⟨?_, ?_, ?_, ?_, rfl⟩ <;> (unfold setNextFrame; split_ifs <;> rfl)

theorem post_loop (s : PB K) (hk : s.listener.kind = .loop) :
    ∃ s', postNextFrame s = .ok s' ∧ s'.listener = s.listener ∧ s'.speed = s.speed ∧
      s'.interpolator = s.interpolator ∧ s'.state = s.state ∧
      frames s' = if hasEndReached s then
          frames (setNextFrameTo s (if isForward s then s.firstFrame else s.lastFrame))
        else frames (setNextFrame s) := by
  refine ⟨_, by unfold postNextFrame onNextFrame post; simp only [hk]; rfl, ?_⟩
  have he : hasEndReached { s with log := (s.listener.id, Ev.onNextFrame) :: s.log }
      = hasEndReached s := rfl
  have hi : isForward { s with log := (s.listener.id, Ev.onNextFrame) :: s.log }
      = isForward s := rfl
  have hc : areFramesChrono { s with log := (s.listener.id, Ev.onNextFrame) :: s.log }
      = areFramesChrono s := rfl
  by_cases h : hasEndReached s = true
  · by_cases hf : isForward s = true <;>
      simp [he, hi, h, hf, setNextFrameTo, frames]
  · by_cases hf : isForward s = true <;> by_cases hcc : areFramesChrono s = true <;>
      simp [he, hi, hc, h, hf, hcc, setNextFrame, frames]

/-- Swap first and last frame. -/
def swapFL (s : PB K) : PB K :=
  { s with firstFrame := s.lastFrame, lastFrame := s.firstFrame }

theorem post_pingPong (s : PB K) (hk : s.listener.kind = .pingPong) :
    ∃ s', postNextFrame s = .ok s' ∧ s'.listener = s.listener ∧ s'.speed = s.speed ∧
      s'.interpolator = s.interpolator ∧ s'.state = s.state ∧
      frames s' = frames (setNextFrame (if hasEndReached s then swapFL s else s)) := by
  refine ⟨_, by unfold postNextFrame onNextFrame post; simp only [hk]; rfl, ?_⟩
  have he : hasEndReached { s with log := (s.listener.id, Ev.onNextFrame) :: s.log }
      = hasEndReached s := rfl
  by_cases h : hasEndReached s = true
  · simp only [he, h, if_true, setNextFrame]
    by_cases hf : isForward s = true
    · have h1 : isForward (swapFL s) = true := hf
      have h2 : isForward { s with
        log := (s.listener.id, Ev.onNextFrame) :: s.log, firstFrame := s.lastFrame,
        lastFrame := s.firstFrame } = true := hf
      rw [if_pos h1, if_pos h2]
      exact ⟨rfl, rfl, rfl, rfl, rfl⟩
    · have h1 : ¬ isForward (swapFL s) = true := hf
      have h2 : ¬ isForward { s with
        log := (s.listener.id, Ev.onNextFrame) :: s.log, firstFrame := s.lastFrame,
        lastFrame := s.firstFrame } = true := hf
      rw [if_neg h1, if_neg h2]
      exact ⟨rfl, rfl, rfl, rfl, rfl⟩
  · simp only [he, h, setNextFrame]
    by_cases hf : isForward s = true
    · have h2 : isForward { s with log := (s.listener.id, Ev.onNextFrame) :: s.log } = true := hf
      simp only [Bool.false_eq_true, if_false]
      rw [if_pos hf, if_pos h2]
      exact ⟨rfl, rfl, rfl, rfl, rfl⟩
    · have h2 : ¬ isForward { s with log := (s.listener.id, Ev.onNextFrame) :: s.log } = true := hf
      simp only [Bool.false_eq_true, if_false]
      rw [if_neg hf, if_neg h2]
      exact ⟨rfl, rfl, rfl, rfl, rfl⟩

theorem post_listLoop (s : PB K) (fs : List Nat) (it : Nat) (hk : s.listener.kind = .listLoop fs it)
    (hl : 2 ≤ fs.length) (hi : listIterator (isForward s) fs.length it < fs.length) :
    ∃ s', postNextFrame s = .ok s' ∧
      s'.listener = ⟨s.listener.id, .listLoop fs (listIterator (isForward s) fs.length it)⟩ ∧
      s'.speed = s.speed ∧
      s'.interpolator = s.interpolator ∧ s'.state = s.state ∧
      frames s' = frames (setNextFrameTo s (fs[listIterator (isForward s) fs.length it])) := by
  have hif : isForward { s with log := (s.listener.id, Ev.onNextFrame) :: s.log }
      = isForward s := rfl
  unfold postNextFrame onNextFrame post
  simp only [hk, ge_iff_le, hl, if_true, hif]
  rw [List.getElem?_eq_getElem hi]
  refine ⟨_, rfl, ?_⟩
  unfold setNextFrameTo
  by_cases hf : isForward s = true
  · rw [if_pos hf, if_pos (by exact hf)]
    exact ⟨rfl, rfl, rfl, rfl, rfl⟩
  · rw [if_neg hf, if_neg (by exact hf)]
    exact ⟨rfl, rfl, rfl, rfl, rfl⟩

theorem post_base (s : PB K) (hk : s.listener.kind = .base) :
    postNextFrame s = .ok (post s .onNextFrame) := by
  unfold postNextFrame onNextFrame post; simp only [hk]

theorem post_listShort (s : PB K) (fs : List Nat) (it : Nat) (hk : s.listener.kind = .listLoop fs it)
    (hl : ¬ 2 ≤ fs.length) :
    postNextFrame s = .ok (post s .onNextFrame) := by
  unfold postNextFrame onNextFrame post; simp only [hk, ge_iff_le, hl, if_false]

end Geom.Playback
