import Verif.Proof.PlaybackStep
import Verif.Spec.Playback

set_option linter.unusedSectionVars false

set_option autoImplicit false

namespace Geom.Playback
open Spec

variable {K : Type} [Field K] [LinearOrder K]

/-- The listener is one of the range listeners and the range is usable for it. -/
def RangeOK (s : PB K) : Prop :=
  (s.listener.kind = .oneShot ∨ s.listener.kind = .loop ∨
    (s.listener.kind = .pingPong ∧ s.firstFrame ≠ s.lastFrame)) ∧
  s.firstFrame < W ∧ s.lastFrame < W

theorem frames_eq {s s' : PB K} (h : frames s' = frames s) :
    s'.firstFrame = s.firstFrame ∧ s'.lastFrame = s.lastFrame ∧ s'.frame = s.frame ∧
    s'.nextFrame = s.nextFrame := by
  simpa [frames] using h

/-- Effect of `OnNextFrame` on the frame range. -/
theorem post_range (s : PB K) (h : RangeOK s)
    (hfr : Between s.firstFrame s.lastFrame s.frame) :
    ∃ s', postNextFrame s = .ok s' ∧ RangeOK s' ∧ s'.speed = s.speed ∧
      s'.interpolator = s.interpolator ∧ s'.listener = s.listener ∧
      (s'.state = s.state ∨ s'.state = .stopped) ∧
      (∀ x, Between s'.firstFrame s'.lastFrame x ↔ Between s.firstFrame s.lastFrame x) ∧
      Between s'.firstFrame s'.lastFrame s'.frame ∧
      (0 ≤ s.speed → s'.frame = s.frame ∧
        ((s'.state = .stopped ∧ s'.nextFrame = s.nextFrame) ∨
         Between s'.firstFrame s'.lastFrame s'.nextFrame)) ∧
      (s.speed < 0 → s'.nextFrame = s.nextFrame) := by
  obtain ⟨hk, hf, hl⟩ := h
  rcases hk with hk | hk | ⟨hk, hne⟩
  · obtain ⟨s', h1, h2, h3, h4, h5⟩ := post_oneShot s hk
    refine ⟨s', h1, ?_⟩
    rcases lt_or_ge s.speed 0 with hs | hs
    · have hnf : isForward s = false := by simpa [isForward] using hs
      by_cases he : hasEndReached s = true
      · rw [if_pos he] at h5
        obtain ⟨h5, h6⟩ := h5
        obtain ⟨e1, e2, e3, e4⟩ := frames_eq h6
        refine ⟨?_, h3, h4, h2, ?_, ?_, ?_, ?_, ?_⟩ <;>
          simp_all [RangeOK, not_le.2 hs]
      · rw [if_neg he] at h5
        obtain ⟨h5, h6⟩ := h5
        obtain ⟨e1, e2, e3, e4⟩ := frames_eq h6
        simp only [setNextFrame, hnf] at e1 e2 e3 e4
        simp only [hasEndReached, hnf, areFramesChrono] at he
        simp only [Between, areFramesChrono] at *
        refine ⟨?_, h3, h4, h2, Or.inl h5, ?_, ?_, fun h => absurd h (not_le.2 hs), ?_⟩
        · simp_all [RangeOK]
        · simp_all
        · by_cases hc : s.firstFrame ≤ s.lastFrame
          · simp [hc] at e1 e2 e3 e4 he hfr ⊢
            rw [dec_eq he (by omega)] at e3
            omega
          · simp [hc] at e1 e2 e3 e4 he hfr ⊢
            rw [inc_eq he (by omega)] at e3
            omega
        · intro _; simpa using e4
    · have hnf : isForward s = true := by simpa [isForward] using hs
      by_cases he : hasEndReached s = true
      · rw [if_pos he] at h5
        obtain ⟨h5, h6⟩ := h5
        obtain ⟨e1, e2, e3, e4⟩ := frames_eq h6
        refine ⟨?_, h3, h4, h2, ?_, ?_, ?_, ?_, ?_⟩ <;>
          simp_all [RangeOK]
      · rw [if_neg he] at h5
        obtain ⟨h5, h6⟩ := h5
        obtain ⟨e1, e2, e3, e4⟩ := frames_eq h6
        simp only [setNextFrame, hnf] at e1 e2 e3 e4
        simp only [hasEndReached, hnf, areFramesChrono] at he
        simp only [Between, areFramesChrono] at *
        refine ⟨?_, h3, h4, h2, Or.inl h5, ?_, ?_, ?_, fun h => absurd h (not_lt.2 hs)⟩
        · simp_all [RangeOK]
        · simp_all
        · simp_all
        · intro _
          refine ⟨by simpa using e3, Or.inr ?_⟩
          by_cases hc : s.firstFrame ≤ s.lastFrame
          · simp [hc] at e1 e2 e3 e4 he hfr ⊢
            rw [inc_eq he (by omega)] at e4
            omega
          · simp [hc] at e1 e2 e3 e4 he hfr ⊢
            rw [dec_eq he (by omega)] at e4
            omega
  · obtain ⟨s', h1, h2, h3, h4, h5, h6⟩ := post_loop s hk
    refine ⟨s', h1, ?_⟩
    rcases lt_or_ge s.speed 0 with hs | hs
    · have hnf : isForward s = false := by simpa [isForward] using hs
      by_cases he : hasEndReached s = true
      · rw [if_pos he] at h6
        obtain ⟨e1, e2, e3, e4⟩ := frames_eq h6
        simp [setNextFrameTo, hnf] at e1 e2 e3 e4
        refine ⟨?_, h3, h4, h2, ?_, ?_, ?_, ?_, ?_⟩ <;>
          simp_all [RangeOK, not_le.2 hs, Between]
      · rw [if_neg he] at h6
        obtain ⟨e1, e2, e3, e4⟩ := frames_eq h6
        simp only [setNextFrame, hnf] at e1 e2 e3 e4
        simp only [hasEndReached, hnf, areFramesChrono] at he
        simp only [Between, areFramesChrono] at *
        refine ⟨?_, h3, h4, h2, Or.inl h5, ?_, ?_, fun h => absurd h (not_le.2 hs), ?_⟩
        · simp_all [RangeOK]
        · simp_all
        · by_cases hc : s.firstFrame ≤ s.lastFrame
          · simp [hc] at e1 e2 e3 e4 he hfr ⊢
            rw [dec_eq he (by omega)] at e3
            omega
          · simp [hc] at e1 e2 e3 e4 he hfr ⊢
            rw [inc_eq he (by omega)] at e3
            omega
        · intro _; simpa using e4
    · have hnf : isForward s = true := by simpa [isForward] using hs
      by_cases he : hasEndReached s = true
      · rw [if_pos he] at h6
        obtain ⟨e1, e2, e3, e4⟩ := frames_eq h6
        simp [setNextFrameTo, hnf] at e1 e2 e3 e4
        refine ⟨?_, h3, h4, h2, ?_, ?_, ?_, ?_, ?_⟩ <;>
          simp_all [RangeOK, Between]
      · rw [if_neg he] at h6
        obtain ⟨e1, e2, e3, e4⟩ := frames_eq h6
        simp only [setNextFrame, hnf] at e1 e2 e3 e4
        simp only [hasEndReached, hnf, areFramesChrono] at he
        simp only [Between, areFramesChrono] at *
        refine ⟨?_, h3, h4, h2, Or.inl h5, ?_, ?_, ?_, fun h => absurd h (not_lt.2 hs)⟩
        · simp_all [RangeOK]
        · simp_all
        · simp_all
        · intro _
          refine ⟨by simpa using e3, Or.inr ?_⟩
          by_cases hc : s.firstFrame ≤ s.lastFrame
          · simp [hc] at e1 e2 e3 e4 he hfr ⊢
            rw [inc_eq he (by omega)] at e4
            omega
          · simp [hc] at e1 e2 e3 e4 he hfr ⊢
            rw [dec_eq he (by omega)] at e4
            omega
  · obtain ⟨s', h1, h2, h3, h4, h5, h6⟩ := post_pingPong s hk
    refine ⟨s', h1, ?_⟩
    rcases lt_or_ge s.speed 0 with hs | hs
    · have hnf : isForward s = false := by simpa [isForward] using hs
      have hnf' : isForward (swapFL s) = false := hnf
      obtain ⟨e1, e2, e3, e4⟩ := frames_eq h6
      by_cases he : hasEndReached s = true
      · simp only [if_pos he, setNextFrame, hnf'] at e1 e2 e3 e4
        simp only [hasEndReached, hnf, areFramesChrono] at he
        simp only [Between, areFramesChrono, swapFL] at *
        refine ⟨?_, h3, h4, h2, Or.inl h5, ?_, ?_, fun h => absurd h (not_le.2 hs), ?_⟩
        · simp_all [RangeOK]; tauto
        · simp_all; omega
        · by_cases hc : s.firstFrame ≤ s.lastFrame
          · have hc' : ¬ s.lastFrame ≤ s.firstFrame := by omega
            simp [hc, hc'] at e1 e2 e3 e4 he hfr ⊢
            rw [inc_eq (m := s.lastFrame) (by omega) (by omega)] at e3
            omega
          · have hc' : s.lastFrame ≤ s.firstFrame := by omega
            simp [hc, hc'] at e1 e2 e3 e4 he hfr ⊢
            rw [dec_eq (m := s.lastFrame) (by omega) (by omega)] at e3
            omega
        · intro _; simpa using e4
      · simp only [if_neg he, setNextFrame, hnf] at e1 e2 e3 e4
        simp only [hasEndReached, hnf, areFramesChrono] at he
        simp only [Between, areFramesChrono] at *
        refine ⟨?_, h3, h4, h2, Or.inl h5, ?_, ?_, fun h => absurd h (not_le.2 hs), ?_⟩
        · simp_all [RangeOK]
        · simp_all
        · by_cases hc : s.firstFrame ≤ s.lastFrame
          · simp [hc] at e1 e2 e3 e4 he hfr ⊢
            rw [dec_eq he (by omega)] at e3
            omega
          · simp [hc] at e1 e2 e3 e4 he hfr ⊢
            rw [inc_eq he (by omega)] at e3
            omega
        · intro _; simpa using e4
    · have hnf : isForward s = true := by simpa [isForward] using hs
      have hnf' : isForward (swapFL s) = true := hnf
      obtain ⟨e1, e2, e3, e4⟩ := frames_eq h6
      by_cases he : hasEndReached s = true
      · simp only [if_pos he, setNextFrame, hnf'] at e1 e2 e3 e4
        simp only [hasEndReached, hnf, areFramesChrono] at he
        simp only [Between, areFramesChrono, swapFL] at *
        refine ⟨?_, h3, h4, h2, Or.inl h5, ?_, ?_, ?_, fun h => absurd h (not_lt.2 hs)⟩
        · simp_all [RangeOK]; tauto
        · simp_all; omega
        · simp_all; omega
        · intro _
          refine ⟨by simpa using e3, Or.inr ?_⟩
          by_cases hc : s.firstFrame ≤ s.lastFrame
          · have hc' : ¬ s.lastFrame ≤ s.firstFrame := by omega
            simp [hc, hc'] at e1 e2 e3 e4 he hfr ⊢
            rw [dec_eq (m := s.firstFrame) (by omega) (by omega)] at e4
            omega
          · have hc' : s.lastFrame ≤ s.firstFrame := by omega
            simp [hc, hc'] at e1 e2 e3 e4 he hfr ⊢
            rw [inc_eq (m := s.firstFrame) (by omega) (by omega)] at e4
            omega
      · simp only [if_neg he, setNextFrame, hnf] at e1 e2 e3 e4
        simp only [hasEndReached, hnf, areFramesChrono] at he
        simp only [Between, areFramesChrono] at *
        refine ⟨?_, h3, h4, h2, Or.inl h5, ?_, ?_, ?_, fun h => absurd h (not_lt.2 hs)⟩
        · simp_all [RangeOK]
        · simp_all
        · simp_all
        · intro _
          refine ⟨by simpa using e3, Or.inr ?_⟩
          by_cases hc : s.firstFrame ≤ s.lastFrame
          · simp [hc] at e1 e2 e3 e4 he hfr ⊢
            rw [inc_eq he (by omega)] at e4
            omega
          · simp [hc] at e1 e2 e3 e4 he hfr ⊢
            rw [dec_eq he (by omega)] at e4
            omega

end Geom.Playback
