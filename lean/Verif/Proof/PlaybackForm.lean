import Verif.Proof.PlaybackSeq

set_option linter.unusedSectionVars false
set_option linter.unnecessarySeqFocus false

/-! Closed formulas for the frame sequences. -/
set_option autoImplicit false

namespace Geom.Playback
open Spec

theorem succ_mod (n d : Nat) : (n + 1) % (d + 1) = if n % (d + 1) = d then 0 else n % (d + 1) + 1 := by
  have h : n % (d + 1) < d + 1 := Nat.mod_lt _ (by omega)
  rw [Nat.add_mod]
  split_ifs with hd
  · rw [hd]
    rcases Nat.eq_zero_or_pos d with rfl | hp
    · simp
    · rw [Nat.mod_eq_of_lt (a := 1) (by omega)]; simp
  · rcases Nat.eq_zero_or_pos d with rfl | hp
    · omega
    · rw [Nat.mod_eq_of_lt (a := 1) (by omega)]; exact Nat.mod_eq_of_lt (by omega)

theorem loopFrame_succ (f l n : Nat) :
    loopFrame f l (n + 1) =
      if f ≤ l then (if l ≤ loopFrame f l n then f else loopFrame f l n + 1)
      else (if loopFrame f l n ≤ l then f else loopFrame f l n - 1) := by
  unfold loopFrame
  split_ifs with h h1 h2
  · rw [succ_mod]; have := Nat.mod_lt n (show 0 < l - f + 1 by omega)
    rw [if_pos (by omega)]; omega
  · rw [succ_mod]; have := Nat.mod_lt n (show 0 < l - f + 1 by omega)
    rw [if_neg (by omega)]; omega
  · rw [succ_mod]; have := Nat.mod_lt n (show 0 < f - l + 1 by omega)
    rw [if_pos (by omega)]; omega
  · rw [succ_mod]; have := Nat.mod_lt n (show 0 < f - l + 1 by omega)
    rw [if_neg (by omega)]; omega

theorem loopFrame_between (f l n : Nat) : Between f l (loopFrame f l n) := by
  unfold loopFrame Between
  split_ifs with h
  · have := Nat.mod_lt n (show 0 < l - f + 1 by omega); omega
  · have := Nat.mod_lt n (show 0 < f - l + 1 by omega); omega

/-- Remainder modulo `2 d` after one more step. -/
theorem succ_mod_two (n d : Nat) (hd : 0 < d) :
    (n + 1) % (2 * d) = if n % (2 * d) = 2 * d - 1 then 0 else n % (2 * d) + 1 := by
  have := succ_mod n (2 * d - 1)
  rwa [show 2 * d - 1 + 1 = 2 * d by omega] at this

variable {K : Type} [Field K] [LinearOrder K]

theorem end_fwd (s : PB K) (hv : 0 ≤ s.speed) :
    hasEndReached s = true ↔
      if s.firstFrame ≤ s.lastFrame then s.lastFrame ≤ s.frame else s.frame ≤ s.lastFrame := by
  have : isForward s = true := by simp [isForward, hv]
  unfold hasEndReached
  rw [if_pos this]
  by_cases h : s.firstFrame ≤ s.lastFrame <;> simp [areFramesChrono, h]

theorem end_bwd (s : PB K) (hv : s.speed < 0) :
    hasEndReached s = true ↔
      if s.firstFrame ≤ s.lastFrame then s.frame ≤ s.firstFrame else s.firstFrame ≤ s.frame := by
  have : ¬ isForward s = true := by simp [isForward, hv]
  unfold hasEndReached
  rw [if_neg this]
  by_cases h : s.firstFrame ≤ s.lastFrame <;> simp [areFramesChrono, h]

theorem next_fwd (s : PB K) (hv : 0 ≤ s.speed) :
    setNextFrame s = { s with nextFrame :=
      if s.firstFrame ≤ s.lastFrame then inc s.frame else dec s.frame } := by
  have : isForward s = true := by simp [isForward, hv]
  unfold setNextFrame
  rw [if_pos this]
  by_cases h : s.firstFrame ≤ s.lastFrame <;> simp [areFramesChrono, h]

theorem next_bwd (s : PB K) (hv : s.speed < 0) :
    setNextFrame s = { s with frame :=
      if s.firstFrame ≤ s.lastFrame then dec s.frame else inc s.frame } := by
  have : ¬ isForward s = true := by simp [isForward, hv]
  unfold setNextFrame
  rw [if_neg this]
  by_cases h : s.firstFrame ≤ s.lastFrame <;> simp [areFramesChrono, h]

theorem nextTo_fwd (s : PB K) (hv : 0 ≤ s.speed) (n : Nat) :
    setNextFrameTo s n = { s with nextFrame := n } := by
  simp [setNextFrameTo, isForward, hv]

theorem nextTo_bwd (s : PB K) (hv : s.speed < 0) (n : Nat) :
    setNextFrameTo s n = { s with frame := n } := by
  simp [setNextFrameTo, isForward, hv]

/-- Loop, forward, after `n` frames. -/
def PLoop (f l : Nat) (v : K) (n : Nat) (s : PB K) : Prop :=
  s.listener.kind = .loop ∧ s.state = .playing ∧ s.speed = v ∧ s.firstFrame = f ∧
  s.lastFrame = l ∧ s.frame = loopFrame f l n ∧ s.nextFrame = loopFrame f l (n + 1)

theorem post_PLoop {f l : Nat} (hf : f < W) (hl : l < W) {v : K} (hv : 0 ≤ v) (n : Nat) (s : PB K)
    (h1 : s.listener.kind = .loop) (h2 : s.state = .playing) (h3 : s.speed = v)
    (h4 : s.firstFrame = f) (h5 : s.lastFrame = l) (h6 : s.frame = loopFrame f l n) :
    ∃ s', postNextFrame s = .ok s' ∧ PLoop f l v n s' := by
  obtain ⟨s', p1, p2, p3, p4, p5, p6⟩ := post_loop s h1
  refine ⟨s', p1, by rw [p2, h1], by rw [p5, h2], by rw [p3, h3], ?_⟩
  have hv' : 0 ≤ s.speed := by rw [h3]; exact hv
  have hfw : isForward s = true := by simp [isForward, h3, hv]
  have hbt := loopFrame_between f l n
  have hend := end_fwd s hv'
  rw [h4, h5, h6] at hend
  rw [loopFrame_succ]
  unfold Between at hbt
  by_cases he : hasEndReached s = true
  · rw [if_pos he, nextTo_fwd s hv', if_pos hfw] at p6
    obtain ⟨e1, e2, e3, e4⟩ := frames_eq p6
    have he := hend.1 he
    refine ⟨by rw [e1, h4], by rw [e2, h5], by rw [e3, h6], ?_⟩
    rw [e4]
    split_ifs at he ⊢ <;> omega
  · rw [if_neg he, next_fwd s hv'] at p6
    obtain ⟨e1, e2, e3, e4⟩ := frames_eq p6
    rw [hend] at he
    refine ⟨by rw [e1, h4], by rw [e2, h5], by rw [e3, h6], ?_⟩
    simp only [h4, h5, h6] at e4
    by_cases g1 : f ≤ l
    · simp only [g1, if_true, not_le] at he e4 ⊢
      rw [e4, inc_eq he hl, if_neg (by omega)]
    · simp only [g1, if_false, not_le] at he e4 ⊢
      rw [e4, dec_eq he (by omega), if_neg (by omega)]

theorem stepF_PLoop {f l : Nat} (hf : f < W) (hl : l < W) {v : K} (hv : 0 ≤ v) (n : Nat) (s : PB K)
    (h : PLoop f l v n s) : ∃ s', stepF s = .ok s' ∧ PLoop f l v (n + 1) s' := by
  obtain ⟨h1, h2, h3, h4, h5, h6, h7⟩ := h
  exact post_PLoop hf hl hv (n + 1) { s with frame := s.nextFrame } h1 h2 h3 h4 h5 h7

/-- Loop, backward, after `n` frame steps: the loop from the last to the first frame. -/
def PLoopB (f l : Nat) (v : K) (n : Nat) (s : PB K) : Prop :=
  s.listener.kind = .loop ∧ s.state = .playing ∧ s.speed = v ∧ s.firstFrame = f ∧
  s.lastFrame = l ∧ s.frame = loopFrame l f n ∧ (0 < n → s.nextFrame = loopFrame l f (n - 1))

theorem loopFrame_succ_back (f l n : Nat) :
    loopFrame l f (n + 1) =
      if f ≤ l then (if loopFrame l f n ≤ f then l else loopFrame l f n - 1)
      else (if f ≤ loopFrame l f n then l else loopFrame l f n + 1) := by
  rw [loopFrame_succ]
  have := loopFrame_between l f n
  unfold Between at this
  by_cases h : f ≤ l <;> by_cases h2 : l ≤ f <;> simp only [h, h2, if_true, if_false]
  · have h3 : f = l := by omega
    subst h3
    have h4 : loopFrame f f n = f := by omega
    rw [h4]; simp
  · exact absurd (by omega) h2

theorem post_PLoopB {f l : Nat} (hf : f < W) (hl : l < W) {v : K} (hv : v < 0) (n : Nat) (s : PB K)
    (h1 : s.listener.kind = .loop) (h2 : s.state = .playing) (h3 : s.speed = v)
    (h4 : s.firstFrame = f) (h5 : s.lastFrame = l) (h6 : s.frame = loopFrame l f n)
    (h7 : s.nextFrame = s.frame) :
    ∃ s', postNextFrame s = .ok s' ∧ PLoopB f l v (n + 1) s' := by
  obtain ⟨s', p1, p2, p3, p4, p5, p6⟩ := post_loop s h1
  refine ⟨s', p1, by rw [p2, h1], by rw [p5, h2], by rw [p3, h3], ?_⟩
  have hv' : s.speed < 0 := by rw [h3]; exact hv
  have hfw : ¬ isForward s = true := by simp [isForward, h3, hv]
  have hbt := loopFrame_between l f n
  have hend := end_bwd s hv'
  rw [h4, h5, h6] at hend
  rw [loopFrame_succ_back, Nat.add_sub_cancel]
  unfold Between at hbt
  by_cases he : hasEndReached s = true
  · rw [if_pos he, nextTo_bwd _ hv', if_neg hfw] at p6
    obtain ⟨e1, e2, e3, e4⟩ := frames_eq p6
    have he := hend.1 he
    refine ⟨by rw [e1, h4], by rw [e2, h5], ?_, fun _ => by rw [e4]; exact h7.trans h6⟩
    rw [e3]
    split_ifs at he ⊢ <;> omega
  · rw [if_neg he, next_bwd _ hv'] at p6
    obtain ⟨e1, e2, e3, e4⟩ := frames_eq p6
    rw [hend] at he
    refine ⟨by rw [e1, h4], by rw [e2, h5], ?_, fun _ => by rw [e4]; exact h7.trans h6⟩
    simp only [h4, h5, h6] at e3
    by_cases g1 : f ≤ l
    · simp only [g1, if_true, not_le] at he e3 ⊢
      rw [e3, dec_eq he (by omega), if_neg (by omega)]
    · simp only [g1, if_false, not_le] at he e3 ⊢
      rw [e3, inc_eq he (by omega), if_neg (by omega)]

theorem stepB_PLoopB {f l : Nat} (hf : f < W) (hl : l < W) {v : K} (hv : v < 0) (n : Nat) (s : PB K)
    (h : PLoopB f l v n s) : ∃ s', stepB s = .ok s' ∧ PLoopB f l v (n + 1) s' := by
  obtain ⟨h1, h2, h3, h4, h5, h6, h7⟩ := h
  exact post_PLoopB hf hl hv n { s with nextFrame := s.frame } h1 h2 h3 h4 h5 h6 rfl

/-- Direction of a ping-pong movement after `n` frames. -/
def PPing (f l : Nat) (v : K) (n : Nat) (s : PB K) : Prop :=
  s.listener.kind = .pingPong ∧ s.state = .playing ∧ s.speed = v ∧
  (if n % (2 * (max f l - min f l)) < max f l - min f l then s.firstFrame = f ∧ s.lastFrame = l
   else s.firstFrame = l ∧ s.lastFrame = f) ∧
  s.frame = pingPongFrame f l n ∧ s.nextFrame = pingPongFrame f l (n + 1)

/-- State before the listener is called at frame `n`: the direction is the one of the
previous frame. -/
theorem post_PPing {f l : Nat} (hf : f < W) (hl : l < W) (hne : f ≠ l) {v : K} (hv : 0 ≤ v)
    (n : Nat) (s : PB K)
    (h1 : s.listener.kind = .pingPong) (h2 : s.state = .playing) (h3 : s.speed = v)
    (h4 : if n = 0 ∨ (n - 1) % (2 * (max f l - min f l)) < max f l - min f l
      then s.firstFrame = f ∧ s.lastFrame = l
      else s.firstFrame = l ∧ s.lastFrame = f)
    (h6 : s.frame = pingPongFrame f l n) :
    ∃ s', postNextFrame s = .ok s' ∧ PPing f l v n s' := by
  obtain ⟨s', p1, p2, p3, p4, p5, p6⟩ := post_pingPong s h1
  refine ⟨s', p1, by rw [p2, h1], by rw [p5, h2], by rw [p3, h3], ?_⟩
  have hv' : 0 ≤ s.speed := by rw [h3]; exact hv
  have hendw := end_fwd s hv'
  set d := max f l - min f l with hd
  have hdp : 0 < d := by omega
  have hm := Nat.mod_lt n (show 0 < 2 * d by omega)
  have hs := succ_mod_two n d hdp
  have hprev : 0 < n → n % (2 * d) =
      if (n - 1) % (2 * d) = 2 * d - 1 then 0 else (n - 1) % (2 * d) + 1 := by
    intro hn
    have := succ_mod_two (n - 1) d hdp
    rwa [show n - 1 + 1 = n by omega] at this
  have hm1 := Nat.mod_lt (n - 1) (show 0 < 2 * d by omega)
  have hz : n = 0 → n % (2 * d) = 0 := by rintro rfl; simp
  obtain ⟨e1, e2, e3, e4⟩ := frames_eq p6
  set m := n % (2 * d) with hmd
  set m' := (n - 1) % (2 * d) with hmd'
  unfold pingPongFrame pingPongOffset at h6 ⊢
  by_cases hc : f ≤ l
  · have hdl : l - f = d := by omega
    rw [if_pos hc, hdl] at h6
    rw [if_pos hc, if_pos hc, hdl, hs]
    rw [← hmd] at h6 ⊢
    -- orientation before the call
    by_cases ho : n = 0 ∨ m' < d
    · rw [if_pos ho] at h4
      obtain ⟨h4, h5⟩ := h4
      have hmle : m ≤ d := by
        rcases ho with ho | ho
        · have := hz ho; omega
        · rcases Nat.eq_zero_or_pos n with h0 | h0
          · have := hz h0; omega
          · have := hprev h0; split_ifs at this <;> omega
      by_cases he : m = d
      · have hend : hasEndReached s = true := by
          rw [hendw, h4, h5, h6]; split_ifs <;> omega
        rw [if_pos hend] at e1 e2 e3 e4
        rw [next_fwd (swapFL s) hv'] at e1 e2 e3 e4
        simp only [swapFL] at e1 e2 e3 e4
        have : ¬ l ≤ f := by omega
        simp [h4, h5, h6, this, hmle] at e1 e2 e3 e4
        rw [dec_eq (m := f) (by omega) (by omega)] at e4
        refine ⟨?_, ?_, ?_⟩
        · rw [if_neg (by omega)]; exact ⟨e1, e2⟩
        · rw [e3, if_pos hmle]
        · rw [e4]; split_ifs <;> omega
      · have hend : ¬ hasEndReached s = true := by
          rw [hendw, h4, h5, h6]; split_ifs <;> omega
        rw [if_neg hend] at e1 e2 e3 e4
        rw [next_fwd s hv'] at e1 e2 e3 e4
        simp [h4, h5, h6, hc, hmle] at e1 e2 e3 e4
        rw [inc_eq (m := l) (by omega) (by omega)] at e4
        refine ⟨?_, ?_, ?_⟩
        · rw [if_pos (by omega)]; exact ⟨e1, e2⟩
        · rw [e3, if_pos hmle]
        · rw [e4]; split_ifs <;> omega
    · rw [if_neg ho] at h4
      obtain ⟨h4, h5⟩ := h4
      push Not at ho
      have hpr := hprev (by omega)
      have hlf : ¬ l ≤ f := by omega
      by_cases he : m = 0
      · have hend : hasEndReached s = true := by
          rw [hendw, h4, h5, h6]; split_ifs <;> omega
        rw [if_pos hend] at e1 e2 e3 e4
        rw [next_fwd (swapFL s) hv'] at e1 e2 e3 e4
        simp only [swapFL] at e1 e2 e3 e4
        simp [h4, h5, h6, hc, he] at e1 e2 e3 e4
        rw [inc_eq (m := l) (by omega) (by omega)] at e4
        refine ⟨?_, ?_, ?_⟩
        · rw [if_pos (by omega)]; exact ⟨e1, e2⟩
        · rw [e3, he]; simp
        · rw [e4]; split_ifs <;> omega
      · have hmd2 : d < m := by split_ifs at hpr <;> omega
        have hml : ¬ m ≤ d := by omega
        have hend : ¬ hasEndReached s = true := by
          rw [hendw, h4, h5, h6]; split_ifs <;> omega
        rw [if_neg hend] at e1 e2 e3 e4
        rw [next_fwd s hv'] at e1 e2 e3 e4
        simp [h4, h5, h6, hlf, hml] at e1 e2 e3 e4
        rw [dec_eq (m := f) (by omega) (by omega)] at e4
        refine ⟨?_, ?_, ?_⟩
        · rw [if_neg (by omega)]; exact ⟨e1, e2⟩
        · rw [e3, if_neg hml]
        · rw [e4]; split_ifs <;> omega
  · have hdl : f - l = d := by omega
    have hlf : l ≤ f := by omega
    rw [if_neg hc, hdl] at h6
    rw [if_neg hc, if_neg hc, hdl, hs]
    rw [← hmd] at h6 ⊢
    by_cases ho : n = 0 ∨ m' < d
    · rw [if_pos ho] at h4
      obtain ⟨h4, h5⟩ := h4
      have hmle : m ≤ d := by
        rcases ho with ho | ho
        · have := hz ho; omega
        · rcases Nat.eq_zero_or_pos n with h0 | h0
          · have := hz h0; omega
          · have := hprev h0; split_ifs at this <;> omega
      by_cases he : m = d
      · have hend : hasEndReached s = true := by
          rw [hendw, h4, h5, h6]; split_ifs <;> omega
        rw [if_pos hend] at e1 e2 e3 e4
        rw [next_fwd (swapFL s) hv'] at e1 e2 e3 e4
        simp only [swapFL] at e1 e2 e3 e4
        simp [h4, h5, h6, hlf, hmle] at e1 e2 e3 e4
        rw [inc_eq (m := f) (by omega) (by omega)] at e4
        refine ⟨?_, ?_, ?_⟩
        · rw [if_neg (by omega)]; exact ⟨e1, e2⟩
        · rw [e3, if_pos hmle]
        · rw [e4]; split_ifs <;> omega
      · have hend : ¬ hasEndReached s = true := by
          rw [hendw, h4, h5, h6]; split_ifs <;> omega
        rw [if_neg hend] at e1 e2 e3 e4
        rw [next_fwd s hv'] at e1 e2 e3 e4
        simp [h4, h5, h6, hc, hmle] at e1 e2 e3 e4
        rw [dec_eq (m := l) (by omega) (by omega)] at e4
        refine ⟨?_, ?_, ?_⟩
        · rw [if_pos (by omega)]; exact ⟨e1, e2⟩
        · rw [e3, if_pos hmle]
        · rw [e4]; split_ifs <;> omega
    · rw [if_neg ho] at h4
      obtain ⟨h4, h5⟩ := h4
      push Not at ho
      have hpr := hprev (by omega)
      by_cases he : m = 0
      · have hend : hasEndReached s = true := by
          rw [hendw, h4, h5, h6]; split_ifs <;> omega
        rw [if_pos hend] at e1 e2 e3 e4
        rw [next_fwd (swapFL s) hv'] at e1 e2 e3 e4
        simp only [swapFL] at e1 e2 e3 e4
        simp [h4, h5, h6, hc, he] at e1 e2 e3 e4
        rw [dec_eq (m := l) (by omega) (by omega)] at e4
        refine ⟨?_, ?_, ?_⟩
        · rw [if_pos (by omega)]; exact ⟨e1, e2⟩
        · rw [e3, he]; simp
        · rw [e4]; split_ifs <;> omega
      · have hmd2 : d < m := by split_ifs at hpr <;> omega
        have hml : ¬ m ≤ d := by omega
        have hend : ¬ hasEndReached s = true := by
          rw [hendw, h4, h5, h6]; split_ifs <;> omega
        rw [if_neg hend] at e1 e2 e3 e4
        rw [next_fwd s hv'] at e1 e2 e3 e4
        simp [h4, h5, h6, hlf, hml] at e1 e2 e3 e4
        rw [inc_eq (m := f) (by omega) (by omega)] at e4
        refine ⟨?_, ?_, ?_⟩
        · rw [if_neg (by omega)]; exact ⟨e1, e2⟩
        · rw [e3, if_neg hml]
        · rw [e4]; split_ifs <;> omega

theorem stepF_PPing {f l : Nat} (hf : f < W) (hl : l < W) (hne : f ≠ l) {v : K} (hv : 0 ≤ v)
    (n : Nat) (s : PB K)
    (h : PPing f l v n s) : ∃ s', stepF s = .ok s' ∧ PPing f l v (n + 1) s' := by
  obtain ⟨h1, h2, h3, h4, h6, h7⟩ := h
  refine post_PPing hf hl hne hv (n + 1) { s with frame := s.nextFrame } h1 h2 h3 ?_ h7
  simp only [Nat.add_sub_cancel, Nat.succ_ne_zero, false_or]
  exact h4

/-- List loop, forward, after `n` frames (`f` is the frame shown at the start). -/
def PList (fs : List Nat) (f : Nat) (v : K) (n : Nat) (s : PB K) : Prop :=
  s.listener.kind = .listLoop fs ((n + 1) % fs.length) ∧ s.state = .playing ∧ s.speed = v ∧
  s.frame = (if n = 0 then f else fs.getD (n % fs.length) 0) ∧
  s.nextFrame = fs.getD ((n + 1) % fs.length) 0

theorem post_PList {fs : List Nat} (hlen : 2 ≤ fs.length) {f : Nat} {v : K} (hv : 0 ≤ v)
    (n : Nat) (s : PB K)
    (h1 : s.listener.kind = .listLoop fs (n % fs.length)) (h2 : s.state = .playing)
    (h3 : s.speed = v)
    (h4 : s.frame = (if n = 0 then f else fs.getD (n % fs.length) 0)) :
    ∃ s', postNextFrame s = .ok s' ∧ PList fs f v n s' := by
  have hfw : isForward s = true := by simp [isForward, h3, hv]
  have hm := Nat.mod_lt n (show 0 < fs.length by omega)
  have hit : listIterator (isForward s) fs.length (n % fs.length) = (n + 1) % fs.length := by
    have := succ_mod n (fs.length - 1)
    rw [show fs.length - 1 + 1 = fs.length by omega] at this
    rw [this, hfw]
    simp only [listIterator, if_true]
    split_ifs <;> omega
  have hm1 := Nat.mod_lt (n + 1) (show 0 < fs.length by omega)
  obtain ⟨s', p1, p2, p3, p4, p5, p6⟩ := post_listLoop s fs _ h1 hlen (by rw [hit]; exact hm1)
  obtain ⟨e1, e2, e3, e4⟩ := frames_eq p6
  simp only [setNextFrameTo, hfw, if_true] at e3 e4
  refine ⟨s', p1, by rw [p2]; simp [hit], by rw [p5, h2], by rw [p3, h3], by rw [e3, h4], ?_⟩
  rw [hfw] at hit
  rw [e4, List.getD, List.getElem?_eq_getElem hm1]
  simp only [Option.getD_some, hit]

theorem stepF_PList {fs : List Nat} (hlen : 2 ≤ fs.length) {f : Nat} {v : K} (hv : 0 ≤ v)
    (n : Nat) (s : PB K) (h : PList fs f v n s) :
    ∃ s', stepF s = .ok s' ∧ PList fs f v (n + 1) s' := by
  obtain ⟨h1, h2, h3, h4, h5⟩ := h
  exact post_PList hlen hv (n + 1) { s with frame := s.nextFrame } h1 h2 h3 (by simpa using h5)

/-- Ping-pong over a single frame: runs away. -/
def PSingle (f : Nat) (v : K) (n : Nat) (s : PB K) : Prop :=
  s.listener.kind = .pingPong ∧ s.state = .playing ∧ s.speed = v ∧
  s.firstFrame = f ∧ s.lastFrame = f ∧ s.frame = (f + n) % W ∧ s.nextFrame = (f + n + 1) % W

theorem post_PSingle {f : Nat} {v : K} (hv : 0 ≤ v) (n : Nat) (s : PB K)
    (h1 : s.listener.kind = .pingPong) (h2 : s.state = .playing) (h3 : s.speed = v)
    (h4 : s.firstFrame = f) (h5 : s.lastFrame = f) (h6 : s.frame = (f + n) % W) :
    ∃ s', postNextFrame s = .ok s' ∧ PSingle f v n s' := by
  obtain ⟨s', p1, p2, p3, p4, p5, p6⟩ := post_pingPong s h1
  have hsw : swapFL s = s := by cases s; simp_all [swapFL]
  rw [hsw, ite_self, next_fwd s (by rw [h3]; exact hv)] at p6
  obtain ⟨e1, e2, e3, e4⟩ := frames_eq p6
  simp only [h4, h5, le_refl, if_true, h6] at e1 e2 e3 e4
  refine ⟨s', p1, by rw [p2, h1], by rw [p5, h2], by rw [p3, h3], e1, e2, e3, ?_⟩
  rw [e4, inc]; simp

theorem stepF_PSingle {f : Nat} {v : K} (hv : 0 ≤ v) (n : Nat) (s : PB K) (h : PSingle f v n s) :
    ∃ s', stepF s = .ok s' ∧ PSingle f v (n + 1) s' := by
  obtain ⟨h1, h2, h3, h4, h5, h6, h7⟩ := h
  exact post_PSingle hv (n + 1) { s with frame := s.nextFrame } h1 h2 h3 h4 h5 h7

/-- One-shot, forward, still playing after `n` frames. -/
def POne (f l : Nat) (v : K) (n : Nat) (s : PB K) : Prop :=
  s.listener.kind = .oneShot ∧ s.speed = v ∧ s.firstFrame = f ∧ s.lastFrame = l ∧
  s.frame = oneShotFrame f l n ∧
  (if oneShotFrame f l n = l then s.state = .stopped ∧ (0 < n → s.nextFrame = l)
   else s.state = .playing ∧ s.nextFrame = oneShotFrame f l (n + 1))

theorem post_POne {f l : Nat} (hf : f < W) (hl : l < W) {v : K} (hv : 0 ≤ v) (n : Nat) (s : PB K)
    (h1 : s.listener.kind = .oneShot)
    (h2 : if oneShotFrame f l n = l then (0 < n → s.nextFrame = l) else s.state = .playing)
    (h3 : s.speed = v)
    (h4 : s.firstFrame = f) (h5 : s.lastFrame = l) (h6 : s.frame = oneShotFrame f l n) :
    ∃ s', postNextFrame s = .ok s' ∧ POne f l v n s' := by
  obtain ⟨s', p1, p2, p3, p4, p5⟩ := post_oneShot s h1
  refine ⟨s', p1, by rw [p2, h1], by rw [p3, h3], ?_⟩
  have hv' : 0 ≤ s.speed := by rw [h3]; exact hv
  have hend : hasEndReached s = true ↔ oneShotFrame f l n = l := by
    rw [end_fwd s hv', h4, h5, h6]
    unfold oneShotFrame
    by_cases hc : f ≤ l
    · simp only [hc, if_true]; omega
    · simp only [hc, if_false]; omega
  by_cases he : oneShotFrame f l n = l
  · rw [if_pos (hend.2 he)] at p5
    rw [if_pos he] at h2 ⊢
    obtain ⟨e1, e2, e3, e4⟩ := frames_eq p5.2
    exact ⟨by rw [e1, h4], by rw [e2, h5], by rw [e3, h6], p5.1, fun h => by rw [e4]; exact h2 h⟩
  · rw [if_neg (fun h => he (hend.1 h))] at p5
    rw [if_neg he] at h2 ⊢
    obtain ⟨e1, e2, e3, e4⟩ := frames_eq p5.2
    rw [next_fwd s hv'] at e1 e2 e3 e4
    simp only [h4, h5, h6] at e1 e2 e3 e4
    refine ⟨e1, e2, e3, by rw [p5.1, h2], ?_⟩
    rw [e4]
    unfold oneShotFrame at he ⊢
    by_cases hc : f ≤ l
    · simp only [hc, if_true] at he ⊢
      rw [inc_eq (m := l) (by omega) hl]; omega
    · simp only [hc, if_false] at he ⊢
      rw [dec_eq (m := l) (by omega) (by omega)]; omega

theorem stepF_POne {f l : Nat} (hf : f < W) (hl : l < W) {v : K} (hv : 0 ≤ v) (n : Nat) (s : PB K)
    (hn : 0 < n ∨ s.state = .playing) (h : POne f l v n s) :
    ∃ s', stepF s = .ok s' ∧ POne f l v (n + 1) s' := by
  obtain ⟨h1, h3, h4, h5, h6, h7⟩ := h
  have hmono : oneShotFrame f l n = l → oneShotFrame f l (n + 1) = l := by
    unfold oneShotFrame; split_ifs <;> omega
  refine post_POne hf hl hv (n + 1) { s with frame := s.nextFrame } h1 ?_ h3 h4 h5 ?_
  · by_cases he : oneShotFrame f l n = l
    · rw [if_pos he] at h7
      rw [if_pos (hmono he)]
      intro _
      rcases hn with hn | hn
      · exact h7.2 hn
      · rw [h7.1] at hn; simp at hn
    · rw [if_neg he] at h7
      split_ifs with he2
      · intro _; show s.nextFrame = l; rw [h7.2, he2]
      · exact h7.1
  · show s.nextFrame = _
    by_cases he : oneShotFrame f l n = l
    · rw [if_pos he] at h7
      rw [hmono he]
      rcases hn with hn | hn
      · exact h7.2 hn
      · rw [h7.1] at hn; simp at hn
    · rw [if_neg he] at h7; exact h7.2

/-! Ping-pong, backward: the mirrored forward movement. -/

/-- Exchange the ends of the range and negate the speed. -/
def mir (s : PB K) : PB K :=
  { s with firstFrame := s.lastFrame, lastFrame := s.firstFrame, speed := -s.speed }

/-- Ping-pong, backward, after `n` frame steps. -/
def PPingB (f l : Nat) (v : K) (n : Nat) (s : PB K) : Prop :=
  s.listener.kind = .pingPong ∧ s.state = .playing ∧ s.speed = v ∧
  (if (max l f - min l f + n) % (2 * (max l f - min l f)) < max l f - min l f
   then s.lastFrame = l ∧ s.firstFrame = f else s.lastFrame = f ∧ s.firstFrame = l) ∧
  s.frame = pingPongFrame l f (max l f - min l f + n + 1) ∧
  (0 < n → s.nextFrame = pingPongFrame l f (max l f - min l f + n))

theorem pingPong_shift (f l n : Nat) (h : f ≠ l) :
    pingPongFrame l f (max l f - min l f + n) = pingPongFrame f l n := by
  unfold pingPongFrame pingPongOffset
  rcases Nat.lt_or_gt_of_ne h with h | h
  · rw [if_neg (show ¬ l ≤ f by omega), if_pos (show f ≤ l by omega)]
    set d := l - f with hd
    rw [show max l f - min l f + n = n + d by omega]
    have hm := Nat.mod_lt n (show 0 < 2 * d by omega)
    have : (n + d) % (2 * d) = if n % (2 * d) < d then n % (2 * d) + d else n % (2 * d) - d := by
      rw [Nat.add_mod, Nat.mod_eq_of_lt (a := d) (by omega)]
      split_ifs with h2
      · exact Nat.mod_eq_of_lt (by omega)
      · rw [Nat.mod_eq_sub_mod (by omega), Nat.mod_eq_of_lt (by omega)]; omega
    rw [this]
    by_cases g1 : n % (2 * d) < d
    · simp only [g1, if_true]; split_ifs <;> omega
    · simp only [g1, if_false]; split_ifs <;> omega
  · rw [if_pos (show l ≤ f by omega), if_neg (show ¬ f ≤ l by omega)]
    set d := f - l with hd
    rw [show max l f - min l f + n = n + d by omega]
    have hm := Nat.mod_lt n (show 0 < 2 * d by omega)
    have : (n + d) % (2 * d) = if n % (2 * d) < d then n % (2 * d) + d else n % (2 * d) - d := by
      rw [Nat.add_mod, Nat.mod_eq_of_lt (a := d) (by omega)]
      split_ifs with h2
      · exact Nat.mod_eq_of_lt (by omega)
      · rw [Nat.mod_eq_sub_mod (by omega), Nat.mod_eq_of_lt (by omega)]; omega
    rw [this]
    by_cases g1 : n % (2 * d) < d
    · simp only [g1, if_true]; split_ifs <;> omega
    · simp only [g1, if_false]; split_ifs <;> omega

variable [IsStrictOrderedRing K]

theorem post_mir (s : PB K) (hk : s.listener.kind = .pingPong) (hv : s.speed < 0)
    (hne : s.firstFrame ≠ s.lastFrame) :
    ∃ s' m', postNextFrame s = .ok s' ∧ postNextFrame (mir s) = .ok m' ∧
      s'.listener = s.listener ∧ s'.state = s.state ∧ s'.speed = s.speed ∧
      s'.firstFrame = m'.lastFrame ∧ s'.lastFrame = m'.firstFrame ∧ s'.frame = m'.nextFrame ∧
      s'.nextFrame = s.nextFrame := by
  obtain ⟨s', p1, p2, p3, p4, p5, p6⟩ := post_pingPong s hk
  obtain ⟨m', q1, q2, q3, q4, q5, q6⟩ := post_pingPong (mir s) hk
  have hvm : 0 ≤ (mir s).speed := by simp only [mir]; linarith
  refine ⟨s', m', p1, q1, p2, p5, p3, ?_⟩
  have hend : hasEndReached s = true ↔ hasEndReached (mir s) = true := by
    rw [end_bwd s hv, end_fwd (mir s) hvm]
    show _ ↔ if s.lastFrame ≤ s.firstFrame then s.firstFrame ≤ s.frame else s.frame ≤ s.firstFrame
    rcases Nat.lt_or_gt_of_ne hne with h | h
    · rw [if_pos h.le, if_neg (by omega)]
    · rw [if_neg (by omega), if_pos h.le]
  by_cases he : hasEndReached s = true
  · rw [if_pos he, next_bwd (swapFL s) hv] at p6
    rw [if_pos (hend.1 he), next_fwd (swapFL (mir s)) hvm] at q6
    obtain ⟨e1, e2, e3, e4⟩ := frames_eq p6
    obtain ⟨g1, g2, g3, g4⟩ := frames_eq q6
    have e3 : s'.frame = if s.lastFrame ≤ s.firstFrame then dec s.frame else inc s.frame := e3
    have g4 : m'.nextFrame = if s.firstFrame ≤ s.lastFrame then inc s.frame else dec s.frame := g4
    refine ⟨by rw [e1, g2]; rfl, by rw [e2, g1]; rfl, ?_, e4⟩
    rw [e3, g4]
    rcases Nat.lt_or_gt_of_ne hne with h | h
    · rw [if_neg (show ¬ s.lastFrame ≤ s.firstFrame by omega), if_pos h.le]
    · rw [if_pos (show s.lastFrame ≤ s.firstFrame from h.le), if_neg (by omega)]
  · rw [if_neg he, next_bwd s hv] at p6
    rw [if_neg (fun h => he (hend.2 h)), next_fwd (mir s) hvm] at q6
    obtain ⟨e1, e2, e3, e4⟩ := frames_eq p6
    obtain ⟨g1, g2, g3, g4⟩ := frames_eq q6
    have e3 : s'.frame = if s.firstFrame ≤ s.lastFrame then dec s.frame else inc s.frame := e3
    have g4 : m'.nextFrame = if s.lastFrame ≤ s.firstFrame then inc s.frame else dec s.frame := g4
    refine ⟨by rw [e1, g2]; rfl, by rw [e2, g1]; rfl, ?_, e4⟩
    rw [e3, g4]
    rcases Nat.lt_or_gt_of_ne hne with h | h
    · rw [if_pos h.le, if_neg (show ¬ s.lastFrame ≤ s.firstFrame by omega)]
    · rw [if_neg (show ¬ s.firstFrame ≤ s.lastFrame by omega), if_pos h.le]

theorem post_PPingB {f l : Nat} (hf : f < W) (hl : l < W) (hne : f ≠ l) {v : K} (hv : v < 0)
    (n : Nat) (s : PB K)
    (h1 : s.listener.kind = .pingPong) (h2 : s.state = .playing) (h3 : s.speed = v)
    (h4 : if (max l f - min l f + n - 1) % (2 * (max l f - min l f)) < max l f - min l f
      then s.lastFrame = l ∧ s.firstFrame = f
      else s.lastFrame = f ∧ s.firstFrame = l)
    (h6 : s.frame = pingPongFrame l f (max l f - min l f + n))
    (h7 : 0 < n → s.nextFrame = s.frame) :
    ∃ s', postNextFrame s = .ok s' ∧ PPingB f l v n s' := by
  have hd : s.firstFrame ≠ s.lastFrame := by split_ifs at h4 <;> omega
  obtain ⟨s', m', p1, q1, p2, p3, p4, p5, p6, p7, p8⟩ :=
    post_mir s h1 (by rw [h3]; exact hv) hd
  obtain ⟨m'', r1, r2⟩ := post_PPing hl hf (Ne.symm hne) (v := -v) (by linarith)
    (max l f - min l f + n) (mir s) h1 h2 (by simp [mir, h3]) (by
      have : ¬ max l f - min l f + n = 0 := by omega
      simp only [this, false_or]
      exact h4) h6
  rw [q1] at r1; simp only [Res.ok.injEq] at r1; subst r1
  obtain ⟨-, -, -, r4, r5, r6⟩ := r2
  refine ⟨s', p1, by rw [p2, h1], by rw [p3, h2], by rw [p4, h3], ?_, by rw [p7, r6], fun h => ?_⟩
  · rw [p5, p6]; exact r4
  · rw [p8, h7 h, h6]

theorem stepB_PPingB {f l : Nat} (hf : f < W) (hl : l < W) (hne : f ≠ l) {v : K} (hv : v < 0)
    (n : Nat) (s : PB K)
    (h : PPingB f l v n s) : ∃ s', stepB s = .ok s' ∧ PPingB f l v (n + 1) s' := by
  obtain ⟨h1, h2, h3, h4, h6, h7⟩ := h
  refine post_PPingB hf hl hne hv (n + 1) { s with nextFrame := s.frame } h1 h2 h3 ?_ h6 (fun _ => rfl)
  rw [show max l f - min l f + (n + 1) - 1 = max l f - min l f + n by omega]
  exact h4

end Geom.Playback
