import Verif.Proof.PlaybackHist

set_option linter.unusedSectionVars false

set_option autoImplicit false

namespace Geom.Playback
open Spec

variable {K : Type} [Field K] [LinearOrder K]

/-- `Play` is called for a range below 2^64 with a one-shot, loop or ping-pong
listener; a ping-pong range has two different ends. -/
def RangeArg (s : PB K) (a : LArg) (f l : Nat) : Prop :=
  f < W ∧ l < W ∧
  match (pickListener s.listener a).kind with
  | .oneShot => True
  | .loop => True
  | .pingPong => f ≠ l
  | _ => False

/-- Calls which do not change the sign of the speed between two calls of `Play`. -/
def SameDirection (s : PB K) : Op K → Prop
  | .play f l _ a => RangeArg s a f l
  | .play3 f l a => RangeArg s a f l
  | .play1 a => RangeArg s a s.firstFrame s.lastFrame
  | .setSpeed v => 0 ≤ v ↔ 0 ≤ s.speed
  | _ => True

/-- Calls where each playback is started with a non-negative speed; afterwards the
speed may be changed arbitrarily. -/
def StartsForward (s : PB K) : Op K → Prop
  | .play f l v a => RangeArg s a f l ∧ 0 ≤ v
  | .play3 f l a => RangeArg s a f l ∧ 0 ≤ s.speed
  | .play1 a => RangeArg s a s.firstFrame s.lastFrame ∧ 0 ≤ s.speed
  | _ => True

def InvA (s : PB K) : Prop :=
  RangeOK s ∧ Between s.firstFrame s.lastFrame s.frame ∧
  (0 ≤ s.speed → s.state ≠ .stopped → Between s.firstFrame s.lastFrame s.nextFrame)

def InvB (s : PB K) : Prop :=
  RangeOK s ∧ Between s.firstFrame s.lastFrame s.frame ∧
  (s.state ≠ .stopped → Between s.firstFrame s.lastFrame s.nextFrame)

/-- Both frames are in range. -/
def InvC (s : PB K) : Prop :=
  RangeOK s ∧ Between s.firstFrame s.lastFrame s.frame ∧
  Between s.firstFrame s.lastFrame s.nextFrame

theorem stepF_invC (s : PB K) (hv : 0 ≤ s.speed) (h : InvC s) : ∃ s', stepF s = .ok s' ∧ InvC s' := by
  obtain ⟨h1, h2, h3⟩ := h
  obtain ⟨s', p1, p2, p3, p4, p5, p6, p7, p8, p9, p10⟩ :=
    post_range { s with frame := s.nextFrame } h1 h3
  refine ⟨s', p1, p2, p8, ?_⟩
  obtain ⟨q1, q2 | q2⟩ := p9 hv
  · rw [q2.2]; exact (p7 _).2 h3
  · exact q2

theorem stepB_invC (s : PB K) (hv : s.speed < 0) (h : RangeOK s)
    (hb : Between s.firstFrame s.lastFrame s.frame) : ∃ s', stepB s = .ok s' ∧ InvC s' := by
  obtain ⟨s', p1, p2, p3, p4, p5, p6, p7, p8, p9, p10⟩ :=
    post_range { s with nextFrame := s.frame } h hb
  refine ⟨s', p1, p2, p8, ?_⟩
  rw [p10 hv]
  exact (p7 _).2 hb

theorem rangeOK_playStart {s : PB K} {f l : Nat} {v : K} {a : LArg} (h : RangeArg s a f l) :
    RangeOK (playStart s f l v a) := by
  obtain ⟨h1, h2, h3⟩ := h
  refine ⟨?_, h1, h2⟩
  have hk : ((playStart s f l v a).listener.kind = (pickListener s.listener a).kind) := by
    cases a with
    | null => rfl
    | other l => rfl
    | same =>
      simp only [playStart, pickListener] at *
      rcases stop_kind s with h | ⟨fs, it, h, _⟩
      · exact h
      · rw [h] at h3; exact h3.elim
  rw [hk]
  revert h3
  cases hq : (pickListener s.listener a).kind <;> simp [playStart]

theorem play_range {s : PB K} {f l : Nat} {v : K} {a : LArg} (h : RangeArg s a f l) :
    ∃ s', play s f l v a = .ok s' ∧ InvA s' ∧ (0 ≤ v → InvB s') := by
  rw [play_eq]
  have hb : Between f l f := by unfold Between; omega
  obtain ⟨s', p1, p2, p3, p4, p5, p6, p7, p8, p9, p10⟩ :=
    post_range (playStart s f l v a) (rangeOK_playStart h) hb
  have key : 0 ≤ v → s'.state ≠ .stopped → Between s'.firstFrame s'.lastFrame s'.nextFrame := by
    intro hv hs
    obtain ⟨q1, q2 | q2⟩ := p9 hv
    · exact absurd q2.1 hs
    · exact q2
  refine ⟨s', p1, ⟨p2, p8, ?_⟩, fun hv => ⟨p2, p8, key hv⟩⟩
  intro hv
  rw [p3] at hv
  exact key hv

theorem RangeOK_stop {s : PB K} (h : RangeOK s) : RangeOK (stop s) := by
  obtain ⟨e1, e2, e3, e4⟩ := frames_eq (stop_frames s)
  rcases stop_kind s with hk | ⟨fs, it, hk, _⟩
  · unfold RangeOK at *; rw [hk, e1, e2]; exact h
  · unfold RangeOK at h; rw [hk] at h; simp at h

variable [IsStrictOrderedRing K] [FloorRing K]

theorem update_InvC {s : PB K} (dt : K) (hv : 0 ≤ s.speed) (h : InvC s) :
    ∃ s', update s dt = .ok s' ∧ InvC s' ∧ s'.speed = s.speed := by
  obtain ⟨s', h1, h2⟩ := update_ok (fun s => InvC s ∧ 0 ≤ s.speed) (fun s x hi => hi)
    (fun s hv hi => by
      obtain ⟨s', h1, h2⟩ := stepF_invC s hv hi.1
      exact ⟨s', h1, h2, by rw [stepF_speed h1]; exact hi.2⟩)
    (fun s hv hi => absurd hi.2 (not_le.2 hv)) dt (s := s) ⟨h, hv⟩
  refine ⟨s', h1, h2.1, ?_⟩
  exact update_inv (fun t => t.speed = s.speed) (fun s x hi => hi)
    (fun s s' _ hi hr => by rw [stepF_speed hr]; exact hi)
    (fun s s' _ hi hr => by rw [stepB_speed hr]; exact hi) (s := s) rfl h1

theorem update_back {s : PB K} (dt : K) (hv : s.speed < 0) (h : RangeOK s)
    (hb : Between s.firstFrame s.lastFrame s.frame) :
    ∃ s', update s dt = .ok s' ∧ RangeOK s' ∧ Between s'.firstFrame s'.lastFrame s'.frame ∧
      s'.speed = s.speed ∧
      (Between s.firstFrame s.lastFrame s.nextFrame →
        Between s'.firstFrame s'.lastFrame s'.nextFrame) := by
  obtain ⟨s', h1, h2⟩ := update_ok
    (fun t => RangeOK t ∧ Between t.firstFrame t.lastFrame t.frame ∧ t.speed < 0 ∧
      (Between s.firstFrame s.lastFrame s.nextFrame →
        Between t.firstFrame t.lastFrame t.nextFrame))
    (fun s x hi => hi)
    (fun s hv hi => absurd hv (not_le.2 hi.2.2.1))
    (fun s hv hi => by
      obtain ⟨s', h1, h2⟩ := stepB_invC s hv hi.1 hi.2.1
      exact ⟨s', h1, h2.1, h2.2.1, by rw [stepB_speed h1]; exact hv, fun _ => h2.2.2⟩)
    dt (s := s) ⟨h, hb, hv, id⟩
  refine ⟨s', h1, h2.1, h2.2.1, ?_, h2.2.2.2⟩
  exact update_inv (fun t => t.speed = s.speed) (fun s x hi => hi)
    (fun s s' _ hi hr => by rw [stepF_speed hr]; exact hi)
    (fun s s' _ hi hr => by rw [stepB_speed hr]; exact hi) (s := s) rfl h1

theorem invA_step (s : PB K) (op : Op K) (hi : InvA s) (hl : SameDirection s op) :
    ∃ s', step s op = .ok s' ∧ InvA s' := by
  obtain ⟨hR, hb, hn⟩ := hi
  cases op with
  | play f l v a => obtain ⟨s', h1, h2, _⟩ := play_range (v := v) hl; exact ⟨s', h1, h2⟩
  | play3 f l a => obtain ⟨s', h1, h2, _⟩ := play_range (v := s.speed) hl; exact ⟨s', h1, h2⟩
  | play1 a => obtain ⟨s', h1, h2, _⟩ := play_range (v := s.speed) hl; exact ⟨s', h1, h2⟩
  | pause b =>
    refine ⟨_, rfl, ?_⟩
    unfold pause setState post
    by_cases hp : s.state = .paused
    · cases b
      · simp only [hp, if_true, Bool.false_eq_true, if_false]
        exact ⟨hR, hb, fun hv _ => hn hv (by simp [hp])⟩
      · simpa [hp] using ⟨hR, hb, hn⟩
    · by_cases hq : s.state = .playing
      · cases b
        · simpa [hq] using ⟨hR, hb, hn⟩
        · simp only [hq, if_true]
          exact ⟨hR, hb, fun hv _ => hn hv (by simp [hq])⟩
      · cases b <;> simpa [hp, hq] using ⟨hR, hb, hn⟩
  | stop =>
    obtain ⟨e1, e2, e3, e4⟩ := frames_eq (stop_frames s)
    refine ⟨_, rfl, RangeOK_stop hR, ?_, fun _ h => absurd (stop_state s) h⟩
    rw [e1, e2, e3]; exact hb
  | update dt =>
    by_cases hid : s.state ≠ .playing ∨ dt ≤ 0
    · exact ⟨s, update_idle s dt hid, hR, hb, hn⟩
    · push Not at hid
      rcases lt_or_ge s.speed 0 with hv | hv
      · obtain ⟨s', h1, h2, h3, h4, _⟩ := update_back dt hv hR hb
        exact ⟨s', h1, h2, h3, fun h => absurd h (by rw [h4]; exact not_le.2 hv)⟩
      · obtain ⟨s', h1, h2, h3⟩ := update_InvC dt hv ⟨hR, hb, hn hv (by simp [hid.1])⟩
        exact ⟨s', h1, h2.1, h2.2.1, fun _ _ => h2.2.2⟩
  | setSpeed v => exact ⟨_, rfl, hR, hb, fun hv hs => hn (hl.1 hv) hs⟩
  | setListFrames fs =>
    simp only [step]
    split
    · next hk => unfold RangeOK at hR; rw [hk] at hR; simp at hR
    · exact ⟨s, rfl, hR, hb, hn⟩

theorem invB_step (s : PB K) (op : Op K) (hi : InvB s) (hl : StartsForward s op) :
    ∃ s', step s op = .ok s' ∧ InvB s' := by
  obtain ⟨hR, hb, hn⟩ := hi
  cases op with
  | play f l v a =>
    obtain ⟨s', h1, _, h2⟩ := play_range (v := v) hl.1; exact ⟨s', h1, h2 hl.2⟩
  | play3 f l a =>
    obtain ⟨s', h1, _, h2⟩ := play_range (v := s.speed) hl.1; exact ⟨s', h1, h2 hl.2⟩
  | play1 a =>
    obtain ⟨s', h1, _, h2⟩ := play_range (v := s.speed) hl.1; exact ⟨s', h1, h2 hl.2⟩
  | pause b =>
    refine ⟨_, rfl, ?_⟩
    unfold pause setState post
    by_cases hp : s.state = .paused
    · cases b
      · simp only [hp, if_true, Bool.false_eq_true, if_false]
        exact ⟨hR, hb, fun _ => hn (by simp [hp])⟩
      · simpa [hp] using ⟨hR, hb, hn⟩
    · by_cases hq : s.state = .playing
      · cases b
        · simpa [hq] using ⟨hR, hb, hn⟩
        · simp only [hq, if_true]
          exact ⟨hR, hb, fun _ => hn (by simp [hq])⟩
      · cases b <;> simpa [hp, hq] using ⟨hR, hb, hn⟩
  | stop =>
    obtain ⟨e1, e2, e3, e4⟩ := frames_eq (stop_frames s)
    refine ⟨_, rfl, RangeOK_stop hR, ?_, fun h => absurd (stop_state s) h⟩
    rw [e1, e2, e3]; exact hb
  | update dt =>
    by_cases hid : s.state ≠ .playing ∨ dt ≤ 0
    · exact ⟨s, update_idle s dt hid, hR, hb, hn⟩
    · push Not at hid
      rcases lt_or_ge s.speed 0 with hv | hv
      · obtain ⟨s', h1, h2, h3, h4, h5⟩ := update_back dt hv hR hb
        exact ⟨s', h1, h2, h3, fun _ => h5 (hn (by simp [hid.1]))⟩
      · obtain ⟨s', h1, h2, h3⟩ := update_InvC dt hv ⟨hR, hb, hn (by simp [hid.1])⟩
        exact ⟨s', h1, h2.1, h2.2.1, fun _ => h2.2.2⟩
  | setSpeed v => exact ⟨_, rfl, hR, hb, hn⟩
  | setListFrames fs =>
    simp only [step]
    split
    · next hk => unfold RangeOK at hR; rw [hk] at hR; simp at hR
    · exact ⟨s, rfl, hR, hb, hn⟩

theorem init_RangeOK : RangeOK (init : PB K) := by
  refine ⟨Or.inl rfl, ?_, ?_⟩ <;> simp [init, W]

theorem init_InvA : InvA (init : PB K) :=
  ⟨init_RangeOK, by simp [init, Between], fun _ h => absurd rfl h⟩

theorem init_InvB : InvB (init : PB K) :=
  ⟨init_RangeOK, by simp [init, Between], fun h => absurd rfl h⟩

/-! ### Interpolator -/

theorem update_interp {s s' : PB K} {dt : K} (hp : s.state = .playing) (hd : 0 < dt)
    (h0 : 0 ≤ s.interpolator) (h1 : s.interpolator ≤ 1) (h : update s dt = .ok s') :
    (0 ≤ s.speed → 0 ≤ s'.interpolator ∧ s'.interpolator < 1) ∧
    (s.speed < 0 → 0 < s'.interpolator ∧ s'.interpolator ≤ 1) := by
  constructor
  · intro hv
    rw [update_forward s dt hp hd hv] at h
    obtain ⟨a, ha, rfl⟩ := map_withI_ok h
    simp only [withI_interp]
    have hx : 0 ≤ s.interpolator + dt * s.speed := by positivity
    have := Nat.floor_le hx
    have := Nat.lt_floor_add_one (s.interpolator + dt * s.speed)
    constructor <;> linarith
  · intro hv
    rw [update_backward s dt hp hd hv] at h
    split_ifs at h with hc
    · obtain ⟨a, ha, rfl⟩ := map_withI_ok h
      simp only [withI_interp]
      have hx : 0 ≤ -(s.interpolator + dt * s.speed) := by linarith
      have := Nat.floor_le hx
      have := Nat.lt_floor_add_one (-(s.interpolator + dt * s.speed))
      constructor <;> linarith
    · simp at h; subst h
      simp only [withI_interp]
      have : dt * s.speed < 0 := mul_neg_of_pos_of_neg hd hv
      constructor <;> linarith

theorem iterRes_ne_fuel {σ : Type} (f : σ → Res σ) (hf : ∀ s, f s ≠ .fuel) (n : Nat) :
    ∀ s, iterRes f n s ≠ .fuel := by
  induction n with
  | zero => intro s; simp [iterRes]
  | succ n ih =>
    intro s
    simp only [iterRes]
    cases hs : f s with
    | ok a => exact ih a
    | fuel => exact absurd hs (hf s)
    | _ => simp

theorem onNextFrame_ne_fuel (s : PB K) : onNextFrame s ≠ .fuel := by
  unfold onNextFrame
  cases s.listener.kind with
  | listLoop fs it =>
    simp only
    split_ifs
    · split <;> simp
    · simp
  | _ => simp

theorem update_ne_fuel (s : PB K) (dt : K) : update s dt ≠ .fuel := by
  by_cases hid : s.state ≠ .playing ∨ dt ≤ 0
  · rw [update_idle s dt hid]; simp
  · push Not at hid
    have hF : ∀ s : PB K, stepF s ≠ .fuel := fun s => onNextFrame_ne_fuel _
    have hB : ∀ s : PB K, stepB s ≠ .fuel := fun s => onNextFrame_ne_fuel _
    rcases lt_or_ge s.speed 0 with hv | hv
    · rw [update_backward s dt hid.1 hid.2 hv]
      split_ifs
      · have := iterRes_ne_fuel stepB hB (⌊-(s.interpolator + dt * s.speed)⌋₊ + 1) s
        cases h : iterRes stepB (⌊-(s.interpolator + dt * s.speed)⌋₊ + 1) s <;>
          simp_all [Res.map]
      · simp
    · rw [update_forward s dt hid.1 hid.2 hv]
      have := iterRes_ne_fuel stepF hF ⌊s.interpolator + dt * s.speed⌋₊ s
      cases h : iterRes stepF ⌊s.interpolator + dt * s.speed⌋₊ s <;> simp_all [Res.map]

theorem count_of_log {s s' : PB K}
    (h : s'.listener.id = s.listener.id ∧
    ((s'.state = s.state ∧ s'.log = (s.listener.id, .onNextFrame) :: s.log) ∨
     (s.state ≠ .stopped ∧ s'.state = .stopped ∧ s.listener.kind = .oneShot ∧
      s'.log = (s.listener.id, .onStop) :: (s.listener.id, .onNextFrame) :: s.log))) :
    nextFrameCount s'.log = nextFrameCount s.log + 1 := by
  obtain ⟨_, h | h⟩ := h
  · rw [h.2]; simp [nextFrameCount]
  · rw [h.2.2.2]; simp [nextFrameCount]

theorem iter_count (f : PB K → Res (PB K))
    (hf : ∀ s s', f s = .ok s' → nextFrameCount s'.log = nextFrameCount s.log + 1) (n : Nat) :
    ∀ s s', iterRes f n s = .ok s' → nextFrameCount s'.log = nextFrameCount s.log + n := by
  induction n with
  | zero => intro s s' h; simp [iterRes] at h; subst h; rfl
  | succ n ih =>
    intro s s' h
    simp only [iterRes] at h
    obtain ⟨a, ha, hb⟩ := Res.bind_eq_ok.1 h
    rw [ih a s' hb, hf s a ha]; omega

end Geom.Playback
