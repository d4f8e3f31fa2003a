import Verif.Proof.PlaybackInv

set_option linter.unusedSectionVars false

/-! Lifting one-step facts to `Update` and to histories. -/
set_option autoImplicit false

namespace Geom.Playback
open Spec

theorem iterRes_inv {σ : Type} (f : σ → Res σ) (I : σ → Prop)
    (h : ∀ s s', I s → f s = .ok s' → I s') (n : Nat) :
    ∀ s s', I s → iterRes f n s = .ok s' → I s' := by
  induction n with
  | zero => intro s s' hi hr; simp [iterRes] at hr; subst hr; exact hi
  | succ n ih =>
    intro s s' hi hr
    simp only [iterRes] at hr
    obtain ⟨a, ha, hb⟩ := Res.bind_eq_ok.1 hr
    exact ih a s' (h s a hi ha) hb

theorem iterRes_ok {σ : Type} (f : σ → Res σ) (I : σ → Prop)
    (h : ∀ s, I s → ∃ s', f s = .ok s' ∧ I s') (n : Nat) :
    ∀ s, I s → ∃ s', iterRes f n s = .ok s' ∧ I s' := by
  induction n with
  | zero => intro s hi; exact ⟨s, rfl, hi⟩
  | succ n ih =>
    intro s hi
    obtain ⟨a, ha, hia⟩ := h s hi
    obtain ⟨b, hb, hib⟩ := ih a hia
    exact ⟨b, by simp [iterRes, ha, hb], hib⟩

theorem iterRes_add {σ : Type} (f : σ → Res σ) (m n : Nat) (s : σ) :
    iterRes f (m + n) s = (iterRes f m s).bind (iterRes f n) := by
  induction m generalizing s with
  | zero => simp [iterRes]
  | succ m ih =>
    rw [Nat.succ_add]
    simp only [iterRes]
    cases f s with
    | ok a => simp [ih]
    | _ => rfl

theorem iterRes_succ' {σ : Type} (f : σ → Res σ) (n : Nat) (s : σ) :
    iterRes f (n + 1) s = (iterRes f n s).bind f := by
  rw [iterRes_add]; congr 1; funext a; simp [iterRes]

variable {K : Type} [Field K] [LinearOrder K]

/-- Events and state change of one `PostNextFrame`. -/
theorem post_log {s s' : PB K} (h : postNextFrame s = .ok s') :
    s'.listener.id = s.listener.id ∧
    ((s'.state = s.state ∧ s'.log = (s.listener.id, .onNextFrame) :: s.log) ∨
     (s.state ≠ .stopped ∧ s'.state = .stopped ∧ s.listener.kind = .oneShot ∧
      s'.log = (s.listener.id, .onStop) :: (s.listener.id, .onNextFrame) :: s.log)) := by
  unfold postNextFrame onNextFrame post at h
  cases hk : s.listener.kind with
  | base => simp [hk] at h; subst h; simp
  | oneShot =>
    simp only [hk, Res.ok.injEq] at h
    subst h
    by_cases he : hasEndReached { s with log := (s.listener.id, Ev.onNextFrame) :: s.log } = true
    · rw [if_pos he]
      simp only [stop, setState, onStop, post, hk]
      split_ifs with h2 <;> simp_all
    · rw [if_neg he]
      simp only [setNextFrame]
      split_ifs <;> simp
  | loop =>
    simp only [hk, Res.ok.injEq] at h
    subst h
    simp only [setNextFrameTo, setNextFrame]
    split_ifs <;> simp
  | pingPong =>
    simp only [hk, Res.ok.injEq] at h
    subst h
    simp only [setNextFrame]
    split_ifs <;> simp
  | listLoop fs it =>
    simp only [hk] at h
    split at h
    · split at h
      · simp only [Res.ok.injEq] at h
        subst h
        simp only [setNextFrameTo]
        split_ifs <;> simp
      · simp at h
    · simp only [Res.ok.injEq] at h; subst h; simp

theorem stepF_log {s s' : PB K} (h : stepF s = .ok s') :
    s'.listener.id = s.listener.id ∧
    ((s'.state = s.state ∧ s'.log = (s.listener.id, .onNextFrame) :: s.log) ∨
     (s.state ≠ .stopped ∧ s'.state = .stopped ∧ s.listener.kind = .oneShot ∧
      s'.log = (s.listener.id, .onStop) :: (s.listener.id, .onNextFrame) :: s.log)) :=
  post_log (s := { s with frame := s.nextFrame }) h

theorem stepB_log {s s' : PB K} (h : stepB s = .ok s') :
    s'.listener.id = s.listener.id ∧
    ((s'.state = s.state ∧ s'.log = (s.listener.id, .onNextFrame) :: s.log) ∨
     (s.state ≠ .stopped ∧ s'.state = .stopped ∧ s.listener.kind = .oneShot ∧
      s'.log = (s.listener.id, .onStop) :: (s.listener.id, .onNextFrame) :: s.log)) :=
  post_log (s := { s with nextFrame := s.frame }) h

/-- The monitor accepts the log and agrees with the playback. -/
def MonInv (s : PB K) : Prop := observe s.log = some (s.state, s.listener.id)

theorem mon_of_log {s s' : PB K} (hm : MonInv s) (hp : s.state ≠ .paused)
    (h : s'.listener.id = s.listener.id ∧
    ((s'.state = s.state ∧ s'.log = (s.listener.id, .onNextFrame) :: s.log) ∨
     (s.state ≠ .stopped ∧ s'.state = .stopped ∧ s.listener.kind = .oneShot ∧
      s'.log = (s.listener.id, .onStop) :: (s.listener.id, .onNextFrame) :: s.log))) :
    MonInv s' ∧ s'.state ≠ .paused := by
  unfold MonInv observe at *
  obtain ⟨hid, h | h⟩ := h
  · obtain ⟨h1, h2⟩ := h
    rw [h2, List.foldr_cons, hm, h1, hid]
    cases hst : s.state <;> simp_all [monitor]
  · obtain ⟨h0, h1, _, h2⟩ := h
    rw [h2, List.foldr_cons, List.foldr_cons, hm, h1, hid]
    cases hst : s.state <;> simp_all [monitor]

theorem stop_state (s : PB K) : (stop s).state = .stopped := by
  unfold stop setState
  split_ifs with h
  · simp only [onStop, post]; split <;> rfl
  · simpa using h

theorem stop_id (s : PB K) : (stop s).listener.id = s.listener.id := by
  unfold stop setState
  split_ifs with h
  · simp only [onStop, post]; split <;> rfl
  · rfl

theorem stop_log (s : PB K) : (stop s).log =
    if s.state ≠ .stopped then (s.listener.id, .onStop) :: s.log else s.log := by
  unfold stop setState
  split_ifs with h
  · simp only [onStop, post]; split <;> rfl
  · rfl

theorem stop_frames (s : PB K) : frames (stop s) = frames s := by
  unfold stop setState frames
  split_ifs with h
  · simp only [onStop, post]; split <;> rfl
  · rfl

theorem stop_interp (s : PB K) : (stop s).interpolator = s.interpolator := by
  unfold stop setState
  split_ifs with h
  · simp only [onStop, post]; split <;> rfl
  · rfl

theorem stop_kind (s : PB K) : (stop s).listener.kind = s.listener.kind ∨
    ∃ fs it, s.listener.kind = .listLoop fs it ∧ (stop s).listener.kind = .listLoop fs 0 := by
  unfold stop setState
  split_ifs with h
  · simp only [onStop, post]; split <;> simp_all
  · simp

theorem mon_stop (s : PB K) (h : MonInv s) : MonInv (stop s) := by
  unfold MonInv observe at *
  rw [stop_log, stop_state, stop_id]
  split_ifs with hs
  · rw [List.foldr_cons, h]
    cases hst : s.state <;> simp_all [monitor]
  · simp at hs; rw [h, hs]

/-- The state in which `Play` calls the listener for the first time. -/
def playStart (s : PB K) (first last : Nat) (speed : K) (l : LArg) : PB K :=
  { stop s with
    listener := pickListener (stop s).listener l
    firstFrame := first
    lastFrame := last
    frame := first
    interpolator := 0
    speed := speed
    state := .playing
    log := ((pickListener (stop s).listener l).id, .onPlay) :: (stop s).log }

theorem play_eq (s : PB K) (first last : Nat) (speed : K) (l : LArg) :
    play s first last speed l = postNextFrame (playStart s first last speed l) := rfl

theorem mon_play {s s' : PB K} (h : MonInv s) {f l : Nat} {v : K} {a : LArg}
    (hp : play s f l v a = .ok s') : MonInv s' := by
  rw [play_eq] at hp
  have h1 : MonInv (playStart s f l v a) := by
    have h0 := mon_stop s h
    unfold MonInv observe at *
    rw [stop_state] at h0
    simp only [playStart, List.foldr_cons, h0]
    simp [monitor]
  exact (mon_of_log h1 (by simp [playStart]) (post_log hp)).1

variable [IsStrictOrderedRing K] [FloorRing K]

theorem map_withI_ok {r : Res (PB K)} {x : K} {s' : PB K} (h : r.map (withI x) = .ok s') :
    ∃ a, r = .ok a ∧ s' = withI x a := by
  cases r <;> simp_all [Res.map]

/-- An invariant kept by frame steps in the current direction and insensitive to the
interpolator is kept by `Update`. -/
theorem update_inv (I : PB K → Prop) (hI : ∀ s x, I s → I (withI x s))
    (hF : ∀ s s', 0 ≤ s.speed → I s → stepF s = .ok s' → I s')
    (hB : ∀ s s', s.speed < 0 → I s → stepB s = .ok s' → I s')
    {s s' : PB K} {dt : K} (hs : I s) (h : update s dt = .ok s') : I s' := by
  by_cases hid : s.state ≠ .playing ∨ dt ≤ 0
  · rw [update_idle s dt hid] at h; simp at h; subst h; exact hs
  · push Not at hid
    rcases lt_or_ge s.speed 0 with hv | hv
    · rw [update_backward s dt hid.1 hid.2 hv] at h
      split_ifs at h with hc
      · obtain ⟨a, ha, rfl⟩ := map_withI_ok h
        refine hI _ _ ?_
        have := iterRes_inv stepB (fun s => I s ∧ s.speed < 0)
          (fun s s' hi hr => ⟨hB s s' hi.2 hi.1 hr, by rw [stepB_speed hr]; exact hi.2⟩) _ s a
          ⟨hs, hv⟩ ha
        exact this.1
      · simp at h; subst h; exact hI _ _ hs
    · rw [update_forward s dt hid.1 hid.2 hv] at h
      obtain ⟨a, ha, rfl⟩ := map_withI_ok h
      refine hI _ _ ?_
      have := iterRes_inv stepF (fun s => I s ∧ 0 ≤ s.speed)
          (fun s s' hi hr => ⟨hF s s' hi.2 hi.1 hr, by rw [stepF_speed hr]; exact hi.2⟩) _ s a
          ⟨hs, hv⟩ ha
      exact this.1

/-- If frame steps in the current direction always succeed, so does `Update`. -/
theorem update_ok (I : PB K → Prop) (hI : ∀ s x, I s → I (withI x s))
    (hF : ∀ s, 0 ≤ s.speed → I s → ∃ s', stepF s = .ok s' ∧ I s')
    (hB : ∀ s, s.speed < 0 → I s → ∃ s', stepB s = .ok s' ∧ I s')
    {s : PB K} (dt : K) (hs : I s) : ∃ s', update s dt = .ok s' ∧ I s' := by
  by_cases hid : s.state ≠ .playing ∨ dt ≤ 0
  · exact ⟨s, update_idle s dt hid, hs⟩
  · push Not at hid
    rcases lt_or_ge s.speed 0 with hv | hv
    · rw [update_backward s dt hid.1 hid.2 hv]
      split_ifs with hc
      · obtain ⟨a, ha, hia⟩ := iterRes_ok stepB (fun s => I s ∧ s.speed < 0)
          (fun s hi => by
            obtain ⟨a, h1, h2⟩ := hB s hi.2 hi.1
            exact ⟨a, h1, h2, by rw [stepB_speed h1]; exact hi.2⟩) _ s ⟨hs, hv⟩
        exact ⟨_, by rw [ha]; rfl, hI _ _ hia.1⟩
      · exact ⟨_, rfl, hI _ _ hs⟩
    · rw [update_forward s dt hid.1 hid.2 hv]
      obtain ⟨a, ha, hia⟩ := iterRes_ok stepF (fun s => I s ∧ 0 ≤ s.speed)
          (fun s hi => by
            obtain ⟨a, h1, h2⟩ := hF s hi.2 hi.1
            exact ⟨a, h1, h2, by rw [stepF_speed h1]; exact hi.2⟩) _ s ⟨hs, hv⟩
      exact ⟨_, by rw [ha]; rfl, hI _ _ hia.1⟩

theorem mon_update {s s' : PB K} {dt : K} (hm : MonInv s) (h : update s dt = .ok s') :
    MonInv s' := by
  by_cases hp : s.state = .playing
  · have := update_inv (fun s => MonInv s ∧ s.state ≠ .paused)
      (fun s x hi => hi)
      (fun s s' _ hi hr => mon_of_log hi.1 hi.2 (stepF_log hr))
      (fun s s' _ hi hr => mon_of_log hi.1 hi.2 (stepB_log hr))
      (s := s) ⟨hm, by simp [hp]⟩ h
    exact this.1
  · rw [update_idle s dt (Or.inl hp)] at h; simp at h; subst h; exact hm

theorem mon_step {s s' : PB K} {op : Op K} (hm : MonInv s) (h : step s op = .ok s') :
    MonInv s' := by
  cases op with
  | play f l v a => exact mon_play hm h
  | play3 f l a => exact mon_play hm h
  | play1 a => exact mon_play hm h
  | pause b =>
    simp only [step, Res.ok.injEq] at h
    subst h
    unfold pause
    cases b
    · by_cases hs : s.state = .paused
      · simp only [hs, if_true, Bool.false_eq_true, if_false]
        unfold MonInv observe at *
        simp only [setState, post, List.foldr_cons, hm]
        simp [monitor, hs]
      · simpa [hs] using hm
    · by_cases hs : s.state = .playing
      · simp only [hs, if_true]
        unfold MonInv observe at *
        simp only [setState, post, List.foldr_cons, hm]
        simp [monitor, hs]
      · simpa [hs] using hm
  | stop => simp only [step, Res.ok.injEq] at h; subst h; exact mon_stop s hm
  | update dt => exact mon_update hm h
  | setSpeed v => simp only [step, Res.ok.injEq] at h; subst h; exact hm
  | setListFrames fs =>
    simp only [step] at h
    split at h <;> (simp only [Res.ok.injEq] at h; subst h; exact hm)

/-- A history in which each call is permitted by `ok`. -/
def Legal (ok : PB K → Op K → Prop) : PB K → List (Op K) → Prop
  | _, [] => True
  | s, op :: ops => ok s op ∧ ∀ s', step s op = .ok s' → Legal ok s' ops

theorem run_inv (I : PB K → Prop) (ok : PB K → Op K → Prop)
    (h : ∀ s op s', I s → ok s op → step s op = .ok s' → I s') :
    ∀ ops s s', I s → Legal ok s ops → run s ops = .ok s' → I s' := by
  intro ops
  induction ops with
  | nil => intro s s' hi _ hr; simp [run] at hr; subst hr; exact hi
  | cons op ops ih =>
    intro s s' hi hl hr
    simp only [run] at hr
    obtain ⟨a, ha, hb⟩ := Res.bind_eq_ok.1 hr
    exact ih a s' (h s op a hi hl.1 ha) (hl.2 a ha) hb

theorem run_ok (I : PB K → Prop) (ok : PB K → Op K → Prop)
    (h : ∀ s op, I s → ok s op → ∃ s', step s op = .ok s' ∧ I s') :
    ∀ ops s, I s → Legal ok s ops → ∃ s', run s ops = .ok s' ∧ I s' := by
  intro ops
  induction ops with
  | nil => intro s hi _; exact ⟨s, rfl, hi⟩
  | cons op ops ih =>
    intro s hi hl
    obtain ⟨a, ha, hia⟩ := h s op hi hl.1
    obtain ⟨b, hb, hib⟩ := ih a hia (hl.2 a ha)
    exact ⟨b, by simp [run, ha, hb], hib⟩

theorem legal_true (s : PB K) (ops : List (Op K)) : Legal (fun _ _ => True) s ops := by
  induction ops generalizing s with
  | nil => trivial
  | cons op ops ih => exact ⟨trivial, fun s' _ => ih s'⟩

end Geom.Playback
