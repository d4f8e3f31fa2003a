import Verif.Proof.PlaybackList
import Mathlib.Data.Rat.Floor

/-!
# Playback (properties C49 - C55, C77)

The scalar type is an arbitrary ordered field with a floor function, i.e. exact arithmetic.
A state `s : PB K` is arbitrary unless stated otherwise (it need not be reachable).
`LArg` is the listener argument of `Play`; `pickListener` is the listener it installs.
-/
set_option linter.unusedSectionVars false
set_option autoImplicit false

namespace Geom.Playback.Props
open Geom.Playback Geom.Playback.Spec

variable {K : Type} [Field K] [LinearOrder K] [IsStrictOrderedRing K] [FloorRing K]

/-- A state for the examples: a new playback over the rationals. -/
def new : PB ℚ := init

/-! ## C49: protocol -/

/-- Each history of calls starting with a new playback delivers a sequence of events which
the protocol automaton `monitor` accepts, and the state announced by the events is the state
of the playback (which belongs to the listener installed last). -/
theorem C49_protocol (ops : List (Op K)) (s : PB K) (h : run init ops = .ok s) :
    observe s.log = some (s.state, s.listener.id) :=
  run_inv MonInv (fun _ _ => True) (fun _ _ _ hi _ hr => mon_step hi hr) ops init s
    rfl (legal_true _ _) h

/-- The history which the next example runs. -/
example : ((run new [.play 0 3 1 (.other ⟨7, .loop⟩), .update 2, .pause true, .play 0 3 1 .null,
    .update 9]).bind (fun s => .ok s.log.reverse)) =
    .ok [(7, .onPlay), (7, .onNextFrame), (7, .onNextFrame), (7, .onNextFrame), (7, .onPause),
      (7, .onStop), (0, .onPlay), (0, .onNextFrame), (0, .onNextFrame), (0, .onNextFrame),
      (0, .onNextFrame), (0, .onStop), (0, .onNextFrame), (0, .onNextFrame), (0, .onNextFrame),
      (0, .onNextFrame), (0, .onNextFrame), (0, .onNextFrame)] := by decide +kernel

/-- `Update` has no effect unless the playback is playing and the time step is positive. -/
theorem C49_update_idle (s : PB K) (dt : K) (h : s.state ≠ .playing ∨ dt ≤ 0) :
    step s (.update dt) = .ok s := update_idle s dt h

example : (new.state ≠ .playing ∨ (1 : ℚ) ≤ 0) := Or.inl (by decide)

/-- `Stop`: exactly one `OnStop` if the playback was playing or paused, none otherwise; the
playback is stopped and shows the same frames. -/
theorem C49_stop (s : PB K) : ∃ s', step s .stop = .ok s' ∧ s'.state = .stopped ∧
    s'.log = (if s.state = .stopped then s.log else (s.listener.id, .onStop) :: s.log) ∧
    s'.frame = s.frame ∧ s'.nextFrame = s.nextFrame ∧ s'.interpolator = s.interpolator := by
  obtain ⟨e1, e2, e3, e4⟩ := frames_eq (stop_frames s)
  refine ⟨_, rfl, stop_state s, ?_, e3, e4, stop_interp s⟩
  rw [stop_log]
  by_cases h : s.state = .stopped <;> simp [h]

/-- `Pause(true)` acts only while playing (one `OnPause`), `Pause(false)` only while paused (one
`OnPlay`); nothing else changes. -/
theorem C49_pause (s : PB K) (b : Bool) : step s (.pause b) = .ok
    (if b = true ∧ s.state = .playing then
      { s with state := .paused, log := (s.listener.id, .onPause) :: s.log }
     else if b = false ∧ s.state = .paused then
      { s with state := .playing, log := (s.listener.id, .onPlay) :: s.log }
     else s) := by
  cases b <;> cases h : s.state <;> simp [step, pause, h, setState, post]

/-- `Play` posts `OnStop` to the previous listener if that was active, then `OnPlay` to the new
listener, then exactly one `OnNextFrame`, and finally `OnStop` if the listener has ended the
playback; whatever the result, the playback is stopped only if it has told so. -/
theorem C49_play (s s' : PB K) (f l : Nat) (v : K) (a : LArg)
    (h : step s (.play f l v a) = .ok s') :
    ∃ id, id = s'.listener.id ∧
      let before := if s.state = .stopped then s.log else (s.listener.id, .onStop) :: s.log
      (s'.state = .playing ∧ s'.log = (id, .onNextFrame) :: (id, .onPlay) :: before) ∨
      (s'.state = .stopped ∧ s'.log = (id, .onStop) :: (id, .onNextFrame) :: (id, .onPlay) :: before) := by
  simp only [step] at h
  rw [play_eq] at h
  have hb : (playStart s f l v a).log = ((playStart s f l v a).listener.id, .onPlay) ::
      (if s.state = .stopped then s.log else (s.listener.id, .onStop) :: s.log) := by
    simp only [playStart]
    rw [stop_log]
    by_cases hs : s.state = .stopped <;> simp [hs]
  obtain ⟨h1, ⟨h2, h3⟩ | ⟨-, h2, -, h3⟩⟩ := post_log h
  · exact ⟨_, rfl, Or.inl ⟨h2, by rw [h3, hb, h1]⟩⟩
  · exact ⟨_, rfl, Or.inr ⟨h2, by rw [h3, hb, h1]⟩⟩

example : ∃ s', step new (.play 3 9 1 .null) = .ok s' :=
  (play_POne new (by norm_num [W]) (by norm_num [W]) (by norm_num) rfl).imp fun _ h => h.1

/-- A finding the protocol documentation does not mention: `OnNextFrame` events still arrive
after `OnStop` when one `Update` skips several frames beyond the end. -/
theorem C49_nextFrame_after_stop : ∃ s : PB ℚ,
    run init [.play 0 1 1 .null, .update 3] = .ok s ∧ s.state = .stopped ∧
    s.log.take 3 = [(0, .onNextFrame), (0, .onNextFrame), (0, .onStop)] := by
  have h : ((run (init : PB ℚ) [.play 0 1 1 .null, .update 3]).bind
    (fun s => .ok (s.state, s.log.take 3))) =
      .ok (.stopped, [(0, .onNextFrame), (0, .onNextFrame), (0, .onStop)]) := by decide +kernel
  obtain ⟨s, h1, h2⟩ := Res.bind_eq_ok.1 h
  simp only [Res.ok.injEq, Prod.mk.injEq] at h2
  exact ⟨s, h1, h2.1, h2.2⟩

/-! ## C50: the current frame stays in the played range -/

/-- Main case: after `Play(f, l, v, listener)` with a one-shot, loop or (for `f ≠ l`) ping-pong
listener, and any further calls of `Pause`, `Stop`, `Update` and changes of the speed which do
not change its direction, the call sequence is defined and the frame lies between `f` and `l`. -/
theorem C50_range_partial (s : PB K) (f l : Nat) (v : K) (a : LArg) (ops : List (Op K))
    (ha : RangeArg s a f l) (hn : ∀ op ∈ ops, NoPlay op)
    (hd : ∀ w, Op.setSpeed w ∈ ops → (0 ≤ w ↔ 0 ≤ v)) :
    ∃ s', run s (.play f l v a :: ops) = .ok s' ∧ Between f l s'.frame := by
  obtain ⟨t, h1, h2, -⟩ := play_range (v := v) ha
  have hr := play_rangeIs h1
  have hv := (play_interp s h1).2
  have key : ∀ (ops : List (Op K)) (t : PB K), (∀ op ∈ ops, NoPlay op) →
      (∀ w, Op.setSpeed w ∈ ops → (0 ≤ w ↔ 0 ≤ v)) → InvA t → (0 ≤ t.speed ↔ 0 ≤ v) →
      ∃ s', run t ops = .ok s' ∧ InvA s' := by
    intro ops
    induction ops with
    | nil => intro t _ _ hi _; exact ⟨t, rfl, hi⟩
    | cons op ops ih =>
      intro t hn hd hi hv
      have hl : SameDirection t op := by
        cases op with
        | play => exact False.elim (hn _ List.mem_cons_self)
        | play3 => exact False.elim (hn _ List.mem_cons_self)
        | play1 => exact False.elim (hn _ List.mem_cons_self)
        | setSpeed w => exact (hd w (by simp)).trans hv.symm
        | _ => trivial
      obtain ⟨u, hu, hiu⟩ := invA_step t op hi hl
      have hsp : 0 ≤ u.speed ↔ 0 ≤ v := by
        cases op with
        | play => exact False.elim (hn _ List.mem_cons_self)
        | play3 => exact False.elim (hn _ List.mem_cons_self)
        | play1 => exact False.elim (hn _ List.mem_cons_self)
        | setSpeed w =>
          simp only [step, Res.ok.injEq] at hu; subst hu; exact hd w (by simp)
        | pause b =>
          simp only [step, Res.ok.injEq] at hu; subst hu
          unfold pause setState post; split_ifs <;> exact hv
        | stop => simp only [step, Res.ok.injEq] at hu; subst hu; rw [stop_speed]; exact hv
        | update dt =>
          have := update_inv (fun x => x.speed = t.speed) (fun s x hi => hi)
            (fun s s' _ hi hr => by rw [stepF_speed hr]; exact hi)
            (fun s s' _ hi hr => by rw [stepB_speed hr]; exact hi) rfl hu
          rw [this]; exact hv
        | setListFrames fs =>
          simp only [step] at hu
          split at hu <;> simp only [Res.ok.injEq] at hu <;> subst hu <;> exact hv
      obtain ⟨w, hw, hiw⟩ := ih u (fun o ho => hn o (by simp [ho]))
        (fun w hw => hd w (by simp [hw])) hiu hsp
      exact ⟨w, by simp only [run, hu, Res.bind_ok]; exact hw, hiw⟩
  obtain ⟨s', h3, h4⟩ := key ops t hn hd h2 (by rw [hv])
  refine ⟨s', by simp only [run, step, h1, Res.bind_ok]; exact h3, ?_⟩
  exact (run_rangeIs ops hn hr h3).between h4.2.1

example : RangeArg new (.other ⟨1, .pingPong⟩) 9 3 ∧ ∀ op ∈ [Op.update (7 / 2 : ℚ), .pause true],
    NoPlay op :=
  ⟨⟨by norm_num [W], by norm_num [W], by simp [pickListener]⟩, by simp [NoPlay]⟩

/-- Second case: if the playback was started with non-negative speed, the speed may afterwards
be changed arbitrarily, sign included. -/
theorem C50_range_started_forward_partial (s : PB K) (f l : Nat) (v : K) (hv : 0 ≤ v) (a : LArg)
    (ops : List (Op K)) (ha : RangeArg s a f l) (hn : ∀ op ∈ ops, NoPlay op) :
    ∃ s', run s (.play f l v a :: ops) = .ok s' ∧ Between f l s'.frame := by
  obtain ⟨t, h1, -, h2⟩ := play_range (v := v) ha
  have hleg : Legal StartsForward t ops := by
    clear ha h1 h2
    induction ops generalizing t with
    | nil => trivial
    | cons op ops ih =>
      refine ⟨?_, fun s' _ => ih (fun o ho => hn o (by simp [ho])) s'⟩
      have := hn op (by simp)
      cases op <;> first | exact this.elim | trivial
  obtain ⟨s', h3, h4⟩ := run_ok InvB StartsForward invB_step ops t (h2 hv) hleg
  exact ⟨s', by simp only [run, step, h1, Res.bind_ok]; exact h3,
    (run_rangeIs ops hn (play_rangeIs h1) h3).between h4.2.1⟩

example : RangeArg new (.other ⟨1, .loop⟩) 3 9 :=
  ⟨by norm_num [W], by norm_num [W], trivial⟩

/-- List loops over at least two frames, started forward: only the first frame and frames of the
list are shown, for any later changes of the speed. -/
theorem C50_list_partial (s : PB K) (f l : Nat) (v : K) (hv : 0 ≤ v) (a : LArg) (fs : List Nat)
    (it : Nat) (hl : 2 ≤ fs.length) (hit : it ≤ fs.length)
    (ha : (pickListener (stop s).listener a).kind = .listLoop fs it)
    (ops : List (Op K)) (hn : ∀ op ∈ ops, NoPlayNoList op) :
    ∃ s', run s (.play f l v a :: ops) = .ok s' ∧ (s'.frame = f ∨ s'.frame ∈ fs) := by
  have hp : ∃ t, play s f l v a = .ok t ∧ ListShown fs f t := by
    rw [play_eq]
    exact post_listShown hl (playStart s f l v a) it ha hit (by simp [playStart]) (Or.inl hv)
  obtain ⟨t, h1, h2⟩ := hp
  have hleg : Legal (fun _ op => NoPlayNoList op) t ops := by
    clear h1 h2
    induction ops generalizing t with
    | nil => trivial
    | cons op ops ih =>
      exact ⟨hn op (by simp), fun s' _ => ih (fun o ho => hn o (by simp [ho])) s'⟩
  obtain ⟨s', h3, h4⟩ := run_ok (ListShown fs f) (fun _ op => NoPlayNoList op)
    (fun s op hi hn => listShown_step hl s op hi hn) ops t h2 hleg
  refine ⟨s', by simp only [run, step, h1, Res.bind_ok]; exact h3, ?_⟩
  simpa using h4.2.1

example : (pickListener (stop new).listener (.other ⟨1, .listLoop [4, 8, 2] 0⟩)).kind =
    .listLoop [4, 8, 2] 0 := rfl

/-- The unrestricted claim is false: a loop over 5 .. 9 started backward shows frame 0 after the
speed is made positive. -/
theorem C50_sign_change_refuted :
    ¬ ∀ (f l : Nat) (v : ℚ) (a : LArg) (ops : List (Op ℚ)), RangeArg new a f l →
      (∀ op ∈ ops, NoPlay op) →
      ∃ s', run new (.play f l v a :: ops) = .ok s' ∧ Between f l s'.frame := by
  intro h
  obtain ⟨s', h1, h2⟩ := h 5 9 (-1) (.other ⟨1, .loop⟩) [.setSpeed 1, .update 1]
    ⟨by norm_num [W], by norm_num [W], trivial⟩ (by simp [NoPlay])
  have h3 : ((run new [.play 5 9 (-1) (.other ⟨1, .loop⟩), .setSpeed 1, .update 1]).bind
      (fun s => .ok s.frame)) = .ok 0 := by decide +kernel
  rw [h1, Res.bind_ok, Res.ok.injEq] at h3
  unfold Between at h2
  omega

/-- A list loop with a single frame shows a frame which is neither the first nor in the list. -/
theorem C50_short_list_refuted : ∃ s' : PB ℚ,
    run new [.play 7 7 1 (.other ⟨1, .listLoop [7] 0⟩), .update 1] = .ok s' ∧ s'.frame = 0 := by
  have h : ((run new [.play 7 7 1 (.other ⟨1, .listLoop [7] 0⟩), .update 1]).bind
      (fun s => .ok s.frame)) = .ok 0 := by decide +kernel
  obtain ⟨s', h1, h2⟩ := Res.bind_eq_ok.1 h
  exact ⟨s', h1, by simpa using h2⟩

/-! ## C51: ping-pong over a single frame -/

/-- The claim for each range is false: over the range `f .. f` the frame runs away; after a
total time `T` it is `f + ⌊T v⌋` (modulo 2^64). -/
theorem C51_single_frame_runs_away (s : PB K) (f : Nat) (hf : f < W) (v : K) (hv : 0 ≤ v)
    (a : LArg) (ha : (pickListener s.listener a).kind = .pingPong) (dts : List K)
    (hd : ∀ d ∈ dts, 0 < d) :
    ∃ s', run s (.play f f v a :: dts.map .update) = .ok s' ∧
      s'.frame = (f + ⌊dts.sum * v⌋₊) % W := by
  obtain ⟨t, h1, h2⟩ := play_PSingle s hf hv ha
  have hi := (play_interp s h1).1
  obtain ⟨s', h3, h4, -⟩ := updates_forward (PSingle f v) v hv (fun n s x h => h)
    (fun n s h => ⟨h.2.1, h.2.2.1⟩) (fun n s h => stepF_PSingle hv n s h) dts hd 0 t h2
    (by rw [hi]) (by rw [hi]; exact one_pos)
  simp only [hi, zero_add] at h4
  exact ⟨s', by simp only [run, step, h1, Res.bind_ok]; exact h3, h4.2.2.2.2.2.1⟩

theorem C51_any_range_refuted :
    ¬ ∀ (f l : Nat) (dts : List ℚ), f < W → l < W → (∀ d ∈ dts, 0 < d) →
      ∃ s', run new (.play f l 1 (.other ⟨1, .pingPong⟩) :: dts.map .update) = .ok s' ∧
        Between f l s'.frame := by
  intro h
  obtain ⟨s', h1, h2⟩ := h 5 5 [2] (by norm_num [W]) (by norm_num [W]) (by simp)
  obtain ⟨s'', h3, h4⟩ := C51_single_frame_runs_away new 5 (by norm_num [W]) (1 : ℚ) (by norm_num)
    (.other ⟨1, .pingPong⟩) rfl [2] (by simp)
  rw [h1, Res.ok.injEq] at h3
  subst h3
  have h5 : ⌊([2] : List ℚ).sum * 1⌋₊ = 2 := by
    rw [show ([2] : List ℚ).sum * 1 = ((2 : ℕ) : ℚ) by norm_num, Nat.floor_natCast]
  rw [h4, h5] at h2
  unfold Between W at h2
  omega

/-- All other ranges are fine; the frame is given by C54. -/
theorem C51_proper_range_partial (s : PB K) (f l : Nat) (hf : f < W) (hl : l < W) (hne : f ≠ l)
    (v : K) (a : LArg) (ha : (pickListener s.listener a).kind = .pingPong) (dts : List K) :
    ∃ s', run s (.play f l v a :: dts.map .update) = .ok s' ∧ Between f l s'.frame := by
  refine C50_range_partial s f l v a _ ⟨hf, hl, by simp [ha, hne]⟩ ?_ ?_
  · intro op ho; obtain ⟨d, -, rfl⟩ := List.mem_map.1 ho; trivial
  · intro w hw; obtain ⟨d, -, h⟩ := List.mem_map.1 hw; simp at h

example : (pickListener new.listener (.other ⟨1, .pingPong⟩)).kind = .pingPong := rfl

/-! ## C52: interpolator, termination, number of events -/

/-- `Update` terminates: the loop of the model never exceeds its budget. -/
theorem C52_terminates (s : PB K) (dt : K) : step s (.update dt) ≠ .fuel := update_ne_fuel s dt

/-- One update of a playing playback: interpolator in `[0,1)` forward, `(0,1]` backward. -/
theorem C52_interpolator (s s' : PB K) (dt : K) (hp : s.state = .playing) (hd : 0 < dt)
    (h0 : 0 ≤ s.interpolator) (h1 : s.interpolator ≤ 1) (h : step s (.update dt) = .ok s') :
    (0 ≤ s.speed → 0 ≤ s'.interpolator ∧ s'.interpolator < 1) ∧
    (s.speed < 0 → 0 < s'.interpolator ∧ s'.interpolator ≤ 1) :=
  update_interp hp hd h0 h1 h

/-- In each history the interpolator stays in `[0,1]`. -/
theorem C52_history (ops : List (Op K)) (s : PB K) (h : run init ops = .ok s) :
    0 ≤ s.interpolator ∧ s.interpolator ≤ 1 := by
  refine run_inv (fun s => 0 ≤ s.interpolator ∧ s.interpolator ≤ 1) (fun _ _ => True) ?_ ops init s
    ⟨le_refl _, zero_le_one⟩ (legal_true _ _) h
  intro s op s' hi _ hr
  have hplay : ∀ {f l : Nat} {v : K} {a : LArg}, play s f l v a = .ok s' →
      0 ≤ s'.interpolator ∧ s'.interpolator ≤ 1 := by
    intro f l v a h
    rw [(play_interp s h).1]; exact ⟨le_refl _, zero_le_one⟩
  cases op with
  | play => exact hplay hr
  | play3 => exact hplay hr
  | play1 => exact hplay hr
  | pause b =>
    rw [C49_pause, Res.ok.injEq] at hr; subst hr
    split_ifs <;> exact hi
  | stop => simp only [step, Res.ok.injEq] at hr; subst hr; rw [stop_interp]; exact hi
  | update dt =>
    by_cases hid : s.state ≠ .playing ∨ dt ≤ 0
    · rw [C49_update_idle s dt hid, Res.ok.injEq] at hr; subst hr; exact hi
    · push Not at hid
      obtain ⟨h1, h2⟩ := C52_interpolator s s' dt hid.1 hid.2 hi.1 hi.2 hr
      rcases le_or_gt 0 s.speed with hv | hv
      · exact ⟨(h1 hv).1, (h1 hv).2.le⟩
      · exact ⟨(h2 hv).1.le, (h2 hv).2⟩
  | setSpeed v => simp only [step, Res.ok.injEq] at hr; subst hr; exact hi
  | setListFrames fs =>
    simp only [step] at hr
    split at hr <;> simp only [Res.ok.injEq] at hr <;> subst hr <;> exact hi

/-- Number of `OnNextFrame` events of one update. With `x = interpolator + dt * speed`: the
whole part of `x` forward; backward, the number of integers in `[x, 0]`. -/
theorem C52_events (s s' : PB K) (dt : K) (hp : s.state = .playing) (hd : 0 < dt)
    (h : step s (.update dt) = .ok s') :
    nextFrameCount s'.log = nextFrameCount s.log +
      (if 0 ≤ s.speed then ⌊s.interpolator + dt * s.speed⌋₊
       else if s.interpolator + dt * s.speed ≤ 0 then ⌊-(s.interpolator + dt * s.speed)⌋₊ + 1
       else 0) := by
  simp only [step] at h
  rcases le_or_gt 0 s.speed with hv | hv
  · rw [if_pos hv]
    rw [update_forward s dt hp hd hv] at h
    obtain ⟨a, ha, rfl⟩ := map_withI_ok h
    exact iter_count stepF (fun s s' h => count_of_log (stepF_log h)) _ s a ha
  · rw [if_neg (not_le.2 hv)]
    rw [update_backward s dt hp hd hv] at h
    split_ifs at h ⊢ with hc
    · obtain ⟨a, ha, rfl⟩ := map_withI_ok h
      exact iter_count stepB (fun s s' h => count_of_log (stepB_log h)) _ s a ha
    · simp only [Res.ok.injEq] at h; subst h; rfl

/-- A state which meets the hypotheses of the C52 theorems. -/
example : ∃ s : PB ℚ, run new [.play 0 3 (5 / 2) (.other ⟨1, .loop⟩)] = .ok s ∧
    s.state = .playing ∧ 0 ≤ s.interpolator ∧ s.interpolator ≤ 1 := by
  have h : ((run new [.play 0 3 (5 / 2) (.other ⟨1, .loop⟩)]).bind
    (fun s => .ok (s.state, s.interpolator))) = .ok (.playing, 0) := by decide +kernel
  obtain ⟨s', h1, h2⟩ := Res.bind_eq_ok.1 h
  simp only [Res.ok.injEq, Prod.mk.injEq] at h2
  exact ⟨s', h1, h2.1, by rw [h2.2], by rw [h2.2]; norm_num⟩

/-! ## C53: splitting a time step -/

/-- For listeners which never stop (all but one-shot) two updates have exactly the effect of
one, events included. -/
theorem C53_split (s : PB K) (a b : K) (ha : 0 < a) (hb : 0 < b) (hp : s.state = .playing)
    (hk : s.listener.kind ≠ .oneShot) (h0 : 0 ≤ s.interpolator) :
    run s [.update a, .update b] = run s [.update (a + b)] := by
  simp only [run, step]
  have : ∀ r : Res (PB K), r.bind (fun s => .ok s) = r := by intro r; cases r <;> rfl
  simp only [this]
  rcases le_or_gt 0 s.speed with hv | hv
  · exact update_split_forward ha hb ⟨hp, hk, rfl⟩ h0 hv
  · exact update_split_backward ha hb ⟨hp, hk, rfl⟩ hv

/-- One-shot playback: the same state and frames (and the same everything while still playing). -/
theorem C53_split_oneShot (s : PB K) (a b : K) (ha : 0 < a) (hb : 0 < b) (hp : s.state = .playing)
    (hk : s.listener.kind = .oneShot) (h0 : 0 ≤ s.interpolator) :
    ∃ t u, run s [.update a, .update b] = .ok t ∧ run s [.update (a + b)] = .ok u ∧
      t.state = u.state ∧ t.frame = u.frame ∧ t.nextFrame = u.nextFrame ∧
      t.firstFrame = u.firstFrame ∧ t.lastFrame = u.lastFrame ∧ (t.state = .playing → t = u) := by
  obtain ⟨t, u, h1, h2, h3, h4, h5⟩ := update_split_oneShot ha hb hk hp h0
  obtain ⟨e1, e2, e3, e4⟩ := frames_eq h4
  have : ∀ r : Res (PB K), r.bind (fun s => .ok s) = r := by intro r; cases r <;> rfl
  refine ⟨t, u, ?_, ?_, h3, e3, e4, e1, e2, h5⟩
  · simp only [run, step, this]; exact h1
  · simp only [run, step, this]; exact h2

/-- Hypotheses of the C53 theorems. -/
example : ∃ s : PB ℚ, run new [.play 0 3 (5 / 2) .null] = .ok s ∧
    s.state = .playing ∧ s.listener.kind = .oneShot ∧ 0 ≤ s.interpolator := by
  have h : ((run new [.play 0 3 (5 / 2) .null]).bind
    (fun s => .ok (s.state, s.listener.kind, s.interpolator))) = .ok (.playing, .oneShot, 0) := by
    decide +kernel
  obtain ⟨s', h1, h2⟩ := Res.bind_eq_ok.1 h
  simp only [Res.ok.injEq, Prod.mk.injEq] at h2
  exact ⟨s', h1, h2.1, h2.2.1, by rw [h2.2.2]⟩

/-! ## C54: frame sequences, forward

After `Play(f, l, v, listener)` and updates by `dts`, `T v` frames have passed where `T` is the
sum of `dts`. -/

/-- Loop: frame `⌊T v⌋` of the cycle, the next one of the cycle is the next frame, and the
interpolator is the fractional part of `T v`. -/
theorem C54_loop (s : PB K) (f l : Nat) (hf : f < W) (hl : l < W) (v : K) (hv : 0 ≤ v) (a : LArg)
    (ha : (pickListener s.listener a).kind = .loop) (dts : List K) (hd : ∀ d ∈ dts, 0 < d) :
    ∃ s', run s (.play f l v a :: dts.map .update) = .ok s' ∧ s'.state = .playing ∧
      s'.frame = loopFrame f l ⌊dts.sum * v⌋₊ ∧
      s'.nextFrame = loopFrame f l (⌊dts.sum * v⌋₊ + 1) ∧
      s'.interpolator = dts.sum * v - ⌊dts.sum * v⌋₊ := by
  obtain ⟨t, h1, h2⟩ := play_PLoop s hf hl hv ha
  have hi := (play_interp s h1).1
  obtain ⟨s', h3, h4, h5⟩ := updates_forward (PLoop f l v) v hv (fun n s x h => h)
    (fun n s h => ⟨h.2.1, h.2.2.1⟩) (fun n s h => stepF_PLoop hf hl hv n s h) dts hd 0 t h2
    (by rw [hi]) (by rw [hi]; exact one_pos)
  simp only [hi, zero_add] at h4 h5
  exact ⟨s', by simp only [run, step, h1, Res.bind_ok]; exact h3, h4.2.1, h4.2.2.2.2.2.1,
    h4.2.2.2.2.2.2, h5⟩

/-- Ping-pong loop over at least two frames. -/
theorem C54_pingPong (s : PB K) (f l : Nat) (hf : f < W) (hl : l < W) (hne : f ≠ l) (v : K)
    (hv : 0 ≤ v) (a : LArg) (ha : (pickListener s.listener a).kind = .pingPong) (dts : List K)
    (hd : ∀ d ∈ dts, 0 < d) :
    ∃ s', run s (.play f l v a :: dts.map .update) = .ok s' ∧ s'.state = .playing ∧
      s'.frame = pingPongFrame f l ⌊dts.sum * v⌋₊ ∧
      s'.nextFrame = pingPongFrame f l (⌊dts.sum * v⌋₊ + 1) ∧
      s'.interpolator = dts.sum * v - ⌊dts.sum * v⌋₊ := by
  obtain ⟨t, h1, h2⟩ := play_PPing s hf hl hne hv ha
  have hi := (play_interp s h1).1
  obtain ⟨s', h3, h4, h5⟩ := updates_forward (PPing f l v) v hv (fun n s x h => h)
    (fun n s h => ⟨h.2.1, h.2.2.1⟩) (fun n s h => stepF_PPing hf hl hne hv n s h) dts hd 0 t h2
    (by rw [hi]) (by rw [hi]; exact one_pos)
  simp only [hi, zero_add] at h4 h5
  exact ⟨s', by simp only [run, step, h1, Res.bind_ok]; exact h3, h4.2.1, h4.2.2.2.2.1,
    h4.2.2.2.2.2, h5⟩

/-- One-shot: counts up (down) to the last frame, and is stopped exactly when the last frame is
reached. -/
theorem C54_oneShot (s : PB K) (f l : Nat) (hf : f < W) (hl : l < W) (v : K)
    (hv : 0 ≤ v) (a : LArg) (ha : (pickListener s.listener a).kind = .oneShot) (dts : List K)
    (hd : ∀ d ∈ dts, 0 < d) :
    ∃ s', run s (.play f l v a :: dts.map .update) = .ok s' ∧
      s'.frame = oneShotFrame f l ⌊dts.sum * v⌋₊ ∧
      (s'.state = .stopped ↔ s'.frame = l) ∧ (s'.state = .playing ↔ s'.frame ≠ l) ∧
      (s'.state = .playing → s'.nextFrame = oneShotFrame f l (⌊dts.sum * v⌋₊ + 1) ∧
        s'.interpolator = dts.sum * v - ⌊dts.sum * v⌋₊) := by
  obtain ⟨t, h1, h2⟩ := play_POne s hf hl hv ha
  have hi := (play_interp s h1).1
  obtain ⟨s', h3, h4, h5⟩ := updates_oneShot hf hl hv dts hd 0 t h2
    (by rw [hi]) (by rw [hi]; exact one_pos)
  simp only [hi, zero_add] at h4 h5
  exact ⟨s', by simp only [run, step, h1, Res.bind_ok]; exact h3, h4.1, by rw [h4.1]; exact h4.2.1,
    by rw [h4.1]; exact h4.2.2, h5⟩

/-- List loop over at least two frames: the start frame and then the list cyclically, beginning
with its second entry (so that the whole list is visited cyclically if the playback is started
at the first entry of the list). -/
theorem C54_list (s : PB K) (fs : List Nat) (hlen : 2 ≤ fs.length) (f l : Nat) (v : K)
    (hv : 0 ≤ v) (a : LArg)
    (ha : (∃ i, a = .other ⟨i, .listLoop fs 0⟩) ∨ (a = .same ∧ s.listener.kind = .listLoop fs 0) ∨
      (a = .same ∧ s.state ≠ .stopped ∧ ∃ it, s.listener.kind = .listLoop fs it))
    (dts : List K) (hd : ∀ d ∈ dts, 0 < d) :
    ∃ s', run s (.play f l v a :: dts.map .update) = .ok s' ∧ s'.state = .playing ∧
      s'.frame = (if ⌊dts.sum * v⌋₊ = 0 then f else fs.getD (⌊dts.sum * v⌋₊ % fs.length) 0) ∧
      s'.nextFrame = fs.getD ((⌊dts.sum * v⌋₊ + 1) % fs.length) 0 ∧
      s'.interpolator = dts.sum * v - ⌊dts.sum * v⌋₊ := by
  have ha' : (pickListener (stop s).listener a).kind = .listLoop fs 0 := by
    rcases ha with ⟨i, rfl⟩ | ⟨rfl, h⟩ | ⟨rfl, hp, it, h⟩
    · rfl
    · simp only [pickListener, stop, setState, post, onStop]
      split_ifs <;> simp only [h]
    · simp only [pickListener, stop, setState, post, onStop, if_pos hp, h]
  obtain ⟨t, h1, h2⟩ := play_PList s (f := f) (l := l) hlen hv ha'
  have hi := (play_interp s h1).1
  obtain ⟨s', h3, h4, h5⟩ := updates_forward (PList fs f v) v hv (fun n s x h => h)
    (fun n s h => ⟨h.2.1, h.2.2.1⟩) (fun n s h => stepF_PList hlen hv n s h) dts hd 0 t h2
    (by rw [hi]) (by rw [hi]; exact one_pos)
  simp only [hi, zero_add] at h4 h5
  exact ⟨s', by simp only [run, step, h1, Res.bind_ok]; exact h3, h4.2.1, h4.2.2.2.1,
    h4.2.2.2.2, h5⟩

/-- The formulas on a small range: loop, ping-pong and one-shot over 3 .. 5. -/
example : (List.range 8).map (loopFrame 3 5) = [3, 4, 5, 3, 4, 5, 3, 4] ∧
    (List.range 8).map (pingPongFrame 3 5) = [3, 4, 5, 4, 3, 4, 5, 4] ∧
    (List.range 5).map (oneShotFrame 3 5) = [3, 4, 5, 5, 5] ∧
    (List.range 5).map (oneShotFrame 5 3) = [5, 4, 3, 3, 3] := by decide

example : ∀ d ∈ [(1 / 3 : ℚ), 5 / 2, 100], 0 < d := by decide +kernel

/-! ## C55: negative speed -/

/-- Loop with negative speed: the cycle from `l` down to `f`. With `T = total time * |v|`
(`T > 0`), the fraction towards `nextFrame` is measured from `frame`: `frame` is entry
`⌊T⌋ + 1`, `nextFrame` entry `⌊T⌋` of the reversed cycle starting at `l`. -/
theorem C55_loop (s : PB K) (f l : Nat) (hf : f < W) (hl : l < W) (v : K) (hv : v < 0) (a : LArg)
    (ha : (pickListener s.listener a).kind = .loop) (dts : List K) (hd : ∀ d ∈ dts, 0 < d)
    (hne : dts ≠ []) :
    ∃ s', run s (.play f l v a :: dts.map .update) = .ok s' ∧ s'.state = .playing ∧
      s'.nextFrame = loopFrame l f ⌊dts.sum * -v⌋₊ ∧
      s'.frame = loopFrame l f (⌊dts.sum * -v⌋₊ + 1) ∧
      s'.interpolator = 1 - (dts.sum * -v - ⌊dts.sum * -v⌋₊) := by
  obtain ⟨t, h1, h2⟩ := play_PLoopB s hf hl hv ha
  have hi := (play_interp s h1).1
  obtain ⟨s', h3, h4⟩ := updates_backward (PLoopB f l v) v hv (fun n s x h => h)
    (fun n s h => ⟨h.2.1, h.2.2.1⟩) (fun n s h => stepB_PLoopB hf hl hv n s h) dts hd 0 t h2
    (by rw [hi]) (by rw [hi]; exact zero_le_one)
  refine ⟨s', by simp only [run, step, h1, Res.bind_ok]; exact h3, ?_⟩
  rcases h4 with ⟨h4, -⟩ | ⟨-, h4 | h4⟩
  · exact absurd h4 hne
  · exfalso
    have : dts.sum * v ≤ 0 :=
      mul_nonpos_of_nonneg_of_nonpos (List.sum_nonneg (fun e he => (hd e he).le)) hv.le
    have := h4.1
    rw [hi] at this
    linarith
  · obtain ⟨-, h5, h6⟩ := h4
    simp only [hi, zero_add] at h5
    simp only [hi, zero_add] at h6
    rw [← mul_neg] at h5 h6
    refine ⟨h5.2.1, h5.2.2.2.2.2.2 (by omega), h5.2.2.2.2.2.1, ?_⟩
    rw [h6]; ring

/-- Ping-pong with negative speed moves as with positive speed (it starts at `f` towards `l`),
one frame ahead. -/
theorem C55_pingPong (s : PB K) (f l : Nat) (hf : f < W) (hl : l < W) (hfl : f ≠ l) (v : K)
    (hv : v < 0) (a : LArg) (ha : (pickListener s.listener a).kind = .pingPong) (dts : List K)
    (hd : ∀ d ∈ dts, 0 < d) (hne : dts ≠ []) :
    ∃ s', run s (.play f l v a :: dts.map .update) = .ok s' ∧ s'.state = .playing ∧
      s'.nextFrame = pingPongFrame f l (⌊dts.sum * -v⌋₊ + 1) ∧
      s'.frame = pingPongFrame f l (⌊dts.sum * -v⌋₊ + 2) ∧
      s'.interpolator = 1 - (dts.sum * -v - ⌊dts.sum * -v⌋₊) := by
  obtain ⟨t, h1, h2⟩ := play_PPingB s hf hl hfl hv ha
  have hi := (play_interp s h1).1
  obtain ⟨s', h3, h4⟩ := updates_backward (PPingB f l v) v hv (fun n s x h => h)
    (fun n s h => ⟨h.2.1, h.2.2.1⟩) (fun n s h => stepB_PPingB hf hl hfl hv n s h) dts hd 0 t h2
    (by rw [hi]) (by rw [hi]; exact zero_le_one)
  refine ⟨s', by simp only [run, step, h1, Res.bind_ok]; exact h3, ?_⟩
  rcases h4 with ⟨h4, -⟩ | ⟨-, h4 | h4⟩
  · exact absurd h4 hne
  · exfalso
    have : dts.sum * v ≤ 0 :=
      mul_nonpos_of_nonneg_of_nonpos (List.sum_nonneg (fun e he => (hd e he).le)) hv.le
    have := h4.1
    rw [hi] at this
    linarith
  · obtain ⟨-, h5, h6⟩ := h4
    simp only [hi, zero_add] at h5
    simp only [hi, zero_add] at h6
    rw [← mul_neg] at h5 h6
    refine ⟨h5.2.1, ?_, ?_, ?_⟩
    · rw [h5.2.2.2.2.2 (by omega), pingPong_shift f l _ hfl]
    · rw [h5.2.2.2.2.1, Nat.add_assoc, pingPong_shift f l _ hfl]
    · rw [h6]; ring

example : ∀ d ∈ [(1 / 3 : ℚ), 5 / 2, 100], 0 < d := by decide +kernel

/-- One-shot with negative speed does not play at all: for each range `Play` leaves the playback
stopped at the first frame. -/
theorem C55_oneShot_stops_at_once (s : PB K) (f l : Nat) (v : K) (hv : v < 0) (a : LArg)
    (ha : (pickListener s.listener a).kind = .oneShot) (dts : List K) :
    ∃ s', run s (.play f l v a :: dts.map .update) = .ok s' ∧ s'.state = .stopped ∧
      s'.frame = f := by
  obtain ⟨t, h1, h2, h3⟩ := play_oneShot_back s (f := f) (l := l) hv ha
  exact ⟨t, by simp only [run, step, h1, Res.bind_ok]; exact run_updates_stopped dts t h2, h2, h3⟩

/-- Hence the documented backward playback is refuted for one-shot listeners: with speed -1 the
range 2 .. 6 never shows frame 5, whatever the updates. -/
theorem C55_oneShot_refuted :
    ¬ ∃ (dts : List ℚ) (s' : PB ℚ),
      run new (.play 2 6 (-1) .null :: dts.map .update) = .ok s' ∧ s'.frame = 5 := by
  rintro ⟨dts, s', h1, h2⟩
  obtain ⟨s'', h3, -, h4⟩ := C55_oneShot_stops_at_once new 2 6 (-1 : ℚ) (by norm_num) .null rfl dts
  rw [h1, Res.ok.injEq] at h3
  subst h3
  omega

/-- Ping-pong playback is not reversed either: with speed -1 the frames of the range 2 .. 6 come in the order
that they have with a positive speed (the frame 3 after half a frame of time, and not 6 as in the reversed film). -/
theorem C55_pingPong_refuted :
    ¬ ∀ (f l : Nat) (v : ℚ) (dts : List ℚ), f < W → l < W → f ≠ l → v < 0 → (∀ d ∈ dts, 0 < d) → dts ≠ [] →
      ∃ s', run new (.play f l v (.other ⟨1, .pingPong⟩) :: dts.map .update) = .ok s' ∧
        s'.nextFrame = pingPongFrame l f ⌊dts.sum * -v⌋₊ := by
  intro h
  obtain ⟨s', h1, h2⟩ := h 2 6 (-1) [1 / 2] (by decide) (by decide) (by decide) (by norm_num) (by norm_num) (by simp)
  obtain ⟨s'', h3, -, h4, -⟩ := C55_pingPong new 2 6 (by decide) (by decide) (by decide) (-1 : ℚ) (by norm_num)
    (.other ⟨1, .pingPong⟩) rfl [1 / 2] (by norm_num) (by simp)
  rw [h1, Res.ok.injEq] at h3
  subst h3
  rw [h2] at h4
  have e : ⌊([1 / 2] : List ℚ).sum * - -1⌋₊ = 0 := by
    rw [Nat.floor_eq_zero]
    norm_num
  rw [e] at h4
  revert h4
  decide

/-! ## C77: list loops never read outside their list -/

/-- Each history which does not shorten the list of a list loop below the position reached in it
is free of undefined behaviour (for all listeners). -/
theorem C77_no_ub_partial (ops : List (Op K)) (h : Legal KeepsList (init : PB K) ops) :
    ∃ s, run init ops = .ok s := by
  obtain ⟨s, h1, -⟩ := run_ok (fun s : PB K => IterOK s.listener.kind) KeepsList iterOK_step ops init
    trivial h
  exact ⟨s, h1⟩

/-- Histories without writes to a list and with new list loops are of this kind. -/
theorem C77_legal_of_fresh (ops : List (Op K))
    (h : ∀ op ∈ ops, match op with
      | .play _ _ _ (.other l) | .play3 _ _ (.other l) | .play1 (.other l) =>
        ∀ fs it, l.kind = .listLoop fs it → it = 0
      | .setListFrames _ => False
      | _ => True) : Legal KeepsList (init : PB K) ops := by
  have key : ∀ (ops : List (Op K)) (s : PB K), IterOK s.listener.kind → (∀ op ∈ ops, match op with
      | .play _ _ _ (.other l) | .play3 _ _ (.other l) | .play1 (.other l) =>
        ∀ fs it, l.kind = .listLoop fs it → it = 0
      | .setListFrames _ => False
      | _ => True) → Legal KeepsList s ops := by
    intro ops
    induction ops with
    | nil => intro s _ _; trivial
    | cons op ops ih =>
      intro s hs h
      have hl : KeepsList s op := by
        have h0 := h op (by simp)
        have hk : ∀ a : LArg, (match a with
          | .other l => ∀ fs it, l.kind = .listLoop fs it → it = 0
          | _ => True) → IterOK (pickListener s.listener a).kind := by
          intro a ha
          cases a with
          | null => trivial
          | same => exact hs
          | other l =>
            simp only [pickListener]
            cases hlk : l.kind with
            | listLoop fs it => rw [ha fs it hlk]; exact Nat.zero_le _
            | _ => trivial
        cases op with
        | play f l v a => exact hk a (by cases a <;> trivial)
        | play3 f l a => exact hk a (by cases a <;> trivial)
        | play1 a => exact hk a (by cases a <;> trivial)
        | setListFrames fs => exact h0.elim
        | _ => trivial
      refine ⟨hl, fun s' hr => ih s' ?_ (fun o ho => h o (by simp [ho]))⟩
      obtain ⟨t, h1, h2⟩ := iterOK_step s op hs hl
      rw [hr, Res.ok.injEq] at h1
      subst h1; exact h2
  exact key ops init trivial h

private theorem ub_of_bind_ub {α β : Type} (r : Res α) (f : α → β)
    (h : r.bind (fun a => .ok (f a)) = .ub) : r = .ub := by
  cases r with
  | ok a => cases h
  | ub => rfl
  | throw => cases h
  | fuel => cases h

/-- Shortening the (public) list during a backward list loop is undefined behaviour. -/
theorem C77_shrink_refuted :
    run new [.play 0 9 (-1) (.other ⟨1, .listLoop [1, 2, 3, 4] 0⟩), .setListFrames [1, 2],
      .update 1] = .ub := by
  have h : ((run new [.play 0 9 (-1) (.other ⟨1, .listLoop [1, 2, 3, 4] 0⟩), .setListFrames [1, 2],
      .update 1]).bind (fun s => .ok s.frame)) = .ub := by decide +kernel
  exact ub_of_bind_ub _ _ h

/-! The theorems for a new playback. -/

example := C51_single_frame_runs_away new 5 (by norm_num [W]) (3 / 2) (by norm_num) (.other ⟨1, .pingPong⟩) rfl [1 / 3, 5 / 2] (by decide +kernel)
example := C54_loop new 3 5 (by norm_num [W]) (by norm_num [W]) (3 / 2) (by norm_num) (.other ⟨1, .loop⟩) rfl [1 / 3, 5 / 2, 100] (by decide +kernel)
example := C54_pingPong new 3 5 (by norm_num [W]) (by norm_num [W]) (by norm_num) (3 / 2) (by norm_num) (.other ⟨1, .pingPong⟩) rfl [1 / 3, 5 / 2, 100] (by decide +kernel)
example := C54_oneShot new 3 5 (by norm_num [W]) (by norm_num [W]) (3 / 2) (by norm_num) .null rfl [1 / 3, 5 / 2, 100] (by decide +kernel)
example := C55_loop new 3 5 (by norm_num [W]) (by norm_num [W]) (-3 / 2) (by norm_num) (.other ⟨1, .loop⟩) rfl [1 / 3, 5 / 2, 100] (by decide +kernel) (by simp)
example := C55_oneShot_stops_at_once new 3 5 (-3 / 2) (by norm_num) .null rfl [1 / 3, 5 / 2, 100]

example : ∃ s : PB ℚ, run init [.play 0 3 (5 / 2) (.other ⟨1, .listLoop [4, 8, 2] 0⟩), .update 7, .pause true, .play1 .null, .update 1] = .ok s ∧
    0 ≤ s.interpolator ∧ s.interpolator ≤ 1 := by
  obtain ⟨s, h⟩ := C77_no_ub_partial (K := ℚ) _ (C77_legal_of_fresh [.play 0 3 (5 / 2) (.other ⟨1, .listLoop [4, 8, 2] 0⟩), .update 7, .pause true, .play1 .null,
    .update 1] (by simp))
  exact ⟨s, h, C52_history _ _ h⟩

/-- A loop which plays from frame 0 to 3. -/
theorem sample_playing : ∃ s : PB ℚ, run new [.play 0 3 (5 / 2) (.other ⟨1, .loop⟩)] = .ok s ∧ s.state = .playing ∧ s.listener.kind ≠ .oneShot ∧
    s.interpolator = 0 ∧ s.speed = 5 / 2 := by
  have h : ((run new [.play 0 3 (5 / 2) (.other ⟨1, .loop⟩)]).bind
    (fun s => .ok (s.state, s.listener.kind, s.interpolator, s.speed))) = .ok (.playing, .loop, 0, 5 / 2) := by decide +kernel
  obtain ⟨s', h1, h2⟩ := Res.bind_eq_ok.1 h
  simp only [Res.ok.injEq, Prod.mk.injEq] at h2
  exact ⟨s', h1, h2.1, by rw [h2.2.1]; simp, h2.2.2.1, h2.2.2.2⟩

example : ∃ s : PB ℚ, run s [.update (1 / 3), .update (5 / 2)] = run s [.update (1 / 3 + 5 / 2)] := by
  obtain ⟨s, -, h1, h2, h3, -⟩ := sample_playing
  exact ⟨s, C53_split s (1 / 3) (5 / 2) (by norm_num) (by norm_num) h1 h2 h3.ge⟩

example : ∃ s s' : PB ℚ, step s (.update (7 / 3)) = .ok s' ∧ 0 ≤ s'.interpolator ∧ s'.interpolator < 1 := by
  obtain ⟨s', h⟩ := C77_no_ub_partial (K := ℚ) _ (C77_legal_of_fresh [.play 0 3 (5 / 2) (.other ⟨1, .loop⟩), .update (7 / 3)] (by simp))
  obtain ⟨s, e, h1, -, h3, h4⟩ := sample_playing
  have h5 : step s (.update (7 / 3)) = .ok s' := by
    simp only [run, new] at e h ⊢
    obtain ⟨u, e1, e2⟩ := Res.bind_eq_ok.1 e
    simp only [Res.ok.injEq] at e2
    subst e2
    rw [e1] at h
    simpa using h
  exact ⟨s, s', h5, (C52_interpolator s s' _ h1 (by norm_num) h3.ge (by rw [h3]; norm_num) h5).1 (by rw [h4]; norm_num)⟩

end Geom.Playback.Props
