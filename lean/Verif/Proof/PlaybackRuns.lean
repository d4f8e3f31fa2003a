import Verif.Proof.PlaybackForm

set_option linter.unusedSectionVars false

/-! Runs of updates after `Play`. -/
set_option autoImplicit false

namespace Geom.Playback
open Spec

variable {K : Type} [Field K] [LinearOrder K]

/-! The end points of the range are only exchanged, never changed, except by `Play`. -/

/-- The played range is `f .. l`. -/
def RangeIs (f l : Nat) (s : PB K) : Prop :=
  (s.firstFrame = f ∧ s.lastFrame = l) ∨ (s.firstFrame = l ∧ s.lastFrame = f)

theorem RangeIs.between {f l : Nat} {s : PB K} (h : RangeIs f l s) {n : Nat}
    (hb : Between s.firstFrame s.lastFrame n) : Between f l n := by
  unfold Between at *
  rcases h with ⟨h1, h2⟩ | ⟨h1, h2⟩ <;> rw [h1, h2] at hb <;> omega

theorem rangeIs_of_frames {f l : Nat} {s t : PB K} (h : RangeIs f l s)
    (h1 : t.firstFrame = s.firstFrame) (h2 : t.lastFrame = s.lastFrame) : RangeIs f l t := by
  unfold RangeIs; rw [h1, h2]; exact h

theorem setNext_first (s : PB K) : (setNextFrame s).firstFrame = s.firstFrame ∧
    (setNextFrame s).lastFrame = s.lastFrame := by
  unfold setNextFrame; split_ifs <;> exact ⟨rfl, rfl⟩

theorem setNextTo_first (s : PB K) (n : Nat) : (setNextFrameTo s n).firstFrame = s.firstFrame ∧
    (setNextFrameTo s n).lastFrame = s.lastFrame := by
  unfold setNextFrameTo; split_ifs <;> exact ⟨rfl, rfl⟩

theorem post_rangeIs {f l : Nat} {s s' : PB K} (h : RangeIs f l s) (hp : postNextFrame s = .ok s') :
    RangeIs f l s' := by
  cases hk : s.listener.kind with
  | base => rw [post_base s hk] at hp; simp at hp; subst hp; exact h
  | oneShot =>
    obtain ⟨t, p1, p2, p3, p4, p5⟩ := post_oneShot s hk
    rw [p1] at hp; simp at hp; subst hp
    split_ifs at p5
    · obtain ⟨e1, e2, -, -⟩ := frames_eq p5.2; exact rangeIs_of_frames h e1 e2
    · obtain ⟨e1, e2, -, -⟩ := frames_eq p5.2
      exact rangeIs_of_frames h (e1.trans (setNext_first s).1) (e2.trans (setNext_first s).2)
  | loop =>
    obtain ⟨t, p1, p2, p3, p4, p5, p6⟩ := post_loop s hk
    rw [p1] at hp; simp at hp; subst hp
    split_ifs at p6
    · obtain ⟨e1, e2, -, -⟩ := frames_eq p6
      exact rangeIs_of_frames h (e1.trans (setNextTo_first s _).1) (e2.trans (setNextTo_first s _).2)
    · obtain ⟨e1, e2, -, -⟩ := frames_eq p6
      exact rangeIs_of_frames h (e1.trans (setNextTo_first s _).1) (e2.trans (setNextTo_first s _).2)
    · obtain ⟨e1, e2, -, -⟩ := frames_eq p6
      exact rangeIs_of_frames h (e1.trans (setNext_first s).1) (e2.trans (setNext_first s).2)
  | pingPong =>
    obtain ⟨t, p1, p2, p3, p4, p5, p6⟩ := post_pingPong s hk
    rw [p1] at hp; simp at hp; subst hp
    split_ifs at p6
    · obtain ⟨e1, e2, -, -⟩ := frames_eq p6
      have e1 := e1.trans (setNext_first _).1
      have e2 := e2.trans (setNext_first _).2
      unfold RangeIs at *
      rw [e1, e2]
      rcases h with h | h
      · exact Or.inr ⟨h.2, h.1⟩
      · exact Or.inl ⟨h.2, h.1⟩
    · obtain ⟨e1, e2, -, -⟩ := frames_eq p6
      exact rangeIs_of_frames h (e1.trans (setNext_first s).1) (e2.trans (setNext_first s).2)
  | listLoop fs it =>
    by_cases hl : 2 ≤ fs.length
    · by_cases hi : listIterator (isForward s) fs.length it < fs.length
      · obtain ⟨t, p1, p2, p3, p4, p5, p6⟩ := post_listLoop s fs it hk hl hi
        rw [p1] at hp; simp at hp; subst hp
        obtain ⟨e1, e2, -, -⟩ := frames_eq p6
        exact rangeIs_of_frames h (e1.trans (setNextTo_first s _).1) (e2.trans (setNextTo_first s _).2)
      · exfalso
        have hif : isForward { s with log := (s.listener.id, Ev.onNextFrame) :: s.log }
            = isForward s := rfl
        unfold postNextFrame onNextFrame post at hp
        simp only [hk, ge_iff_le, hl, if_true, hif] at hp
        rw [List.getElem?_eq_none (not_lt.1 hi)] at hp
        simp at hp
    · rw [post_listShort s fs it hk hl] at hp; simp at hp; subst hp; exact h

/-- Calls other than `Play`. -/
def NoPlay : Op K → Prop
  | .play _ _ _ _ | .play3 _ _ _ | .play1 _ => False
  | _ => True

theorem pause_frames (s : PB K) (b : Bool) : frames (pause s b) = frames s := by
  unfold pause setState post; split_ifs <;> rfl

variable [IsStrictOrderedRing K] [FloorRing K]

theorem step_rangeIs {f l : Nat} {s s' : PB K} {op : Op K} (hn : NoPlay op) (h : RangeIs f l s)
    (hp : step s op = .ok s') : RangeIs f l s' := by
  cases op with
  | play => exact hn.elim
  | play3 => exact hn.elim
  | play1 => exact hn.elim
  | pause b =>
    simp only [step, Res.ok.injEq] at hp; subst hp
    obtain ⟨e1, e2, -, -⟩ := frames_eq (pause_frames s b); exact rangeIs_of_frames h e1 e2
  | stop =>
    simp only [step, Res.ok.injEq] at hp; subst hp
    obtain ⟨e1, e2, -, -⟩ := frames_eq (stop_frames s); exact rangeIs_of_frames h e1 e2
  | update dt =>
    exact update_inv (RangeIs f l) (fun s x h => h)
      (fun s s' _ hi hr => post_rangeIs (s := { s with frame := s.nextFrame }) hi hr)
      (fun s s' _ hi hr => post_rangeIs (s := { s with nextFrame := s.frame }) hi hr) h hp
  | setSpeed v => simp only [step, Res.ok.injEq] at hp; subst hp; exact h
  | setListFrames fs =>
    simp only [step] at hp
    split at hp <;> simp only [Res.ok.injEq] at hp <;> subst hp <;> exact h

theorem run_rangeIs {f l : Nat} : ∀ (ops : List (Op K)), (∀ op ∈ ops, NoPlay op) →
    ∀ {s s' : PB K}, RangeIs f l s → run s ops = .ok s' → RangeIs f l s' := by
  intro ops
  induction ops with
  | nil => intro _ s s' h hr; simp [run] at hr; subst hr; exact h
  | cons op ops ih =>
    intro hn s s' h hr
    simp only [run] at hr
    obtain ⟨a, ha, hb⟩ := Res.bind_eq_ok.1 hr
    exact ih (fun o ho => hn o (by simp [ho])) (step_rangeIs (hn op (by simp)) h ha) hb

theorem play_rangeIs {s s' : PB K} {f l : Nat} {v : K} {a : LArg} (h : play s f l v a = .ok s') :
    RangeIs f l s' := by
  rw [play_eq] at h
  exact post_rangeIs (s := playStart s f l v a) (Or.inl ⟨rfl, rfl⟩) h

theorem run_append (ops ops' : List (Op K)) (s : PB K) :
    run s (ops ++ ops') = (run s ops).bind (fun s => run s ops') := by
  induction ops generalizing s with
  | nil => rfl
  | cons op ops ih =>
    simp only [List.cons_append, run]
    cases step s op <;> simp [ih]

/-! Start of the modes -/

theorem kind_playStart (s : PB K) (f l : Nat) (v : K) (a : LArg)
    (hk : ∀ fs it, (pickListener s.listener a).kind ≠ .listLoop fs it) :
    (playStart s f l v a).listener.kind = (pickListener s.listener a).kind := by
  cases a with
  | null => rfl
  | other l => rfl
  | same =>
    simp only [playStart, pickListener] at *
    rcases stop_kind s with h | ⟨fs, it, h, -⟩
    · exact h
    · exact absurd h (hk fs it)

theorem play_PLoop (s : PB K) {f l : Nat} (hf : f < W) (hl : l < W) {v : K} (hv : 0 ≤ v) {a : LArg}
    (hk : (pickListener s.listener a).kind = .loop) :
    ∃ s', play s f l v a = .ok s' ∧ PLoop f l v 0 s' := by
  rw [play_eq]
  refine post_PLoop hf hl hv 0 _ ?_ rfl rfl rfl rfl ?_
  · rw [kind_playStart s f l v a (by simp [hk]), hk]
  · show f = _; unfold loopFrame; split_ifs <;> simp

theorem play_interp (s : PB K) {f l : Nat} {v : K} {a : LArg} {s' : PB K}
    (h : play s f l v a = .ok s') : s'.interpolator = 0 ∧ s'.speed = v := by
  rw [play_eq] at h
  have : (playStart s f l v a).interpolator = 0 ∧ (playStart s f l v a).speed = v := ⟨rfl, rfl⟩
  have hw : withI 0 (playStart s f l v a) = playStart s f l v a := rfl
  rw [← hw, postNextFrame_withI] at h
  obtain ⟨t, ht, rfl⟩ := map_withI_ok h
  exact ⟨rfl, (onNextFrame_speed (s := post (playStart s f l v a) .onNextFrame) ht).trans this.2⟩

theorem play_PLoopB (s : PB K) {f l : Nat} (hf : f < W) (hl : l < W) {v : K} (hv : v < 0) {a : LArg}
    (hk : (pickListener s.listener a).kind = .loop) :
    ∃ s', play s f l v a = .ok s' ∧ PLoopB f l v 0 s' := by
  rw [play_eq]
  set t := playStart s f l v a with ht
  have hkt : t.listener.kind = .loop := by rw [ht, kind_playStart s f l v a (by simp [hk]), hk]
  obtain ⟨s', p1, p2, p3, p4, p5, p6⟩ := post_loop t hkt
  have hv' : t.speed < 0 := hv
  have hfw : ¬ isForward t = true := by simp [isForward, hv']
  have he : hasEndReached t = true := by
    rw [end_bwd t hv']
    show if f ≤ l then f ≤ f else f ≤ f
    simp
  rw [if_pos he, nextTo_bwd t hv', if_neg hfw] at p6
  obtain ⟨e1, e2, e3, e4⟩ := frames_eq p6
  refine ⟨s', p1, by rw [p2, hkt], by rw [p5]; rfl, by rw [p3]; rfl, by rw [e1]; rfl,
    by rw [e2]; rfl, ?_, fun h => absurd h (by omega)⟩
  rw [e3]
  show l = _
  unfold loopFrame; split_ifs <;> simp

theorem play_PPing (s : PB K) {f l : Nat} (hf : f < W) (hl : l < W) (hne : f ≠ l) {v : K} (hv : 0 ≤ v)
    {a : LArg} (hk : (pickListener s.listener a).kind = .pingPong) :
    ∃ s', play s f l v a = .ok s' ∧ PPing f l v 0 s' := by
  rw [play_eq]
  refine post_PPing hf hl hne hv 0 _ ?_ rfl rfl ?_ ?_
  · rw [kind_playStart s f l v a (by simp [hk]), hk]
  · rw [if_pos (Or.inl rfl)]; exact ⟨rfl, rfl⟩
  · show f = _; unfold pingPongFrame pingPongOffset; split_ifs <;> simp_all

theorem play_PPingB (s : PB K) {f l : Nat} (hf : f < W) (hl : l < W) (hne : f ≠ l) {v : K} (hv : v < 0)
    {a : LArg} (hk : (pickListener s.listener a).kind = .pingPong) :
    ∃ s', play s f l v a = .ok s' ∧ PPingB f l v 0 s' := by
  rw [play_eq]
  refine post_PPingB hf hl hne hv 0 _ ?_ rfl rfl ?_ ?_ (fun h => absurd h (by omega))
  · rw [kind_playStart s f l v a (by simp [hk]), hk]
  · rw [if_pos]
    · exact ⟨rfl, rfl⟩
    · exact lt_of_le_of_lt (Nat.mod_le _ _) (by omega)
  · rw [pingPong_shift f l 0 hne]
    show f = _; unfold pingPongFrame pingPongOffset; split_ifs <;> simp_all

theorem play_PSingle (s : PB K) {f : Nat} (hf : f < W) {v : K} (hv : 0 ≤ v)
    {a : LArg} (hk : (pickListener s.listener a).kind = .pingPong) :
    ∃ s', play s f f v a = .ok s' ∧ PSingle f v 0 s' := by
  rw [play_eq]
  refine post_PSingle hv 0 _ ?_ rfl rfl rfl rfl ?_
  · rw [kind_playStart s f f v a (by simp [hk]), hk]
  · show f = _; rw [Nat.add_zero, Nat.mod_eq_of_lt hf]

theorem play_PList (s : PB K) {fs : List Nat} (hlen : 2 ≤ fs.length) {f l : Nat} {v : K} (hv : 0 ≤ v)
    {a : LArg} (hk : (pickListener (stop s).listener a).kind = .listLoop fs 0) :
    ∃ s', play s f l v a = .ok s' ∧ PList fs f v 0 s' := by
  rw [play_eq]
  refine post_PList hlen hv 0 _ ?_ rfl rfl ?_
  · rw [Nat.zero_mod]; exact hk
  · rw [if_pos rfl]; rfl

theorem play_POne (s : PB K) {f l : Nat} (hf : f < W) (hl : l < W) {v : K} (hv : 0 ≤ v)
    {a : LArg} (hk : (pickListener s.listener a).kind = .oneShot) :
    ∃ s', play s f l v a = .ok s' ∧ POne f l v 0 s' := by
  rw [play_eq]
  refine post_POne hf hl hv 0 _ ?_ ?_ rfl rfl rfl ?_
  · rw [kind_playStart s f l v a (by simp [hk]), hk]
  · split_ifs
    · intro h; exact absurd h (by omega)
    · rfl
  · show f = _; unfold oneShotFrame; split_ifs <;> omega

/-- A one-shot playback with negative speed ends at once. -/
theorem play_oneShot_back (s : PB K) {f l : Nat} {v : K} (hv : v < 0)
    {a : LArg} (hk : (pickListener s.listener a).kind = .oneShot) :
    ∃ s', play s f l v a = .ok s' ∧ s'.state = .stopped ∧ s'.frame = f := by
  rw [play_eq]
  set t := playStart s f l v a with ht
  have hkt : t.listener.kind = .oneShot := by rw [ht, kind_playStart s f l v a (by simp [hk]), hk]
  obtain ⟨s', p1, p2, p3, p4, p5⟩ := post_oneShot t hkt
  have he : hasEndReached t = true := by
    rw [end_bwd t hv]
    show if f ≤ l then f ≤ f else f ≤ f
    simp
  rw [if_pos he] at p5
  obtain ⟨e1, e2, e3, e4⟩ := frames_eq p5.2
  exact ⟨s', p1, p5.1, by rw [e3]; rfl⟩

/-! One-shot runs -/

theorem run_updates_stopped (dts : List K) (s : PB K) (h : s.state = .stopped) :
    run s (dts.map Op.update) = .ok s := by
  induction dts with
  | nil => rfl
  | cons d dts ih =>
    simp only [List.map_cons, run, step]
    rw [update_idle s d (Or.inl (by rw [h]; simp)), Res.bind_ok, ih]

theorem oneShotFrame_mono {f l n m : Nat} (h : n ≤ m) (he : oneShotFrame f l n = l) :
    oneShotFrame f l m = l := by
  unfold oneShotFrame at *; split_ifs at * <;> omega

theorem iter_POne {f l : Nat} (hf : f < W) (hl : l < W) {v : K} (hv : 0 ≤ v) (k : Nat) :
    ∀ (n : Nat) (s : PB K), (0 < n ∨ s.state = .playing) → POne f l v n s →
    ∃ s', iterRes stepF k s = .ok s' ∧ POne f l v (n + k) s' := by
  induction k with
  | zero => intro n s _ h; exact ⟨s, rfl, h⟩
  | succ k ih =>
    intro n s hn h
    obtain ⟨a, h1, h2⟩ := stepF_POne hf hl hv n s hn h
    obtain ⟨b, h3, h4⟩ := ih (n + 1) a (Or.inl (by omega)) h2
    refine ⟨b, by simp [iterRes, h1, h3], ?_⟩
    have : n + (k + 1) = n + 1 + k := by omega
    rw [this]; exact h4

/-- What a client sees of a one-shot playback after `n` whole frames. -/
def SeesOne (f l n : Nat) (s : PB K) : Prop :=
  s.frame = oneShotFrame f l n ∧ (s.state = .stopped ↔ oneShotFrame f l n = l) ∧
  (s.state = .playing ↔ oneShotFrame f l n ≠ l)

theorem updates_oneShot {f l : Nat} (hf : f < W) (hl : l < W) {v : K} (hv : 0 ≤ v) :
    ∀ (dts : List K), (∀ d ∈ dts, 0 < d) → ∀ (n : Nat) (s : PB K), POne f l v n s →
      0 ≤ s.interpolator → s.interpolator < 1 →
      ∃ s', run s (dts.map Op.update) = .ok s' ∧
        SeesOne f l (n + ⌊s.interpolator + dts.sum * v⌋₊) s' ∧
        (s'.state = .playing → s'.nextFrame = oneShotFrame f l (n + ⌊s.interpolator + dts.sum * v⌋₊ + 1) ∧
          s'.interpolator = s.interpolator + dts.sum * v - ⌊s.interpolator + dts.sum * v⌋₊) := by
  have hsee : ∀ n (s : PB K), POne f l v n s → SeesOne f l n s := by
    rintro n s ⟨-, -, -, -, h, h'⟩
    refine ⟨h, ?_⟩
    split_ifs at h' with he
    · simp [he, h'.1]
    · simp [he, h'.1]
  intro dts
  induction dts with
  | nil =>
    intro _ n s h h0 h1
    refine ⟨s, rfl, ?_, ?_⟩
    · simpa [Nat.floor_eq_zero.2 h1] using hsee n s h
    · intro hp
      simp only [List.sum_nil, zero_mul, add_zero, Nat.floor_eq_zero.2 h1, Nat.cast_zero, sub_zero,
        and_true]
      have h' := h.2.2.2.2.2
      split_ifs at h' with he
      · rw [h'.1] at hp; simp at hp
      · exact h'.2
  | cons d dts ih =>
    intro hpos n s h h0 h1
    have hd : 0 < d := hpos d (by simp)
    have hsum : 0 ≤ dts.sum * v :=
      mul_nonneg (List.sum_nonneg (fun e he => (hpos e (by simp [he])).le)) hv
    have e : s.interpolator + (d :: dts).sum * v = s.interpolator + d * v + dts.sum * v := by
      simp; ring
    have hx : 0 ≤ s.interpolator + d * v := by positivity
    have hfl := floor_split hx hsum
    by_cases he : oneShotFrame f l n = l
    · have hst : s.state = .stopped := ((hsee n s h).2.1).2 he
      refine ⟨s, run_updates_stopped _ s hst, ?_, fun hp => ?_⟩
      · have := oneShotFrame_mono (f := f) (l := l) (Nat.le_add_right n _) he
          (m := n + ⌊s.interpolator + (d :: dts).sum * v⌋₊)
        unfold SeesOne
        rw [this]
        exact ⟨(hsee n s h).1.trans he, by simp [hst], by simp [hst]⟩
      · rw [hst] at hp; simp at hp
    · have hp : s.state = .playing := ((hsee n s h).2.2).2 he
      have hsp : s.speed = v := h.2.1
      have hu := update_forward s d hp hd (by rw [hsp]; exact hv)
      obtain ⟨t, ht1, ht2⟩ := iter_POne hf hl hv ⌊s.interpolator + d * s.speed⌋₊ n s (Or.inr hp) h
      rw [ht1, hsp] at hu
      simp only [Res.map, Res.bind_ok] at hu
      rw [hsp] at ht2
      have f1 := Nat.floor_le hx
      have f2 := Nat.lt_floor_add_one (s.interpolator + d * v)
      obtain ⟨s', h2, h3, h4⟩ := ih (fun e he => hpos e (by simp [he])) _
        (withI (s.interpolator + d * v - ⌊s.interpolator + d * v⌋₊) t) ht2
        (by simp only [withI_interp]; linarith) (by simp only [withI_interp]; linarith)
      simp only [withI_interp] at h3 h4
      refine ⟨s', ?_, ?_, ?_⟩
      · simp only [List.map_cons, run, step, hu, Res.bind_ok]; exact h2
      · rw [e, hfl, ← Nat.add_assoc]; exact h3
      · intro hp'
        obtain ⟨h5, h6⟩ := h4 hp'
        rw [e, hfl, ← Nat.add_assoc]
        refine ⟨h5, ?_⟩
        rw [h6]; push_cast; ring

end Geom.Playback
