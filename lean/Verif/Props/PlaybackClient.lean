import Verif.Spec.PlaybackClient
import Verif.Proof.PlaybackHist
import Mathlib.Data.Rat.Floor
import Mathlib.Tactic.Linarith

/-!
Property C125: playbacks with listeners of the client, whose handlers call the playback.
-/

set_option linter.unusedSectionVars false
set_option autoImplicit false

namespace Geom.Playback.Client.Props

open Geom.Playback Geom.Playback.Spec Geom.Playback.Client.Spec

variable {K σ : Type} [Field K] [LinearOrder K]

/-! ### The budget -/

/-- A larger budget does not change the result. -/
theorem run_succ (H : Listener → Ev → Prog K σ) : ∀ (n : Nat) (t : Task K σ) (w w' : PB K × σ),
    run H n t w = .ok w' → run H (n + 1) t w = .ok w'
  | 0, t, w, w', h => by cases t <;> simp [run] at h
  | n + 1, .prog p, w, w', h => by
    cases p with
    | done => simpa [run] using h
    | get k => rw [run] at h ⊢; exact run_succ H n _ _ _ h
    | put c p => rw [run] at h ⊢; exact run_succ H n _ _ _ h
    | call c p =>
      rw [run] at h ⊢
      obtain ⟨v, h1, h2⟩ := Res.bind_eq_ok.1 h
      exact Res.bind_eq_ok.2 ⟨v, run_succ H n _ _ _ h1, run_succ H n _ _ _ h2⟩
  | n + 1, .call c, w, w', h => by
    cases c with
    | play f l v a =>
      rw [run] at h ⊢
      obtain ⟨u, h1, h2⟩ := Res.bind_eq_ok.1 h
      obtain ⟨u', h3, h4⟩ := Res.bind_eq_ok.1 h2
      exact Res.bind_eq_ok.2 ⟨u, run_succ H n _ _ _ h1, Res.bind_eq_ok.2 ⟨u', run_succ H n _ _ _ h3, run_succ H n _ _ _ h4⟩⟩
    | pause b =>
      rw [run] at h ⊢
      split_ifs at h ⊢
      · exact run_succ H n _ _ _ h
      · exact h
      · exact run_succ H n _ _ _ h
      · exact h
    | stop =>
      rw [run] at h ⊢
      split_ifs at h ⊢
      · exact run_succ H n _ _ _ h
      · exact h
    | update dt =>
      rw [run] at h ⊢
      simp only at h ⊢
      split_ifs at h ⊢
      · exact h
      · exact run_succ H n _ _ _ h
      · exact run_succ H n _ _ _ h
    | setNextFrame => simpa [run] using h
    | setNextFrameTo k => simpa [run] using h
    | setFirst k => simpa [run] using h
    | setLast k => simpa [run] using h
    | setFrame k => simpa [run] using h
    | setNext k => simpa [run] using h
    | setInterpolator x => simpa [run] using h
    | setSpeed v => simpa [run] using h
  | n + 1, .state st, w, w', h => by rw [run] at h ⊢; exact run_succ H n _ _ _ h
  | n + 1, .next, w, w', h => by rw [run] at h ⊢; exact run_succ H n _ _ _ h
  | n + 1, .forward, w, w', h => by
    rw [run] at h ⊢
    split_ifs at h ⊢
    · obtain ⟨v, h1, h2⟩ := Res.bind_eq_ok.1 h
      exact Res.bind_eq_ok.2 ⟨v, run_succ H n _ _ _ h1, run_succ H n _ _ _ h2⟩
    · exact h
  | n + 1, .backward, w, w', h => by
    rw [run] at h ⊢
    split_ifs at h ⊢
    · obtain ⟨v, h1, h2⟩ := Res.bind_eq_ok.1 h
      exact Res.bind_eq_ok.2 ⟨v, run_succ H n _ _ _ h1, run_succ H n _ _ _ h2⟩
    · exact h

theorem run_mono (H : Listener → Ev → Prog K σ) {m n : Nat} (hmn : m ≤ n) {t : Task K σ} {w w' : PB K × σ}
    (h : run H m t w = .ok w') : run H n t w = .ok w' := by
  induction n, hmn using Nat.le_induction with
  | base => exact h
  | succ n _ ih => exact run_succ H n t w w' ih

/-- The result of a task, with a sufficient budget. -/
def Gives (H : Listener → Ev → Prog K σ) (t : Task K σ) (w w' : PB K × σ) : Prop := ∃ n, run H n t w = .ok w'

/-! ### The protocol -/

/-- A handler which only assigns fields leaves the state, the listener and the events as they are. -/
theorem quiet_run (H : Listener → Ev → Prog K σ) : ∀ (n : Nat) (p : Prog K σ) (w w' : PB K × σ), Calls Quiet p →
    run H n (.prog p) w = .ok w' →
    w'.1.state = w.1.state ∧ w'.1.listener = w.1.listener ∧ w'.1.log = w.1.log
  | 0, p, w, w', _, h => by simp [run] at h
  | n + 1, .done, w, w', _, h => by simp [run] at h; subst h; simp
  | n + 1, .get k, w, w', hp, h => by rw [run] at h; exact quiet_run H n _ _ _ (hp _ _) h
  | n + 1, .put c p, w, w', hp, h => by rw [run] at h; exact quiet_run H n p (w.1, c) w' hp h
  | n + 1, .call c p, w, w', hp, h => by
    rw [run] at h
    obtain ⟨v, h1, h2⟩ := Res.bind_eq_ok.1 h
    have ih := quiet_run H n p v w' hp.2 h2
    have hv : v.1.state = w.1.state ∧ v.1.listener = w.1.listener ∧ v.1.log = w.1.log := by
      have hq := hp.1
      cases n with
      | zero => simp [run] at h1
      | succ n =>
        cases c with
        | play => exact hq.elim
        | pause => exact hq.elim
        | stop => exact hq.elim
        | update => exact hq.elim
        | setNextFrame => simp [run] at h1; subst h1; simp [Playback.setNextFrame]; split_ifs <;> simp
        | setNextFrameTo k => simp [run] at h1; subst h1; simp [Playback.setNextFrameTo]; split_ifs <;> simp
        | setFirst k => simp [run] at h1; subst h1; simp
        | setLast k => simp [run] at h1; subst h1; simp
        | setFrame k => simp [run] at h1; subst h1; simp
        | setNext k => simp [run] at h1; subst h1; simp
        | setInterpolator x => simp [run] at h1; subst h1; simp
        | setSpeed v => simp [run] at h1; subst h1; simp
    rw [ih.1, ih.2.1, ih.2.2]
    exact hv

/-- `SetState` with quiet handlers. -/
theorem state_run (H : Listener → Ev → Prog K σ) (hH : Calm H) (n : Nat) (st : State) (w w' : PB K × σ)
    (h : run H n (.state st) w = .ok w') :
    w'.1.state = st ∧ w'.1.listener = w.1.listener ∧ w'.1.log = (w.1.listener.id, event st) :: w.1.log := by
  cases n with
  | zero => simp [run] at h
  | succ n =>
    rw [run] at h
    have := quiet_run H n _ _ _ (hH.1 _ _ (by cases st <;> simp [event])) h
    simpa [post] using this

/-- The invariant while `OnNextFrame` runs. -/
def Inv (s : PB K) : Prop := MonInv s ∧ s.state ≠ .paused

theorem inv_congr {s s' : PB K} (h1 : s'.state = s.state) (h2 : s'.listener = s.listener) (h3 : s'.log = s.log) (h : Inv s) : Inv s' := by
  unfold Inv MonInv at *
  rw [h1, h2, h3]
  exact h

theorem mon_stopped (H : Listener → Ev → Prog K σ) (hH : Calm H) (n : Nat) (w w' : PB K × σ) (hi : MonInv w.1)
    (h : run H n (.call .stop) w = .ok w') : MonInv w'.1 ∧ w'.1.state = .stopped := by
  cases n with
  | zero => simp [run] at h
  | succ n =>
    rw [run] at h
    split_ifs at h with hs
    · obtain ⟨h1, h2, h3⟩ := state_run H hH n _ _ _ h
      refine ⟨?_, h1⟩
      unfold MonInv observe at *
      rw [h3, h1, h2, List.foldr_cons, hi]
      cases hst : w.1.state <;> simp_all [monitor, event]
    · simp only [ne_eq, not_not] at hs
      simp only [Res.ok.injEq] at h
      subst h
      exact ⟨hi, hs⟩

theorem inv_play (H : Listener → Ev → Prog K σ) (hH : Calm H) (n : Nat)
    (hnext : ∀ w w' : PB K × σ, Inv w.1 → run H n .next w = .ok w' → Inv w'.1) (f l : Nat) (v : K) (a : Option Listener)
    (w w' : PB K × σ) (hi : MonInv w.1) (h : run H (n + 1) (.call (.play f l v a)) w = .ok w') : Inv w'.1 := by
  rw [run] at h
  obtain ⟨u, h1, h2⟩ := Res.bind_eq_ok.1 h
  obtain ⟨u', h3, h4⟩ := Res.bind_eq_ok.1 h2
  obtain ⟨m1, m2⟩ := mon_stopped H hH n w u hi h1
  obtain ⟨s1, s2, s3⟩ := state_run H hH n _ _ _ h3
  refine hnext u' w' ⟨?_, by rw [s1]; simp⟩ h4
  unfold MonInv observe at *
  rw [s3, s1, s2, List.foldr_cons]
  simp only [configure] at *
  rw [m1, m2]
  simp [monitor, event]

/-- Calls in `OnNextFrame` keep the invariant. -/
theorem inv_run (H : Listener → Ev → Prog K σ) (hH : Calm H) : ∀ n : Nat,
    (∀ (p : Prog K σ) (w w' : PB K × σ), Calls NoPause p → Inv w.1 → run H n (.prog p) w = .ok w' → Inv w'.1) ∧
    (∀ (c : Call K) (w w' : PB K × σ), NoPause c → Inv w.1 → run H n (.call c) w = .ok w' → Inv w'.1) ∧
    (∀ w w' : PB K × σ, Inv w.1 → run H n .next w = .ok w' → Inv w'.1) ∧
    (∀ w w' : PB K × σ, Inv w.1 → run H n .forward w = .ok w' → Inv w'.1) ∧
    (∀ w w' : PB K × σ, Inv w.1 → run H n .backward w = .ok w' → Inv w'.1) := by
  intro n
  induction n with
  | zero =>
    refine ⟨?_, ?_, ?_, ?_, ?_⟩ <;> intros <;> rename_i h <;> simp [run] at h
  | succ n ih =>
    obtain ⟨ip, ic, inx, ifw, ibw⟩ := ih
    refine ⟨?_, ?_, ?_, ?_, ?_⟩
    · intro p w w' hp hi h
      cases p with
      | done => simp [run] at h; subst h; exact hi
      | get k => rw [run] at h; exact ip _ _ _ (hp _ _) hi h
      | put c p => rw [run] at h; exact ip p (w.1, c) w' hp hi h
      | call c p =>
        rw [run] at h
        obtain ⟨v, h1, h2⟩ := Res.bind_eq_ok.1 h
        exact ip p v w' hp.2 (ic c w v hp.1 hi h1) h2
    · intro c w w' hc hi h
      cases c with
      | play f l v a => exact inv_play H hH n inx f l v a w w' hi.1 h
      | pause b =>
        cases b with
        | true => exact hc.elim
        | false =>
          rw [run] at h
          simp only [Bool.false_eq_true, if_false, if_neg hi.2, Res.ok.injEq] at h
          subst h
          exact hi
      | stop =>
        obtain ⟨h1, h2⟩ := mon_stopped H hH (n + 1) w w' hi.1 h
        exact ⟨h1, by rw [h2]; simp⟩
      | update dt =>
        rw [run] at h
        simp only at h
        split_ifs at h
        · simp only [Res.ok.injEq] at h; subst h; exact hi
        · refine ifw (_, _) w' ?_ h; exact inv_congr rfl rfl rfl hi
        · refine ibw (_, _) w' ?_ h; exact inv_congr rfl rfl rfl hi
      | setNextFrame =>
        simp [run] at h; subst h
        refine inv_congr ?_ ?_ ?_ hi <;> simp [Playback.setNextFrame] <;> split_ifs <;> rfl
      | setNextFrameTo k =>
        simp [run] at h; subst h
        refine inv_congr ?_ ?_ ?_ hi <;> simp [Playback.setNextFrameTo] <;> split_ifs <;> rfl
      | setFirst k => simp [run] at h; subst h; exact inv_congr rfl rfl rfl hi
      | setLast k => simp [run] at h; subst h; exact inv_congr rfl rfl rfl hi
      | setFrame k => simp [run] at h; subst h; exact inv_congr rfl rfl rfl hi
      | setNext k => simp [run] at h; subst h; exact inv_congr rfl rfl rfl hi
      | setInterpolator x => simp [run] at h; subst h; exact inv_congr rfl rfl rfl hi
      | setSpeed v => simp [run] at h; subst h; exact inv_congr rfl rfl rfl hi
    · intro w w' hi h
      rw [run] at h
      refine ip _ _ w' (hH.2 _) ?_ h
      refine ⟨?_, hi.2⟩
      have hm := hi.1
      unfold MonInv observe at *
      simp only [post, List.foldr_cons, hm]
      have := hi.2
      cases hst : w.1.state <;> simp_all [monitor]
    · intro w w' hi h
      rw [run] at h
      split_ifs at h
      · obtain ⟨v, h1, h2⟩ := Res.bind_eq_ok.1 h
        refine ifw v w' (inx (_, _) v ?_ h1) h2; exact inv_congr rfl rfl rfl hi
      · simp only [Res.ok.injEq] at h; subst h; exact hi
    · intro w w' hi h
      rw [run] at h
      split_ifs at h
      · obtain ⟨v, h1, h2⟩ := Res.bind_eq_ok.1 h
        refine ibw v w' (inx (_, _) v ?_ h1) h2; exact inv_congr rfl rfl rfl hi
      · simp only [Res.ok.injEq] at h; subst h; exact hi

/-- Calls of the client keep the state announced by the events. -/
theorem mon_call (H : Listener → Ev → Prog K σ) (hH : Calm H) (n : Nat) (c : Call K) (w w' : PB K × σ) (hi : MonInv w.1)
    (h : run H n (.call c) w = .ok w') : MonInv w'.1 := by
  by_cases hp : w.1.state = .paused
  · cases n with
    | zero => simp [run] at h
    | succ n =>
      have hq : ∀ v : PB K × σ, v.1.state = w.1.state → v.1.listener = w.1.listener → v.1.log = w.1.log → MonInv v.1 := by
        intro v h1 h2 h3
        unfold MonInv at *
        rw [h1, h2, h3]
        exact hi
      cases c with
      | play f l v a => exact (inv_play H hH n (inv_run H hH n).2.2.1 f l v a w w' hi h).1
      | pause b =>
        rw [run] at h
        cases b with
        | true => simp [hp] at h; subst h; exact hi
        | false =>
          simp only [Bool.false_eq_true, if_false, hp, if_true] at h
          obtain ⟨s1, s2, s3⟩ := state_run H hH n _ _ _ h
          unfold MonInv observe at *
          rw [s3, s1, s2, List.foldr_cons, hi, hp]
          simp [monitor, event]
      | stop => exact (mon_stopped H hH (n + 1) w w' hi h).1
      | update dt => simp [run, hp] at h; subst h; exact hi
      | setNextFrame =>
        simp [run] at h; subst h
        refine hq _ ?_ ?_ ?_ <;> simp [Playback.setNextFrame] <;> split_ifs <;> rfl
      | setNextFrameTo k =>
        simp [run] at h; subst h
        refine hq _ ?_ ?_ ?_ <;> simp [Playback.setNextFrameTo] <;> split_ifs <;> rfl
      | setFirst k => simp [run] at h; subst h; exact hq _ rfl rfl rfl
      | setLast k => simp [run] at h; subst h; exact hq _ rfl rfl rfl
      | setFrame k => simp [run] at h; subst h; exact hq _ rfl rfl rfl
      | setNext k => simp [run] at h; subst h; exact hq _ rfl rfl rfl
      | setInterpolator x => simp [run] at h; subst h; exact hq _ rfl rfl rfl
      | setSpeed v => simp [run] at h; subst h; exact hq _ rfl rfl rfl
  · by_cases hc : NoPause c
    · exact ((inv_run H hH n).2.1 c w w' hc ⟨hi, hp⟩ h).1
    · cases c with
      | pause b =>
        cases b with
        | false => exact absurd trivial hc
        | true =>
          cases n with
          | zero => simp [run] at h
          | succ n =>
            rw [run] at h
            simp only [if_true] at h
            split_ifs at h with hs
            · obtain ⟨s1, s2, s3⟩ := state_run H hH n _ _ _ h
              unfold MonInv observe at *
              rw [s3, s1, s2, List.foldr_cons, hi, hs]
              simp [monitor, event]
            · simp only [Res.ok.injEq] at h; subst h; exact hi
      | _ => exact absurd trivial hc

theorem mon_history (H : Listener → Ev → Prog K σ) (hH : Calm H) (n : Nat) : ∀ (cs : List (Call K)) (w w' : PB K × σ),
    MonInv w.1 → history H n cs w = .ok w' → MonInv w'.1
  | [], w, w', hi, h => by simp [history] at h; subst h; exact hi
  | c :: cs, w, w', hi, h => by
    rw [history] at h
    obtain ⟨v, h1, h2⟩ := Res.bind_eq_ok.1 h
    exact mon_history H hH n cs v w' (mon_call H hH n c w v hi h1) h2

/-- With calm handlers, which may start, stop, resume and update the playback in `OnNextFrame`, the events of each history
follow the protocol, and the announced state is the state of the playback. -/
theorem C125_protocol_partial (H : Listener → Ev → Prog K σ) (hH : Calm H) (n : Nat) (cs : List (Call K)) (c : σ) (w : PB K × σ)
    (h : history H n cs (init, c) = .ok w) : observe w.1.log = some (w.1.state, w.1.listener.id) :=
  mon_history H hH n cs (init, c) w rfl h

/-! ### Progress -/

theorem gives_call {H : Listener → Ev → Prog K σ} {c : Call K} {p : Prog K σ} {u v w : PB K × σ}
    (h1 : Gives H (.call c) u v) (h2 : Gives H (.prog p) v w) : Gives H (.prog (.call c p)) u w := by
  obtain ⟨m, h1⟩ := h1
  obtain ⟨n, h2⟩ := h2
  refine ⟨max m n + 1, ?_⟩
  rw [run]
  exact Res.bind_eq_ok.2 ⟨v, run_mono H (le_max_left _ _) h1, run_mono H (le_max_right _ _) h2⟩

theorem gives_succ {H : Listener → Ev → Prog K σ} {t : Task K σ} {w w' : PB K × σ} (n : Nat) (h : run H (n + 1) t w = .ok w') :
    Gives H t w w' := ⟨n + 1, h⟩

/-- A quiet call which does not move ends and changes only the fields for frames and the speed. -/
theorem quiet_call (H : Listener → Ev → Prog K σ) (c : Call K) (hc : Quiet c ∧ NoMove c) (w : PB K × σ) :
    ∃ w', Gives H (.call c) w w' ∧ w'.1.log = w.1.log ∧ w'.1.interpolator = w.1.interpolator := by
  obtain ⟨hq, hm⟩ := hc
  cases c with
  | play => exact hq.elim
  | pause => exact hq.elim
  | stop => exact hq.elim
  | update => exact hq.elim
  | setInterpolator => exact hm.elim
  | setNextFrame => exact ⟨_, ⟨1, rfl⟩, by simp [Playback.setNextFrame]; split_ifs <;> rfl, by simp [Playback.setNextFrame]; split_ifs <;> rfl⟩
  | setNextFrameTo k =>
    exact ⟨_, ⟨1, rfl⟩, by simp [Playback.setNextFrameTo]; split_ifs <;> rfl, by simp [Playback.setNextFrameTo]; split_ifs <;> rfl⟩
  | setFirst k => exact ⟨_, ⟨1, rfl⟩, rfl, rfl⟩
  | setLast k => exact ⟨_, ⟨1, rfl⟩, rfl, rfl⟩
  | setFrame k => exact ⟨_, ⟨1, rfl⟩, rfl, rfl⟩
  | setNext k => exact ⟨_, ⟨1, rfl⟩, rfl, rfl⟩
  | setSpeed v => exact ⟨_, ⟨1, rfl⟩, rfl, rfl⟩

theorem quiet_ends (H : Listener → Ev → Prog K σ) (p : Prog K σ) (hp : Calls (fun c => Quiet c ∧ NoMove c) p) :
    ∀ w : PB K × σ, ∃ w', Gives H (.prog p) w w' ∧ w'.1.log = w.1.log ∧ w'.1.interpolator = w.1.interpolator := by
  induction p with
  | done => exact fun w => ⟨w, ⟨1, rfl⟩, rfl, rfl⟩
  | get k ih =>
    intro w
    obtain ⟨w', ⟨n, hn⟩, h⟩ := ih w.1 w.2 (hp _ _) w
    exact ⟨w', ⟨n + 1, by rw [run]; exact hn⟩, h⟩
  | put c p ih =>
    intro w
    obtain ⟨w', ⟨n, hn⟩, h⟩ := ih hp (w.1, c)
    exact ⟨w', ⟨n + 1, by rw [run]; exact hn⟩, h⟩
  | call c p ih =>
    intro w
    obtain ⟨v, hv, v1, v2⟩ := quiet_call H c hp.1 w
    obtain ⟨w', hw, w1, w2⟩ := ih hp.2 v
    exact ⟨w', gives_call hv hw, by rw [w1, v1], by rw [w2, v2]⟩

theorem count_cons (log : List (Nat × Ev)) (i : Nat) (e : Ev) :
    nextFrameCount ((i, e) :: log) = nextFrameCount log + (if e = .onNextFrame then 1 else 0) := by
  unfold nextFrameCount
  rw [List.filter_cons]
  split_ifs <;> simp_all

theorem state_ends (H : Listener → Ev → Prog K σ) (hH : Passive H) (st : State) (w : PB K × σ) :
    ∃ w', Gives H (.state st) w w' ∧ nextFrameCount w'.1.log = nextFrameCount w.1.log ∧ w'.1.interpolator = w.1.interpolator := by
  obtain ⟨w', ⟨n, hn⟩, h1, h2⟩ := quiet_ends H (H w.1.listener (event st)) (hH.1 _ _ (by cases st <;> simp [event]))
    (post { w.1 with state := st } (event st), w.2)
  refine ⟨w', ⟨n + 1, by rw [run]; exact hn⟩, ?_, h2⟩
  rw [h1]
  simp only [post, count_cons]
  cases st <;> simp [event]

theorem passive_call (H : Listener → Ev → Prog K σ) (hH : Passive H) (c : Call K) (hc : NoMove c) (w : PB K × σ) :
    ∃ w', Gives H (.call c) w w' ∧ nextFrameCount w'.1.log = nextFrameCount w.1.log ∧ w'.1.interpolator = w.1.interpolator := by
  by_cases hq : Quiet c
  · obtain ⟨w', h1, h2, h3⟩ := quiet_call H c ⟨hq, hc⟩ w
    exact ⟨w', h1, by rw [h2], h3⟩
  · have key : ∀ st, (∀ n, run H (n + 1) (.call c) w = run H n (.state st) w) → ∃ w', Gives H (.call c) w w' ∧
        nextFrameCount w'.1.log = nextFrameCount w.1.log ∧ w'.1.interpolator = w.1.interpolator := by
      intro st h
      obtain ⟨w', ⟨n, hn⟩, h'⟩ := state_ends H hH st w
      exact ⟨w', ⟨n + 1, by rw [h]; exact hn⟩, h'⟩
    cases c with
    | play => exact hc.elim
    | update => exact hc.elim
    | setInterpolator => exact hc.elim
    | stop =>
      by_cases hs : w.1.state ≠ .stopped
      · exact key .stopped fun n => by rw [run]; simp [hs]
      · exact ⟨w, ⟨1, by rw [run]; simp [hs]⟩, rfl, rfl⟩
    | pause b =>
      cases b with
      | true =>
        by_cases hs : w.1.state = .playing
        · exact key .paused fun n => by rw [run]; simp [hs]
        · exact ⟨w, ⟨1, by rw [run]; simp [hs]⟩, rfl, rfl⟩
      | false =>
        by_cases hs : w.1.state = .paused
        · exact key .playing fun n => by rw [run]; simp [hs]
        · exact ⟨w, ⟨1, by rw [run]; simp [hs]⟩, rfl, rfl⟩
    | _ => exact absurd trivial hq

theorem passive_ends (H : Listener → Ev → Prog K σ) (hH : Passive H) (p : Prog K σ) (hp : Calls NoMove p) :
    ∀ w : PB K × σ, ∃ w', Gives H (.prog p) w w' ∧ nextFrameCount w'.1.log = nextFrameCount w.1.log ∧
      w'.1.interpolator = w.1.interpolator := by
  induction p with
  | done => exact fun w => ⟨w, ⟨1, rfl⟩, rfl, rfl⟩
  | get k ih =>
    intro w
    obtain ⟨w', ⟨n, hn⟩, h⟩ := ih w.1 w.2 (hp _ _) w
    exact ⟨w', ⟨n + 1, by rw [run]; exact hn⟩, h⟩
  | put c p ih =>
    intro w
    obtain ⟨w', ⟨n, hn⟩, h⟩ := ih hp (w.1, c)
    exact ⟨w', ⟨n + 1, by rw [run]; exact hn⟩, h⟩
  | call c p ih =>
    intro w
    obtain ⟨v, hv, v1, v2⟩ := passive_call H hH c hp.1 w
    obtain ⟨w', hw, w1, w2⟩ := ih hp.2 v
    exact ⟨w', gives_call hv hw, by rw [w1, v1], by rw [w2, v2]⟩

theorem next_ends (H : Listener → Ev → Prog K σ) (hH : Passive H) (w : PB K × σ) :
    ∃ w', Gives H .next w w' ∧ nextFrameCount w'.1.log = nextFrameCount w.1.log + 1 ∧ w'.1.interpolator = w.1.interpolator := by
  obtain ⟨w', ⟨n, hn⟩, h1, h2⟩ := passive_ends H hH (H w.1.listener .onNextFrame) (hH.2 _) (post w.1 .onNextFrame, w.2)
  refine ⟨w', ⟨n + 1, by rw [run]; exact hn⟩, ?_, h2⟩
  rw [h1]
  simp [post, count_cons]

variable [IsStrictOrderedRing K]

theorem forward_ends (H : Listener → Ev → Prog K σ) (hH : Passive H) : ∀ (m : Nat) (w : PB K × σ), (m : K) ≤ max 0 w.1.interpolator →
    w.1.interpolator < m + 1 → ∃ w', Gives H .forward w w' ∧ nextFrameCount w'.1.log = nextFrameCount w.1.log + m ∧
      w'.1.interpolator = w.1.interpolator - m
  | 0, w, _, h2 => by
    refine ⟨w, ⟨1, ?_⟩, by simp, by simp⟩
    rw [run, if_neg]
    push_cast at h2
    linarith
  | m + 1, w, h1, h2 => by
    push_cast at h1 h2
    have h3 : (m : K) + 1 ≤ w.1.interpolator := by
      rcases le_max_iff.1 h1 with h | h
      · exact absurd h (by have : (0 : K) ≤ m := Nat.cast_nonneg m; linarith)
      · exact h
    have h4 : (0 : K) ≤ m := Nat.cast_nonneg m
    obtain ⟨v, ⟨a, ha⟩, v1, v2⟩ := next_ends H hH ({ w.1 with interpolator := w.1.interpolator - 1, frame := w.1.nextFrame }, w.2)
    simp only at v1 v2
    obtain ⟨w', ⟨b, hb⟩, w1, w2⟩ := forward_ends H hH m v (le_max_of_le_right (by rw [v2]; linarith)) (by rw [v2]; linarith)
    refine ⟨w', ⟨max a b + 1, ?_⟩, by rw [w1, v1]; omega, by rw [w2, v2]; push_cast; ring⟩
    rw [run, if_pos (by linarith)]
    exact Res.bind_eq_ok.2 ⟨v, run_mono H (le_max_left _ _) ha, run_mono H (le_max_right _ _) hb⟩

theorem backward_ends (H : Listener → Ev → Prog K σ) (hH : Passive H) : ∀ (m : Nat) (w : PB K × σ), w.1.interpolator + m ≤ 1 ∨ m = 0 →
    0 < w.1.interpolator + m → ∃ w', Gives H .backward w w' ∧ nextFrameCount w'.1.log = nextFrameCount w.1.log + m ∧
      w'.1.interpolator = w.1.interpolator + m
  | 0, w, _, h2 => by
    refine ⟨w, ⟨1, ?_⟩, by simp, by simp⟩
    rw [run, if_neg]
    push_cast at h2
    linarith
  | m + 1, w, h1, h2 => by
    have h3 : w.1.interpolator + (m + 1) ≤ 1 := by
      rcases h1 with h | h
      · push_cast at h; exact h
      · exact absurd h (Nat.succ_ne_zero m)
    push_cast at h2
    have h4 : (0 : K) ≤ m := Nat.cast_nonneg m
    obtain ⟨v, ⟨a, ha⟩, v1, v2⟩ := next_ends H hH ({ w.1 with interpolator := w.1.interpolator + 1, nextFrame := w.1.frame }, w.2)
    simp only at v1 v2
    obtain ⟨w', ⟨b, hb⟩, w1, w2⟩ := backward_ends H hH m v (Or.inl (by rw [v2]; linarith)) (by rw [v2]; linarith)
    refine ⟨w', ⟨max a b + 1, ?_⟩, by rw [w1, v1]; omega, by rw [w2, v2]; push_cast; ring⟩
    rw [run, if_pos (by linarith)]
    exact Res.bind_eq_ok.2 ⟨v, run_mono H (le_max_left _ _) ha, run_mono H (le_max_right _ _) hb⟩

variable [FloorRing K]

/-- With passive handlers, which may stop, pause and resume the playback and set the frames, `Update` returns. The number of `OnNextFrame`
events and the interpolator depend only on the time: a handler which stops or pauses the playback does not end the call. -/
theorem C125_update (H : Listener → Ev → Prog K σ) (hH : Passive H) (w : PB K × σ) (dt : K) (hp : w.1.state = .playing) (hd : 0 < dt) :
    ∃ n w', (∀ m, n ≤ m → run H m (.call (.update dt)) w = .ok w') ∧
      let x := w.1.interpolator + dt * w.1.speed
      let k := if 0 ≤ w.1.speed then ⌊x⌋₊ else if x ≤ 0 then ⌊-x⌋₊ + 1 else 0
      nextFrameCount w'.1.log = nextFrameCount w.1.log + k ∧
      w'.1.interpolator = if 0 ≤ w.1.speed then x - k else x + k := by
  have hc : ¬ (w.1.state ≠ .playing ∨ dt ≤ 0) := by
    rintro (h | h)
    · exact h hp
    · exact absurd hd (not_lt.2 h)
  by_cases hs : 0 ≤ w.1.speed
  · obtain ⟨w', ⟨n, hn⟩, h1, h2⟩ := forward_ends H hH ⌊w.1.interpolator + dt * w.1.speed⌋₊
      ({ w.1 with interpolator := w.1.interpolator + dt * w.1.speed }, w.2)
      (by
        rcases le_total 0 (w.1.interpolator + dt * w.1.speed) with h | h
        · exact le_max_of_le_right (Nat.floor_le h)
        · rw [Nat.floor_of_nonpos h]; simp)
      (Nat.lt_floor_add_one _)
    refine ⟨n + 1, w', fun m hm => run_mono H hm ?_, ?_⟩
    · rw [run]
      simp only [if_neg hc, isForward, decide_eq_true hs, if_true]
      exact hn
    · simp only [if_pos hs]
      exact ⟨h1, h2⟩
  · set x := w.1.interpolator + dt * w.1.speed with hx
    obtain ⟨w', ⟨n, hn⟩, h1, h2⟩ := backward_ends H hH (if x ≤ 0 then ⌊-x⌋₊ + 1 else 0) ({ w.1 with interpolator := x }, w.2)
      (by
        simp only
        split_ifs with h
        · left
          have := Nat.floor_le (by linarith : 0 ≤ -x)
          push_cast
          linarith
        · right; rfl)
      (by
        simp only
        split_ifs with h
        · have := Nat.lt_floor_add_one (-x)
          push_cast
          linarith
        · push_cast; push Not at h; linarith)
    refine ⟨n + 1, w', fun m hm => run_mono H hm ?_, ?_⟩
    · rw [run]
      simp only [if_neg hc, isForward, decide_eq_false hs, Bool.false_eq_true, if_false]
      exact hn
    · simp only [if_neg hs]
      exact ⟨h1, h2⟩

/-! ### The listeners of the library -/

/-- The listener is none with a list. -/
def NoList (l : Listener) : Prop := ∀ fs it, l.kind ≠ .listLoop fs it

theorem lib_state (s : PB K) (hl : NoList s.listener) (st : State) (x : σ) :
    Gives (library (K := K) (σ := σ)) (.state st) (s, x) (setState s st, x) := by
  refine ⟨2, ?_⟩
  cases st with
  | playing => simp [run, library, event, setState, post]
  | paused => simp [run, library, event, setState, post]
  | stopped =>
    have : onStop (post { s with state := .stopped } .onStop) = post { s with state := .stopped } .onStop := by
      unfold onStop
      simp only [post]
      split
      · rename_i h; exact absurd h (hl _ _)
      · rfl
    simp [run, library, event, setState, this]

theorem lib_stop (s : PB K) (hl : NoList s.listener) (x : σ) :
    Gives (library (K := K) (σ := σ)) (.call .stop) (s, x) (stop s, x) := by
  by_cases h : s.state ≠ .stopped
  · obtain ⟨n, hn⟩ := lib_state s hl .stopped x
    exact ⟨n + 1, by rw [run]; simp only [h, ne_eq, not_false_eq_true, if_true]; rw [hn, stop, if_pos h]⟩
  · exact ⟨1, by rw [run]; simp only [h, if_false]; rw [stop, if_neg h]⟩

theorem stop_listener (s : PB K) (hl : NoList s.listener) : (stop s).listener = s.listener := by
  unfold stop setState onStop post
  split_ifs
  · simp only
    split
    · rename_i h; exact absurd h (hl _ _)
    · rfl
  · rfl

theorem lib_next (s s' : PB K) (hl : NoList s.listener) (x : σ) (h : postNextFrame s = .ok s') :
    Gives (library (K := K) (σ := σ)) .next (s, x) (s', x) ∧ s'.listener = s.listener := by
  have key : ∀ p, library (K := K) (σ := σ) s.listener .onNextFrame = p → Gives library (.prog p) (post s .onNextFrame, x) (s', x) →
      Gives (library (K := K) (σ := σ)) .next (s, x) (s', x) := by
    rintro p rfl ⟨n, hn⟩
    exact ⟨n + 1, by rw [run]; exact hn⟩
  have single : ∀ c s'', Gives (library (K := K) (σ := σ)) (.call c) (post s .onNextFrame, x) (s'', x) →
      Gives (library (K := K) (σ := σ)) (.prog (.call c .done)) (post s .onNextFrame, x) (s'', x) :=
    fun c s'' h => gives_call h ⟨1, rfl⟩
  have get : ∀ k, Gives (library (K := K) (σ := σ)) (.prog (k (post s .onNextFrame) x)) (post s .onNextFrame, x) (s', x) →
      Gives (library (K := K) (σ := σ)) (.prog (.get k)) (post s .onNextFrame, x) (s', x) := by
    rintro k ⟨n, hn⟩
    exact ⟨n + 1, by rw [run]; exact hn⟩
  have hpl : (post s .onNextFrame).listener = s.listener := rfl
  have hset : ∀ r : PB K, (Playback.setNextFrame r).listener = r.listener := by
    intro r; unfold Playback.setNextFrame; split_ifs <;> rfl
  have hto : ∀ (r : PB K) k, (Playback.setNextFrameTo r k).listener = r.listener := by
    intro r k; unfold Playback.setNextFrameTo; split_ifs <;> rfl
  unfold postNextFrame onNextFrame at h
  rw [hpl] at h
  cases hk : s.listener.kind with
  | base =>
    simp only [hk, Res.ok.injEq] at h
    subst h
    exact ⟨key .done (by simp [library, hk]) ⟨1, rfl⟩, rfl⟩
  | oneShot =>
    simp only [hk, Res.ok.injEq] at h
    refine ⟨key _ (by simp only [library, hk]; rfl) (get _ ?_), ?_⟩
    · split_ifs at h ⊢ <;> subst h
      · exact single _ _ (lib_stop _ (by rw [hpl]; exact hl) x)
      · exact single _ _ ⟨1, rfl⟩
    · split_ifs at h <;> subst h
      · rw [stop_listener _ (by rw [hpl]; exact hl), hpl]
      · rw [hset, hpl]
  | loop =>
    simp only [hk, Res.ok.injEq] at h
    refine ⟨key _ (by simp only [library, hk]; rfl) (get _ ?_), ?_⟩
    · by_cases he : hasEndReached (post s .onNextFrame) = true
      · simp only [he, if_true] at h ⊢
        subst h
        exact single _ _ ⟨1, rfl⟩
      · simp only [he, if_false, Bool.false_eq_true] at h ⊢
        subst h
        exact single _ _ ⟨1, rfl⟩
    · subst h
      by_cases he : hasEndReached (post s .onNextFrame) = true
      · simp only [he, if_true]; rw [hto, hpl]
      · simp only [he, if_false, Bool.false_eq_true]; rw [hset, hpl]
  | pingPong =>
    simp only [hk, Res.ok.injEq] at h
    refine ⟨key _ (by simp only [library, hk]; rfl) (get _ ?_), ?_⟩
    · by_cases he : hasEndReached (post s .onNextFrame) = true
      · simp only [he, if_true] at h ⊢
        subst h
        exact gives_call ⟨1, rfl⟩ (gives_call ⟨1, rfl⟩ (gives_call ⟨1, rfl⟩ ⟨1, rfl⟩))
      · simp only [he, if_false, Bool.false_eq_true] at h ⊢
        subst h
        exact single _ _ ⟨1, rfl⟩
    · subst h
      rw [hset]
      split_ifs <;> rfl
  | listLoop fs it => exact absurd hk (hl _ _)

theorem lib_forward (x : σ) : ∀ (n : Nat) (s s' : PB K), NoList s.listener →
    whileFuel (fun s : PB K => s.interpolator ≥ 1) bodyForward n s = .ok s' →
    Gives (library (K := K) (σ := σ)) .forward (s, x) (s', x)
  | 0, s, s', hl, h => by
    simp only [whileFuel] at h
    split_ifs at h with hc
    simp only [Res.ok.injEq] at h
    subst h
    exact ⟨1, by rw [run, if_neg hc]⟩
  | n + 1, s, s', hl, h => by
    simp only [whileFuel] at h
    split_ifs at h with hc
    · obtain ⟨v, h1, h2⟩ := Res.bind_eq_ok.1 h
      obtain ⟨⟨a, ha⟩, hv⟩ := lib_next _ v (by exact hl) x h1
      obtain ⟨b, hb⟩ := lib_forward x n v s' (by rw [hv]; exact hl) h2
      refine ⟨max a b + 1, ?_⟩
      rw [run, if_pos hc]
      exact Res.bind_eq_ok.2 ⟨_, run_mono _ (le_max_left _ _) ha, run_mono _ (le_max_right _ _) hb⟩
    · simp only [Res.ok.injEq] at h
      subst h
      exact ⟨1, by rw [run, if_neg hc]⟩

theorem lib_backward (x : σ) : ∀ (n : Nat) (s s' : PB K), NoList s.listener →
    whileFuel (fun s : PB K => s.interpolator ≤ 0) bodyBackward n s = .ok s' →
    Gives (library (K := K) (σ := σ)) .backward (s, x) (s', x)
  | 0, s, s', hl, h => by
    simp only [whileFuel] at h
    split_ifs at h with hc
    simp only [Res.ok.injEq] at h
    subst h
    exact ⟨1, by rw [run, if_neg hc]⟩
  | n + 1, s, s', hl, h => by
    simp only [whileFuel] at h
    split_ifs at h with hc
    · obtain ⟨v, h1, h2⟩ := Res.bind_eq_ok.1 h
      obtain ⟨⟨a, ha⟩, hv⟩ := lib_next _ v (by exact hl) x h1
      obtain ⟨b, hb⟩ := lib_backward x n v s' (by rw [hv]; exact hl) h2
      refine ⟨max a b + 1, ?_⟩
      rw [run, if_pos hc]
      exact Res.bind_eq_ok.2 ⟨_, run_mono _ (le_max_left _ _) ha, run_mono _ (le_max_right _ _) hb⟩
    · simp only [Res.ok.injEq] at h
      subst h
      exact ⟨1, by rw [run, if_neg hc]⟩

/-- The argument of `Play` in both models. -/
def argument (s : PB K) : LArg → Option Listener
  | .null => none
  | .same => some s.listener
  | .other l => some l

/-- The model with programs as handlers, applied to the programs of `OneShot`, `Loop` and `PingPongLoop`, agrees with the model of these
listeners. -/
theorem C125_library (s s' : PB K) (hl : NoList s.listener) (x : σ) :
    (∀ f l v a, (∀ l', a = .other l' → NoList l') → step s (.play f l v a) = .ok s' →
      Gives library (.call (.play f l v (argument s a))) (s, x) (s', x)) ∧
    (∀ b, step s (.pause b) = .ok s' → Gives library (.call (.pause b)) (s, x) (s', x)) ∧
    (step s .stop = .ok s' → Gives library (.call .stop) (s, x) (s', x)) ∧
    (∀ dt, step s (.update dt) = .ok s' → Gives library (.call (.update dt)) (s, x) (s', x)) := by
  refine ⟨?_, ?_, ?_, ?_⟩
  · intro f l v a ha h
    simp only [step, play] at h
    have hpick : pickListener (stop s).listener a = (argument s a).getD ⟨0, .oneShot⟩ := by
      rw [stop_listener s hl]
      cases a <;> rfl
    have hnl : NoList ((argument s a).getD ⟨0, .oneShot⟩) := by
      cases a with
      | null => intro fs it h; cases h
      | same => exact hl
      | other l' => exact ha l' rfl
    rw [hpick] at h
    obtain ⟨n1, h1⟩ := lib_stop s hl x
    obtain ⟨n2, h2⟩ := lib_state (configure (stop s) f l v (argument s a)) hnl .playing x
    have hn2 : NoList (setState (configure (stop s) f l v (argument s a)) .playing).listener := hnl
    obtain ⟨⟨n3, h3⟩, -⟩ := lib_next _ s' hn2 x h
    refine ⟨max n1 (max n2 n3) + 1, ?_⟩
    rw [run]
    refine Res.bind_eq_ok.2 ⟨_, run_mono _ (le_max_left _ _) h1, Res.bind_eq_ok.2 ⟨_, run_mono _ ?_ h2, run_mono _ ?_ h3⟩⟩
    · exact le_max_of_le_right (le_max_left _ _)
    · exact le_max_of_le_right (le_max_right _ _)
  · intro b h
    simp only [step, pause, Res.ok.injEq] at h
    subst h
    cases b with
    | true =>
      by_cases hs : s.state = .playing
      · obtain ⟨n, hn⟩ := lib_state s hl .paused x
        exact ⟨n + 1, by rw [run]; simp [hs, hn]⟩
      · exact ⟨1, by rw [run]; simp [hs]⟩
    | false =>
      by_cases hs : s.state = .paused
      · obtain ⟨n, hn⟩ := lib_state s hl .playing x
        exact ⟨n + 1, by rw [run]; simp [hs, hn]⟩
      · exact ⟨1, by rw [run]; simp [hs]⟩
  · intro h
    simp only [step, Res.ok.injEq] at h
    subst h
    exact lib_stop s hl x
  · intro dt h
    simp only [step, update] at h
    by_cases hc : s.state ≠ .playing ∨ dt ≤ 0
    · rw [if_pos hc, Res.ok.injEq] at h
      subst h
      exact ⟨1, by rw [run]; simp only [if_pos hc]⟩
    · rw [if_neg hc] at h
      by_cases hf : isForward { s with interpolator := s.interpolator + dt * s.speed } = true
      · rw [if_pos hf] at h
        obtain ⟨n, hn⟩ := lib_forward x _ _ s' (by exact hl) h
        exact ⟨n + 1, by rw [run]; simp only [if_neg hc, hf, if_true]; exact hn⟩
      · rw [if_neg hf] at h
        obtain ⟨n, hn⟩ := lib_backward x _ _ s' (by exact hl) h
        exact ⟨n + 1, by rw [run]; simp only [if_neg hc, hf]; exact hn⟩

/-- What a handler assigns is what the rest of it reads: the state of the client, and the public fields of the playback, each without
effect on the other fields and on the events. -/
theorem C125_assign (H : Listener → Ev → Prog K σ) (k : PB K → σ → Prog K σ) (s : PB K) (x : σ) (w : PB K × σ) :
    (∀ y, Gives H (.prog (k s y)) (s, y) w → Gives H (.prog (.put y (.get k))) (s, x) w) ∧
    (∀ v, Gives H (.prog (k { s with speed := v } x)) ({ s with speed := v }, x) w → Gives H (.prog (.call (.setSpeed v) (.get k))) (s, x) w) ∧
    (∀ v, Gives H (.prog (k { s with interpolator := v } x)) ({ s with interpolator := v }, x) w →
      Gives H (.prog (.call (.setInterpolator v) (.get k))) (s, x) w) ∧
    (∀ f, Gives H (.prog (k { s with frame := f } x)) ({ s with frame := f }, x) w → Gives H (.prog (.call (.setFrame f) (.get k))) (s, x) w) ∧
    (∀ f, Gives H (.prog (k { s with nextFrame := f } x)) ({ s with nextFrame := f }, x) w →
      Gives H (.prog (.call (.setNext f) (.get k))) (s, x) w) := by
  have get : ∀ v : PB K × σ, Gives H (.prog (k v.1 v.2)) v w → Gives H (.prog (.get k)) v w := by
    rintro v ⟨n, hn⟩
    exact ⟨n + 1, by rw [run]; exact hn⟩
  refine ⟨?_, ?_, ?_, ?_, ?_⟩
  · intro y h
    obtain ⟨n, hn⟩ := get (s, y) h
    exact ⟨n + 1, by rw [run]; exact hn⟩
  · exact fun v h => gives_call ⟨1, rfl⟩ (get _ h)
  · exact fun v h => gives_call ⟨1, rfl⟩ (get _ h)
  · exact fun v h => gives_call ⟨1, rfl⟩ (get _ h)
  · exact fun v h => gives_call ⟨1, rfl⟩ (get _ h)

/-! ### What fails -/

/-- A listener which pauses the playback as soon as frame 1 is reached. -/
def pausing (_ : Listener) : Ev → Prog ℚ Unit
  | .onNextFrame => .get fun s _ => if s.frame = 1 then .call .setNextFrame (.call (.pause true) .done) else .call .setNextFrame .done
  | _ => .done

/-- If `OnNextFrame` pauses the playback at frame 1, `Update` goes on to the frame 3 nevertheless, and posts further events to the paused
listener, which the protocol does not allow. -/
theorem C125_pause_refuted : ∃ (H : Listener → Ev → Prog ℚ Unit) (n : Nat) (w : PB ℚ × Unit), Passive H ∧
    history H n [.play 0 9 1 (some ⟨1, .base⟩), .update 3] (init, ()) = .ok w ∧ w.1.state = .paused ∧ w.1.frame = 3 ∧
    observe w.1.log = none := by
  refine ⟨pausing, 12, ({ (init : PB ℚ) with
    listener := ⟨1, .base⟩, state := .paused, lastFrame := 9, frame := 3, nextFrame := 4,
    interpolator := 0, speed := 1, log := [(1, .onNextFrame), (1, .onNextFrame), (1, .onPause), (1, .onNextFrame), (1, .onNextFrame),
      (1, .onPlay)] }, ()), ⟨?_, ?_⟩, by decide +kernel, by decide, by decide, by decide⟩
  · intro l ev h
    cases ev <;> first | exact trivial | exact absurd rfl h
  · intro l s c
    dsimp only
    split_ifs <;> simp [Calls, NoMove]

/-- A listener which starts the listener 2 when it is stopped. -/
def restarting (l : Listener) : Ev → Prog ℚ Unit
  | .onStop => if l.id = 1 then .call (.play 5 6 1 (some ⟨2, .base⟩)) .done else .done
  | _ => .done

/-- If `OnStop` starts another playback while `Play` replaces the listener, the playback started by it is never announced as stopped:
its listener 2 gets `OnPlay`, and then the listener 3 gets `OnPlay`. -/
theorem C125_restart_refuted : ∃ (H : Listener → Ev → Prog ℚ Unit) (n : Nat) (w : PB ℚ × Unit),
    history H n [.play 0 9 1 (some ⟨1, .base⟩), .play 0 9 1 (some ⟨3, .base⟩)] (init, ()) = .ok w ∧
    observe w.1.log = none ∧ (2, Ev.onPlay) ∈ w.1.log ∧ (2, Ev.onStop) ∉ w.1.log ∧ w.1.listener.id = 3 := by
  refine ⟨restarting, 12, ({ (init : PB ℚ) with
    listener := ⟨3, .base⟩, state := .playing, lastFrame := 9, speed := 1,
    log := [(3, .onNextFrame), (3, .onPlay), (2, .onNextFrame), (2, .onPlay), (1, .onStop), (1, .onNextFrame), (1, .onPlay)] }, ()),
    by decide +kernel, by decide, by decide, by decide, by decide⟩

/-- A listener which resumes the playback when it is paused and pauses it when it is resumed. -/
def stubborn (_ : Listener) : Ev → Prog ℚ Unit
  | .onPlay => .call (.pause true) .done
  | .onPause => .call (.pause false) .done
  | _ => .done

theorem stubborn_endless : ∀ (n : Nat) (w : PB ℚ × Unit), run stubborn n (.state .playing) w = .fuel ∧ run stubborn n (.state .paused) w = .fuel
  | 0, w => by simp [run]
  | 1, w => by simp [run]
  | 2, w => by simp [run, stubborn, event]
  | 3, w => by simp [run, stubborn, event, post]
  | n + 4, w => by
    constructor
    · have := (stubborn_endless (n + 1) ((post { w.1 with state := .playing } .onPlay), w.2)).2
      simp only [run, stubborn, event, post, if_true] at this ⊢
      rw [this]
      rfl
    · have := (stubborn_endless (n + 1) ((post { w.1 with state := .paused } .onPause), w.2)).1
      simp only [run, stubborn, event, post, if_true, Bool.false_eq_true, if_false] at this ⊢
      rw [this]
      rfl

/-- Handlers which answer each state event by the opposite call never return: `Play` does not end with any budget. -/
theorem C125_endless_refuted : ∃ H : Listener → Ev → Prog ℚ Unit, ∀ n,
    run H n (.call (.play 0 9 1 (some ⟨1, .base⟩))) (init, ()) = .fuel := by
  refine ⟨stubborn, fun n => ?_⟩
  rcases n with _ | _ | n
  · rfl
  · rfl
  · rw [run, run]
    simp only [init, ne_eq, not_true_eq_false, if_false, Res.bind_ok]
    rw [(stubborn_endless (n + 1) _).1]
    rfl

/-! A listener which goes to the next animation at its end, and one which stops the playback: these are calm and passive. -/

/-- A listener with the number `i` starts the listener `i + 1` at the end of its animation. -/
def chain (l : Listener) : Ev → Prog ℚ Unit
  | .onNextFrame => .get fun s _ =>
    if hasEndReached s then .call (.play 20 29 1 (some ⟨l.id + 1, .base⟩)) .done else .call .setNextFrame .done
  | _ => .done

theorem chain_calm : Calm chain := by
  refine ⟨?_, ?_⟩
  · intro l ev h
    cases ev <;> first | exact trivial | exact absurd rfl h
  · intro l s c
    dsimp only
    split_ifs <;> simp [Calls, NoPause]

example : ∃ w, history chain 40 [.play 0 2 1 (some ⟨1, .base⟩), .update 5, .pause true] (init, ()) = .ok w ∧ w.1.listener.id = 2 ∧
    observe w.1.log = some (.paused, 2) := by
  refine ⟨({ (init : PB ℚ) with
    listener := ⟨2, .base⟩, state := .paused, firstFrame := 20, lastFrame := 29, frame := 20, nextFrame := 21,
    interpolator := 0, speed := 1, log := [(2, .onPause), (2, .onNextFrame), (2, .onPlay), (1, .onStop), (1, .onNextFrame), (1, .onNextFrame),
      (1, .onNextFrame), (1, .onPlay)] }, ()), by decide +kernel, by decide, by decide⟩

example := C125_protocol_partial chain chain_calm 40 [.play 0 2 1 (some ⟨1, .base⟩), .update 5, .pause true] ()

theorem library_passive : Passive (library (K := ℚ) (σ := Unit)) := by
  refine ⟨?_, ?_⟩
  · intro l ev h
    cases ev <;> first | exact trivial | exact absurd rfl h
  · intro l
    cases hk : l.kind with
    | base => simp [library, hk, Calls]
    | listLoop fs it => simp [library, hk, Calls]
    | oneShot => simp only [library, hk]; intro s c; dsimp only; split_ifs <;> simp [Calls, NoMove]
    | loop => simp only [library, hk]; intro s c; dsimp only; split_ifs <;> simp [Calls, NoMove]
    | pingPong => simp only [library, hk]; intro s c; dsimp only; split_ifs <;> simp [Calls, NoMove]

example := (C125_assign (σ := Nat) (fun _ _ => .done) (fun (_ : PB ℚ) y => if y = 3 then .done else .call .stop .done) init 0 (init, 3)).1 3 ⟨1, rfl⟩

example := C125_update library library_passive ({ (init : PB ℚ) with state := .playing, lastFrame := 4 }, ()) 3 rfl (by norm_num)

example := (C125_library (σ := Unit) (init : PB ℚ) _ (by intro fs it h; cases h) ()).1 0 9 2 .null (by intro l' h; cases h) rfl

example : Gives library (.call (.update 3))
    ({ (init : PB ℚ) with listener := ⟨4, .pingPong⟩, state := .playing, lastFrame := 2, nextFrame := 1 }, ())
    ({ (init : PB ℚ) with
      listener := ⟨4, .pingPong⟩, state := .playing, firstFrame := 2, lastFrame := 0, frame := 1, nextFrame := 0,
      log := [(4, .onNextFrame), (4, .onNextFrame), (4, .onNextFrame)] }, ()) :=
  (C125_library _ _ (by intro fs it h; cases h) ()).2.2.2 3 (by decide +kernel)

end Geom.Playback.Client.Props
