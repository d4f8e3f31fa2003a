import Verif.Proof.PlaybackRuns

set_option linter.unusedSectionVars false

/-! List loops: the iterator, and the frames shown. -/
set_option autoImplicit false

namespace Geom.Playback
open Spec

variable {K : Type} [Field K] [LinearOrder K]

/-- The iterator of a list loop is at most the number of frames of the list. -/
def IterOK : Kind → Prop
  | .listLoop fs it => it ≤ fs.length
  | _ => True

theorem listIterator_lt {fw : Bool} {n it : Nat} (hn : 2 ≤ n) (hi : it ≤ n) :
    listIterator fw n it < n := by
  unfold listIterator; split_ifs <;> omega

theorem post_iterOK (s : PB K) (h : IterOK s.listener.kind) :
    ∃ s', postNextFrame s = .ok s' ∧ IterOK s'.listener.kind := by
  cases hk : s.listener.kind with
  | base => exact ⟨_, post_base s hk, by simp [post, hk, IterOK]⟩
  | oneShot =>
    obtain ⟨t, p1, p2, -⟩ := post_oneShot s hk
    exact ⟨t, p1, by rw [p2, hk]; trivial⟩
  | loop =>
    obtain ⟨t, p1, p2, -⟩ := post_loop s hk
    exact ⟨t, p1, by rw [p2, hk]; trivial⟩
  | pingPong =>
    obtain ⟨t, p1, p2, -⟩ := post_pingPong s hk
    exact ⟨t, p1, by rw [p2, hk]; trivial⟩
  | listLoop fs it =>
    rw [hk] at h
    by_cases hl : 2 ≤ fs.length
    · have hi := listIterator_lt (fw := isForward s) hl h
      obtain ⟨t, p1, p2, -⟩ := post_listLoop s fs it hk hl hi
      exact ⟨t, p1, by rw [p2]; exact hi.le⟩
    · refine ⟨_, post_listShort s fs it hk hl, ?_⟩
      simp only [post, hk]; exact h

/-- Calls which keep the list at least as long as the position reached in it, and which start
list loops with such a position. -/
def KeepsList (s : PB K) : Op K → Prop
  | .play _ _ _ a | .play3 _ _ a | .play1 a => IterOK (pickListener s.listener a).kind
  | .setListFrames fs => match s.listener.kind with
    | .listLoop _ it => it ≤ fs.length
    | _ => True
  | _ => True

theorem stop_iterOK (s : PB K) (h : IterOK s.listener.kind) : IterOK (stop s).listener.kind := by
  rcases stop_kind s with hk | ⟨fs, it, hk, hk'⟩
  · rw [hk]; exact h
  · rw [hk']; exact Nat.zero_le _

theorem play_iterOK (s : PB K) {f l : Nat} {v : K} {a : LArg} (hs : IterOK s.listener.kind)
    (h : IterOK (pickListener s.listener a).kind) :
    ∃ s', play s f l v a = .ok s' ∧ IterOK s'.listener.kind := by
  rw [play_eq]
  apply post_iterOK
  cases a with
  | null => trivial
  | same => exact stop_iterOK s hs
  | other l => exact h

variable [IsStrictOrderedRing K] [FloorRing K]

theorem iterOK_step (s : PB K) (op : Op K) (hi : IterOK s.listener.kind) (hl : KeepsList s op) :
    ∃ s', step s op = .ok s' ∧ IterOK s'.listener.kind := by
  cases op with
  | play f l v a => exact play_iterOK s hi hl
  | play3 f l a => exact play_iterOK s hi hl
  | play1 a => exact play_iterOK s hi hl
  | pause b =>
    refine ⟨_, rfl, ?_⟩
    unfold pause setState post; split_ifs <;> exact hi
  | stop => exact ⟨_, rfl, stop_iterOK s hi⟩
  | update dt =>
    exact update_ok (fun s => IterOK s.listener.kind) (fun s x h => h)
      (fun s _ h => post_iterOK { s with frame := s.nextFrame } h)
      (fun s _ h => post_iterOK { s with nextFrame := s.frame } h) dt hi
  | setSpeed v => exact ⟨_, rfl, hi⟩
  | setListFrames fs =>
    simp only [step]
    simp only [KeepsList] at hl
    cases hk : s.listener.kind with
    | listLoop fs' it => rw [hk] at hl; exact ⟨_, rfl, hl⟩
    | _ => simp only; exact ⟨_, rfl, by simp [hk, IterOK]⟩

/-! Frames shown by a list loop. -/

/-- A list loop over `fs`, both frames of the playback being `f` or from the list. -/
def ListShown (fs : List Nat) (f : Nat) (s : PB K) : Prop :=
  (∃ it, s.listener.kind = .listLoop fs it ∧ it ≤ fs.length) ∧
  s.frame ∈ f :: fs ∧ s.nextFrame ∈ f :: fs

omit [IsStrictOrderedRing K] [FloorRing K] in
theorem post_listShown {fs : List Nat} (hl : 2 ≤ fs.length) {f : Nat} (s : PB K) (it : Nat)
    (h1 : s.listener.kind = .listLoop fs it) (hi : it ≤ fs.length) (h2 : s.frame ∈ f :: fs)
    (h3 : 0 ≤ s.speed ∨ s.nextFrame ∈ f :: fs) :
    ∃ s', postNextFrame s = .ok s' ∧ ListShown fs f s' := by
  have hlt := listIterator_lt (fw := isForward s) hl hi
  obtain ⟨t, p1, p2, p3, p4, p5, p6⟩ := post_listLoop s fs it h1 hl hlt
  refine ⟨t, p1, ⟨_, by rw [p2], hlt.le⟩, ?_⟩
  have hm : fs[listIterator (isForward s) fs.length it] ∈ f :: fs :=
    List.mem_cons_of_mem _ (List.getElem_mem hlt)
  rcases le_or_gt 0 s.speed with hv | hv
  · rw [nextTo_fwd s hv] at p6
    obtain ⟨e1, e2, e3, e4⟩ := frames_eq p6
    rw [e3, e4]; exact ⟨h2, hm⟩
  · rw [nextTo_bwd s hv] at p6
    obtain ⟨e1, e2, e3, e4⟩ := frames_eq p6
    rw [e3, e4]; exact ⟨hm, h3.resolve_left (not_le.2 hv)⟩

/-- Calls which neither start a playback nor replace the list. -/
def NoPlayNoList : Op K → Prop
  | .play _ _ _ _ | .play3 _ _ _ | .play1 _ | .setListFrames _ => False
  | _ => True

theorem listShown_step {fs : List Nat} (hl : 2 ≤ fs.length) {f : Nat} (s : PB K) (op : Op K)
    (hi : ListShown fs f s) (hn : NoPlayNoList op) :
    ∃ s', step s op = .ok s' ∧ ListShown fs f s' := by
  obtain ⟨⟨it, h1, h2⟩, h3, h4⟩ := hi
  cases op with
  | play => exact hn.elim
  | play3 => exact hn.elim
  | play1 => exact hn.elim
  | setListFrames => exact hn.elim
  | pause b =>
    refine ⟨_, rfl, ?_⟩
    unfold pause setState post; split_ifs <;> exact ⟨⟨it, h1, h2⟩, h3, h4⟩
  | stop =>
    refine ⟨_, rfl, ?_⟩
    obtain ⟨e1, e2, e3, e4⟩ := frames_eq (stop_frames s)
    refine ⟨?_, by rw [e3]; exact h3, by rw [e4]; exact h4⟩
    rcases stop_kind s with hk | ⟨fs', it', hk, hk'⟩
    · exact ⟨it, by rw [hk, h1], h2⟩
    · rw [h1] at hk; simp at hk
      exact ⟨0, by rw [hk', hk.1], Nat.zero_le _⟩
  | update dt =>
    refine update_ok (ListShown fs f) (fun s x h => h) ?_ ?_ dt ⟨⟨it, h1, h2⟩, h3, h4⟩
    · rintro s hv ⟨⟨it, h1, h2⟩, h3, h4⟩
      exact post_listShown hl { s with frame := s.nextFrame } it h1 h2 h4 (Or.inl hv)
    · rintro s hv ⟨⟨it, h1, h2⟩, h3, h4⟩
      exact post_listShown hl { s with nextFrame := s.frame } it h1 h2 h3 (Or.inr h3)
  | setSpeed v => exact ⟨_, rfl, ⟨it, h1, h2⟩, h3, h4⟩

end Geom.Playback
