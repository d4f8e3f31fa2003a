import Verif.Proof.PlaybackRange
import Mathlib.Algebra.Order.BigOperators.Group.List

set_option linter.unusedSectionVars false

set_option autoImplicit false

namespace Geom.Playback
open Spec

variable {K : Type} [Field K] [LinearOrder K]

theorem post_kind {s s' : PB K} (h : postNextFrame s = .ok s') :
    (s'.listener.kind = .oneShot ↔ s.listener.kind = .oneShot) := by
  unfold postNextFrame onNextFrame post at h
  cases hk : s.listener.kind with
  | base => simp [hk] at h; subst h; simp [hk]
  | oneShot =>
    obtain ⟨s'', h1, h2, _⟩ := post_oneShot s hk
    unfold postNextFrame onNextFrame post at h1
    simp only [hk] at h h1
    rw [h] at h1; simp at h1; subst h1; rw [h2, hk]
  | loop =>
    simp only [hk, Res.ok.injEq] at h
    subst h
    simp only [setNextFrameTo, setNextFrame]
    split_ifs <;> simp [hk]
  | pingPong =>
    simp only [hk, Res.ok.injEq] at h
    subst h
    simp only [setNextFrame]
    split_ifs <;> simp [hk]
  | listLoop fs it =>
    simp only [hk] at h
    split at h
    · split at h
      · simp only [Res.ok.injEq] at h
        subst h
        simp only [setNextFrameTo]
        split_ifs <;> simp
      · simp at h
    · simp only [Res.ok.injEq] at h; subst h; simp [hk]

theorem stepF_kind {s s' : PB K} (h : stepF s = .ok s') :
    (s'.listener.kind = .oneShot ↔ s.listener.kind = .oneShot) :=
  post_kind (s := { s with frame := s.nextFrame }) h

theorem stepB_kind {s s' : PB K} (h : stepB s = .ok s') :
    (s'.listener.kind = .oneShot ↔ s.listener.kind = .oneShot) :=
  post_kind (s := { s with nextFrame := s.frame }) h

/-- Playing with a listener which never stops. -/
def Running (v : K) (s : PB K) : Prop :=
  s.state = .playing ∧ s.listener.kind ≠ .oneShot ∧ s.speed = v

theorem stepF_running {v : K} {s s' : PB K} (hr : Running v s) (h : stepF s = .ok s') :
    Running v s' := by
  obtain ⟨h1, h2, h3⟩ := hr
  refine ⟨?_, fun hk => h2 ((stepF_kind h).1 hk), by rw [stepF_speed h, h3]⟩
  obtain ⟨_, h4 | h4⟩ := stepF_log h
  · rw [h4.1, h1]
  · exact absurd h4.2.2.1 h2

theorem stepB_running {v : K} {s s' : PB K} (hr : Running v s) (h : stepB s = .ok s') :
    Running v s' := by
  obtain ⟨h1, h2, h3⟩ := hr
  refine ⟨?_, fun hk => h2 ((stepB_kind h).1 hk), by rw [stepB_speed h, h3]⟩
  obtain ⟨_, h4 | h4⟩ := stepB_log h
  · rw [h4.1, h1]
  · exact absurd h4.2.2.1 h2

/-! One-shot playback which has ended: further frame steps change nothing but the log. -/

def Done (s : PB K) : Prop :=
  s.listener.kind = .oneShot ∧ s.state = .stopped ∧ s.frame = s.nextFrame ∧ hasEndReached s = true

theorem hasEnd_congr {s t : PB K} (hf : frames s = frames t) (hs : s.speed = t.speed) :
    hasEndReached s = hasEndReached t := by
  obtain ⟨e1, e2, e3, e4⟩ := frames_eq hf
  unfold hasEndReached isForward areFramesChrono
  rw [e1, e2, e3, hs]

theorem post_oneShot_done {s : PB K} (hk : s.listener.kind = .oneShot)
    (hn : s.nextFrame = s.frame) (hs : s.state = .playing ∨ hasEndReached s = true) :
    ∃ s', postNextFrame s = .ok s' ∧ s'.listener.kind = .oneShot ∧ s'.speed = s.speed ∧
      (s'.state = .playing ∨ Done s') ∧
      (hasEndReached s = true → Done s' ∧ frames s' = frames s) := by
  obtain ⟨s', p1, p2, p3, p4, p5⟩ := post_oneShot s hk
  refine ⟨s', p1, by rw [p2, hk], p3, ?_⟩
  by_cases he : hasEndReached s = true
  · rw [if_pos he] at p5
    obtain ⟨e1, e2, e3, e4⟩ := frames_eq p5.2
    have hd : Done s' := ⟨by rw [p2, hk], p5.1, by rw [e3, e4, hn],
      by rw [hasEnd_congr p5.2 p3]; exact he⟩
    exact ⟨Or.inr hd, fun _ => ⟨hd, p5.2⟩⟩
  · rw [if_neg he] at p5
    refine ⟨Or.inl ?_, fun h => absurd h he⟩
    rw [p5.1]; exact hs.resolve_right he

theorem stepF_oneShot {s : PB K} (hk : s.listener.kind = .oneShot) (h : s.state = .playing ∨ Done s) :
    ∃ s', stepF s = .ok s' ∧ s'.listener.kind = .oneShot ∧ s'.speed = s.speed ∧
      (s'.state = .playing ∨ Done s') ∧ (Done s → Done s' ∧ frames s' = frames s) := by
  have hd : Done s → { s with frame := s.nextFrame } = s := by
    intro h; have := h.2.2.1; cases s; simp_all
  obtain ⟨s', p1, p2, p3, p4, p5⟩ := post_oneShot_done (s := { s with frame := s.nextFrame }) hk rfl
    (h.imp id (fun h => by rw [hd h]; exact h.2.2.2))
  exact ⟨s', p1, p2, p3, p4, fun h => by rw [hd h] at p5; exact p5 h.2.2.2⟩

theorem stepB_oneShot {s : PB K} (hk : s.listener.kind = .oneShot) (h : s.state = .playing ∨ Done s) :
    ∃ s', stepB s = .ok s' ∧ s'.listener.kind = .oneShot ∧ s'.speed = s.speed ∧
      (s'.state = .playing ∨ Done s') ∧ (Done s → Done s' ∧ frames s' = frames s) := by
  have hd : Done s → { s with nextFrame := s.frame } = s := by
    intro h; have := h.2.2.1; cases s; simp_all
  obtain ⟨s', p1, p2, p3, p4, p5⟩ := post_oneShot_done (s := { s with nextFrame := s.frame }) hk rfl
    (h.imp id (fun h => by rw [hd h]; exact h.2.2.2))
  exact ⟨s', p1, p2, p3, p4, fun h => by rw [hd h] at p5; exact p5 h.2.2.2⟩

theorem iter_oneShot (f : PB K → Res (PB K))
    (hf : ∀ s : PB K, s.listener.kind = .oneShot → (s.state = .playing ∨ Done s) →
      ∃ s', f s = .ok s' ∧ s'.listener.kind = .oneShot ∧ s'.speed = s.speed ∧
      (s'.state = .playing ∨ Done s') ∧ (Done s → Done s' ∧ frames s' = frames s)) (n : Nat) :
    ∀ s : PB K, s.listener.kind = .oneShot → (s.state = .playing ∨ Done s) →
      ∃ s', iterRes f n s = .ok s' ∧ s'.listener.kind = .oneShot ∧ s'.speed = s.speed ∧
      (s'.state = .playing ∨ Done s') ∧ (Done s → Done s' ∧ frames s' = frames s) := by
  induction n with
  | zero => intro s hk h; exact ⟨s, rfl, hk, rfl, h, fun h => ⟨h, rfl⟩⟩
  | succ n ih =>
    intro s hk h
    obtain ⟨a, a1, a2, a3, a4, a5⟩ := hf s hk h
    obtain ⟨b, b1, b2, b3, b4, b5⟩ := ih a a2 a4
    refine ⟨b, by simp [iterRes, a1, b1], b2, by rw [b3, a3], b4, fun hd => ?_⟩
    have := a5 hd
    have h2 := b5 this.1
    exact ⟨h2.1, h2.2.trans this.2⟩

variable [IsStrictOrderedRing K] [FloorRing K]

theorem map_bind {r : Res (PB K)} {x : K} (f : PB K → Res (PB K)) :
    (r.map (withI x)).bind f = r.bind (fun a => f (withI x a)) := by
  cases r <;> rfl

theorem floor_split {x y : K} (hx : 0 ≤ x) (hy : 0 ≤ y) :
    ⌊x + y⌋₊ = ⌊x⌋₊ + ⌊x - ⌊x⌋₊ + y⌋₊ := by
  have h1 := Nat.floor_le hx
  have : x + y = (x - ⌊x⌋₊ + y) + (⌊x⌋₊ : K) := by ring
  have h2 : 0 ≤ x - ⌊x⌋₊ + y := by linarith
  conv_lhs => rw [this]
  rw [Nat.floor_add_natCast h2]
  omega

/-- Two updates are one update, forward. -/
theorem update_split_forward' {s : PB K} {a b : K} (ha : 0 < a) (hb : 0 < b)
    (hp : s.state = .playing)
    (hr : ∀ t, iterRes stepF ⌊s.interpolator + a * s.speed⌋₊ s = .ok t →
      t.state = .playing ∧ t.speed = s.speed)
    (h0 : 0 ≤ s.interpolator) (hv : 0 ≤ s.speed) :
    (update s a).bind (fun t => update t b) = update s (a + b) := by
  rw [update_forward s a hp ha hv, update_forward s (a + b) hp (by linarith) hv, map_bind]
  have hx : 0 ≤ s.interpolator + a * s.speed := by positivity
  have hy : 0 ≤ b * s.speed := by positivity
  have hfl := floor_split hx hy
  have e : s.interpolator + (a + b) * s.speed = s.interpolator + a * s.speed + b * s.speed := by ring
  rw [e, hfl, iterRes_add]
  set x := s.interpolator + a * s.speed with hxd
  cases hi : iterRes stepF ⌊x⌋₊ s with
  | ok t =>
    have hwr : (withI (x - ⌊x⌋₊) t).state = .playing ∧ (withI (x - ⌊x⌋₊) t).speed = s.speed := hr t hi
    simp only [Res.bind_ok]
    rw [update_forward (withI (x - ⌊x⌋₊) t) b hwr.1 hb (by rw [hwr.2]; exact hv)]
    simp only [withI_interp, hwr.2]
    rw [iter_withI _ stepF_withI]
    have e2 : x + b * s.speed - ((⌊x⌋₊ + ⌊x - ⌊x⌋₊ + b * s.speed⌋₊ : ℕ) : K)
        = x - ⌊x⌋₊ + b * s.speed - ⌊x - ⌊x⌋₊ + b * s.speed⌋₊ := by push_cast; ring
    rw [e2]
    cases iterRes stepF _ t <;> rfl
  | _ => rfl

theorem update_split_forward {s : PB K} {a b : K} (ha : 0 < a) (hb : 0 < b)
    (hr : Running s.speed s) (h0 : 0 ≤ s.interpolator) (hv : 0 ≤ s.speed) :
    (update s a).bind (fun t => update t b) = update s (a + b) := by
  refine update_split_forward' ha hb hr.1 (fun t hi => ?_) h0 hv
  have ht := iterRes_inv stepF (Running s.speed) (fun s s' => stepF_running) _ s t hr hi
  exact ⟨ht.1, ht.2.2⟩

/-- Two updates are one update, backward. -/
theorem update_split_backward' {s : PB K} {a b : K} (ha : 0 < a) (hb : 0 < b)
    (hp : s.state = .playing)
    (hr : ∀ t, iterRes stepB (⌊-(s.interpolator + a * s.speed)⌋₊ + 1) s = .ok t →
      t.state = .playing ∧ t.speed = s.speed) (hv : s.speed < 0) :
    (update s a).bind (fun t => update t b) = update s (a + b) := by
  rw [update_backward s a hp ha hv, update_backward s (a + b) hp (by linarith) hv]
  have e : s.interpolator + (a + b) * s.speed = s.interpolator + a * s.speed + b * s.speed := by ring
  rw [e]
  have hbv : b * s.speed < 0 := mul_neg_of_pos_of_neg hb hv
  set x := s.interpolator + a * s.speed with hxd
  by_cases hc : x ≤ 0
  · have hy : x + b * s.speed ≤ 0 := by linarith
    rw [if_pos hc, if_pos hy, map_bind]
    have hnx : 0 ≤ -x := by linarith
    have f1 := Nat.floor_le hnx
    have f2 := Nat.lt_floor_add_one (-x)
    have hny : 0 ≤ -(x + b * s.speed) := by linarith
    have hsplit : ⌊-(x + b * s.speed)⌋₊ + 1 = ⌊-x⌋₊ + 1 +
        (if x + (⌊-x⌋₊ + 1) + b * s.speed ≤ 0 then ⌊-(x + (⌊-x⌋₊ + 1) + b * s.speed)⌋₊ + 1
          else 0) := by
      split_ifs with h
      · have : -(x + b * s.speed) = -(x + (⌊-x⌋₊ + 1) + b * s.speed) + ((⌊-x⌋₊ + 1 : ℕ) : K) := by
          push_cast; ring
        rw [this, Nat.floor_add_natCast (by linarith)]
        omega
      · have : ⌊-(x + b * s.speed)⌋₊ = ⌊-x⌋₊ := by
          apply (Nat.floor_eq_iff hny).2
          constructor <;> linarith
        omega
    rw [hsplit, iterRes_add stepB (⌊-x⌋₊ + 1) _ s]
    cases hi : iterRes stepB (⌊-x⌋₊ + 1) s with
    | ok t =>
      have hwr : (withI (x + (⌊-x⌋₊ + 1)) t).state = .playing ∧
        (withI (x + (⌊-x⌋₊ + 1)) t).speed = s.speed := hr t hi
      simp only [Res.bind_ok]
      rw [update_backward (withI (x + (⌊-x⌋₊ + 1)) t) b hwr.1 hb (by rw [hwr.2]; exact hv)]
      simp only [withI_interp, hwr.2]
      have hval : x + b * s.speed + (((⌊-(x + b * s.speed)⌋₊ + 1 : ℕ)) : K) =
          x + b * s.speed + (⌊-(x + b * s.speed)⌋₊ + 1) := by push_cast; ring
      split_ifs with h
      · rw [iter_withI _ stepB_withI]
        rw [if_pos h] at hsplit
        rw [← hval, hsplit]
        have e3 : x + b * s.speed +
            ((⌊-x⌋₊ + 1 + (⌊-(x + (⌊-x⌋₊ + 1) + b * s.speed)⌋₊ + 1) : ℕ) : K)
          = x + (⌊-x⌋₊ + 1) + b * s.speed + (⌊-(x + (⌊-x⌋₊ + 1) + b * s.speed)⌋₊ + 1) := by
          push_cast; ring
        rw [e3]
        cases iterRes stepB _ t <;> rfl
      · rw [if_neg h] at hsplit
        rw [← hval, hsplit]
        simp only [iterRes, Res.map, Res.bind_ok, withI_withI]
        congr 2
        push_cast; ring
    | _ => rfl
  · rw [if_neg hc, Res.bind_ok]
    have hwr : (withI x s).state = .playing ∧ (withI x s).speed = s.speed := ⟨hp, rfl⟩
    rw [update_backward (withI x s) b hwr.1 hb (by rw [hwr.2]; exact hv)]
    simp only [withI_interp, hwr.2]
    split_ifs with h
    · rw [iter_withI _ stepB_withI]
      cases iterRes stepB _ s <;> rfl
    · rfl

theorem update_split_backward {s : PB K} {a b : K} (ha : 0 < a) (hb : 0 < b)
    (hr : Running s.speed s) (hv : s.speed < 0) :
    (update s a).bind (fun t => update t b) = update s (a + b) := by
  refine update_split_backward' ha hb hr.1 (fun t hi => ?_) hv
  have ht := iterRes_inv stepB (Running s.speed) (fun s s' => stepB_running) _ s t hr hi
  exact ⟨ht.1, ht.2.2⟩

/-- One-shot playback: two updates and one update agree on everything a client can see,
except the interpolator and the events after the end. -/
theorem update_split_oneShot {s : PB K} {a b : K} (ha : 0 < a) (hb : 0 < b)
    (hk : s.listener.kind = .oneShot) (hp : s.state = .playing) (h0 : 0 ≤ s.interpolator) :
    ∃ t u, (update s a).bind (fun t => update t b) = .ok t ∧ update s (a + b) = .ok u ∧
      t.state = u.state ∧ frames t = frames u ∧ (t.state = .playing → t = u) := by
  have hab : 0 < a + b := by linarith
  have key : ∀ r : Res (PB K), (∃ u, r = .ok u) → update s (a + b) = r →
      (update s a).bind (fun t => update t b) = r →
      ∃ t u, (update s a).bind (fun t => update t b) = .ok t ∧ update s (a + b) = .ok u ∧
      t.state = u.state ∧ frames t = frames u ∧ (t.state = .playing → t = u) := by
    rintro r ⟨u, rfl⟩ h1 h2
    exact ⟨u, u, h2, h1, rfl, rfl, fun _ => rfl⟩
  rcases le_or_gt 0 s.speed with hv | hv
  · have hx : 0 ≤ s.interpolator + a * s.speed := by positivity
    have hy : 0 ≤ b * s.speed := by positivity
    have hfl := floor_split hx hy
    have e : s.interpolator + (a + b) * s.speed = s.interpolator + a * s.speed + b * s.speed := by ring
    obtain ⟨t, t1, t2, t3, t4, -⟩ := iter_oneShot stepF (fun s => stepF_oneShot)
      ⌊s.interpolator + a * s.speed⌋₊ s hk (Or.inl hp)
    obtain ⟨u, u1, u2, u3, u4, u5⟩ := iter_oneShot stepF (fun s => stepF_oneShot)
      ⌊s.interpolator + a * s.speed - ⌊s.interpolator + a * s.speed⌋₊ + b * s.speed⌋₊ t t2 t4
    have hU := update_forward s (a + b) hp hab hv
    rw [e, hfl, iterRes_add, t1, Res.bind_ok, u1] at hU
    rcases t4 with ht | ht
    · refine key (update s (a + b)) ⟨_, hU⟩ rfl ?_
      refine update_split_forward' ha hb hp (fun t' h => ?_) h0 hv
      rw [t1] at h; simp only [Res.ok.injEq] at h; subst h; exact ⟨ht, t3⟩
    · have hA := update_forward s a hp ha hv
      rw [t1] at hA
      refine ⟨withI (s.interpolator + a * s.speed - ⌊s.interpolator + a * s.speed⌋₊) t, _,
        ?_, hU, ?_, ?_, ?_⟩
      · rw [hA]; simp only [Res.map, Res.bind_ok]
        rw [update_idle _ b (Or.inl ?_)]
        show t.state ≠ _
        rw [ht.2.1]; simp
      · show t.state = u.state
        rw [ht.2.1, (u5 ht).1.2.1]
      · exact (u5 ht).2.symm
      · intro h
        have h : t.state = .playing := h
        rw [ht.2.1] at h; simp at h
  · have hav : b * s.speed < 0 := mul_neg_of_pos_of_neg hb hv
    have e : s.interpolator + (a + b) * s.speed = s.interpolator + a * s.speed + b * s.speed := by ring
    obtain ⟨t, t1, t2, t3, t4, -⟩ := iter_oneShot stepB (fun s => stepB_oneShot)
      (⌊-(s.interpolator + a * s.speed)⌋₊ + 1) s hk (Or.inl hp)
    have hU := update_backward s (a + b) hp hab hv
    rcases t4 with ht | ht
    · have := update_split_backward' ha hb hp (fun t' h => by
        rw [t1] at h; simp only [Res.ok.injEq] at h; subst h; exact ⟨ht, t3⟩) hv
      refine key _ ?_ rfl this
      rw [hU]
      split_ifs
      · obtain ⟨u, u1, -⟩ := iter_oneShot stepB (fun s => stepB_oneShot)
          (⌊-(s.interpolator + (a + b) * s.speed)⌋₊ + 1) s hk (Or.inl hp)
        rw [u1]; exact ⟨_, rfl⟩
      · exact ⟨_, rfl⟩
    · by_cases hc : s.interpolator + a * s.speed ≤ 0
      · have hA := update_backward s a hp ha hv
        rw [if_pos hc, t1] at hA
        rw [e, if_pos (by linarith)] at hU
        have hle : ⌊-(s.interpolator + a * s.speed)⌋₊ ≤
            ⌊-(s.interpolator + a * s.speed + b * s.speed)⌋₊ := Nat.floor_le_floor (by linarith)
        obtain ⟨d, hd⟩ := Nat.exists_eq_add_of_le (Nat.add_le_add_right hle 1)
        obtain ⟨u, u1, u2, u3, u4, u5⟩ := iter_oneShot stepB (fun s => stepB_oneShot) d t t2 (Or.inr ht)
        rw [hd, iterRes_add, t1, Res.bind_ok, u1] at hU
        refine ⟨withI (s.interpolator + a * s.speed + (⌊-(s.interpolator + a * s.speed)⌋₊ + 1)) t, _,
          ?_, hU, ?_, ?_, ?_⟩
        · rw [hA]; simp only [Res.map, Res.bind_ok]
          rw [update_idle _ b (Or.inl ?_)]
          show t.state ≠ _
          rw [ht.2.1]; simp
        · show t.state = u.state
          rw [ht.2.1, (u5 ht).1.2.1]
        · exact (u5 ht).2.symm
        · intro h
          have h : t.state = .playing := h
          rw [ht.2.1] at h; simp at h
      · have hA := update_backward s a hp ha hv
        rw [if_neg hc] at hA
        have hB : update (withI (s.interpolator + a * s.speed) s) b = update s (a + b) := by
          rw [hU, update_backward (withI (s.interpolator + a * s.speed) s) b hp hb hv]
          by_cases hcc : s.interpolator + a * s.speed + b * s.speed ≤ 0
          · rw [if_pos (show (withI (s.interpolator + a * s.speed) s).interpolator +
                b * (withI (s.interpolator + a * s.speed) s).speed ≤ 0 from hcc),
              if_pos (by rw [e]; exact hcc), iter_withI _ stepB_withI, e]
            simp only [withI_interp, show (withI (s.interpolator + a * s.speed) s).speed = s.speed from rfl]
            cases iterRes stepB _ s <;> rfl
          · rw [if_neg (show ¬ (withI (s.interpolator + a * s.speed) s).interpolator +
                b * (withI (s.interpolator + a * s.speed) s).speed ≤ 0 from hcc),
              if_neg (by rw [e]; exact hcc), e]; rfl
        refine key _ ?_ rfl (by rw [hA, Res.bind_ok, hB])
        rw [hU]
        split_ifs
        · obtain ⟨u, u1, -⟩ := iter_oneShot stepB (fun s => stepB_oneShot)
            (⌊-(s.interpolator + (a + b) * s.speed)⌋₊ + 1) s hk (Or.inl hp)
          rw [u1]; exact ⟨_, rfl⟩
        · exact ⟨_, rfl⟩

/-- `P n s`: the state reached after `n` whole frames. If `P` is advanced by frame steps
then updates of total length `T` advance it by `⌊T * speed⌋` frames. -/
theorem updates_forward (P : Nat → PB K → Prop) (v : K) (hv : 0 ≤ v)
    (hI : ∀ n s x, P n s → P n (withI x s))
    (hP : ∀ n s, P n s → s.state = .playing ∧ s.speed = v)
    (hS : ∀ n s, P n s → ∃ s', stepF s = .ok s' ∧ P (n + 1) s') :
    ∀ (dts : List K), (∀ d ∈ dts, 0 < d) → ∀ (n : Nat) (s : PB K), P n s → 0 ≤ s.interpolator →
      s.interpolator < 1 →
      ∃ s', run s (dts.map Op.update) = .ok s' ∧
        P (n + ⌊s.interpolator + dts.sum * v⌋₊) s' ∧
        s'.interpolator = s.interpolator + dts.sum * v - ⌊s.interpolator + dts.sum * v⌋₊ := by
  have hit : ∀ k n s, P n s → ∃ s', iterRes stepF k s = .ok s' ∧ P (n + k) s' := by
    intro k
    induction k with
    | zero => intro n s h; exact ⟨s, rfl, h⟩
    | succ k ih =>
      intro n s h
      obtain ⟨a, h1, h2⟩ := hS n s h
      obtain ⟨b, h3, h4⟩ := ih (n + 1) a h2
      refine ⟨b, by simp [iterRes, h1, h3], ?_⟩
      have : n + (k + 1) = n + 1 + k := by omega
      rw [this]; exact h4
  intro dts
  induction dts with
  | nil =>
    intro _ n s h h0 h1
    refine ⟨s, rfl, ?_, ?_⟩
    · simpa [Nat.floor_eq_zero.2 h1] using h
    · simp [Nat.floor_eq_zero.2 h1]
  | cons d dts ih =>
    intro hpos n s h h0 h1
    have hd : 0 < d := hpos d (by simp)
    obtain ⟨hp, hsp⟩ := hP n s h
    have hu := update_forward s d hp hd (by rw [hsp]; exact hv)
    obtain ⟨t, ht1, ht2⟩ := hit ⌊s.interpolator + d * s.speed⌋₊ n s h
    rw [ht1, hsp] at hu
    simp only [Res.map, Res.bind_ok] at hu
    rw [hsp] at ht2
    have hx : 0 ≤ s.interpolator + d * v := by positivity
    have f1 := Nat.floor_le hx
    have f2 := Nat.lt_floor_add_one (s.interpolator + d * v)
    obtain ⟨s', h2, h3, h4⟩ := ih (fun e he => hpos e (by simp [he])) _
      (withI (s.interpolator + d * v - ⌊s.interpolator + d * v⌋₊) t) (hI _ _ _ ht2)
      (by simp only [withI_interp]; linarith) (by simp only [withI_interp]; linarith)
    have hsum : 0 ≤ dts.sum * v :=
      mul_nonneg (List.sum_nonneg (fun e he => (hpos e (by simp [he])).le)) hv
    have hfl := floor_split hx hsum
    have e : s.interpolator + (d :: dts).sum * v = s.interpolator + d * v + dts.sum * v := by
      simp; ring
    simp only [withI_interp] at h3 h4
    refine ⟨s', ?_, ?_, ?_⟩
    · simp only [List.map_cons, run, step, hu, Res.bind_ok]; exact h2
    · rw [e, hfl, ← Nat.add_assoc]; exact h3
    · rw [h4, e, hfl]; push_cast; ring

/-- The same backward, for a run of at least one update: after a time with
`T = total * |speed|` whole and fractional frames `⌊T⌋ + 1` frame steps have been made. -/
theorem updates_backward (P : Nat → PB K → Prop) (v : K) (hv : v < 0)
    (hI : ∀ n s x, P n s → P n (withI x s))
    (hP : ∀ n s, P n s → s.state = .playing ∧ s.speed = v)
    (hS : ∀ n s, P n s → ∃ s', stepB s = .ok s' ∧ P (n + 1) s') :
    ∀ (dts : List K), (∀ d ∈ dts, 0 < d) → ∀ (n : Nat) (s : PB K), P n s → 0 ≤ s.interpolator →
      s.interpolator ≤ 1 →
      ∃ s', run s (dts.map Op.update) = .ok s' ∧
        ((dts = [] ∧ s' = s) ∨ (dts ≠ [] ∧
         ((0 < s.interpolator + dts.sum * v ∧ P n s' ∧ s'.interpolator = s.interpolator + dts.sum * v)
         ∨ (s.interpolator + dts.sum * v ≤ 0 ∧
        P (n + (⌊-(s.interpolator + dts.sum * v)⌋₊ + 1)) s' ∧
        s'.interpolator = s.interpolator + dts.sum * v + (⌊-(s.interpolator + dts.sum * v)⌋₊ + 1))))) := by
  have hit : ∀ k n s, P n s → ∃ s', iterRes stepB k s = .ok s' ∧ P (n + k) s' := by
    intro k
    induction k with
    | zero => intro n s h; exact ⟨s, rfl, h⟩
    | succ k ih =>
      intro n s h
      obtain ⟨a, h1, h2⟩ := hS n s h
      obtain ⟨b, h3, h4⟩ := ih (n + 1) a h2
      refine ⟨b, by simp [iterRes, h1, h3], ?_⟩
      have : n + (k + 1) = n + 1 + k := by omega
      rw [this]; exact h4
  intro dts
  induction dts with
  | nil => intro _ n s h h0 h1; exact ⟨s, rfl, Or.inl ⟨rfl, rfl⟩⟩
  | cons d dts ih =>
    intro hpos n s h h0 h1
    have hd : 0 < d := hpos d (by simp)
    obtain ⟨hp, hsp⟩ := hP n s h
    have hu := update_backward s d hp hd (by rw [hsp]; exact hv)
    rw [hsp] at hu
    have hdv : d * v < 0 := mul_neg_of_pos_of_neg hd hv
    have hsum : dts.sum * v ≤ 0 :=
      mul_nonpos_of_nonneg_of_nonpos (List.sum_nonneg (fun e he => (hpos e (by simp [he])).le)) hv.le
    have e : s.interpolator + (d :: dts).sum * v = s.interpolator + d * v + dts.sum * v := by
      simp; ring
    rw [e]
    by_cases hc : s.interpolator + d * v ≤ 0
    · rw [if_pos hc] at hu
      obtain ⟨t, ht1, ht2⟩ := hit (⌊-(s.interpolator + d * v)⌋₊ + 1) n s h
      rw [ht1] at hu
      simp only [Res.map, Res.bind_ok] at hu
      set x := s.interpolator + d * v with hxd
      have hx : 0 ≤ -x := by linarith
      have f1 := Nat.floor_le hx
      have f2 := Nat.lt_floor_add_one (-x)
      obtain ⟨s', h2, h3⟩ := ih (fun e he => hpos e (by simp [he])) _
        (withI (x + (⌊-x⌋₊ + 1)) t) (hI _ _ _ ht2)
        (by simp only [withI_interp]; linarith) (by simp only [withI_interp]; linarith)
      refine ⟨s', ?_, Or.inr ⟨by simp, Or.inr ⟨by linarith, ?_⟩⟩⟩
      · simp only [List.map_cons, run, step, hu, Res.bind_ok]; exact h2
      rcases h3 with ⟨h3, h4⟩ | ⟨h3, h4 | h4⟩
      · subst h3 h4
        simp only [List.sum_nil, zero_mul, add_zero, withI_interp, and_true]
        exact hI _ _ _ ht2
      · obtain ⟨h4, h5, h6⟩ := h4
        simp only [withI_interp] at h4 h5 h6
        have : ⌊-(x + dts.sum * v)⌋₊ = ⌊-x⌋₊ := by
          apply (Nat.floor_eq_iff (by linarith)).2
          constructor <;> linarith
        rw [this]
        exact ⟨h5, by rw [h6]; ring⟩
      · obtain ⟨h4, h5, h6⟩ := h4
        simp only [withI_interp] at h4 h5 h6
        have e4 : -(x + dts.sum * v) = -(x + (⌊-x⌋₊ + 1) + dts.sum * v) + ((⌊-x⌋₊ + 1 : ℕ) : K) := by
          push_cast; ring
        have e5 : ⌊-(x + dts.sum * v)⌋₊ = ⌊-(x + (⌊-x⌋₊ + 1) + dts.sum * v)⌋₊ + (⌊-x⌋₊ + 1) := by
          rw [e4, Nat.floor_add_natCast (by linarith)]
        rw [e5]
        refine ⟨?_, ?_⟩
        · have : n + (⌊-(x + (⌊-x⌋₊ + 1) + dts.sum * v)⌋₊ + (⌊-x⌋₊ + 1) + 1)
            = n + (⌊-x⌋₊ + 1) + (⌊-(x + (⌊-x⌋₊ + 1) + dts.sum * v)⌋₊ + 1) := by omega
          rw [this]; exact h5
        · rw [h6]; push_cast; ring
    · rw [if_neg hc] at hu
      obtain ⟨s', h2, h3⟩ := ih (fun e he => hpos e (by simp [he])) n
        (withI (s.interpolator + d * v) s) (hI _ _ _ h)
        (by simp only [withI_interp]; linarith) (by simp only [withI_interp]; linarith)
      refine ⟨s', ?_, Or.inr ⟨by simp, ?_⟩⟩
      · simp only [List.map_cons, run, step, hu, Res.bind_ok]; exact h2
      rcases h3 with ⟨h3, h4⟩ | ⟨h3, h4⟩
      · subst h3 h4
        left
        simp only [List.sum_nil, zero_mul, add_zero, withI_interp, and_true]
        exact ⟨by linarith, hI _ _ _ h⟩
      · simpa only [withI_interp] using h4

end Geom.Playback
