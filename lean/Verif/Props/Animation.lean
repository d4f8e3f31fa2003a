import Verif.Model.Animation
import Verif.Spec.Animation
import Verif.Props.Keyframe
import Verif.Props.Playback

/-
  C94: a keyframe sequence driven by a playback shows the film of the keyframes.
-/
set_option autoImplicit false
set_option linter.unusedSectionVars false

namespace Geom.Animation

open Geom.Keyframe Geom.Keyframe.Props Geom.Playback Geom.Playback.Spec Geom.Playback.Props

variable {P R S M K : Type} [Field K] [LinearOrder K] [IsStrictOrderedRing K] [FloorRing K]

/-- The keyframes of the property: distinct frames in each channel, the first keyframe at frame 0, the
last one at frame `last`, and no old keys in channels which have no keyframes (see C56, C57 and C59
for what happens otherwise). -/
structure Ready (e : Env P R S K) (q : Seq P R S) (pk : List (KF P)) (rk : List (KF R))
    (sk : List (KF S)) (last : Nat) : Prop where
  sorts : Sorts e
  proper : Proper pk rk sk
  first : HasFrame pk rk sk 0
  last : HasFrame pk rk sk last ∧ ∀ f, HasFrame pk rk sk f → f ≤ last
  op : pk ≠ [] ∨ q.positionKeys = []
  or : rk ≠ [] ∨ q.rotationKeys = []
  os : sk ≠ [] ∨ q.scaleKeys = []
  mp : Mixes e.p.mix
  mr : Mixes e.r.mix
  ms : Mixes e.s.mix

/-- The matrix is composed of the values of the three channels at the time `x`. -/
def Shows (e : Env P R S K) (compose : M → P → R → S → M) (pk : List (KF P)) (rk : List (KF R))
    (sk : List (KF S)) (last : Nat) (F : Nat → Nat) (x : K) (m : M) (res : Res M) : Prop :=
  ∃ p r s, res = .ok (compose m p r s) ∧ ChanAt e.p.mix e.p.init pk last F x p ∧
    ChanAt e.r.mix e.r.init rk last F x r ∧ ChanAt e.s.mix e.s.init sk last F x s

variable {e : Env P R S K} {q : Seq P R S} {pk : List (KF P)} {rk : List (KF R)} {sk : List (KF S)}
  {last : Nat}

theorem film_core (h : Ready e q pk rk sk last) (compose : M → P → R → S → M) (out0 : P × R × S)
    (m : M) (pb pb' : PB K) (ops : List (Playback.Op K)) (hr : Playback.run pb ops = .ok pb') :
    ∃ p0 p1 r0 r1 s0 s1, film e compose out0 q pk rk sk pb ops m =
        .ok (compose m (e.p.mix p0 p1 pb'.interpolator) (e.r.mix r0 r1 pb'.interpolator)
          (e.s.mix s0 s1 pb'.interpolator)) ∧
      ChanValue e.p.mix e.p.init pk (min pb'.frame last) p0 ∧
      ChanValue e.p.mix e.p.init pk (min pb'.nextFrame last) p1 ∧
      ChanValue e.r.mix e.r.init rk (min pb'.frame last) r0 ∧
      ChanValue e.r.mix e.r.init rk (min pb'.nextFrame last) r1 ∧
      ChanValue e.s.mix e.s.init sk (min pb'.frame last) s0 ∧
      ChanValue e.s.mix e.s.init sk (min pb'.nextFrame last) s1 := by
  obtain ⟨q', h1, h2, h3⟩ := C56_build e h.sorts q pk rk sk h.proper h.first h.op h.or h.os
  obtain ⟨p0, p1, r0, r1, s0, s1, g, g1, g2, g3, g4, g5, g6⟩ :=
    interpolate_holds e pk rk sk _ q' h3 out0 pb'.frame pb'.nextFrame pb'.interpolator
  have hlt : q'.frameBegin < q'.frameEnd := h3.last.2.2 _ h3.first.1
  have hl : q'.frameEnd - 1 = last := by
    have a := h3.last.2.2 _ h.last.1
    have b := h.last.2 _ h3.last.2.1
    omega
  have hn : ∀ f, nearest q' f - q'.frameBegin + q'.frameBegin = min f last := by
    intro f; unfold nearest; rw [hl, h2]; omega
  rw [hn] at g1 g2 g3 g4 g5 g6
  refine ⟨p0, p1, r0, r1, s0, s1, ?_, g1, g2, g3, g4, g5, g6⟩
  simp only [film, h1, hr, Res.bind_ok, animate, interpolateMatrix, if_pos hlt, g]

theorem shows_forward (h : Ready e q pk rk sk last) (compose : M → P → R → S → M) (out0 : P × R × S)
    (m : M) (pb pb' : PB K) (ops : List (Playback.Op K)) (hr : Playback.run pb ops = .ok pb')
    (F : Nat → Nat) (x : K) (h1 : pb'.frame = F ⌊x⌋₊) (h2 : pb'.nextFrame = F (⌊x⌋₊ + 1))
    (h3 : pb'.interpolator = x - ⌊x⌋₊) :
    Shows e compose pk rk sk last F x m (film e compose out0 q pk rk sk pb ops m) := by
  obtain ⟨p0, p1, r0, r1, s0, s1, g, g1, g2, g3, g4, g5, g6⟩ := film_core h compose out0 m pb pb' ops hr
  rw [h1] at g1 g3 g5
  rw [h2] at g2 g4 g6
  rw [h3] at g
  exact ⟨_, _, _, g, ⟨p0, p1, g1, g2, rfl⟩, ⟨r0, r1, g3, g4, rfl⟩, ⟨s0, s1, g5, g6, rfl⟩⟩

theorem shows_backward (h : Ready e q pk rk sk last) (compose : M → P → R → S → M) (out0 : P × R × S)
    (m : M) (pb pb' : PB K) (ops : List (Playback.Op K)) (hr : Playback.run pb ops = .ok pb')
    (F : Nat → Nat) (x : K) (h1 : pb'.nextFrame = F ⌊x⌋₊) (h2 : pb'.frame = F (⌊x⌋₊ + 1))
    (h3 : pb'.interpolator = 1 - (x - ⌊x⌋₊)) :
    Shows e compose pk rk sk last F x m (film e compose out0 q pk rk sk pb ops m) := by
  obtain ⟨p0, p1, r0, r1, s0, s1, g, g1, g2, g3, g4, g5, g6⟩ := film_core h compose out0 m pb pb' ops hr
  rw [h2] at g1 g3 g5
  rw [h1] at g2 g4 g6
  rw [h3, h.mp.flip, h.mr.flip, h.ms.flip] at g
  exact ⟨_, _, _, g, ⟨p1, p0, g2, g1, rfl⟩, ⟨r1, r0, g4, g3, rfl⟩, ⟨s1, s0, g6, g5, rfl⟩⟩

theorem chan_unique {V : Type} {mix : V → V → K → V} {dflt : V} {kfs : List (KF V)}
    (hd : Distinct kfs) {f : Nat} {a b : V} (ha : ChanValue mix dflt kfs f a)
    (hb : ChanValue mix dflt kfs f b) : a = b := by
  rcases ha with ⟨h, rfl⟩ | ha
  · rcases hb with ⟨-, rfl⟩ | hb
    · rfl
    · subst h; cases hb <;> simp_all
  · rcases hb with ⟨h, rfl⟩ | hb
    · subst h; cases ha <;> simp_all
    · exact Value.unique hd ha hb

/-- A channel which stands still at the frame `F ⌊x⌋`. -/
theorem chan_still {V : Type} {mix : V → V → K → V} (hm : Mixes mix) {dflt : V} {kfs : List (KF V)}
    (hd : Distinct kfs) {last : Nat} {F : Nat → Nat} {x i : K} {B : Nat} {a b : V}
    (hF : F (⌊x⌋₊ + 1) = F ⌊x⌋₊ ∨ x = ⌊x⌋₊) (hc : ∃ c, ChanValue mix dflt kfs (min (F (⌊x⌋₊ + 1)) last) c)
    (ha : ChanValue mix dflt kfs (min (F ⌊x⌋₊) last) a) (hb : ChanValue mix dflt kfs (min B last) b)
    (h : B = F ⌊x⌋₊ ∨ i = 0) : ChanAt mix dflt kfs last F x (mix a b i) := by
  have hab : mix a b i = a := by
    rcases h with h | h
    · rw [h] at hb; rw [chan_unique hd hb ha, hm.same]
    · rw [h, hm.start]
  rw [hab]
  obtain ⟨c, hc⟩ := hc
  refine ⟨a, c, ha, hc, ?_⟩
  rcases hF with h | h
  · rw [h] at hc; rw [chan_unique hd hc ha, hm.same]
  · rw [sub_eq_zero.2 h, hm.start]

theorem shows_still (h : Ready e q pk rk sk last) (compose : M → P → R → S → M) (out0 : P × R × S)
    (m : M) (pb pb' : PB K) (ops : List (Playback.Op K)) (hr : Playback.run pb ops = .ok pb')
    (F : Nat → Nat) (x : K) (h1 : pb'.frame = F ⌊x⌋₊)
    (hF : F (⌊x⌋₊ + 1) = F ⌊x⌋₊ ∨ x = ⌊x⌋₊) (h3 : pb'.nextFrame = F ⌊x⌋₊ ∨ pb'.interpolator = 0) :
    Shows e compose pk rk sk last F x m (film e compose out0 q pk rk sk pb ops m) := by
  obtain ⟨p0, p1, r0, r1, s0, s1, g, g1, g2, g3, g4, g5, g6⟩ := film_core h compose out0 m pb pb' ops hr
  rw [h1] at g1 g3 g5
  obtain ⟨p, -, r, -, t, -, -, k1, -, k3, -, k5, -⟩ := film_core h (fun _ p r s => (p, r, s)) out0
    out0 { pb with frame := F (⌊x⌋₊ + 1) } { pb with frame := F (⌊x⌋₊ + 1) } [] rfl
  exact ⟨_, _, _, g, chan_still h.mp h.proper.dp hF ⟨p, k1⟩ g1 g2 h3,
    chan_still h.mr h.proper.dr hF ⟨r, k3⟩ g3 g4 h3, chan_still h.ms h.proper.ds hF ⟨t, k5⟩ g5 g6 h3⟩

/-! ## What is shown -/

/-- Loop: the keyframes of the frames `f, ..., l, f, ..., l, ...` one after another. The matrix depends
on the total time only. -/
theorem C94_loop (h : Ready e q pk rk sk last) (compose : M → P → R → S → M) (out0 : P × R × S)
    (m : M) (pb : PB K) (f l : Nat) (hf : f < Playback.W) (hl : l < Playback.W) (v : K) (hv : 0 ≤ v)
    (a : LArg) (ha : (pickListener pb.listener a).kind = .loop) (dts : List K) (hd : ∀ d ∈ dts, 0 < d) :
    Shows e compose pk rk sk last (loopFrame f l) (dts.sum * v) m
      (film e compose out0 q pk rk sk pb (.play f l v a :: dts.map .update) m) := by
  obtain ⟨s, h1, -, h2, h3, h4⟩ := C54_loop pb f l hf hl v hv a ha dts hd
  exact shows_forward h compose out0 m pb s _ h1 _ _ h2 h3 h4

/-- Ping-pong. -/
theorem C94_pingPong (h : Ready e q pk rk sk last) (compose : M → P → R → S → M) (out0 : P × R × S)
    (m : M) (pb : PB K) (f l : Nat) (hf : f < Playback.W) (hl : l < Playback.W) (hne : f ≠ l) (v : K)
    (hv : 0 ≤ v) (a : LArg) (ha : (pickListener pb.listener a).kind = .pingPong) (dts : List K)
    (hd : ∀ d ∈ dts, 0 < d) :
    Shows e compose pk rk sk last (pingPongFrame f l) (dts.sum * v) m
      (film e compose out0 q pk rk sk pb (.play f l v a :: dts.map .update) m) := by
  obtain ⟨s, h1, -, h2, h3, h4⟩ := C54_pingPong pb f l hf hl hne v hv a ha dts hd
  exact shows_forward h compose out0 m pb s _ h1 _ _ h2 h3 h4

/-- List loop: the start frame and then the frames of the list from the second one on, cyclically. -/
theorem C94_list (h : Ready e q pk rk sk last) (compose : M → P → R → S → M) (out0 : P × R × S)
    (m : M) (pb : PB K) (fs : List Nat) (hlen : 2 ≤ fs.length) (f l : Nat) (v : K) (hv : 0 ≤ v) (i : Nat)
    (dts : List K) (hd : ∀ d ∈ dts, 0 < d) :
    Shows e compose pk rk sk last (fun n => if n = 0 then f else fs.getD (n % fs.length) 0)
      (dts.sum * v) m (film e compose out0 q pk rk sk pb
        (.play f l v (.other ⟨i, .listLoop fs 0⟩) :: dts.map .update) m) := by
  obtain ⟨s, h1, -, h2, h3, h4⟩ := C54_list pb fs hlen f l v hv _ (Or.inl ⟨i, rfl⟩) dts hd
  exact shows_forward h compose out0 m pb s _ h1 _ _ h2 (by rw [h3]; simp) h4

/-- A one-shot playback which has stopped stands at its last frame, whatever its interpolator is. -/
theorem oneShot_stands {f l : Nat} (hf : f < Playback.W) (hl : l < Playback.W) {v : K} (hv : 0 ≤ v) :
    ∀ (dts : List K), (∀ d ∈ dts, 0 < d) → ∀ (n : Nat) (s : PB K), POne f l v n s → 0 ≤ s.interpolator →
      (0 < n ∨ s.state = .playing ∨ s.interpolator = 0) →
      ∃ s', Playback.run s (dts.map Op.update) = .ok s' ∧
        (s'.state = .stopped → s'.nextFrame = l ∨ s'.interpolator = 0) := by
  intro dts
  induction dts with
  | nil =>
    intro _ n s h _ hn
    refine ⟨s, rfl, fun hs => ?_⟩
    obtain ⟨-, -, -, -, -, h⟩ := h
    rcases hn with hn | hn | hn
    · split_ifs at h
      · exact Or.inl (h.2 hn)
      · rw [h.1] at hs; cases hs
    · rw [hn] at hs; cases hs
    · exact Or.inr hn
  | cons d dts ih =>
    intro hpos n s h h0 hn
    by_cases hs : s.state = .stopped
    · refine ⟨s, run_updates_stopped _ s hs, fun _ => ?_⟩
      obtain ⟨-, -, -, -, -, h⟩ := h
      rcases hn with hn | hn | hn
      · split_ifs at h
        · exact Or.inl (h.2 hn)
        · rw [h.1] at hs; cases hs
      · rw [hn] at hs; cases hs
      · exact Or.inr hn
    · have hp : s.state = .playing := by
        obtain ⟨-, -, -, -, -, h⟩ := h
        split_ifs at h
        · exact absurd h.1 hs
        · exact h.1
      have hd : 0 < d := hpos d (by simp)
      have hsp : s.speed = v := h.2.1
      have hu := update_forward s d hp hd (by rw [hsp]; exact hv)
      have hx : 0 ≤ s.interpolator + d * v := by positivity
      obtain ⟨t, ht1, ht2⟩ := iter_POne hf hl hv ⌊s.interpolator + d * s.speed⌋₊ n s (Or.inr hp) h
      rw [ht1, hsp] at hu
      simp only [Res.map, Res.bind_ok] at hu
      rw [hsp] at ht2 ht1
      obtain ⟨s', h2, h3⟩ := ih (fun e he => hpos e (by simp [he])) _
        (withI (s.interpolator + d * v - ⌊s.interpolator + d * v⌋₊) t) ht2
        (by simp only [withI_interp]; linarith [Nat.floor_le hx]) (by
          rcases Nat.eq_zero_or_pos ⌊s.interpolator + d * v⌋₊ with hz | hz
          · right; left
            rw [hz] at ht1
            simp only [iterRes, Res.ok.injEq] at ht1
            subst ht1; exact hp
          · left; omega)
      refine ⟨s', ?_, h3⟩
      simp only [List.map_cons, Playback.run, Playback.step, hu, Res.bind_ok]; exact h2

/-- One-shot: the frames from `f` to `l`; from then on the film stands at the frame `l`. -/
theorem C94_oneShot (h : Ready e q pk rk sk last) (compose : M → P → R → S → M) (out0 : P × R × S)
    (m : M) (pb : PB K) (f l : Nat) (hf : f < Playback.W) (hl : l < Playback.W) (v : K)
    (hv : 0 ≤ v) (a : LArg) (ha : (pickListener pb.listener a).kind = .oneShot) (dts : List K)
    (hd : ∀ d ∈ dts, 0 < d) :
    Shows e compose pk rk sk last (oneShotFrame f l) (dts.sum * v) m
      (film e compose out0 q pk rk sk pb (.play f l v a :: dts.map .update) m) := by
  obtain ⟨s, h1, h2, h3, h4, h5⟩ := C54_oneShot pb f l hf hl v hv a ha dts hd
  by_cases hs : s.frame = l
  · refine shows_still h compose out0 m pb s _ h1 _ _ h2 (Or.inl ?_) ?_
    · rw [hs] at h2
      rw [← h2]
      exact oneShotFrame_mono (Nat.le_succ _) h2.symm
    · obtain ⟨t, g1, g2⟩ := play_POne pb hf hl hv ha
      have hi := (play_interp pb g1).1
      obtain ⟨s', g3, g4⟩ := oneShot_stands hf hl hv dts hd 0 t g2 (by rw [hi]) (by rw [hi]; simp)
      have : s' = s := by
        simp only [Playback.run, Playback.step, g1, Res.bind_ok, g3, Res.ok.injEq] at h1
        exact h1
      subst this
      rw [← h2, hs]
      exact g4 (h3.2 hs)
  · obtain ⟨h6, h7⟩ := h5 (h4.2 hs)
    exact shows_forward h compose out0 m pb s _ h1 _ _ h2 h6 h7

/-- Loop with negative speed: the same film in reverse, beginning with the frame `l`. -/
theorem C94_loop_backward (h : Ready e q pk rk sk last) (compose : M → P → R → S → M)
    (out0 : P × R × S) (m : M) (pb : PB K) (f l : Nat) (hf : f < Playback.W) (hl : l < Playback.W) (v : K)
    (hv : v < 0) (a : LArg) (ha : (pickListener pb.listener a).kind = .loop) (dts : List K)
    (hd : ∀ d ∈ dts, 0 < d) :
    Shows e compose pk rk sk last (loopFrame l f) (dts.sum * -v) m
      (film e compose out0 q pk rk sk pb (.play f l v a :: dts.map .update) m) := by
  by_cases hne : dts = []
  · subst hne
    obtain ⟨t, h1, h2⟩ := play_PLoopB pb hf hl hv ha
    have hi := (play_interp pb h1).1
    refine shows_still h compose out0 m pb t _ (by simp [Playback.run, Playback.step, h1]) _ _ ?_
      (Or.inr (by simp)) (Or.inr hi)
    simpa using h2.2.2.2.2.2.1
  · obtain ⟨s, h1, -, h2, h3, h4⟩ := C55_loop pb f l hf hl v hv a ha dts hd hne
    exact shows_backward h compose out0 m pb s _ h1 _ _ h2 h3 h4

/-- Ping-pong with negative speed: as with positive speed, but one frame ahead. -/
theorem C94_pingPong_backward (h : Ready e q pk rk sk last) (compose : M → P → R → S → M)
    (out0 : P × R × S) (m : M) (pb : PB K) (f l : Nat) (hf : f < Playback.W) (hl : l < Playback.W)
    (hne : f ≠ l) (v : K) (hv : v < 0) (a : LArg) (ha : (pickListener pb.listener a).kind = .pingPong)
    (dts : List K) (hd : ∀ d ∈ dts, 0 < d) :
    Shows e compose pk rk sk last (fun n => pingPongFrame f l (n + 1)) (dts.sum * -v) m
      (film e compose out0 q pk rk sk pb (.play f l v a :: dts.map .update) m) := by
  by_cases hn : dts = []
  · subst hn
    obtain ⟨t, h1, h2⟩ := play_PPingB pb hf hl hne hv ha
    have hi := (play_interp pb h1).1
    refine shows_still h compose out0 m pb t _ (by simp [Playback.run, Playback.step, h1]) _ _ ?_
      (Or.inr (by simp)) (Or.inr hi)
    have := h2.2.2.2.2.1
    rw [Nat.add_assoc, pingPong_shift f l _ hne] at this
    simpa using this
  · obtain ⟨s, h1, -, h2, h3, h4⟩ := C55_pingPong pb f l hf hl hne v hv a ha dts hd hn
    exact shows_backward h compose out0 m pb s _ h1 _ _ h2 (by rw [h3]) h4

/-! ## Nothing jumps -/

/-- `|k (n + j) - k n| <= D j` if consecutive values differ by at most `D`. -/
theorem tele {D : K} {k : Nat → K} (h : ∀ n, |k (n + 1) - k n| ≤ D) (n j : Nat) :
    |k (n + j) - k n| ≤ D * j := by
  induction j with
  | zero => simp
  | succ j ih =>
    have := h (n + j)
    rw [abs_le] at this ih ⊢
    rw [Nat.cast_succ, ← Nat.add_assoc]
    constructor <;> linarith [this.1, this.2, ih.1, ih.2]

theorem poly_lipschitz {D : K} {k : Nat → K} (h : ∀ n, |k (n + 1) - k n| ≤ D) {x y : K} (hx : 0 ≤ x)
    (hxy : x ≤ y) :
    |k ⌊y⌋₊ + (k (⌊y⌋₊ + 1) - k ⌊y⌋₊) * (y - ⌊y⌋₊) -
      (k ⌊x⌋₊ + (k (⌊x⌋₊ + 1) - k ⌊x⌋₊) * (x - ⌊x⌋₊))| ≤ D * (y - x) := by
  have a1 := Nat.floor_le hx
  have a2 := Nat.lt_floor_add_one x
  have b1 := Nat.floor_le (hx.trans hxy)
  have b2 := Nat.lt_floor_add_one y
  have hm : ⌊x⌋₊ ≤ ⌊y⌋₊ := Nat.floor_mono hxy
  rcases hm.eq_or_lt with he | hlt
  · rw [← he]
    have e : k ⌊x⌋₊ + (k (⌊x⌋₊ + 1) - k ⌊x⌋₊) * (y - ⌊x⌋₊) -
      (k ⌊x⌋₊ + (k (⌊x⌋₊ + 1) - k ⌊x⌋₊) * (x - ⌊x⌋₊)) = (k (⌊x⌋₊ + 1) - k ⌊x⌋₊) * (y - x) := by ring
    rw [e, abs_mul, abs_of_nonneg (sub_nonneg.2 hxy)]
    exact mul_le_mul_of_nonneg_right (h _) (sub_nonneg.2 hxy)
  · obtain ⟨j, hj⟩ := Nat.exists_eq_add_of_lt hlt
    have hj' : ⌊y⌋₊ = ⌊x⌋₊ + 1 + j := by omega
    have hc : ((⌊y⌋₊ : Nat) : K) = (⌊x⌋₊ : K) + 1 + j := by rw [hj']; push_cast; ring
    have t := tele h (⌊x⌋₊ + 1) j
    rw [← hj'] at t
    have hX := h ⌊x⌋₊
    have hY := h ⌊y⌋₊
    set A := k (⌊x⌋₊ + 1) - k ⌊x⌋₊ with hA
    set B := k (⌊y⌋₊ + 1) - k ⌊y⌋₊ with hB
    have u : |A * (⌊x⌋₊ + 1 - x)| ≤ D * (⌊x⌋₊ + 1 - x) := by
      rw [abs_mul, abs_of_nonneg (by linarith : (0 : K) ≤ ⌊x⌋₊ + 1 - x)]
      exact mul_le_mul_of_nonneg_right hX (by linarith)
    have w : |B * (y - ⌊y⌋₊)| ≤ D * (y - ⌊y⌋₊) := by
      rw [abs_mul, abs_of_nonneg (by linarith : (0 : K) ≤ y - ⌊y⌋₊)]
      exact mul_le_mul_of_nonneg_right hY (by linarith)
    have e : k ⌊y⌋₊ + B * (y - ⌊y⌋₊) - (k ⌊x⌋₊ + A * (x - ⌊x⌋₊)) =
        B * (y - ⌊y⌋₊) + (k ⌊y⌋₊ - k (⌊x⌋₊ + 1)) + A * (⌊x⌋₊ + 1 - x) := by
      rw [hA]; ring
    have s : D * (y - x) = D * (y - ⌊y⌋₊) + D * j + D * (⌊x⌋₊ + 1 - x) := by rw [hc]; ring
    rw [e, s]
    exact (abs_add_le _ _).trans (add_le_add ((abs_add_le _ _).trans (add_le_add w t)) u)

/-- The value of a channel moves at most `D` per frame, in each linear coordinate `c`, if consecutive
frames of the film differ by at most `D`. -/
theorem chanAt_lipschitz {V : Type} {mix : V → V → K → V} {dflt : V} {kfs : List (KF V)}
    (hk : Distinct kfs) {last : Nat} {F : Nat → Nat} (c : V → K)
    (hc : ∀ a b t, c (mix a b t) = c a + (c b - c a) * t) {D : K}
    (hD : ∀ n a b, ChanValue mix dflt kfs (min (F n) last) a →
      ChanValue mix dflt kfs (min (F (n + 1)) last) b → |c b - c a| ≤ D)
    (hex : ∀ n, ∃ a, ChanValue mix dflt kfs (min (F n) last) a) {x y : K} (hx : 0 ≤ x) (hy : 0 ≤ y) {a b : V}
    (ha : ChanAt mix dflt kfs last F x a) (hb : ChanAt mix dflt kfs last F y b) :
    |c b - c a| ≤ D * |y - x| := by
  choose g hg using hex
  have val : ∀ {z : K} {w : V}, ChanAt mix dflt kfs last F z w →
      c w = c (g ⌊z⌋₊) + (c (g (⌊z⌋₊ + 1)) - c (g ⌊z⌋₊)) * (z - ⌊z⌋₊) := by
    rintro z w ⟨p, r, hp, hr, rfl⟩
    rw [chan_unique hk hp (hg _), chan_unique hk hr (hg _), hc]
  have hl := fun n => hD n _ _ (hg n) (hg (n + 1))
  rw [val ha, val hb]
  rcases le_total x y with h | h
  · rw [abs_of_nonneg (sub_nonneg.2 h)]
    exact poly_lipschitz (k := fun n => c (g n)) hl hx h
  · rw [abs_sub_comm, abs_sub_comm y x, abs_of_nonneg (sub_nonneg.2 h)]
    exact poly_lipschitz (k := fun n => c (g n)) hl hy h

theorem ready_value (h : Ready e q pk rk sk last) (f : Nat) :
    ∃ p, ChanValue e.p.mix e.p.init pk (min f last) p := by
  obtain ⟨q', h1, h2, h3⟩ := C56_build e h.sorts q pk rk sk h.proper h.first h.op h.or h.os
  have hl : q'.frameEnd - 1 = last := by
    have a := h3.last.2.2 _ h.last.1
    have b := h.last.2 _ h3.last.2.1
    omega
  have : min f last < q'.positionKeys.length := by rw [h3.sizes.1]; have := h3.last.1; omega
  exact ⟨_, by simpa [h2] using h3.p _ _ (List.getElem?_eq_getElem this)⟩

/-- Two films with the same frames: the positions differ by at most `D` per frame of time between
them. -/
theorem no_jump (h : Ready e q pk rk sk last) (compose : M → P → R → S → M) (pos : M → P)
    (hpos : ∀ m p r s, pos (compose m p r s) = p) (c : P → K)
    (hc : ∀ a b t, c (e.p.mix a b t) = c a + (c b - c a) * t) (F : Nat → Nat) {D : K}
    (hD : ∀ n a b, ChanValue e.p.mix e.p.init pk (min (F n) last) a →
      ChanValue e.p.mix e.p.init pk (min (F (n + 1)) last) b → |c b - c a| ≤ D)
    {x y : K} (hx : 0 ≤ x) (hy : 0 ≤ y) {m : M} {r1 r2 : Res M}
    (h1 : Shows e compose pk rk sk last F x m r1) (h2 : Shows e compose pk rk sk last F y m r2) :
    ∃ m1 m2, r1 = .ok m1 ∧ r2 = .ok m2 ∧ |c (pos m2) - c (pos m1)| ≤ D * |y - x| := by
  obtain ⟨p, r, s, e1, a1, -⟩ := h1
  obtain ⟨p', r', s', e2, a2, -⟩ := h2
  refine ⟨_, _, e1, e2, ?_⟩
  rw [hpos, hpos]
  exact chanAt_lipschitz h.proper.dp c hc hD (fun n => ready_value h (F n)) hx hy a1 a2

/-- Bound for neighbouring frames, for films whose frame changes by at most one. -/
theorem step_bound (h : Ready e q pk rk sk last) (c : P → K) (F : Nat → Nat)
    (hF : ∀ n, F (n + 1) ≤ F n + 1 ∧ F n ≤ F (n + 1) + 1) {D : K} (h0 : 0 ≤ D)
    (hD : ∀ f < last, ∀ a b, ChanValue e.p.mix e.p.init pk f a →
      ChanValue e.p.mix e.p.init pk (f + 1) b → |c b - c a| ≤ D) (n : Nat) (a b : P)
    (ha : ChanValue e.p.mix e.p.init pk (min (F n) last) a)
    (hb : ChanValue e.p.mix e.p.init pk (min (F (n + 1)) last) b) : |c b - c a| ≤ D := by
  obtain ⟨h1, h2⟩ := hF n
  rcases lt_trichotomy (min (F n) last) (min (F (n + 1)) last) with hlt | heq | hgt
  · have e1 : min (F (n + 1)) last = min (F n) last + 1 := by omega
    rw [e1] at hb
    exact hD _ (by omega) a b ha hb
  · rw [← heq] at hb
    rw [chan_unique h.proper.dp hb ha, sub_self, abs_zero]
    exact h0
  · have e1 : min (F n) last = min (F (n + 1)) last + 1 := by omega
    rw [e1] at ha
    rw [abs_sub_comm]
    exact hD _ (by omega) b a hb ha

/-- One-shot: the position of the matrix never jumps. If neighbouring frames differ by at most `D` in
a linear coordinate `c` (for instance the x coordinate), then two films of the same keyframes differ
by at most `D` times the difference of their times in frames: also at the end of the playback, and
however the time is divided into updates. -/
theorem C94_no_jump_oneShot (h : Ready e q pk rk sk last) (compose : M → P → R → S → M)
    (out0 : P × R × S) (m : M) (pos : M → P) (hpos : ∀ m p r s, pos (compose m p r s) = p) (c : P → K)
    (hc : ∀ a b t, c (e.p.mix a b t) = c a + (c b - c a) * t) (D : K) (h0 : 0 ≤ D)
    (hD : ∀ f < last, ∀ a b, ChanValue e.p.mix e.p.init pk f a →
      ChanValue e.p.mix e.p.init pk (f + 1) b → |c b - c a| ≤ D)
    (pb : PB K) (f l : Nat) (hf : f < Playback.W) (hl : l < Playback.W) (v : K)
    (hv : 0 ≤ v) (a : LArg) (ha : (pickListener pb.listener a).kind = .oneShot) (dts dts' : List K)
    (hd : ∀ d ∈ dts, 0 < d) (hd' : ∀ d ∈ dts', 0 < d) :
    ∃ m1 m2, film e compose out0 q pk rk sk pb (.play f l v a :: dts.map .update) m = .ok m1 ∧
      film e compose out0 q pk rk sk pb (.play f l v a :: dts'.map .update) m = .ok m2 ∧
      |c (pos m2) - c (pos m1)| ≤ D * |dts'.sum * v - dts.sum * v| := by
  have nn : ∀ l : List K, (∀ d ∈ l, 0 < d) → 0 ≤ l.sum * v := fun l hl =>
    mul_nonneg (List.sum_nonneg fun d hd => (hl d hd).le) hv
  refine no_jump h compose pos hpos c hc (oneShotFrame f l) (step_bound h c _ ?_ h0 hD) (nn _ hd) (nn _ hd')
    (C94_oneShot h compose out0 m pb f l hf hl v hv a ha dts hd)
    (C94_oneShot h compose out0 m pb f l hf hl v hv a ha dts' hd')
  intro n
  unfold oneShotFrame
  split_ifs <;> omega

theorem pingPong_step (f l n : Nat) (hne : f ≠ l) :
    pingPongFrame f l (n + 1) ≤ pingPongFrame f l n + 1 ∧
      pingPongFrame f l n ≤ pingPongFrame f l (n + 1) + 1 := by
  have key : ∀ d, 0 < d → pingPongOffset d (n + 1) ≤ pingPongOffset d n + 1 ∧
      pingPongOffset d n ≤ pingPongOffset d (n + 1) + 1 := by
    intro d hd
    unfold pingPongOffset
    have hm := Nat.mod_lt n (show 0 < 2 * d by omega)
    have hs : (n + 1) % (2 * d) = if n % (2 * d) + 1 = 2 * d then 0 else n % (2 * d) + 1 := by
      rw [Nat.add_mod, Nat.mod_eq_of_lt (a := 1) (by omega)]
      split_ifs with h
      · rw [h, Nat.mod_self]
      · exact Nat.mod_eq_of_lt (by omega)
    rw [hs]
    split_ifs <;> omega
  unfold pingPongFrame
  split_ifs with h
  · have := key (l - f) (by omega); omega
  · have := key (f - l) (by omega); omega

/-- The same for ping-pong loops, turning points included. -/
theorem C94_no_jump_pingPong (h : Ready e q pk rk sk last) (compose : M → P → R → S → M)
    (out0 : P × R × S) (m : M) (pos : M → P) (hpos : ∀ m p r s, pos (compose m p r s) = p) (c : P → K)
    (hc : ∀ a b t, c (e.p.mix a b t) = c a + (c b - c a) * t) (D : K) (h0 : 0 ≤ D)
    (hD : ∀ f < last, ∀ a b, ChanValue e.p.mix e.p.init pk f a →
      ChanValue e.p.mix e.p.init pk (f + 1) b → |c b - c a| ≤ D)
    (pb : PB K) (f l : Nat) (hf : f < Playback.W) (hl : l < Playback.W) (hne : f ≠ l) (v : K)
    (hv : 0 ≤ v) (a : LArg) (ha : (pickListener pb.listener a).kind = .pingPong) (dts dts' : List K)
    (hd : ∀ d ∈ dts, 0 < d) (hd' : ∀ d ∈ dts', 0 < d) :
    ∃ m1 m2, film e compose out0 q pk rk sk pb (.play f l v a :: dts.map .update) m = .ok m1 ∧
      film e compose out0 q pk rk sk pb (.play f l v a :: dts'.map .update) m = .ok m2 ∧
      |c (pos m2) - c (pos m1)| ≤ D * |dts'.sum * v - dts.sum * v| := by
  have nn : ∀ l : List K, (∀ d ∈ l, 0 < d) → 0 ≤ l.sum * v := fun l hl =>
    mul_nonneg (List.sum_nonneg fun d hd => (hl d hd).le) hv
  exact no_jump h compose pos hpos c hc (pingPongFrame f l)
    (step_bound h c _ (fun n => pingPong_step f l n hne) h0 hD) (nn _ hd) (nn _ hd')
    (C94_pingPong h compose out0 m pb f l hf hl hne v hv a ha dts hd)
    (C94_pingPong h compose out0 m pb f l hf hl hne v hv a ha dts' hd')

/-- Loops do not jump at the end of the cycle either: the way from the last to the first frame takes
one frame of time like all others (so `D` has to bound the difference of these two frames too). -/
theorem C94_no_jump_loop (h : Ready e q pk rk sk last) (compose : M → P → R → S → M)
    (out0 : P × R × S) (m : M) (pos : M → P) (hpos : ∀ m p r s, pos (compose m p r s) = p) (c : P → K)
    (hc : ∀ a b t, c (e.p.mix a b t) = c a + (c b - c a) * t) (D : K) (h0 : 0 ≤ D)
    (hD : ∀ f < last, ∀ a b, ChanValue e.p.mix e.p.init pk f a →
      ChanValue e.p.mix e.p.init pk (f + 1) b → |c b - c a| ≤ D)
    (pb : PB K) (f l : Nat) (hf : f < Playback.W) (hl : l < Playback.W)
    (hD' : ∀ a b, ChanValue e.p.mix e.p.init pk (min l last) a →
      ChanValue e.p.mix e.p.init pk (min f last) b → |c b - c a| ≤ D) (v : K)
    (hv : 0 ≤ v) (a : LArg) (ha : (pickListener pb.listener a).kind = .loop) (dts dts' : List K)
    (hd : ∀ d ∈ dts, 0 < d) (hd' : ∀ d ∈ dts', 0 < d) :
    ∃ m1 m2, film e compose out0 q pk rk sk pb (.play f l v a :: dts.map .update) m = .ok m1 ∧
      film e compose out0 q pk rk sk pb (.play f l v a :: dts'.map .update) m = .ok m2 ∧
      |c (pos m2) - c (pos m1)| ≤ D * |dts'.sum * v - dts.sum * v| := by
  have nn : ∀ l : List K, (∀ d ∈ l, 0 < d) → 0 ≤ l.sum * v := fun l hl =>
    mul_nonneg (List.sum_nonneg fun d hd => (hl d hd).le) hv
  refine no_jump h compose pos hpos c hc (loopFrame f l) ?_ (nn _ hd) (nn _ hd')
    (C94_loop h compose out0 m pb f l hf hl v hv a ha dts hd)
    (C94_loop h compose out0 m pb f l hf hl v hv a ha dts' hd')
  intro n p p' hp hp'
  have hb := loopFrame_between f l n
  unfold Between at hb
  have hs := loopFrame_succ f l n
  by_cases hw : loopFrame f l n = l
  · have : loopFrame f l (n + 1) = f := by rw [hs, hw]; split_ifs <;> omega
    rw [hw] at hp
    rw [this] at hp'
    exact hD' _ _ hp hp'
  · have hF : loopFrame f l (n + 1) ≤ loopFrame f l n + 1 ∧
        loopFrame f l n ≤ loopFrame f l (n + 1) + 1 := by
      rw [hs]; split_ifs <;> omega
    exact step_bound h c (fun i => if i = 0 then loopFrame f l n else loopFrame f l (n + 1))
      (fun i => by by_cases hi : i = 0 <;> simp only [hi, if_true, if_false, Nat.add_eq_zero_iff,
        one_ne_zero, and_false] <;> omega) h0 hD 0 p p' hp hp'

/-! ## An example -/

theorem mixes_lerp : Mixes (fun a b t : ℚ => a + (b - a) * t) :=
  ⟨fun a b => by ring, fun a t => by ring, fun a b t => by ring⟩

/-- Position keys at the frames 0 and 4, a rotation key at frame 1, no scale keys. -/
theorem ready_ex : Ready envEx init [⟨(12 : ℚ), 4⟩, ⟨10, 0⟩] [⟨(7 : ℚ), 1⟩] ([] : List (KF ℚ)) 4 where
  sorts := envEx_sorts
  proper := by
    refine ⟨by simp [Distinct], by simp [Distinct], by simp [Distinct], ?_⟩
    intro f hf
    simp [HasFrame] at hf
    unfold Keyframe.W; omega
  first := Or.inl ⟨⟨10, 0⟩, by simp, rfl⟩
  last := ⟨Or.inl ⟨⟨12, 4⟩, by simp, rfl⟩, fun f hf => by simp [HasFrame] at hf; omega⟩
  op := Or.inr rfl
  or := Or.inr rfl
  os := Or.inr rfl
  mp := mixes_lerp
  mr := mixes_lerp
  ms := mixes_lerp

/-- The film of these keyframes after three updates with 5/2 frames per second, as a loop over the
frames 0 .. 4: time 15/4, between the frames 3 and 4; and as a one-shot playback which has ended. -/
example : film envEx (fun _ p r s => (p, r, s)) (0, 0, 0) init [⟨(12 : ℚ), 4⟩, ⟨10, 0⟩] [⟨(7 : ℚ), 1⟩] []
      Playback.init [.play 0 4 (5 / 2) (.other ⟨1, .loop⟩), .update 1, .update (1 / 4), .update (1 / 4)]
      (0, 0, 0) = .ok (10 + 15 / 8, 7, 1) ∧
    film envEx (fun _ p r s => (p, r, s)) (0, 0, 0) init [⟨(12 : ℚ), 4⟩, ⟨10, 0⟩] [⟨(7 : ℚ), 1⟩] []
      Playback.init [.play 0 4 (5 / 2) .null, .update 1, .update (1 / 4), .update 1]
      (0, 0, 0) = .ok (12, 7, 1) := by
  constructor <;> decide +kernel

/-- The hypotheses of the theorems about jumps, with `D = 1/2`. -/
theorem jump_ex : ∀ f < 4, ∀ a b, ChanValue envEx.p.mix envEx.p.init [⟨(12 : ℚ), 4⟩, ⟨10, 0⟩] f a →
    ChanValue envEx.p.mix envEx.p.init [⟨(12 : ℚ), 4⟩, ⟨10, 0⟩] (f + 1) b → |b - a| ≤ 1 / 2 := by
  have val : ∀ f ≤ 4, ∀ a, ChanValue envEx.p.mix envEx.p.init [⟨(12 : ℚ), 4⟩, ⟨10, 0⟩] f a →
      a = 10 + f / 2 := by
    intro f hf a ha
    rcases ha with ⟨h, -⟩ | ha
    · cases h
    · refine Value.unique (mix := envEx.p.mix) (frame := f) ready_ex.proper.dp ha ?_
      rcases Nat.eq_zero_or_pos f with h | h
      · subst h
        have := Value.key (mix := envEx.p.mix) (kfs := [⟨(12 : ℚ), 4⟩, ⟨10, 0⟩]) (frame := 0) ⟨10, 0⟩ (by simp) rfl
        simpa using this
      · rcases hf.eq_or_lt with h4 | h4
        · subst h4
          have := Value.key (mix := envEx.p.mix) (kfs := [⟨(12 : ℚ), 4⟩, ⟨10, 0⟩]) (frame := 4) ⟨12, 4⟩ (by simp) rfl
          norm_num at this ⊢
          exact this
        · have := Value.between (mix := envEx.p.mix) (kfs := [⟨(12 : ℚ), 4⟩, ⟨10, 0⟩]) (frame := f) ⟨10, 0⟩ ⟨12, 4⟩
            (by simp) (by simp) h h4 (by simp)
          convert this using 1
          simp only [envEx, Nat.sub_zero]
          push_cast
          ring
  intro f hf a b ha hb
  rw [val f (by omega) a ha, val (f + 1) (by omega) b hb]
  push_cast
  rw [show (10 + ((f : ℚ) + 1) / 2 - (10 + (f : ℚ) / 2)) = 1 / 2 by ring]
  norm_num

/-- The theorems for these keyframes. -/
example := C94_loop ready_ex (fun (_ : ℚ × ℚ × ℚ) p r s => (p, r, s)) (0, 0, 0) (0, 0, 0) Playback.init 0 4 (by norm_num [Playback.W])
  (by norm_num [Playback.W]) (5 / 2) (by norm_num) (.other ⟨1, .loop⟩) rfl [1, 1 / 4, 1 / 4] (by norm_num)
example := C94_pingPong ready_ex (fun (_ : ℚ × ℚ × ℚ) p r s => (p, r, s)) (0, 0, 0) (0, 0, 0) Playback.init 0 4 (by norm_num [Playback.W])
  (by norm_num [Playback.W]) (by norm_num) (5 / 2) (by norm_num) (.other ⟨1, .pingPong⟩) rfl [1, 1 / 4, 1 / 4] (by norm_num)
example := C94_list ready_ex (fun (_ : ℚ × ℚ × ℚ) p r s => (p, r, s)) (0, 0, 0) (0, 0, 0) Playback.init [3, 0, 2] (by norm_num) 0 4
  (5 / 2) (by norm_num) 1 [1, 1 / 4, 1 / 4] (by norm_num)
example := C94_oneShot ready_ex (fun (_ : ℚ × ℚ × ℚ) p r s => (p, r, s)) (0, 0, 0) (0, 0, 0) Playback.init 0 4 (by norm_num [Playback.W])
  (by norm_num [Playback.W]) (5 / 2) (by norm_num) (.other ⟨1, .oneShot⟩) rfl [1, 1 / 4, 1 / 4] (by norm_num)
example := C94_loop_backward ready_ex (fun (_ : ℚ × ℚ × ℚ) p r s => (p, r, s)) (0, 0, 0) (0, 0, 0) Playback.init 4 0 (by norm_num [Playback.W])
  (by norm_num [Playback.W]) (-5 / 2) (by norm_num) (.other ⟨1, .loop⟩) rfl [1, 1 / 4, 1 / 4] (by norm_num)
example := C94_pingPong_backward ready_ex (fun (_ : ℚ × ℚ × ℚ) p r s => (p, r, s)) (0, 0, 0) (0, 0, 0) Playback.init 4 0
  (by norm_num [Playback.W]) (by norm_num [Playback.W]) (by norm_num) (-5 / 2) (by norm_num) (.other ⟨1, .pingPong⟩) rfl [1, 1 / 4, 1 / 4] (by norm_num)
example := C94_no_jump_oneShot ready_ex (fun (_ : ℚ × ℚ × ℚ) p r s => (p, r, s)) (0, 0, 0) (0, 0, 0) (fun m => m.1) (fun _ _ _ _ => rfl) id
  (fun _ _ _ => rfl) (1 / 2) (by norm_num) jump_ex Playback.init 0 4 (by norm_num [Playback.W]) (by norm_num [Playback.W]) (5 / 2) (by norm_num)
  (.other ⟨1, .oneShot⟩) rfl [1, 1 / 4] [1, 1 / 4, 1 / 4] (by norm_num) (by norm_num)
example := C94_no_jump_pingPong ready_ex (fun (_ : ℚ × ℚ × ℚ) p r s => (p, r, s)) (0, 0, 0) (0, 0, 0) (fun m => m.1) (fun _ _ _ _ => rfl) id
  (fun _ _ _ => rfl) (1 / 2) (by norm_num) jump_ex Playback.init 0 4 (by norm_num [Playback.W]) (by norm_num [Playback.W]) (by norm_num) (5 / 2)
  (by norm_num) (.other ⟨1, .pingPong⟩) rfl [1, 1 / 4] [1, 1 / 4, 1 / 4] (by norm_num) (by norm_num)

end Geom.Animation
