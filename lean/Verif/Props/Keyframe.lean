import Verif.Proof.Keyframe
import Mathlib.Data.List.Sort

/-!
Properties C56-C59: keyframe sequences.
-/

set_option linter.unusedSectionVars false
set_option autoImplicit false

namespace Geom.Keyframe.Props

variable {P R S K : Type} [Field K]

/-- The sort functions of the three channels keep the contract of `std::sort`. -/
structure Sorts (e : Env P R S K) : Prop where
  p : IsSort e.p.sort
  r : IsSort e.r.sort
  s : IsSort e.s.sort

/-! ## One channel -/

theorem chan_build {V : Type} (c : Chan V K) (hs : IsSort c.sort) (old : List V) (kfs : List (KF V))
    (hd : Distinct kfs) (n : Nat) : ∃ ks, buildInterpolatedKeys c old (c.sort kfs) n = .ok ks ∧
      ks.length = n ∧ (kfs ≠ [] ∨ old = [] → ∀ i v, ks[i]? = some v → ChanValue c.mix c.init kfs i v) := by
  by_cases h : kfs = []
  · have hn : c.sort kfs = [] := (sort_ne_nil hs).2 h
    refine ⟨resize old n c.init, ?_, resize_length _ _ _, ?_⟩
    · simp [buildInterpolatedKeys, hn]
    · rintro (h' | h')
      · exact absurd h h'
      · intro i v hv
        subst h'
        left
        refine ⟨h, ?_⟩
        simp only [resize, List.take_nil, List.nil_append] at hv
        exact List.eq_of_mem_replicate (List.mem_of_getElem? hv)
  · have hn : c.sort kfs ≠ [] := fun h' => h ((sort_ne_nil hs).1 h')
    obtain ⟨ks, h1, h2, h3⟩ := buildLoop_value c (c.sort kfs) hn (strict_of_sort hs hd) n 0 0 0 loopInv_zero
    refine ⟨ks, ?_, h2, fun _ i v hv => ?_⟩
    · simp [buildInterpolatedKeys, hn, h1]
    · right
      have := h3 i v hv
      rw [Nat.zero_add] at this
      exact this.perm (hs kfs).1

/-- The frame bounds of `BuildKeys`. -/
theorem bounds (e : Env P R S K) (hs : Sorts e) (pk : List (KF P)) (rk : List (KF R))
    (sk : List (KF S)) (hp : ∀ f, HasFrame pk rk sk f → f + 1 < W) :
    let b := frameBounds (frameBounds (frameBounds (W - 1, 0) (e.p.sort pk)) (e.r.sort rk)) (e.s.sort sk)
    (∀ x, x ≤ b.1 ↔ x ≤ W - 1 ∧ ∀ f, HasFrame pk rk sk f → x ≤ f) ∧
    (∀ x, b.2 ≤ x ↔ ∀ f, HasFrame pk rk sk f → f + 1 ≤ x) := by
  intro b
  have mp : ∀ k ∈ e.p.sort pk, k ∈ pk := fun k hk => ((hs.p pk).1.mem_iff).1 hk
  have mr : ∀ k ∈ e.r.sort rk, k ∈ rk := fun k hk => ((hs.r rk).1.mem_iff).1 hk
  have ms : ∀ k ∈ e.s.sort sk, k ∈ sk := fun k hk => ((hs.s sk).1.mem_iff).1 hk
  obtain ⟨a1, a2⟩ := frameBounds_spec (b := (W - 1, 0)) (hs.p pk).2
    (fun k hk => hp _ (Or.inl ⟨k, mp k hk, rfl⟩))
  obtain ⟨b1, b2⟩ := frameBounds_spec (b := frameBounds (W - 1, 0) (e.p.sort pk)) (hs.r rk).2
    (fun k hk => hp _ (Or.inr (Or.inl ⟨k, mr k hk, rfl⟩)))
  obtain ⟨c1, c2⟩ := frameBounds_spec
    (b := frameBounds (frameBounds (W - 1, 0) (e.p.sort pk)) (e.r.sort rk)) (hs.s sk).2
    (fun k hk => hp _ (Or.inr (Or.inr ⟨k, ms k hk, rfl⟩)))
  constructor
  · intro x
    rw [c1, b1, a1]
    simp only [(hs.p pk).1.mem_iff, (hs.r rk).1.mem_iff, (hs.s sk).1.mem_iff]
    constructor
    · rintro ⟨⟨⟨h0, h1⟩, h2⟩, h3⟩
      refine ⟨h0, ?_⟩
      rintro f (⟨k, hk, rfl⟩ | ⟨k, hk, rfl⟩ | ⟨k, hk, rfl⟩)
      · exact h1 k hk
      · exact h2 k hk
      · exact h3 k hk
    · rintro ⟨h0, h⟩
      exact ⟨⟨⟨h0, fun k hk => h _ (Or.inl ⟨k, hk, rfl⟩)⟩, fun k hk => h _ (Or.inr (Or.inl ⟨k, hk, rfl⟩))⟩,
        fun k hk => h _ (Or.inr (Or.inr ⟨k, hk, rfl⟩))⟩
  · intro x
    rw [c2, b2, a2]
    simp only [(hs.p pk).1.mem_iff, (hs.r rk).1.mem_iff, (hs.s sk).1.mem_iff]
    constructor
    · rintro ⟨⟨⟨_, h1⟩, h2⟩, h3⟩
      rintro f (⟨k, hk, rfl⟩ | ⟨k, hk, rfl⟩ | ⟨k, hk, rfl⟩)
      · exact h1 k hk
      · exact h2 k hk
      · exact h3 k hk
    · intro h
      exact ⟨⟨⟨Nat.zero_le _, fun k hk => h _ (Or.inl ⟨k, hk, rfl⟩)⟩,
        fun k hk => h _ (Or.inr (Or.inl ⟨k, hk, rfl⟩))⟩, fun k hk => h _ (Or.inr (Or.inr ⟨k, hk, rfl⟩))⟩

/-! ## C56, C57: values of the keys -/

/-- `q` has the frame range from the first to the last keyframe, and its keys at index `i` are the
values of the channels at frame `i + shift`. -/
structure Holds (e : Env P R S K) (pk : List (KF P)) (rk : List (KF R)) (sk : List (KF S))
    (shift : Nat) (q : Seq P R S) : Prop where
  first : HasFrame pk rk sk q.frameBegin ∧ ∀ f, HasFrame pk rk sk f → q.frameBegin ≤ f
  last : 0 < q.frameEnd ∧ HasFrame pk rk sk (q.frameEnd - 1) ∧ ∀ f, HasFrame pk rk sk f → f < q.frameEnd
  sizes : q.positionKeys.length = q.frameEnd - q.frameBegin ∧
    q.rotationKeys.length = q.frameEnd - q.frameBegin ∧ q.scaleKeys.length = q.frameEnd - q.frameBegin
  p : ∀ i v, q.positionKeys[i]? = some v → ChanValue e.p.mix e.p.init pk (i + shift) v
  r : ∀ i v, q.rotationKeys[i]? = some v → ChanValue e.r.mix e.r.init rk (i + shift) v
  s : ∀ i v, q.scaleKeys[i]? = some v → ChanValue e.s.mix e.s.init sk (i + shift) v

/-- What `BuildKeys` computes in fact for each start frame: the key at index `i` is the value at the
frame `i`, not at the frame `frameBegin + i`. (Here the channels without keyframes are required to be
without old keys; see C59.) -/
theorem C57_actual_partial (e : Env P R S K) (hs : Sorts e) (q : Seq P R S) (pk : List (KF P))
    (rk : List (KF R)) (sk : List (KF S)) (hp : Proper pk rk sk) (hne : ∃ f, HasFrame pk rk sk f)
    (op : pk ≠ [] ∨ q.positionKeys = []) (or : rk ≠ [] ∨ q.rotationKeys = [])
    (os : sk ≠ [] ∨ q.scaleKeys = []) :
    ∃ q', buildKeys e q pk rk sk = .ok q' ∧ Holds e pk rk sk 0 q' := by
  obtain ⟨b1, b2⟩ := bounds e hs pk rk sk hp.bound
  set b := frameBounds (frameBounds (frameBounds (W - 1, 0) (e.p.sort pk)) (e.r.sort rk)) (e.s.sort sk)
    with hb
  obtain ⟨f0, hf0⟩ := hne
  have hle : b.1 ≤ f0 := ((b1 b.1).1 le_rfl).2 f0 hf0
  have hgt : f0 + 1 ≤ b.2 := (b2 b.2).1 le_rfl f0 hf0
  have hlt : b.1 < b.2 := by omega
  obtain ⟨ps, p1, p2, p3⟩ := chan_build e.p hs.p q.positionKeys pk hp.dp (b.2 - b.1)
  obtain ⟨rs, r1, r2, r3⟩ := chan_build e.r hs.r q.rotationKeys rk hp.dr (b.2 - b.1)
  obtain ⟨ss, s1, s2, s3⟩ := chan_build e.s hs.s q.scaleKeys sk hp.ds (b.2 - b.1)
  refine ⟨⟨ps, rs, ss, b.1, b.2⟩, ?_, ?_⟩
  · simp only [buildKeys, ← hb, if_pos hlt, p1, r1, s1, Res.bind_ok]
  · refine ⟨⟨?_, ((b1 b.1).1 le_rfl).2⟩, ⟨by simp only; omega, ?_, fun f hf => (b2 b.2).1 le_rfl f hf⟩,
      ⟨p2, r2, s2⟩, p3 op, r3 or, s3 os⟩
    · by_contra hc
      have : b.1 + 1 ≤ b.1 := (b1 _).2 ⟨by have := hp.bound f0 hf0; omega, fun f hf => by
        have h1 := ((b1 b.1).1 le_rfl).2 f hf
        have h2 : f ≠ b.1 := fun h => hc (h ▸ hf)
        omega⟩
      omega
    · by_contra hc
      have : b.2 ≤ b.2 - 1 := (b2 _).2 fun f hf => by
        have h1 := (b2 b.2).1 le_rfl f hf
        have h2 : f ≠ b.2 - 1 := fun h => hc (h ▸ hf)
        omega
      omega

/-- C56: if the first keyframe is at frame 0, the keys of frame `i` are the values of the three
channels at frame `i`. -/
theorem C56_build (e : Env P R S K) (hs : Sorts e) (q : Seq P R S) (pk : List (KF P))
    (rk : List (KF R)) (sk : List (KF S)) (hp : Proper pk rk sk) (h0 : HasFrame pk rk sk 0)
    (op : pk ≠ [] ∨ q.positionKeys = []) (or : rk ≠ [] ∨ q.rotationKeys = [])
    (os : sk ≠ [] ∨ q.scaleKeys = []) :
    ∃ q', buildKeys e q pk rk sk = .ok q' ∧ q'.frameBegin = 0 ∧
      Holds e pk rk sk q'.frameBegin q' := by
  obtain ⟨q', h1, h2⟩ := C57_actual_partial e hs q pk rk sk hp ⟨0, h0⟩ op or os
  have hz : q'.frameBegin = 0 := Nat.le_zero.1 (h2.first.2 0 h0)
  exact ⟨q', h1, hz, by rw [hz]; exact h2⟩

/-- The frame that is shown for an argument of `Interpolate`: the nearest frame of the range. -/
def nearest (q : Seq P R S) (f : Nat) : Nat := min (max f q.frameBegin) (q.frameEnd - 1)

theorem clamp_eq (q : Seq P R S) (f : Nat) (h : q.frameBegin < q.frameEnd) :
    clampFrame q f = nearest q f := by
  unfold clampFrame nearest
  simp only
  split_ifs <;> omega

/-- `Interpolate` on keys which hold: it mixes the values of the two (clamped) frames in each
channel. With `shift = frameBegin` these are the values of the property. -/
theorem interpolate_holds (e : Env P R S K) (pk : List (KF P)) (rk : List (KF R)) (sk : List (KF S))
    (shift : Nat) (q : Seq P R S) (hq : Holds e pk rk sk shift q) (out : P × R × S) (frm til : Nat) (t : K) :
    ∃ p0 p1 r0 r1 s0 s1, interpolate e q out frm til t =
        .ok (e.p.mix p0 p1 t, e.r.mix r0 r1 t, e.s.mix s0 s1 t) ∧
      ChanValue e.p.mix e.p.init pk (nearest q frm - q.frameBegin + shift) p0 ∧
      ChanValue e.p.mix e.p.init pk (nearest q til - q.frameBegin + shift) p1 ∧
      ChanValue e.r.mix e.r.init rk (nearest q frm - q.frameBegin + shift) r0 ∧
      ChanValue e.r.mix e.r.init rk (nearest q til - q.frameBegin + shift) r1 ∧
      ChanValue e.s.mix e.s.init sk (nearest q frm - q.frameBegin + shift) s0 ∧
      ChanValue e.s.mix e.s.init sk (nearest q til - q.frameBegin + shift) s1 := by
  have hlt : q.frameBegin < q.frameEnd := hq.last.2.2 _ hq.first.1
  have hn : ∀ f, nearest q f - q.frameBegin < q.frameEnd - q.frameBegin := by
    intro f; unfold nearest; omega
  have get : ∀ {V : Type} (l : List V), l.length = q.frameEnd - q.frameBegin → ∀ f,
      ∃ v, at' l (nearest q f - q.frameBegin) = .ok v ∧ l[nearest q f - q.frameBegin]? = some v := by
    intro V l hl f
    have : nearest q f - q.frameBegin < l.length := hl ▸ hn f
    exact ⟨_, by simp only [at', List.getElem?_eq_getElem this], List.getElem?_eq_getElem this⟩
  obtain ⟨p0, a1, a2⟩ := get _ hq.sizes.1 frm
  obtain ⟨p1, b1, b2⟩ := get _ hq.sizes.1 til
  obtain ⟨r0, c1, c2⟩ := get _ hq.sizes.2.1 frm
  obtain ⟨r1, d1, d2⟩ := get _ hq.sizes.2.1 til
  obtain ⟨s0, e1, e2⟩ := get _ hq.sizes.2.2 frm
  obtain ⟨s1, f1, f2⟩ := get _ hq.sizes.2.2 til
  refine ⟨p0, p1, r0, r1, s0, s1, ?_, hq.p _ _ a2, hq.p _ _ b2, hq.r _ _ c2, hq.r _ _ d2,
    hq.s _ _ e2, hq.s _ _ f2⟩
  simp only [interpolate, if_pos hlt, clamp_eq q _ hlt, a1, b1, c1, d1, e1, f1, Res.bind_ok]

/-- C56 as seen through `Interpolate`: with the first keyframe at frame 0 the result mixes the values
of the channels at the two frames (clamped to the range of the keyframes). -/
theorem C56_interpolate (e : Env P R S K) (hs : Sorts e) (q : Seq P R S) (pk : List (KF P))
    (rk : List (KF R)) (sk : List (KF S)) (hp : Proper pk rk sk) (h0 : HasFrame pk rk sk 0)
    (op : pk ≠ [] ∨ q.positionKeys = []) (or : rk ≠ [] ∨ q.rotationKeys = [])
    (os : sk ≠ [] ∨ q.scaleKeys = []) (out : P × R × S) (frm til : Nat) (t : K) :
    ∃ q' p0 p1 r0 r1 s0 s1, buildKeys e q pk rk sk = .ok q' ∧
      interpolate e q' out frm til t = .ok (e.p.mix p0 p1 t, e.r.mix r0 r1 t, e.s.mix s0 s1 t) ∧
      ChanValue e.p.mix e.p.init pk (nearest q' frm) p0 ∧
      ChanValue e.p.mix e.p.init pk (nearest q' til) p1 ∧
      ChanValue e.r.mix e.r.init rk (nearest q' frm) r0 ∧
      ChanValue e.r.mix e.r.init rk (nearest q' til) r1 ∧
      ChanValue e.s.mix e.s.init sk (nearest q' frm) s0 ∧
      ChanValue e.s.mix e.s.init sk (nearest q' til) s1 := by
  obtain ⟨q', h1, h2, h3⟩ := C56_build e hs q pk rk sk hp h0 op or os
  obtain ⟨p0, p1, r0, r1, s0, s1, g, g1, g2, g3, g4, g5, g6⟩ :=
    interpolate_holds e pk rk sk _ q' h3 out frm til t
  rw [h2, Nat.sub_zero, Nat.add_zero] at g1 g2 g3 g4 g5 g6
  exact ⟨q', p0, p1, r0, r1, s0, s1, h1, g, g1, g2, g3, g4, g5, g6⟩

/-- The matrix overload composes the same three values into the matrix. -/
theorem C56_interpolate_matrix {M : Type} (e : Env P R S K) (pk : List (KF P)) (rk : List (KF R))
    (sk : List (KF S)) (shift : Nat) (q : Seq P R S) (hq : Holds e pk rk sk shift q)
    (compose : M → P → R → S → M) (out out0 : P × R × S) (m : M) (frm til : Nat) (t : K) :
    ∃ p r s, interpolate e q out frm til t = .ok (p, r, s) ∧
      interpolateMatrix e compose out0 q m frm til t = .ok (compose m p r s) := by
  have hlt : q.frameBegin < q.frameEnd := hq.last.2.2 _ hq.first.1
  obtain ⟨p0, p1, r0, r1, s0, s1, g, _⟩ := interpolate_holds e pk rk sk _ q hq out0 frm til t
  have g' : interpolate e q out frm til t = interpolate e q out0 frm til t := by
    simp only [interpolate, if_pos hlt]
  exact ⟨_, _, _, g'.trans g, by simp only [interpolateMatrix, if_pos hlt, g, Res.bind_ok]⟩

/-! ### A concrete environment for examples and refutations -/

/-- Insertion sort by frame. -/
def sortEx {V : Type} (l : List (KF V)) : List (KF V) :=
  l.insertionSort (fun a b => a.frame ≤ b.frame)

theorem sortEx_isSort {V : Type} : IsSort (V := V) sortEx := by
  intro l
  refine ⟨List.perm_insertionSort _ _, ?_⟩
  have : Std.Total (fun a b : KF V => a.frame ≤ b.frame) := ⟨fun a b => le_total _ _⟩
  have : IsTrans (KF V) (fun a b : KF V => a.frame ≤ b.frame) := ⟨fun a b c => le_trans⟩
  exact List.pairwise_insertionSort _ _

/-- All channels are rational numbers with linear interpolation; the defaults are 0, 0 and 1. -/
def envEx : Env ℚ ℚ ℚ ℚ where
  p := ⟨fun a b t => a + (b - a) * t, fun _ _ => 0, sortEx, 0⟩
  r := ⟨fun a b t => a + (b - a) * t, fun _ _ => 0, sortEx, 0⟩
  s := ⟨fun a b t => a + (b - a) * t, fun _ _ => 0, sortEx, 1⟩

theorem envEx_sorts : Sorts envEx := ⟨sortEx_isSort, sortEx_isSort, sortEx_isSort⟩

/-- Position keys at the frames 4 and 0 (given in this order), one rotation key at frame 1, no scale
keys: the built keys. -/
example : (buildKeys envEx init [⟨12, 4⟩, ⟨10, 0⟩] [⟨7, 1⟩] []).bind
    (fun q => .ok (q.positionKeys, q.rotationKeys, q.scaleKeys)) =
    .ok ([10, 21 / 2, 11, 23 / 2, 12], [7, 7, 7, 7, 7], [1, 1, 1, 1, 1]) := by decide +kernel

example : Proper [⟨(12 : ℚ), 4⟩, ⟨10, 0⟩] [⟨(7 : ℚ), 1⟩] ([] : List (KF ℚ)) ∧
    HasFrame [⟨(12 : ℚ), 4⟩, ⟨10, 0⟩] [⟨(7 : ℚ), 1⟩] ([] : List (KF ℚ)) 0 := by
  refine ⟨⟨by simp [Distinct], by simp [Distinct], by simp [Distinct], ?_⟩, ?_⟩
  · intro f hf
    simp [HasFrame] at hf
    unfold W; omega
  · left; exact ⟨⟨10, 0⟩, by simp, rfl⟩

/-- C57 is refuted: position keys 10 at frame 5 and 20 at frame 7; at frame 7 the result is 10. -/
theorem C57_refuted : ∃ (pk : List (KF ℚ)), Proper pk ([] : List (KF ℚ)) ([] : List (KF ℚ)) ∧
    Value envEx.p.mix pk 7 20 ∧ ∃ q', buildKeys envEx init pk [] [] = .ok q' ∧
      ∀ out, interpolate envEx q' out 7 7 0 = .ok (10, 0, 1) := by
  have hp : Proper [⟨(10 : ℚ), 5⟩, ⟨20, 7⟩] ([] : List (KF ℚ)) ([] : List (KF ℚ)) := by
    refine ⟨by simp [Distinct], by simp [Distinct], by simp [Distinct], ?_⟩
    intro f hf
    simp [HasFrame] at hf
    unfold W; omega
  have hb : buildKeys envEx init [⟨10, 5⟩, ⟨20, 7⟩] [] [] =
      .ok ⟨[10, 10, 10], [0, 0, 0], [1, 1, 1], 5, 8⟩ := by
    have h : (buildKeys envEx init [⟨10, 5⟩, ⟨20, 7⟩] [] []).bind
        (fun q => .ok (q.positionKeys, q.rotationKeys, q.scaleKeys, q.frameBegin, q.frameEnd)) =
      .ok ([10, 10, 10], [0, 0, 0], [1, 1, 1], 5, 8) := by decide +kernel
    cases hq : buildKeys envEx init [⟨10, 5⟩, ⟨20, 7⟩] [] [] with
    | ok q =>
      rw [hq] at h
      simp only [Res.bind_ok, Res.ok.injEq, Prod.mk.injEq] at h
      obtain ⟨h1, h2, h3, h4, h5⟩ := h
      cases q
      simp_all
    | ub => rw [hq] at h; cases h
    | throw => rw [hq] at h; cases h
    | fuel => rw [hq] at h; cases h
  refine ⟨[⟨10, 5⟩, ⟨20, 7⟩], hp, ?_, _, hb, ?_⟩
  · exact Value.key ⟨20, 7⟩ (by simp) rfl
  · intro out
    simp [interpolate, clampFrame, at', envEx]

/-! ## C58: reads in bounds, no effect without keys -/

/-- The sizes of the arrays fit the frame range. -/
def Sized (q : Seq P R S) : Prop := q.frameBegin < q.frameEnd →
  q.positionKeys.length = q.frameEnd - q.frameBegin ∧
  q.rotationKeys.length = q.frameEnd - q.frameBegin ∧ q.scaleKeys.length = q.frameEnd - q.frameBegin

theorem build_sized (e : Env P R S K) (q : Seq P R S) (pk : List (KF P)) (rk : List (KF R))
    (sk : List (KF S)) : ∃ q', buildKeys e q pk rk sk = .ok q' ∧ Sized q' := by
  set b := frameBounds (frameBounds (frameBounds (W - 1, 0) (e.p.sort pk)) (e.r.sort rk)) (e.s.sort sk)
    with hb
  by_cases hlt : b.1 < b.2
  · obtain ⟨ps, p1, p2⟩ := buildInterpolatedKeys_ok e.p q.positionKeys (e.p.sort pk) (b.2 - b.1)
    obtain ⟨rs, r1, r2⟩ := buildInterpolatedKeys_ok e.r q.rotationKeys (e.r.sort rk) (b.2 - b.1)
    obtain ⟨ss, s1, s2⟩ := buildInterpolatedKeys_ok e.s q.scaleKeys (e.s.sort sk) (b.2 - b.1)
    refine ⟨⟨ps, rs, ss, b.1, b.2⟩, ?_, fun _ => ⟨p2, r2, s2⟩⟩
    simp only [buildKeys, ← hb, if_pos hlt, p1, r1, s1, Res.bind_ok]
  · refine ⟨⟨q.positionKeys, q.rotationKeys, q.scaleKeys, b.1, b.2⟩, ?_, fun h => absurd h hlt⟩
    simp only [buildKeys, ← hb, if_neg hlt]

theorem interpolate_sized (e : Env P R S K) (q : Seq P R S) (hq : Sized q) (out : P × R × S)
    (frm til : Nat) (t : K) : ∃ o, interpolate e q out frm til t = .ok o := by
  by_cases hlt : q.frameBegin < q.frameEnd
  · obtain ⟨h1, h2, h3⟩ := hq hlt
    have hn : ∀ f, nearest q f - q.frameBegin < q.frameEnd - q.frameBegin := by
      intro f; unfold nearest; omega
    have get : ∀ {V : Type} (l : List V), l.length = q.frameEnd - q.frameBegin → ∀ f,
        ∃ v, at' l (nearest q f - q.frameBegin) = .ok v := by
      intro V l hl f
      have : nearest q f - q.frameBegin < l.length := hl ▸ hn f
      exact ⟨l[nearest q f - q.frameBegin], by simp only [at', List.getElem?_eq_getElem this]⟩
    obtain ⟨p0, a1⟩ := get _ h1 frm
    obtain ⟨p1, b1⟩ := get _ h1 til
    obtain ⟨r0, c1⟩ := get _ h2 frm
    obtain ⟨r1, d1⟩ := get _ h2 til
    obtain ⟨s0, e1⟩ := get _ h3 frm
    obtain ⟨s1, f1⟩ := get _ h3 til
    exact ⟨_, by simp only [interpolate, if_pos hlt, clamp_eq q _ hlt, a1, b1, c1, d1, e1, f1,
      Res.bind_ok]; rfl⟩
  · exact ⟨out, by simp only [interpolate, if_neg hlt]⟩

/-- No history reads a key array out of bounds, provided nothing is interpolated between `ClearKeys`
and the next `BuildKeys`. Keyframes, frame arguments and interpolators are arbitrary (duplicate
frames included). -/
theorem C58_no_ub_partial (e : Env P R S K) (ops : List (Op P R S K)) (h : NoUseAfterClear false ops) :
    ∃ q, run e init ops = .ok q := by
  have key : ∀ (ops : List (Op P R S K)) (q : Seq P R S) (c : Bool), (c = false → Sized q) →
      NoUseAfterClear c ops → ∃ q', run e q ops = .ok q' := by
    intro ops
    induction ops with
    | nil => intro q c _ _; exact ⟨q, rfl⟩
    | cons op ops ih =>
      intro q c hc hn
      cases op with
      | build pk rk sk =>
        obtain ⟨q', h1, h2⟩ := build_sized e q pk rk sk
        obtain ⟨q'', h3⟩ := ih q' false (fun _ => h2) hn
        exact ⟨q'', by simp only [run, step, h1, Res.bind_ok, h3]⟩
      | clear =>
        obtain ⟨q'', h3⟩ := ih (clearKeys q) true (by simp) hn
        exact ⟨q'', by simp only [run, step, Res.bind_ok, h3]⟩
      | interpolate out frm til t =>
        obtain ⟨o, h1⟩ := interpolate_sized e q (hc hn.1) out frm til t
        obtain ⟨q'', h3⟩ := ih q c hc hn.2
        exact ⟨q'', by simp only [run, step, h1, Res.bind_ok, h3]⟩
  exact key ops init false (fun _ h => absurd h (by simp [init])) h

example : NoUseAfterClear false [Op.build [⟨(12 : ℚ), 4⟩, ⟨10, 4⟩] [⟨(7 : ℚ), 1⟩] ([] : List (KF ℚ)),
    .interpolate (0, 0, 0) 0 100 (1 / 2 : ℚ), .clear, .build [] [] [], .interpolate (0, 0, 0) 3 4 0] := by
  simp [NoUseAfterClear]

/-- A new sequence, or one built without keyframes, leaves the output unchanged; both overloads. -/
theorem C58_no_effect_partial {M : Type} (e : Env P R S K) (hs : Sorts e) (q q' : Seq P R S)
    (hq : q' = init ∨ buildKeys e q [] [] [] = .ok q') (out : P × R × S) (frm til : Nat) (t : K)
    (compose : M → P → R → S → M) (out0 : P × R × S) (m : M) :
    interpolate e q' out frm til t = .ok out ∧
    interpolateMatrix e compose out0 q' m frm til t = .ok m := by
  have hn : ¬ q'.frameBegin < q'.frameEnd := by
    rcases hq with rfl | hq
    · simp [init]
    · simp only [buildKeys, (sort_ne_nil hs.p).2 rfl, (sort_ne_nil hs.r).2 rfl, (sort_ne_nil hs.s).2 rfl,
        frameBounds] at hq
      rw [if_neg (by simp)] at hq
      simp only [Res.ok.injEq] at hq
      subst hq
      simp
  constructor
  · simp only [interpolate, if_neg hn]
  · simp only [interpolateMatrix, if_neg hn]

/-- The documented "no effect without keys" is false after `ClearKeys`: whenever the sequence had been
built from at least one keyframe, each `Interpolate` after `ClearKeys` reads out of bounds. -/
theorem C58_clear_refuted (e : Env P R S K) (hs : Sorts e) (q : Seq P R S) (pk : List (KF P))
    (rk : List (KF R)) (sk : List (KF S)) (hp : ∀ f, HasFrame pk rk sk f → f + 1 < W)
    (hne : ∃ f, HasFrame pk rk sk f) (out : P × R × S) (frm til : Nat) (t : K) :
    run e q [.build pk rk sk, .clear, .interpolate out frm til t] = .ub := by
  obtain ⟨b1, b2⟩ := bounds e hs pk rk sk hp
  set b := frameBounds (frameBounds (frameBounds (W - 1, 0) (e.p.sort pk)) (e.r.sort rk)) (e.s.sort sk)
    with hb
  obtain ⟨f0, hf0⟩ := hne
  have hle : b.1 ≤ f0 := ((b1 b.1).1 le_rfl).2 f0 hf0
  have hgt : f0 + 1 ≤ b.2 := (b2 b.2).1 le_rfl f0 hf0
  have hlt : b.1 < b.2 := by omega
  obtain ⟨ps, p1, p2⟩ := buildInterpolatedKeys_ok e.p q.positionKeys (e.p.sort pk) (b.2 - b.1)
  obtain ⟨rs, r1, r2⟩ := buildInterpolatedKeys_ok e.r q.rotationKeys (e.r.sort rk) (b.2 - b.1)
  obtain ⟨ss, s1, s2⟩ := buildInterpolatedKeys_ok e.s q.scaleKeys (e.s.sort sk) (b.2 - b.1)
  have h : buildKeys e q pk rk sk = .ok ⟨ps, rs, ss, b.1, b.2⟩ := by
    simp only [buildKeys, ← hb, if_pos hlt, p1, r1, s1, Res.bind_ok]
  simp only [run, step, h, Res.bind_ok, clearKeys, interpolate, if_pos hlt, at', List.getElem?_nil,
    Res.bind_ub]

example : ∃ f, HasFrame [⟨(12 : ℚ), 4⟩] ([] : List (KF ℚ)) ([] : List (KF ℚ)) f :=
  ⟨4, Or.inl ⟨_, List.mem_singleton.2 rfl, rfl⟩⟩

/-! ## C59: BuildKeys and the past -/

/-- `BuildKeys` does not depend on the state if each channel has a keyframe, or the arrays of the
channels without keyframes were cleared before. -/
theorem C59_independent_partial (e : Env P R S K) (q q2 : Seq P R S) (pk : List (KF P))
    (rk : List (KF R)) (sk : List (KF S)) (hs : Sorts e)
    (hne : pk ≠ [] ∨ (q.positionKeys = [] ∧ q2.positionKeys = []))
    (hr : rk ≠ [] ∨ (q.rotationKeys = [] ∧ q2.rotationKeys = []))
    (hk : sk ≠ [] ∨ (q.scaleKeys = [] ∧ q2.scaleKeys = []))
    (hp : ∀ f, HasFrame pk rk sk f → f + 1 < W) (hf : ∃ f, HasFrame pk rk sk f) :
    buildKeys e q pk rk sk = buildKeys e q2 pk rk sk := by
  obtain ⟨b1, b2⟩ := bounds e hs pk rk sk hp
  set b := frameBounds (frameBounds (frameBounds (W - 1, 0) (e.p.sort pk)) (e.r.sort rk)) (e.s.sort sk)
    with hb
  obtain ⟨f0, hf0⟩ := hf
  have hle : b.1 ≤ f0 := ((b1 b.1).1 le_rfl).2 f0 hf0
  have hgt : f0 + 1 ≤ b.2 := (b2 b.2).1 le_rfl f0 hf0
  have hlt : b.1 < b.2 := by omega
  have same : ∀ {V : Type} (c : Chan V K), IsSort c.sort → ∀ (kfs : List (KF V)) (o o' : List V) (n : Nat),
      kfs ≠ [] ∨ (o = [] ∧ o' = []) →
      buildInterpolatedKeys c o (c.sort kfs) n = buildInterpolatedKeys c o' (c.sort kfs) n := by
    intro V c hc kfs o o' n h
    rcases h with h | ⟨rfl, rfl⟩
    · have hn : c.sort kfs ≠ [] := fun h' => h ((sort_ne_nil hc).1 h')
      simp [buildInterpolatedKeys, hn]
    · rfl
  simp only [buildKeys, ← hb, if_pos hlt]
  rw [same e.p hs.p pk _ _ _ hne, same e.r hs.r rk _ _ _ hr, same e.s hs.s sk _ _ _ hk]

/-- Refuted in general: after a first `BuildKeys` with the position key 5, a second one without
position keys still shows the position 5, while a new sequence shows the default 0. -/
theorem C59_refuted :
    (run envEx init [.build [⟨5, 0⟩] [] [], .build [] [⟨1, 0⟩] []]).bind
      (fun q => .ok (q.positionKeys, q.rotationKeys, q.scaleKeys)) = .ok ([5], [1], [1]) ∧
    (run envEx init [.build [] [⟨1, 0⟩] []]).bind
      (fun q => .ok (q.positionKeys, q.rotationKeys, q.scaleKeys)) = .ok ([0], [1], [1]) := by
  constructor <;> decide +kernel

/-- Two keyframes at the same frame (outside C56): the iteration gets stuck at the second one, the
key of a later frame is never reached. -/
theorem C56_duplicate_frames_differ :
    (buildKeys envEx init [⟨3, 0⟩, ⟨4, 0⟩, ⟨8, 2⟩] [] []).bind
      (fun q => .ok (q.positionKeys.length, q.positionKeys[2]?)) = .ok (3, some 0) := by
  decide +kernel

/-! The theorems for position keys at the frames 0 and 4 and a rotation key at frame 1. -/

theorem proper_ex : Proper [⟨(12 : ℚ), 4⟩, ⟨10, 0⟩] [⟨(7 : ℚ), 1⟩] ([] : List (KF ℚ)) := by
  refine ⟨by simp [Distinct], by simp [Distinct], by simp [Distinct], ?_⟩
  intro f hf
  simp [HasFrame] at hf
  unfold W; omega

theorem first_ex : HasFrame [⟨(12 : ℚ), 4⟩, ⟨10, 0⟩] [⟨(7 : ℚ), 1⟩] ([] : List (KF ℚ)) 0 := Or.inl ⟨⟨10, 0⟩, by simp, rfl⟩

example := C57_actual_partial envEx envEx_sorts init _ _ _ proper_ex ⟨0, first_ex⟩ (.inr rfl) (.inr rfl) (.inr rfl)
example := C56_build envEx envEx_sorts init _ _ _ proper_ex first_ex (.inr rfl) (.inr rfl) (.inr rfl)
example := C56_interpolate envEx envEx_sorts init _ _ _ proper_ex first_ex (.inr rfl) (.inr rfl) (.inr rfl) (0, 0, 0) 1 2 (1 / 2)
example := C58_no_effect_partial envEx envEx_sorts init init (.inl rfl) (1, 2, 3) 1 2 (1 / 2) (fun (_ : ℚ × ℚ × ℚ) p r s => (p, r, s)) (0, 0, 0) (4, 5, 6)
example (q : Seq ℚ ℚ ℚ) (h : q.scaleKeys = []) := C59_independent_partial envEx q init [⟨(12 : ℚ), 4⟩, ⟨10, 0⟩] [⟨(7 : ℚ), 1⟩] [] envEx_sorts (.inl (by simp))
  (.inl (by simp)) (.inr ⟨h, rfl⟩) proper_ex.bound ⟨0, first_ex⟩

end Geom.Keyframe.Props
