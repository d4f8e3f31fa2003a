import Verif.Model.PlaybackFloat
import Verif.Spec.PlaybackFloat
import Verif.Base.Float
import Verif.Props.Playback

/-!
# Playback with rounding (property C99)

`Update` in floating-point arithmetic with any precision, in any rounding mode unless stated otherwise.
-/
set_option linter.unusedSectionVars false
set_option autoImplicit false

namespace Geom.Playback.Props
open Geom.Playback Geom.Playback.Spec Geom.Float

variable {p : ℕ} {emin : ℤ} {fl : ℚ → ℚ}

/-! ### Loops -/

theorem while_more {σ : Type} (c : σ → Prop) [DecidablePred c] (b : σ → Res σ) (k : ℕ) :
    ∀ n s, whileFuel c b n s ≠ .fuel → whileFuel c b (n + k) s = whileFuel c b n s := by
  intro n
  induction n with
  | zero =>
    intro s h
    by_cases hc : c s
    · simp [whileFuel, hc] at h
    · cases k <;> simp [whileFuel, hc]
  | succ n ih =>
    intro s h
    have e : n + 1 + k = (n + k) + 1 := by omega
    rw [e]
    by_cases hc : c s
    · simp only [whileFuel, hc, if_true] at h ⊢
      cases hb : b s with
      | ok a => rw [hb] at h; simp only [Res.bind_ok] at h ⊢; exact ih a h
      | _ => rfl
    · simp [whileFuel, hc]

theorem while_done {σ : Type} {c : σ → Prop} [DecidablePred c] (b : σ → Res σ) (n : ℕ) {s : σ} (h : ¬ c s) :
    whileFuel c b n s = .ok s := by cases n <;> simp [whileFuel, h]

theorem bodyForwardFl_eq (s : PB ℚ) : bodyForwardFl fl s = (stepF s).map (withI (fl (s.interpolator - 1))) := by
  unfold bodyForwardFl stepF
  rw [← postNextFrame_withI]; rfl

theorem bodyBackwardFl_eq (s : PB ℚ) : bodyBackwardFl fl s = (stepB s).map (withI (fl (s.interpolator + 1))) := by
  unfold bodyBackwardFl stepB
  rw [← postNextFrame_withI]; rfl

theorem while_forwardFl (hf : IsRounding p emin fl) (hp : 1 ≤ p) (he : emin ≤ 0) (n : ℕ) : ∀ s : PB ℚ, s.interpolator ∈ Floats p emin → s.interpolator ≤ 2 ^ p →
    whileFuel (fun s : PB ℚ => s.interpolator ≥ 1) (bodyForwardFl fl) n s = whileFuel (fun s : PB ℚ => s.interpolator ≥ 1) bodyForward n s := by
  induction n with
  | zero => intro s _ _; rfl
  | succ n ih =>
    intro s h1 h2
    by_cases hc : s.interpolator ≥ 1
    · have hm := sub_one_mem hp he h1 hc h2
      simp only [whileFuel, if_pos hc]
      rw [bodyForwardFl_eq, bodyForward_eq, hf.fix _ hm]
      cases stepF s with
      | ok a =>
        simp only [Res.map, Res.bind_ok]
        exact ih _ hm (by simp only [withI_interp]; linarith)
      | _ => rfl
    · simp only [whileFuel, if_neg hc]

/-- The last step of the backward loop. -/
theorem last_step (hf : IsRounding p emin fl) (hp : 1 ≤ p) (he : emin ≤ -1) {x : ℚ} (hx : x ∈ Floats p emin) (h1 : -1 < x) : 0 < fl (x + 1) := by
  rcases le_or_gt (-(1 / 2)) x with h | h
  · have hh : (1 / 2 : ℚ) ∈ Floats p emin := by
      have := mem_of_le (p := p) (emin := emin) (k := 1) (e := -1) hp he (by rw [abs_one]; exact one_le_pow₀ (by norm_num))
      simpa [zpow_neg] using this
    have := hf.mono (show (1 / 2 : ℚ) ≤ x + 1 by linarith)
    rw [hf.fix _ hh] at this
    linarith
  · -- exact
    obtain ⟨m, e, hm, hme, rfl⟩ := hx
    have h0 : (m : ℚ) * 2 ^ e < 0 := by linarith
    have he0 : e ≤ 0 := by
      by_contra hc
      have hm1 : m ≤ -1 := by
        by_contra hc
        have : (0 : ℚ) ≤ m := by exact_mod_cast (by omega : (0 : ℤ) ≤ m)
        have := mul_nonneg this (two_zpow_pos e).le
        linarith
      have hm1' : (m : ℚ) ≤ -1 := by exact_mod_cast hm1
      have h2 : (1 : ℚ) ≤ 2 ^ e := one_le_zpow₀ (by norm_num) (by omega)
      nlinarith
    obtain ⟨d, rfl⟩ : ∃ d : ℕ, e = -d := ⟨(-e).toNat, by omega⟩
    have hd : (2 : ℚ) ^ (-(d : ℤ)) * 2 ^ d = 1 := by rw [zpow_neg, zpow_natCast]; exact inv_mul_cancel₀ (by positivity)
    have hd0 : (0 : ℚ) < 2 ^ d := by positivity
    have a1 : (m : ℚ) * 2 < -2 ^ d := by
      have := mul_lt_mul_of_pos_right h hd0
      rw [mul_assoc, hd] at this
      linarith
    have a2 : (-2 ^ d : ℚ) < m := by
      have := mul_lt_mul_of_pos_right h1 hd0
      rw [mul_assoc, hd] at this
      linarith
    have a1' : m * 2 < -2 ^ d := by exact_mod_cast a1
    have a2' : -2 ^ d < m := by exact_mod_cast a2
    have hmem : (m : ℚ) * 2 ^ (-(d : ℤ)) + 1 ∈ Floats p emin := by
      refine ⟨m + 2 ^ d, -d, ?_, hme, ?_⟩
      · have hd1 : (0 : ℤ) < 2 ^ d := by positivity
        rw [abs_of_neg (by linarith)] at hm
        rw [abs_of_pos (by linarith)]
        linarith
      · push_cast
        linear_combination -hd
    rw [hf.fix _ hmem]
    linarith

theorem while_backwardFl (hf : IsRounding p emin fl) (hp : 1 ≤ p) (he : emin ≤ -1) (n : ℕ) : ∀ s : PB ℚ, s.interpolator ∈ Floats p emin → -2 ^ p ≤ s.interpolator →
    whileFuel (fun s : PB ℚ => s.interpolator ≤ 0) (bodyBackwardFl fl) n s =
      (whileFuel (fun s : PB ℚ => s.interpolator ≤ 0) bodyBackward n s).map (fun r => { r with interpolator := fl r.interpolator }) := by
  induction n with
  | zero =>
    intro s h1 _
    by_cases hc : s.interpolator ≤ 0
    · simp [whileFuel, hc, Res.map]
    · simp [whileFuel, hc, Res.map, hf.fix _ h1]
  | succ n ih =>
    intro s h1 h2
    by_cases hc : s.interpolator ≤ 0
    · simp only [whileFuel, if_pos hc]
      rw [bodyBackwardFl_eq, bodyBackward_eq]
      rcases le_or_gt s.interpolator (-1) with h3 | h3
      · have hm : s.interpolator + 1 ∈ Floats p emin := by
          have := neg_mem (sub_one_mem hp (by omega) (neg_mem h1) (by linarith) (by linarith))
          have e : s.interpolator + 1 = -(-s.interpolator - 1) := by ring
          rw [e]; exact this
        rw [hf.fix _ hm]
        cases stepB s with
        | ok a =>
          simp only [Res.map, Res.bind_ok]
          have := ih (withI (s.interpolator + 1) a) hm (by simp only [withI_interp]; linarith)
          simpa [Res.map] using this
        | _ => rfl
      · have h4 := last_step hf hp he h1 h3
        cases stepB s with
        | ok a =>
          simp only [Res.map, Res.bind_ok]
          rw [while_done _ _ (by simpa using h4), while_done _ _ (by simp; linarith)]
          rfl
        | _ => rfl
    · simp [whileFuel, hc, Res.map, hf.fix _ h1]

/-- The part after the point is exact. -/
theorem sub_floor_mem (hp : 1 ≤ p) (he : emin ≤ 0) {x : ℚ} (hx : x ∈ Floats p emin) (h0 : 0 ≤ x) (hb : x ≤ 2 ^ p) : x - ⌊x⌋₊ ∈ Floats p emin := by
  have key : ∀ j : ℕ, j ≤ ⌊x⌋₊ → x - j ∈ Floats p emin := by
    intro j
    induction j with
    | zero => intro _; simpa using hx
    | succ j ih =>
      intro hj
      have h1 : ((j + 1 : ℕ) : ℚ) ≤ x := (Nat.le_floor_iff h0).1 hj
      push_cast at h1
      have hj0 : (0 : ℚ) ≤ j := Nat.cast_nonneg j
      have := sub_one_mem hp he (ih (by omega)) (by linarith) (by linarith)
      have e : x - ((j + 1 : ℕ) : ℚ) = x - j - 1 := by push_cast; ring
      rw [e]; exact this
  exact key _ le_rfl

/-! ### C99 -/

/-- Updates of at most `2 ^ p` frames. Only two things are rounded: the sum `x` of the interpolator and the time step at the beginning, and
the interpolator at the end. Everything else - the frames, the events, the state, the end of the loop - is what
exact arithmetic makes of `x`. This holds in each rounding mode. -/
theorem C99_update_partial (hf : IsRounding p emin fl) (hp : 1 ≤ p) (he : emin ≤ -1) (s : PB ℚ) (dt x : ℚ) (hs : s.state = .playing) (hd : 0 < dt)
    (hx : x = fl (s.interpolator + fl (dt * s.speed))) (hb : |x| ≤ 2 ^ p) :
    ∃ N, ∀ n, N ≤ n → updateFl fl n s dt =
      (step { s with interpolator := x - dt * s.speed } (.update dt)).map (fun r => { r with interpolator := fl r.interpolator }) := by
  have hmem : x ∈ Floats p emin := hx ▸ hf.mem _
  have hne := update_ne_fuel { s with interpolator := x - dt * s.speed } dt
  simp only [step]
  unfold update at hne ⊢
  have e1 : x - dt * s.speed + dt * s.speed = x := by ring
  have hid : ¬ (s.state ≠ .playing ∨ dt ≤ 0) := by simp [hs, hd]
  simp only [if_neg hid, e1] at hne ⊢
  unfold updateFl
  simp only [if_neg hid, ← hx]
  obtain ⟨hb1, hb2⟩ := abs_le.1 hb
  by_cases hv : isForward s = true
  · have hv' : ∀ y : ℚ, isForward { s with interpolator := y } = true := fun _ => hv
    simp only [hv', if_true] at hne ⊢
    refine ⟨⌊x⌋₊, fun n hn => ?_⟩
    obtain ⟨k, rfl⟩ := Nat.exists_eq_add_of_le hn
    rw [while_forwardFl hf hp (by omega) _ _ hmem hb2, while_more _ _ k _ _ hne]
    -- the result is a float
    rw [while_forward _ { s with interpolator := x } rfl]
    have hfin : x - ⌊x⌋₊ ∈ Floats p emin := by
      rcases le_or_gt 0 x with h0 | h0
      · exact sub_floor_mem hp (by omega) hmem h0 hb2
      · rw [Nat.floor_of_nonpos h0.le]; simpa using hmem
    cases iterRes stepF ⌊x⌋₊ { s with interpolator := x } with
    | ok a => simp [Res.map, withI, hf.fix _ hfin]
    | _ => rfl
  · have hv' : ∀ y : ℚ, ¬ isForward { s with interpolator := y } = true := fun _ => hv
    simp only [hv'] at hne ⊢
    refine ⟨⌊-x⌋₊ + 1, fun n hn => ?_⟩
    obtain ⟨k, rfl⟩ := Nat.exists_eq_add_of_le hn
    have hm := while_more _ _ k _ _ hne
    rw [while_backwardFl hf hp he _ _ hmem hb1, hm]
    rfl

/-- A playback in the middle of a frame, for the examples. -/
def playingAt (i v : ℚ) : PB ℚ := { new with state := .playing, lastFrame := 3, nextFrame := 1, interpolator := i, speed := v, listener := ⟨1, .loop⟩ }

/-- The numbers of the examples are floats. -/
theorem float_of {k e : ℤ} (h1 : |k| < 2 ^ 24) (h2 : -149 ≤ e) : (k : ℚ) * 2 ^ e ∈ Floats 24 (-149) := ⟨k, e, h1, h2, rfl⟩

/-- The hypotheses of `C99_update_partial` and `C99_interpolator_partial`: seven quarters of a frame on top of three quarters, single precision. -/
theorem sample_step : (playingAt (3 / 4) (1 / 2)).state = .playing ∧ nearest 24 (-149) (3 / 4 + nearest 24 (-149) (7 / 2 * (1 / 2))) = 5 / 2 ∧ (3 / 4 : ℚ) ∈ Floats 24 (-149) ∧
    |nearest 24 (-149) (3 / 4 + nearest 24 (-149) (7 / 2 * (1 / 2)))| ≤ 2 ^ 24 := by
  have hf := (nearest_isNearest (p := 24) (emin := -149) (by norm_num)).toIsRounding
  have h1 : (7 / 2 * (1 / 2) : ℚ) ∈ Floats 24 (-149) := by
    have := float_of (k := 7) (e := -2) (by norm_num) (by norm_num)
    norm_num at this ⊢; exact this
  have h2 : (3 / 4 + 7 / 2 * (1 / 2) : ℚ) ∈ Floats 24 (-149) := by
    have := float_of (k := 5) (e := -1) (by norm_num) (by norm_num)
    norm_num at this ⊢; exact this
  refine ⟨rfl, by rw [hf.fix _ h1, hf.fix _ h2]; norm_num, ?_, ?_⟩
  · have := float_of (k := 3) (e := -2) (by norm_num) (by norm_num)
    norm_num at this ⊢; exact this
  · rw [hf.fix _ h1, hf.fix _ h2]; norm_num

theorem updateFl_more {n : ℕ} {s r : PB ℚ} {dt : ℚ} (h : updateFl fl n s dt = .ok r) (k : ℕ) : updateFl fl (n + k) s dt = .ok r := by
  unfold updateFl at h ⊢
  split_ifs at h ⊢ with h1
  · exact h
  · dsimp only at h ⊢
    split_ifs at h ⊢
    all_goals rw [while_more _ _ k _ _ (by rw [h]; simp)]; exact h

theorem updateFl_idle (n : ℕ) (s : PB ℚ) (dt : ℚ) (h : s.state ≠ .playing ∨ dt ≤ 0) : updateFl fl n s dt = .ok s := by
  unfold updateFl; rw [if_pos h]

/-- The states before rounding the result, for any number of rounds. -/
theorem updateFl_ok (hf : IsRounding p emin fl) (hp : 1 ≤ p) (he : emin ≤ -1) {n : ℕ} {s s' : PB ℚ} {dt x : ℚ} (hs : s.state = .playing) (hd : 0 < dt)
    (hx : x = fl (s.interpolator + fl (dt * s.speed))) (hb : |x| ≤ 2 ^ p) (h : updateFl fl n s dt = .ok s') :
    ∃ r, step { s with interpolator := x - dt * s.speed } (.update dt) = .ok r ∧ s' = { r with interpolator := fl r.interpolator } := by
  obtain ⟨N, hN⟩ := C99_update_partial hf hp he s dt x hs hd hx hb
  have h1 := updateFl_more h N
  rw [hN _ (by omega)] at h1
  obtain ⟨r, hr, e⟩ := Res.bind_eq_ok.1 h1
  exact ⟨r, hr, (Res.ok.inj e).symm⟩

theorem zero_mem (he : emin ≤ 0) : (0 : ℚ) ∈ Floats p emin := ⟨0, 0, by simp, he, by simp⟩

theorem one_mem (hp : 1 ≤ p) (he : emin ≤ 0) : (1 : ℚ) ∈ Floats p emin := by
  have := int_mem (p := p) (emin := emin) (k := 1) hp he (by rw [abs_one]; exact one_le_pow₀ (by norm_num))
  simpa using this

/-- The closed form of the exact update of the rounded sum. -/
theorem exact_form {s r : PB ℚ} {dt x : ℚ} (hs : s.state = .playing) (hd : 0 < dt) (h : step { s with interpolator := x - dt * s.speed } (.update dt) = .ok r) :
    (0 ≤ s.speed → r.interpolator = x - ⌊x⌋₊ ∧ nextFrameCount r.log = nextFrameCount s.log + ⌊x⌋₊) ∧
    (s.speed < 0 → x ≤ 0 → r.interpolator = x + (⌊-x⌋₊ + 1) ∧ nextFrameCount r.log = nextFrameCount s.log + (⌊-x⌋₊ + 1)) ∧
    (s.speed < 0 → 0 < x → r.interpolator = x ∧ nextFrameCount r.log = nextFrameCount s.log) := by
  have hev := C52_events { s with interpolator := x - dt * s.speed } _ dt hs hd h
  have e1 : x - dt * s.speed + dt * s.speed = x := by ring
  simp only [e1] at hev
  simp only [step] at h
  refine ⟨fun hv => ?_, fun hv hx => ?_, fun hv hx => ?_⟩
  · rw [update_forward { s with interpolator := x - dt * s.speed } dt hs hd hv] at h
    simp only [e1] at h
    obtain ⟨a, -, rfl⟩ := map_withI_ok h
    rw [if_pos hv] at hev
    exact ⟨rfl, hev⟩
  · rw [update_backward { s with interpolator := x - dt * s.speed } dt hs hd hv] at h
    simp only [e1, if_pos hx] at h
    obtain ⟨a, -, rfl⟩ := map_withI_ok h
    rw [if_neg (not_le.2 hv), if_pos hx] at hev
    exact ⟨rfl, hev⟩
  · rw [update_backward { s with interpolator := x - dt * s.speed } dt hs hd hv] at h
    simp only [e1, if_neg (not_le.2 hx)] at h
    rw [if_neg (not_le.2 hv), if_neg (not_le.2 hx)] at hev
    rw [← Res.ok.inj h] at hev ⊢
    exact ⟨rfl, hev⟩

/-- Rounding does not take the interpolator out of its range: `[0,1)` forward and `(0,1]` backward. -/
theorem C99_interpolator_partial (hf : IsRounding p emin fl) (hp : 1 ≤ p) (he : emin ≤ -1) (n : ℕ) (s s' : PB ℚ) (dt : ℚ) (hs : s.state = .playing) (hd : 0 < dt)
    (h0 : 0 ≤ s.interpolator) (h1 : s.interpolator ≤ 1) (hb : |fl (s.interpolator + fl (dt * s.speed))| ≤ 2 ^ p)
    (h : updateFl fl n s dt = .ok s') :
    s'.interpolator ∈ Floats p emin ∧ (0 ≤ s.speed → 0 ≤ s'.interpolator ∧ s'.interpolator < 1) ∧ (s.speed < 0 → 0 < s'.interpolator ∧ s'.interpolator ≤ 1) := by
  set x := fl (s.interpolator + fl (dt * s.speed)) with hx
  obtain ⟨r, hr, rfl⟩ := updateFl_ok hf hp he hs hd hx hb h
  have hz := hf.fix 0 (zero_mem (by omega))
  obtain ⟨f1, f2, f3⟩ := exact_form hs hd hr
  refine ⟨hf.mem _, fun hv => ?_, fun hv => ?_⟩
  · have hd0 : 0 ≤ fl (dt * s.speed) := hz ▸ hf.mono (mul_nonneg hd.le hv)
    have hx0 : 0 ≤ x := hz ▸ hf.mono (by linarith : (0 : ℚ) ≤ s.interpolator + fl (dt * s.speed))
    have hmem : x ∈ Floats p emin := hf.mem _
    have hfin : x - ⌊x⌋₊ ∈ Floats p emin := sub_floor_mem hp (by omega) hmem hx0 (abs_le.1 hb).2
    show 0 ≤ fl r.interpolator ∧ fl r.interpolator < 1
    rw [(f1 hv).1, hf.fix _ hfin]
    have := Nat.floor_le hx0
    have := Nat.lt_floor_add_one x
    constructor <;> linarith
  · show 0 < fl r.interpolator ∧ fl r.interpolator ≤ 1
    have h1f := hf.fix 1 (one_mem hp (by omega))
    rcases le_or_gt x 0 with hc | hc
    · have hmem : x ∈ Floats p emin := hf.mem _
      rw [(f2 hv hc).1]
      have hx' : 0 ≤ -x := by linarith
      have a1 := Nat.floor_le hx'
      have a2 := Nat.lt_floor_add_one (-x)
      have hfin : -x - ⌊-x⌋₊ ∈ Floats p emin := sub_floor_mem hp (by omega) (neg_mem hmem) hx' (by linarith [(abs_le.1 hb).1])
      have e : x + ((⌊-x⌋₊ : ℚ) + 1) = -(-x - ⌊-x⌋₊) + 1 := by ring
      constructor
      · rw [e]
        exact last_step hf hp he (neg_mem hfin) (by linarith)
      · have := hf.mono (show x + ((⌊-x⌋₊ : ℚ) + 1) ≤ 1 by linarith)
        rwa [h1f] at this
    · rw [(f3 hv hc).1, hf.fix x (hf.mem _)]
      refine ⟨hc, ?_⟩
      have hd0 : fl (dt * s.speed) ≤ 0 := hz ▸ hf.mono (mul_nonpos_of_nonneg_of_nonpos hd.le hv.le)
      have := hf.mono (by linarith : s.interpolator + fl (dt * s.speed) ≤ 1)
      rwa [h1f] at this

/-! ### Steps that are too large -/

/-- Above `2 ^ (p + 1)` subtracting one has no effect. -/
theorem stuck (hf : IsNearest p emin fl) {x : ℚ} (hx : x ∈ Floats p emin) (h : 2 ^ (p + 1) < x) : fl (x - 1) = x := by
  have e2 : (2 : ℚ) ^ ((p : ℤ) + 1) = 2 ^ (p + 1) := by rw [← zpow_natCast]; push_cast; rfl
  have e4 : (2 : ℚ) ^ ((1 : ℤ) + 1) = 4 := by norm_num
  have hp0 : (0 : ℚ) < 2 ^ (p + 1) := by positivity
  obtain ⟨j, hj⟩ := multiple_of_le (k := 1) hx (by rw [e2, abs_of_pos (by linarith)]; exact h.le)
  rw [e4] at hj
  have hn := hf.near (x - 1) x hx
  have e1 : x - (x - 1) = 1 := by ring
  rw [e1, abs_one] at hn
  obtain ⟨n1, n2⟩ := abs_le.1 hn
  have hz := hf.mem (x - 1)
  -- x is at least four above the power of two
  have hx4 : (2 : ℚ) ^ (p + 1) + 2 ≤ x := by
    rcases Nat.eq_zero_or_pos p with h0 | h0
    · subst h0
      obtain ⟨m, e, hm, -, rfl⟩ := hx
      have : m = 0 := by simpa using hm
      subst this
      norm_num at h
    · obtain ⟨q, rfl⟩ : ∃ q, p = q + 1 := ⟨p - 1, by omega⟩
      have h1 : (2 : ℤ) ^ (q + 1 + 1) < j * 4 := by rw [hj] at h; exact_mod_cast h
      have h2 : (2 : ℤ) ^ (q + 1 + 1) = 2 ^ q * 4 := by ring
      have h3 : (2 : ℤ) ^ (q + 1 + 1) + 2 ≤ j * 4 := by omega
      rw [hj]
      exact_mod_cast h3
  obtain ⟨i, hi⟩ := multiple_of_le (k := 1) hz (by
    rw [e2, abs_of_pos (by linarith)]; linarith)
  rw [e4] at hi
  rw [hi, hj] at n1 n2
  have m1 : j * 4 - 2 ≤ i * 4 := by
    have : (j : ℚ) * 4 - 2 ≤ i * 4 := by linarith
    exact_mod_cast this
  have m2 : i * 4 ≤ j * 4 := by
    have : (i : ℚ) * 4 ≤ j * 4 := by linarith
    exact_mod_cast this
  have : i = j := by omega
  rw [hi, hj, this]

/-- The reflected rounding. -/
theorem reflect (hf : IsNearest p emin fl) : IsNearest p emin (fun x => -fl (-x)) where
  mem x := neg_mem (hf.mem _)
  fix x hx := by show -fl (-x) = x; rw [hf.fix _ (neg_mem hx), neg_neg]
  mono x y h := neg_le_neg (hf.mono (neg_le_neg h))
  near x z hz := by
    have := hf.near (-x) (-z) (neg_mem hz)
    have e1 : -fl (-x) - x = -(fl (-x) - -x) := by ring
    have e2 : z - x = -(-z - -x) := by ring
    rw [e1, e2, abs_neg, abs_neg]
    exact this

theorem hang_forward (hf : IsNearest p emin fl) (n : ℕ) : ∀ s : PB ℚ, IterOK s.listener.kind → s.interpolator ∈ Floats p emin → 2 ^ (p + 1) < s.interpolator →
    whileFuel (fun s : PB ℚ => s.interpolator ≥ 1) (bodyForwardFl fl) n s = .fuel := by
  have h1 : ∀ s : PB ℚ, (2 : ℚ) ^ (p + 1) < s.interpolator → s.interpolator ≥ 1 := fun s h => (one_le_pow₀ (by norm_num : (1 : ℚ) ≤ 2)).trans h.le
  induction n with
  | zero => intro s _ _ h; simp only [whileFuel, if_pos (h1 s h)]
  | succ n ih =>
    intro s hk hm h
    simp only [whileFuel, if_pos (h1 s h)]
    rw [bodyForwardFl_eq, stuck hf hm h]
    obtain ⟨t, ht, hk'⟩ := post_iterOK { s with frame := s.nextFrame } hk
    rw [show stepF s = .ok t from ht]
    exact ih (withI s.interpolator t) hk' hm h

theorem hang_backward (hf : IsNearest p emin fl) (n : ℕ) : ∀ s : PB ℚ, IterOK s.listener.kind → s.interpolator ∈ Floats p emin → s.interpolator < -2 ^ (p + 1) →
    whileFuel (fun s : PB ℚ => s.interpolator ≤ 0) (bodyBackwardFl fl) n s = .fuel := by
  have h1 : ∀ s : PB ℚ, s.interpolator < -(2 : ℚ) ^ (p + 1) → s.interpolator ≤ 0 := fun s h => h.le.trans (neg_nonpos.2 (by positivity))
  induction n with
  | zero => intro s _ _ h; simp only [whileFuel, if_pos (h1 s h)]
  | succ n ih =>
    intro s hk hm h
    simp only [whileFuel, if_pos (h1 s h)]
    have hst : fl (s.interpolator + 1) = s.interpolator := by
      have := stuck (reflect hf) (neg_mem hm) (by linarith)
      have e : -(-s.interpolator - 1) = s.interpolator + 1 := by ring
      simp only [e] at this
      linarith
    rw [bodyBackwardFl_eq, hst]
    obtain ⟨t, ht, hk'⟩ := post_iterOK { s with nextFrame := s.frame } hk
    rw [show stepB s = .ok t from ht]
    exact ih (withI s.interpolator t) hk' hm h

/-- `Update` does not return if a step has more than `2 ^ (p + 1)` frames (33554432 frames with `float`): no number of rounds of the loop is enough. -/
theorem C99_returns_refuted (hf : IsNearest p emin fl) (s : PB ℚ) (dt x : ℚ) (hs : s.state = .playing) (hd : 0 < dt) (hk : IterOK s.listener.kind)
    (hx : x = fl (s.interpolator + fl (dt * s.speed))) (hb : if 0 ≤ s.speed then 2 ^ (p + 1) < x else x < -2 ^ (p + 1)) (n : ℕ) :
    updateFl fl n s dt = .fuel := by
  have hid : ¬ (s.state ≠ .playing ∨ dt ≤ 0) := by simp [hs, hd]
  have hm : x ∈ Floats p emin := hx ▸ hf.mem _
  unfold updateFl
  simp only [if_neg hid, ← hx]
  by_cases hv : 0 ≤ s.speed
  · rw [if_pos hv] at hb
    rw [if_pos (show isForward { s with interpolator := x } = true by simpa [isForward] using hv)]
    exact hang_forward hf n { s with interpolator := x } hk hm hb
  · rw [if_neg hv] at hb
    rw [if_neg (show ¬ isForward { s with interpolator := x } = true by simpa [isForward] using hv)]
    exact hang_backward hf n { s with interpolator := x } hk hm hb

/-- The hypotheses: a loop at speed one, just started, and a step of 67108864 frames in single precision. -/
example (n : ℕ) : updateFl (nearest 24 (-149)) n (playingAt 0 1) (2 ^ 26) = .fuel := by
  have hf := nearest_isNearest (p := 24) (emin := -149) (by norm_num)
  have h1 : ((2 : ℚ) ^ 26) ∈ Floats 24 (-149) := by
    have := float_of (k := 1) (e := 26) (by norm_num) (by norm_num)
    norm_num at this ⊢; exact this
  have e : nearest 24 (-149) (0 + nearest 24 (-149) (2 ^ 26 * 1)) = 2 ^ 26 := by
    rw [mul_one, hf.fix _ h1, zero_add, hf.fix _ h1]
  refine C99_returns_refuted hf (playingAt 0 1) _ (2 ^ 26) rfl (by norm_num) trivial e.symm ?_ n
  rw [if_pos (show (0 : ℚ) ≤ (playingAt 0 1).speed by norm_num [playingAt])]
  norm_num

/-! ### Drift -/

theorem step_keeps {v : ℚ} {s r : PB ℚ} {dt : ℚ} (hv : s.speed = v) (h : step s (.update dt) = .ok r) : r.speed = v :=
  update_inv (fun s => s.speed = v) (fun _ _ h => h) (fun _ _ _ h1 h2 => (stepF_speed h2).trans h1) (fun _ _ _ h1 h2 => (stepB_speed h2).trans h1) hv h

/-- The error of the sum at the beginning of an update. -/
theorem sum_error (hf : IsNearest p emin fl) (hp : 1 ≤ p) (he : emin ≤ -(p : ℤ)) {k : ℕ} (hk : k < p) {i d : ℚ} (h0 : 0 ≤ i) (h1 : i ≤ 1) (hd : |d| ≤ 2 ^ k) :
    |fl (i + fl d)| ≤ 2 ^ (k + 1) ∧ |fl (i + fl d) - (i + d)| ≤ (if 0 ≤ d then 3 / 2 else 1) * 2 ^ ((k : ℤ) - p) := by
  have hr := hf.toIsRounding
  have hk2 : ∀ j : ℕ, j ≤ p → (2 : ℚ) ^ j ∈ Floats p emin := by
    intro j hj
    have := int_mem (p := p) (emin := emin) (k := 2 ^ j) hp (by omega) (by
      rw [abs_of_pos (by positivity)]; exact pow_le_pow_right₀ (by norm_num) hj)
    simpa using this
  have hz := hr.fix 0 (zero_mem (by omega))
  have hpk : (0 : ℚ) < 2 ^ k := by positivity
  have h1k : (1 : ℚ) ≤ 2 ^ k := one_le_pow₀ (by norm_num)
  have e2 : (2 : ℚ) ^ (k + 1) = 2 * 2 ^ k := by ring
  obtain ⟨d1, d2⟩ := abs_le.1 hd
  have f2 : fl d ≤ 2 ^ k := by have := hr.mono d2; rwa [hr.fix _ (hk2 k hk.le)] at this
  have f1 : -2 ^ k ≤ fl d := by have := hr.mono d1; rwa [hr.fix _ (neg_mem (hk2 k hk.le))] at this
  have b2 : fl (i + fl d) ≤ 2 ^ (k + 1) := by
    have := hr.mono (show i + fl d ≤ 2 ^ (k + 1) by rw [e2]; linarith)
    rwa [hr.fix _ (hk2 (k + 1) hk)] at this
  have b1 : -2 ^ (k + 1) ≤ fl (i + fl d) := by
    have := hr.mono (show -2 ^ (k + 1) ≤ i + fl d by rw [e2]; linarith)
    rwa [hr.fix _ (neg_mem (hk2 (k + 1) hk))] at this
  refine ⟨abs_le.2 ⟨b1, b2⟩, ?_⟩
  have g1 := near_error hf hp (x := d) (k := k) (by rw [zpow_natCast]; exact hd) (by omega)
  have e3 : fl (i + fl d) - (i + d) = (fl (i + fl d) - (i + fl d)) + (fl d - d) := by ring
  rw [e3]
  refine (abs_add_le _ _).trans ?_
  split_ifs with hdp
  · have g2 := near_error hf hp (x := i + fl d) (k := k + 1) (by
      have : 0 ≤ fl d := hz ▸ hr.mono hdp
      rw [abs_of_nonneg (by linarith), ← Nat.cast_succ, zpow_natCast, e2]; linarith) (by omega)
    have e4 : (2 : ℚ) ^ ((k : ℤ) + 1 - p) = 2 * 2 ^ ((k : ℤ) - p) := by
      rw [show (k : ℤ) + 1 - p = 1 + (k - p) by ring, zpow_add₀ (by norm_num)]; norm_num
    rw [e4] at g2
    linarith
  · have g2 := near_error hf hp (x := i + fl d) (k := k) (by
      have : fl d ≤ 0 := hz ▸ hr.mono (not_le.1 hdp).le
      rw [zpow_natCast, abs_le]; constructor <;> linarith) (by omega)
    linarith

/-- One update, forward. -/
theorem drift_forward_one (hf : IsNearest p emin fl) (hp : 1 ≤ p) (he : emin ≤ -(p : ℤ)) {k : ℕ} (hk : k < p) {n : ℕ} {s s' : PB ℚ} {d : ℚ}
    (hs : s.state = .playing) (hd : 0 < d) (hv : 0 ≤ s.speed) (h0 : 0 ≤ s.interpolator) (h1 : s.interpolator ≤ 1) (hb : d * s.speed ≤ 2 ^ k)
    (h : updateFl fl n s d = .ok s') :
    s'.speed = s.speed ∧ 0 ≤ s'.interpolator ∧ s'.interpolator ≤ 1 ∧ |forwardPosition s' - (forwardPosition s + d * s.speed)| ≤ 3 / 2 * 2 ^ ((k : ℤ) - p) := by
  have hdv := mul_nonneg hd.le hv
  obtain ⟨a1, a2⟩ := sum_error hf hp he hk h0 h1 (abs_le.2 ⟨by linarith, hb⟩)
  rw [if_pos hdv] at a2
  have hle : (2 : ℚ) ^ (k + 1) ≤ 2 ^ p := pow_le_pow_right₀ (by norm_num) hk
  have hr := hf.toIsRounding
  obtain ⟨c1, c2, -⟩ := C99_interpolator_partial hr hp (by omega) n s s' d hs hd h0 h1 (a1.trans hle) h
  obtain ⟨r, hr1, rfl⟩ := updateFl_ok hr hp (by omega) hs hd rfl (a1.trans hle) h
  obtain ⟨f1, -, -⟩ := exact_form hs hd hr1
  obtain ⟨g1, g2⟩ := f1 hv
  have hsp : r.speed = s.speed := step_keeps (s := { s with interpolator := fl (s.interpolator + fl (d * s.speed)) - d * s.speed }) rfl hr1
  refine ⟨hsp, (c2 hv).1, (c2 hv).2.le, ?_⟩
  have hz := hr.fix 0 (zero_mem (by omega))
  have hd0 : 0 ≤ fl (d * s.speed) := hz ▸ hr.mono hdv
  have hx0 : 0 ≤ fl (s.interpolator + fl (d * s.speed)) := hz ▸ hr.mono (by linarith : (0 : ℚ) ≤ s.interpolator + fl (d * s.speed))
  have hfin := sub_floor_mem hp (by omega) (hr.mem (s.interpolator + fl (d * s.speed))) hx0 ((le_abs_self _).trans (a1.trans hle))
  have e : forwardPosition { r with interpolator := fl r.interpolator } - (forwardPosition s + d * s.speed) =
      fl (s.interpolator + fl (d * s.speed)) - (s.interpolator + d * s.speed) := by
    simp only [forwardPosition]
    rw [g1, g2, hr.fix _ hfin]
    push_cast
    ring
  rw [e]
  exact a2

/-- One update, backward. -/
theorem drift_backward_one (hf : IsNearest p emin fl) (hp : 1 ≤ p) (he : emin ≤ -(p : ℤ)) {k : ℕ} (hk : k < p) {n : ℕ} {s s' : PB ℚ} {d : ℚ}
    (hs : s.state = .playing) (hd : 0 < d) (hv : s.speed < 0) (h0 : 0 ≤ s.interpolator) (h1 : s.interpolator ≤ 1) (hb : -2 ^ k ≤ d * s.speed)
    (h : updateFl fl n s d = .ok s') :
    s'.speed = s.speed ∧ 0 ≤ s'.interpolator ∧ s'.interpolator ≤ 1 ∧ |backwardPosition s' - (backwardPosition s + d * s.speed)| ≤ 3 / 2 * 2 ^ ((k : ℤ) - p) := by
  have hdv := mul_neg_of_pos_of_neg hd hv
  have hk0 : (0 : ℚ) < 2 ^ k := by positivity
  obtain ⟨a1, a2⟩ := sum_error hf hp he hk h0 h1 (abs_le.2 ⟨hb, by linarith⟩)
  rw [if_neg (not_le.2 hdv), one_mul] at a2
  have hle : (2 : ℚ) ^ (k + 1) ≤ 2 ^ p := pow_le_pow_right₀ (by norm_num) hk
  have hr := hf.toIsRounding
  obtain ⟨c1, -, c2⟩ := C99_interpolator_partial hr hp (by omega) n s s' d hs hd h0 h1 (a1.trans hle) h
  obtain ⟨r, hr1, rfl⟩ := updateFl_ok hr hp (by omega) hs hd rfl (a1.trans hle) h
  obtain ⟨-, f2, f3⟩ := exact_form hs hd hr1
  have hsp : r.speed = s.speed := step_keeps (s := { s with interpolator := fl (s.interpolator + fl (d * s.speed)) - d * s.speed }) rfl hr1
  refine ⟨hsp, (c2 hv).1.le, (c2 hv).2, ?_⟩
  have hpos := two_zpow_pos ((k : ℤ) - p)
  generalize hx : fl (s.interpolator + fl (d * s.speed)) = x at *
  rcases le_or_gt x 0 with hc | hc
  · obtain ⟨g1, g2⟩ := f2 hv hc
    have hx' : 0 ≤ -x := by linarith
    have b1 := Nat.floor_le hx'
    have b2 := Nat.lt_floor_add_one (-x)
    have herr := near_error hf hp (x := r.interpolator) (k := 0) (by rw [g1, zpow_zero, abs_le]; constructor <;> linarith) (by omega)
    have hmono : (2 : ℚ) ^ ((0 : ℤ) - p) ≤ 2 ^ ((k : ℤ) - p) := zpow_le_zpow_right₀ (by norm_num) (by omega)
    have e : backwardPosition { r with interpolator := fl r.interpolator } - (backwardPosition s + d * s.speed) =
        (fl r.interpolator - r.interpolator) + (x - (s.interpolator + d * s.speed)) := by
      simp only [backwardPosition]
      rw [g2, g1]
      push_cast
      ring
    rw [e]
    refine (abs_add_le _ _).trans ?_
    linarith
  · obtain ⟨g1, g2⟩ := f3 hv hc
    have e : backwardPosition { r with interpolator := fl r.interpolator } - (backwardPosition s + d * s.speed) =
        x - (s.interpolator + d * s.speed) := by
      simp only [backwardPosition]
      rw [g2, g1, ← hx, hr.fix _ (hr.mem _)]
      ring
    rw [e]
    linarith

/-- Only a playback that plays changes. -/
theorem updatesFl_idle (n : ℕ) {s : PB ℚ} (hs : s.state ≠ .playing) : ∀ ds, updatesFl fl n s ds = .ok s
  | [] => rfl
  | d :: ds => by simp only [updatesFl, updateFl_idle n s d (Or.inl hs), Res.bind_ok]; exact updatesFl_idle n hs ds

/-- Drift, forward: after any number of updates of at most `2 ^ k` frames each, with any listener, as long as it plays, the position differs from the exact one by at
most 3/2 units in the last place of `2 ^ k` for each update. -/
theorem C99_drift_forward_partial (hf : IsNearest p emin fl) (hp : 1 ≤ p) (he : emin ≤ -(p : ℤ)) (k : ℕ) (hk : k < p) (n : ℕ) (ds : List ℚ) : ∀ s s' : PB ℚ,
    0 ≤ s.speed → 0 ≤ s.interpolator → s.interpolator ≤ 1 → (∀ d ∈ ds, 0 < d ∧ d * s.speed ≤ 2 ^ k) →
    updatesFl fl n s ds = .ok s' → s'.state = .playing →
    |forwardPosition s' - (forwardPosition s + ds.sum * s.speed)| ≤ ds.length * (3 / 2 * 2 ^ ((k : ℤ) - p)) := by
  induction ds with
  | nil =>
    intro s s' _ _ _ _ h _
    rw [← Res.ok.inj h]
    simp
  | cons d ds ih =>
    intro s s' hv h0 h1 hb h hs'
    by_cases hs : s.state = .playing
    · simp only [updatesFl] at h
      obtain ⟨t, ht, h'⟩ := Res.bind_eq_ok.1 h
      obtain ⟨hd, hdb⟩ := hb d List.mem_cons_self
      obtain ⟨k1, k2, k3, k4⟩ := drift_forward_one hf hp he hk hs hd hv h0 h1 hdb ht
      have := ih t s' (by rw [k1]; exact hv) k2 k3 (fun e he => by rw [k1]; exact hb e (List.mem_cons_of_mem _ he)) h' hs'
      rw [k1] at this
      have e : forwardPosition s' - (forwardPosition s + (d :: ds).sum * s.speed) =
          (forwardPosition s' - (forwardPosition t + ds.sum * s.speed)) + (forwardPosition t - (forwardPosition s + d * s.speed)) := by
        rw [List.sum_cons]; ring
      rw [e, List.length_cons]
      refine (abs_add_le _ _).trans ?_
      push_cast
      linarith
    · rw [updatesFl_idle n hs] at h
      rw [← Res.ok.inj h] at hs'
      exact absurd hs' hs

/-- Drift, backward. -/
theorem C99_drift_backward_partial (hf : IsNearest p emin fl) (hp : 1 ≤ p) (he : emin ≤ -(p : ℤ)) (k : ℕ) (hk : k < p) (n : ℕ) (ds : List ℚ) : ∀ s s' : PB ℚ,
    s.speed < 0 → 0 ≤ s.interpolator → s.interpolator ≤ 1 → (∀ d ∈ ds, 0 < d ∧ -2 ^ k ≤ d * s.speed) →
    updatesFl fl n s ds = .ok s' → s'.state = .playing →
    |backwardPosition s' - (backwardPosition s + ds.sum * s.speed)| ≤ ds.length * (3 / 2 * 2 ^ ((k : ℤ) - p)) := by
  induction ds with
  | nil =>
    intro s s' _ _ _ _ h _
    rw [← Res.ok.inj h]
    simp
  | cons d ds ih =>
    intro s s' hv h0 h1 hb h hs'
    by_cases hs : s.state = .playing
    · simp only [updatesFl] at h
      obtain ⟨t, ht, h'⟩ := Res.bind_eq_ok.1 h
      obtain ⟨hd, hdb⟩ := hb d List.mem_cons_self
      obtain ⟨k1, k2, k3, k4⟩ := drift_backward_one hf hp he hk hs hd hv h0 h1 hdb ht
      have := ih t s' (by rw [k1]; exact hv) k2 k3 (fun e he => by rw [k1]; exact hb e (List.mem_cons_of_mem _ he)) h' hs'
      rw [k1] at this
      have e : backwardPosition s' - (backwardPosition s + (d :: ds).sum * s.speed) =
          (backwardPosition s' - (backwardPosition t + ds.sum * s.speed)) + (backwardPosition t - (backwardPosition s + d * s.speed)) := by
        rw [List.sum_cons]; ring
      rw [e, List.length_cons]
      refine (abs_add_le _ _).trans ?_
      push_cast
      linarith
    · rw [updatesFl_idle n hs] at h
      rw [← Res.ok.inj h] at hs'
      exact absurd hs' hs

/-- The hypotheses: updates of a sixtieth of a second, rounded, at 24 frames per second. In an hour the drift is less than a fiftieth of a frame. -/
example : (∀ d ∈ List.replicate 216000 (nearest 24 (-149) (1 / 60)), 0 < d ∧ d * 24 ≤ 2 ^ 0) ∧ (216000 : ℚ) * (3 / 2 * 2 ^ ((0 : ℤ) - 24)) < 1 / 50 := by
  have hf := nearest_isNearest (p := 24) (emin := -149) (by norm_num)
  constructor
  · intro d hd
    rw [List.eq_of_mem_replicate hd]
    have h1 := hf.mono (show (1 / 64 : ℚ) ≤ 1 / 60 by norm_num)
    have h2 := hf.mono (show (1 / 60 : ℚ) ≤ 1 / 32 by norm_num)
    have m1 := float_of (k := 1) (e := -6) (by norm_num) (by norm_num)
    have m2 := float_of (k := 1) (e := -5) (by norm_num) (by norm_num)
    norm_num at m1 m2
    rw [hf.fix _ m1] at h1
    rw [hf.fix _ m2] at h2
    constructor <;> linarith
  · norm_num [zpow_neg]

/-! ### Steps that are too small -/

/-- A playback in the second half of a frame stands still for ever if its steps are less than half a unit in the last place. -/
theorem C99_advances_refuted (hf : IsNearest p emin fl) (n : ℕ) (ds : List ℚ) (s : PB ℚ) (hv : 0 ≤ s.speed)
    (hi : s.interpolator ∈ Floats p emin) (h0 : 1 / 2 ≤ s.interpolator) (h1 : s.interpolator < 1)
    (hb : ∀ d ∈ ds, 0 < d ∧ d * s.speed ∈ Floats p emin ∧ d * s.speed < 2 ^ (-(p : ℤ)) / 2) :
    updatesFl fl n s ds = .ok s := by
  induction ds with
  | nil => rfl
  | cons d ds ih =>
    obtain ⟨hd, hdm, hdb⟩ := hb d List.mem_cons_self
    have hd0 := mul_nonneg hd.le hv
    have hu := two_zpow_pos (-(p : ℤ))
    have hstay : fl (s.interpolator + fl (d * s.speed)) = s.interpolator := by
      rw [hf.fix _ hdm]
      generalize d * s.speed = e at *
      have hn := hf.near (s.interpolator + e) _ hi
      have e1 : s.interpolator - (s.interpolator + e) = -e := by ring
      rw [e1, abs_neg, abs_of_nonneg hd0] at hn
      obtain ⟨n1, n2⟩ := abs_le.1 hn
      have eh : (2 : ℚ) ^ ((p : ℤ) + (-1 - p)) = 1 / 2 := by
        rw [show (p : ℤ) + (-1 - p) = -1 by ring]; norm_num
      obtain ⟨j, hj⟩ := multiple_of_le (k := -1 - p) hi (by rw [eh, abs_of_pos (by linarith)]; exact h0)
      obtain ⟨i, hz⟩ := multiple_of_le (k := -1 - p) (hf.mem (s.interpolator + e)) (by rw [eh, abs_of_pos (by linarith)]; linarith)
      rw [show (-1 - (p : ℤ)) + 1 = -p by ring] at hj hz
      rw [hz, hj] at n1 n2
      have m1 : (j : ℚ) ≤ i := le_of_mul_le_mul_right (by linarith) hu
      have m2 : (i : ℚ) < j + 1 := lt_of_mul_lt_mul_right (by linarith) hu.le
      have m1' : j ≤ i := by exact_mod_cast m1
      have m2' : i < j + 1 := by exact_mod_cast m2
      have : i = j := by omega
      rw [hz, hj, this]
    have hone : updateFl fl n s d = .ok s := by
      unfold updateFl
      split_ifs
      · rfl
      · simp only [hstay]
        split_ifs with hfw
        · exact while_done _ _ (by simpa using h1)
        · exact absurd (show isForward s = true by simpa [isForward] using hv) hfw
    simp only [updatesFl, hone, Res.bind_ok]
    exact ih (fun e he => hb e (List.mem_cons_of_mem _ he))

/-- The hypotheses: a thousand steps of 2 ^ -30 frames in single precision. -/
example : updatesFl (nearest 24 (-149)) 5 (playingAt (1 / 2) 1) (List.replicate 1000 (2 ^ (-30 : ℤ))) = .ok (playingAt (1 / 2) 1) := by
  have hf := nearest_isNearest (p := 24) (emin := -149) (by norm_num)
  refine C99_advances_refuted hf 5 _ _ (by norm_num [playingAt]) ?_ (by norm_num [playingAt]) (by norm_num [playingAt]) ?_
  · have := float_of (k := 1) (e := -1) (by norm_num) (by norm_num)
    norm_num [playingAt] at this ⊢; exact this
  · intro d hd
    rw [List.eq_of_mem_replicate hd]
    refine ⟨by positivity, ?_, by norm_num [playingAt, zpow_neg]⟩
    have := float_of (k := 1) (e := -30) (by norm_num) (by norm_num)
    norm_num [playingAt] at this ⊢; exact this

/-! The theorems for the step of seven quarters of a frame. -/

theorem sample_update : ∃ n s', updateFl (nearest 24 (-149)) n (playingAt (3 / 4) (1 / 2)) (7 / 2) = .ok s' ∧ s'.state = .playing := by
  obtain ⟨N, h⟩ := C99_update_partial (nearest_isNearest (p := 24) (emin := -149) (by norm_num)).toIsRounding (by norm_num) (by norm_num) (playingAt (3 / 4) (1 / 2)) (7 / 2)
    _ sample_step.1 (by norm_num) rfl sample_step.2.2.2
  have hn := h N le_rfl
  have e : (nearest 24 (-149) ((playingAt (3 / 4) (1 / 2)).interpolator + nearest 24 (-149) (7 / 2 * (playingAt (3 / 4) (1 / 2)).speed)) : ℚ) = 5 / 2 := sample_step.2.1
  rw [e] at hn
  have hs : ((step { playingAt (3 / 4) (1 / 2) with interpolator := 5 / 2 - 7 / 2 * (playingAt (3 / 4) (1 / 2)).speed } (.update (7 / 2))).bind
    fun s => .ok s.state) = .ok .playing := by decide +kernel
  obtain ⟨s', h1, h2⟩ := Res.bind_eq_ok.1 hs
  rw [h1] at hn
  exact ⟨N, _, hn, by simpa using h2⟩

example : ∃ n s', updateFl (nearest 24 (-149)) n (playingAt (3 / 4) (1 / 2)) (7 / 2) = .ok s' ∧ 0 ≤ s'.interpolator ∧ s'.interpolator < 1 := by
  obtain ⟨n, s', h, -⟩ := sample_update
  exact ⟨n, s', h, (C99_interpolator_partial (nearest_isNearest (p := 24) (emin := -149) (by norm_num)).toIsRounding (by norm_num) (by norm_num) n _ s' _ sample_step.1
    (by norm_num) (by norm_num [playingAt]) (by norm_num [playingAt]) sample_step.2.2.2 h).2.1 (by norm_num [playingAt])⟩

example : ∃ s', |forwardPosition s' - (forwardPosition (playingAt (3 / 4) (1 / 2)) + 7 / 2 * (1 / 2))| ≤ 3 / 2 * 2 ^ ((1 : ℤ) - 24) := by
  obtain ⟨n, s', h, hp⟩ := sample_update
  have := C99_drift_forward_partial (nearest_isNearest (p := 24) (emin := -149) (by norm_num)) (by norm_num) (by norm_num) 1 (by norm_num) n [7 / 2] (playingAt (3 / 4) (1 / 2)) s'
    (by norm_num [playingAt]) (by norm_num [playingAt]) (by norm_num [playingAt]) (by norm_num [playingAt]) (by rw [updatesFl, h]; rfl) hp
  exact ⟨s', by simpa [playingAt] using this⟩

end Geom.Playback.Props
