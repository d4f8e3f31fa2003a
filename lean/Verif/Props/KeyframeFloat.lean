import Verif.Model.KeyframeFloat
import Verif.Spec.KeyframeFloat
import Verif.Props.Keyframe
import Verif.Props.BSplineFloat

/-!
Property C126: keyframe channels in floating-point arithmetic.
-/

set_option autoImplicit false
set_option linter.unusedSectionVars false

namespace Geom.Keyframe.Props
open Spec Geom.Float Geom.Keyframe
open Geom.Spline (fl_zero fl_nonneg fl_one zero_float round_add unit_lt_one)
open Geom.Spline.Spec (unit)

variable {ι R : Type} {p : ℕ} {emin : ℤ} {fl : ℚ → ℚ}

/-! ### One interpolation -/

/-- The greatest float below one. -/
theorem gap_mem (he : emin ≤ -p) : 1 - (2 : ℚ) ^ (-(p : ℤ)) ∈ Floats p emin := by
  refine ⟨2 ^ p - 1, -p, ?_, he, ?_⟩
  · rw [abs_of_nonneg]
    · linarith
    · have := one_le_pow₀ (M₀ := ℤ) (n := p) one_le_two
      linarith
  · have h : (2 : ℚ) ^ p * 2 ^ (-(p : ℤ)) = 1 := by rw [← zpow_natCast, ← zpow_add₀ (by norm_num)]; simp
    push_cast
    linear_combination -h

theorem half_le (hp : 1 ≤ p) : (2 : ℚ) ^ (-(p : ℤ)) ≤ 1 / 2 := by
  calc (2 : ℚ) ^ (-(p : ℤ)) ≤ 2 ^ (-1 : ℤ) := zpow_le_zpow_right₀ (by norm_num) (by omega)
    _ = 1 / 2 := by norm_num

theorem below_one (hp : 1 ≤ p) {t : ℚ} (ht : t ∈ Floats p emin) (h1 : t < 1) : t ≤ 1 - 2 ^ (-(p : ℤ)) := by
  rcases lt_or_ge t (1 / 2) with h | h
  · have := half_le hp
    linarith
  · obtain ⟨j, hj⟩ := multiple_of_le (k := -1 - p) ht (by
      rw [show (p : ℤ) + (-1 - p) = -1 by ring, abs_of_nonneg (by linarith)]
      norm_num
      linarith)
    rw [show (-1 - (p : ℤ) + 1) = -(p : ℤ) by ring] at hj
    have h2 : (2 : ℚ) ^ p * 2 ^ (-(p : ℤ)) = 1 := by rw [← zpow_natCast, ← zpow_add₀ (by norm_num)]; simp
    have hpos := two_zpow_pos (-(p : ℤ))
    have h3 : (j : ℚ) < 2 ^ p := by
      refine lt_of_mul_lt_mul_right ?_ hpos.le
      rw [h2, ← hj]
      exact h1
    have h4 : j + 1 ≤ 2 ^ p := by
      have : j < 2 ^ p := by exact_mod_cast h3
      omega
    have h5 : (j : ℚ) + 1 ≤ 2 ^ p := by exact_mod_cast h4
    have h6 := mul_le_mul_of_nonneg_right h5 hpos.le
    rw [h2] at h6
    rw [hj]
    linarith

theorem fl_below (hf : IsRounding p emin fl) (he : emin ≤ -p) {t : ℚ} (h1 : t ≤ 1 - 2 ^ (-(p : ℤ))) : fl t ≤ 1 - 2 ^ (-(p : ℤ)) := by
  have := hf.mono h1
  rwa [hf.fix _ (gap_mem he)] at this

/-- The quotient of frames is the exact one with one rounding. -/
theorem C126_frame (hf : IsRounding p emin fl) (hp : 1 ≤ p) (he : emin ≤ -p) (frm til current : Nat) (h1 : frm ≤ current) (h2 : current < til)
    (h3 : til - frm ≤ 2 ^ p) : frameInterpolatorFl fl frm til current = fl (((current - frm : Nat) : ℚ) / ((til - frm : Nat) : ℚ)) ∧
      frameInterpolatorFl fl frm til current ≤ 1 - 2 ^ (-(p : ℤ)) := by
  have hn : ∀ n : Nat, n ≤ 2 ^ p → fl (n : ℚ) = n := by
    intro n h
    refine hf.fix _ ?_
    have := int_mem (p := p) (emin := emin) (k := n) hp (by omega) (by rw [abs_of_nonneg (by omega)]; exact_mod_cast h)
    exact_mod_cast this
  have e : frameInterpolatorFl fl frm til current = fl (((current - frm : Nat) : ℚ) / ((til - frm : Nat) : ℚ)) := by
    unfold frameInterpolatorFl
    rw [hn _ h3, hn _ (by omega)]
  refine ⟨e, ?_⟩
  rw [e]
  refine fl_below hf he ?_
  have h4 : (0 : ℚ) < ((til - frm : Nat) : ℚ) := by exact_mod_cast (by omega : 0 < til - frm)
  have h5 : ((current - frm : Nat) : ℚ) + 1 ≤ ((til - frm : Nat) : ℚ) := by exact_mod_cast (by omega : current - frm + 1 ≤ til - frm)
  have h6 : ((til - frm : Nat) : ℚ) ≤ 2 ^ p := by exact_mod_cast h3
  have h7 : (2 : ℚ) ^ p * 2 ^ (-(p : ℤ)) = 1 := by rw [← zpow_natCast, ← zpow_add₀ (by norm_num)]; simp
  have h8 := mul_le_mul_of_nonneg_right h6 (two_zpow_pos (-(p : ℤ))).le
  rw [h7] at h8
  rw [div_le_iff₀ h4]
  linarith

/-- Reducing a float a bit gives less after rounding to the nearest. -/
theorem shrink (hf : IsNearest p emin fl) (hp : 1 ≤ p) {d : ℚ} (hd : d ∈ Floats p emin) (hn : 2 ^ ((p : ℤ) + emin) ≤ d) :
    fl (d * (1 - 2 ^ (-(p : ℤ)))) < d := by
  have hd0 : 0 < d := lt_of_lt_of_le (two_zpow_pos _) hn
  have hs := two_zpow_pos (-(p : ℤ))
  have hle : fl (d * (1 - 2 ^ (-(p : ℤ)))) ≤ d := by
    have := hf.mono (show d * (1 - 2 ^ (-(p : ℤ))) ≤ d by nlinarith)
    rwa [hf.fix _ hd] at this
  refine lt_of_le_of_ne hle fun heq => ?_
  set L := Int.log 2 d with hL
  have hL1 : (2 : ℚ) ^ L ≤ d := Int.zpow_log_le_self (by norm_num) hd0
  have hL2 : d < 2 ^ (L + 1) := Int.lt_zpow_succ_log_self (by norm_num) d
  have hL3 : (p : ℤ) + emin ≤ L := by
    by_contra h
    have : (2 : ℚ) ^ (L + 1) ≤ 2 ^ ((p : ℤ) + emin) := zpow_le_zpow_right₀ (by norm_num) (by omega)
    linarith
  obtain ⟨j, hj⟩ := multiple_of_le (k := L - p) hd (by rw [show (p : ℤ) + (L - p) = L by ring, abs_of_pos hd0]; exact hL1)
  set E := L - p + 1 with hE
  have hE0 := two_zpow_pos E
  have e1 : (2 : ℚ) ^ L = 2 ^ (p - 1) * 2 ^ E := by
    rw [← zpow_natCast, ← zpow_add₀ (by norm_num)]; congr 1; push_cast [hp]; omega
  have e2 : (2 : ℚ) ^ (L + 1) = 2 ^ p * 2 ^ E := by
    rw [← zpow_natCast, ← zpow_add₀ (by norm_num)]; congr 1; omega
  have j1 : (2 : ℤ) ^ (p - 1) ≤ j := by
    have : (2 : ℚ) ^ (p - 1) ≤ j := by
      refine le_of_mul_le_mul_right ?_ hE0
      rw [← e1, ← hj]; exact hL1
    exact_mod_cast this
  have j2 : j < 2 ^ p := by
    have : (j : ℚ) < 2 ^ p := by
      refine lt_of_mul_lt_mul_right ?_ hE0.le
      rw [← e2, ← hj]; exact hL2
    exact_mod_cast this
  have hpp : (2 : ℤ) ^ p = 2 * 2 ^ (p - 1) := by
    obtain ⟨q, rfl⟩ : ∃ q, p = q + 1 := ⟨p - 1, by omega⟩
    rw [Nat.add_sub_cancel, pow_succ]; ring
  have hinv : (2 : ℚ) ^ p * 2 ^ (-(p : ℤ)) = 1 := by rw [← zpow_natCast, ← zpow_add₀ (by norm_num)]; simp
  have hppq : (2 : ℚ) ^ p = 2 * 2 ^ (p - 1) := by exact_mod_cast hpp
  rcases j1.eq_or_lt with h | h
  · have hmem : d * (1 - 2 ^ (-(p : ℤ))) ∈ Floats p emin := by
      refine ⟨2 ^ p - 1, E - 1, ?_, by omega, ?_⟩
      · rw [abs_of_nonneg]
        · linarith
        · have := one_le_pow₀ (M₀ := ℤ) (n := p) one_le_two
          linarith
      · have e3 : (2 : ℚ) ^ (E - 1) * 2 = 2 ^ E := by
          rw [← zpow_add_one₀ (by norm_num)]; congr 1; omega
        have hjq : (j : ℚ) * 2 = 2 ^ p := by rw [← h]; push_cast; rw [hppq]; ring
        rw [hj, ← e3]
        push_cast
        linear_combination (2 : ℚ) ^ (E - 1) * (1 - 2 ^ (-(p : ℤ))) * hjq - (2 : ℚ) ^ (E - 1) * hinv
    rw [hf.fix _ hmem] at heq
    nlinarith
  · have hz : ((j - 1 : ℤ) : ℚ) * 2 ^ E ∈ Floats p emin := by
      refine ⟨j - 1, E, ?_, by omega, rfl⟩
      have : (0 : ℤ) < 2 ^ (p - 1) := by positivity
      rw [abs_of_nonneg (by omega)]
      omega
    have hnear := hf.near (d * (1 - 2 ^ (-(p : ℤ)))) _ hz
    rw [heq] at hnear
    have hjq : (j : ℚ) < 2 ^ p := by exact_mod_cast j2
    have hj' : (2 : ℚ) ^ (p - 1) < j := by exact_mod_cast h
    have k1 : d * 2 ^ (-(p : ℤ)) < 2 ^ E := by
      have : d < 2 ^ p * 2 ^ E := e2 ▸ hL2
      calc d * 2 ^ (-(p : ℤ)) < 2 ^ p * 2 ^ E * 2 ^ (-(p : ℤ)) := mul_lt_mul_of_pos_right this hs
        _ = 2 ^ E := by linear_combination (2 : ℚ) ^ E * hinv
    have k2 : 2 ^ E < 2 * (d * 2 ^ (-(p : ℤ))) := by
      have : (2 : ℚ) ^ p * 2 ^ E < 2 * d := by
        rw [hj, hppq]
        nlinarith
      calc (2 : ℚ) ^ E = 2 ^ p * 2 ^ E * 2 ^ (-(p : ℤ)) := by linear_combination -(2 : ℚ) ^ E * hinv
        _ < 2 * d * 2 ^ (-(p : ℤ)) := mul_lt_mul_of_pos_right this hs
        _ = _ := by ring
    rw [show d - d * (1 - 2 ^ (-(p : ℤ))) = d * 2 ^ (-(p : ℤ)) by ring, abs_of_pos (mul_pos hd0 hs),
      show ((j - 1 : ℤ) : ℚ) * 2 ^ E - d * (1 - 2 ^ (-(p : ℤ))) = d * 2 ^ (-(p : ℤ)) - 2 ^ E by push_cast; rw [hj]; ring,
      abs_of_neg (by linarith)] at hnear
    linarith

/-- A difference of floats which is not a float is not small. -/
theorem inexact_large (hp : 1 ≤ p) {a b : ℚ} (ha : a ∈ Floats p emin) (hb : b ∈ Floats p emin) (h : b - a ∉ Floats p emin) :
    2 ^ ((p : ℤ) + emin) ≤ |b - a| := by
  obtain ⟨x, ex, _, hx, rfl⟩ := ha
  obtain ⟨y, ey, _, hy, rfl⟩ := hb
  obtain ⟨i, rfl⟩ : ∃ i : ℕ, ex = emin + i := ⟨(ex - emin).toNat, by omega⟩
  obtain ⟨j, rfl⟩ : ∃ j : ℕ, ey = emin + j := ⟨(ey - emin).toNat, by omega⟩
  have e : (y : ℚ) * 2 ^ (emin + j) - x * 2 ^ (emin + i) = ((y * 2 ^ j - x * 2 ^ i : ℤ) : ℚ) * 2 ^ emin := by
    rw [zpow_add₀ (by norm_num), zpow_add₀ (by norm_num), zpow_natCast, zpow_natCast]; push_cast; ring
  rw [e] at h ⊢
  by_contra hc
  push Not at hc
  refine h (mem_of_le hp le_rfl ?_)
  have hu := two_zpow_pos emin
  rw [abs_mul, abs_of_pos hu, zpow_add₀ (by norm_num)] at hc
  have := (lt_of_mul_lt_mul_right hc hu.le).le
  rw [zpow_natCast] at this
  exact_mod_cast this

theorem lerp_float (hf : IsRounding p emin fl) (a b t : ℚ) : lerpFl fl a b t ∈ Floats p emin := hf.mem _

theorem lerp_zero (hf : IsRounding p emin fl) {a : ℚ} (ha : a ∈ Floats p emin) (b : ℚ) : lerpFl fl a b 0 = a := by
  simp [lerpFl, fl_zero hf, hf.fix a ha]

theorem lerp_same (hf : IsRounding p emin fl) {a : ℚ} (ha : a ∈ Floats p emin) (t : ℚ) : lerpFl fl a a t = a := by
  simp [lerpFl, fl_zero hf, hf.fix a ha]

theorem lerp_mono (hf : IsRounding p emin fl) {a b t s : ℚ} (h : a ≤ b) (hts : t ≤ s) : lerpFl fl a b t ≤ lerpFl fl a b s := by
  have := fl_nonneg hf (sub_nonneg.2 h)
  have h1 := hf.mono (mul_le_mul_of_nonneg_left hts this)
  exact hf.mono (by linarith)

theorem lerp_ge (hf : IsRounding p emin fl) {a b t : ℚ} (ha : a ∈ Floats p emin) (h : a ≤ b) (ht : 0 ≤ t) : a ≤ lerpFl fl a b t := by
  have := lerp_mono hf h ht
  rwa [lerp_zero hf ha] at this

theorem lerp_le (hf : IsNearest p emin fl) (hp : 1 ≤ p) {a b t : ℚ} (ha : a ∈ Floats p emin) (hb : b ∈ Floats p emin) (h : a ≤ b)
    (ht : t ≤ 1 - 2 ^ (-(p : ℤ))) : lerpFl fl a b t ≤ b := by
  have hd := fl_nonneg hf.toIsRounding (sub_nonneg.2 h)
  have hs := two_zpow_pos (-(p : ℤ))
  have key : fl (fl (b - a) * t) ≤ b - a := by
    have h1 : fl (fl (b - a) * t) ≤ fl (fl (b - a) * (1 - 2 ^ (-(p : ℤ)))) := hf.mono (mul_le_mul_of_nonneg_left ht hd)
    rcases le_or_gt (fl (b - a)) (b - a) with hle | hgt
    · have h2 : fl (fl (b - a) * (1 - 2 ^ (-(p : ℤ)))) ≤ fl (b - a) := by
        have := hf.mono (show fl (b - a) * (1 - 2 ^ (-(p : ℤ))) ≤ fl (b - a) by nlinarith)
        rwa [hf.fix _ (hf.mem _)] at this
      linarith
    · have hnm : b - a ∉ Floats p emin := fun hm => by rw [hf.fix _ hm] at hgt; exact lt_irrefl _ hgt
      have hl := inexact_large hp ha hb hnm
      rw [abs_of_nonneg (sub_nonneg.2 h)] at hl
      have h3 := shrink hf hp (hf.mem (b - a)) (by linarith)
      by_contra hc
      push Not at hc
      have h4 := hf.near (b - a) _ (hf.mem (fl (b - a) * t))
      rw [abs_of_pos (by linarith), abs_of_pos (by linarith)] at h4
      linarith
  have := hf.mono (show fl (fl (b - a) * t) + a ≤ b by linarith)
  rwa [hf.fix _ hb] at this

/-- The rounding with exchanged directions. -/
theorem dual (hf : IsNearest p emin fl) : IsNearest p emin fun x => -fl (-x) where
  mem x := neg_mem (hf.mem _)
  fix x hx := by rw [hf.fix _ (neg_mem hx), neg_neg]
  mono x y h := neg_le_neg (hf.mono (neg_le_neg h))
  near x z hz := by
    have := hf.near (-x) (-z) (neg_mem hz)
    rw [show fl (-x) - -x = -(-fl (-x) - x) by ring, abs_neg, show -z - -x = -(z - x) by ring, abs_neg] at this
    exact this

theorem lerp_dual (a b t : ℚ) : lerpFl (fun x => -fl (-x)) (-a) (-b) t = -lerpFl fl a b t := by
  simp only [lerpFl]
  rw [show -(-b - -a) = b - a by ring, show -(-fl (b - a) * t) = fl (b - a) * t by ring, show -(-fl (fl (b - a) * t) + -a) = fl (fl (b - a) * t) + a by ring]

theorem lerp_between (hf : IsNearest p emin fl) (hp : 1 ≤ p) {a b t lo hi : ℚ} (ha : a ∈ Floats p emin) (hb : b ∈ Floats p emin) (ht0 : 0 ≤ t)
    (ht : t ≤ 1 - 2 ^ (-(p : ℤ))) (h1 : lo ≤ a ∧ a ≤ hi) (h2 : lo ≤ b ∧ b ≤ hi) : lo ≤ lerpFl fl a b t ∧ lerpFl fl a b t ≤ hi := by
  rcases le_total a b with h | h
  · exact ⟨h1.1.trans (lerp_ge hf.toIsRounding ha h ht0), (lerp_le hf hp ha hb h ht).trans h2.2⟩
  · have e1 := lerp_ge (dual hf).toIsRounding (neg_mem ha) (neg_le_neg h) ht0
    have e2 := lerp_le (dual hf) hp (neg_mem ha) (neg_mem hb) (neg_le_neg h) ht
    rw [lerp_dual] at e1 e2
    exact ⟨by linarith, by linarith⟩

/-! ### Channels -/

/-- The parameter for a frame between two keyframes. -/
theorem param (hf : IsRounding p emin fl) (hp : 1 ≤ p) (he : emin ≤ -p) {frm til current : Nat} (h1 : frm < current) (h2 : current < til)
    (h3 : til - frm ≤ 2 ^ p) : 0 ≤ fl (((current - frm : Nat) : ℚ) / ((til - frm : Nat) : ℚ)) ∧
      fl (((current - frm : Nat) : ℚ) / ((til - frm : Nat) : ℚ)) ≤ 1 - 2 ^ (-(p : ℤ)) := by
  obtain ⟨e1, e2⟩ := C126_frame hf hp he frm til current h1.le h2 h3
  exact ⟨fl_nonneg hf (by positivity), e1 ▸ e2⟩

theorem value_float (hf : IsRounding p emin fl) {kfs : List (KF (ι → ℚ))} (hk : FloatKeys p emin kfs) {frame : Nat} {v : ι → ℚ}
    (hv : Value (mixFl fl) kfs frame v) (i : ι) : v i ∈ Floats p emin := by
  cases hv with
  | key a ha h => exact hk.float a ha i
  | between a b ha hb h1 h2 hn => exact hf.mem _
  | before a ha h hn => exact hk.float a ha i
  | after a ha h hn => exact hk.float a ha i

theorem value_within (hf : IsNearest p emin fl) (hp : 1 ≤ p) (he : emin ≤ -p) {kfs : List (KF (ι → ℚ))} (hk : FloatKeys p emin kfs) {i : ι} {lo hi : ℚ}
    (hw : Within kfs i lo hi) {frame : Nat} {v : ι → ℚ} (hv : Value (mixFl fl) kfs frame v) : lo ≤ v i ∧ v i ≤ hi := by
  cases hv with
  | key a ha h => exact hw a ha
  | between a b ha hb h1 h2 hn =>
    obtain ⟨t0, t1⟩ := param hf.toIsRounding hp he h1 h2 (hk.apart a ha b hb)
    exact lerp_between hf hp (hk.float a ha i) (hk.float b hb i) t0 t1 (hw a ha) (hw b hb)
  | before a ha h hn => exact hw a ha
  | after a ha h hn => exact hw a ha

theorem chan_value {mix : (ι → ℚ) → (ι → ℚ) → ℚ → (ι → ℚ)} {dflt : ι → ℚ} {kfs : List (KF (ι → ℚ))} (hne : kfs ≠ []) {frame : Nat} {v : ι → ℚ}
    (h : ChanValue mix dflt kfs frame v) : Value mix kfs frame v := by
  rcases h with h | h
  · exact absurd h.1 hne
  · exact h

/-- The interpolated positions and scales stay in the boxes of the keyframes: if the components of all keyframes are in a range, so is the
result of `Interpolate` for all frames and each parameter from 0 to 1, 1 excluded. -/
theorem C126_box (hf : IsNearest p emin fl) (hp : 1 ≤ p) (he : emin ≤ -p) (e : Env (ι → ℚ) R (ι → ℚ) ℚ) (hs : Sorts e) (mp : e.p.mix = mixFl fl)
    (ms : e.s.mix = mixFl fl) (q : Seq (ι → ℚ) R (ι → ℚ)) (pk : List (KF (ι → ℚ))) (rk : List (KF R)) (sk : List (KF (ι → ℚ))) (hpr : Proper pk rk sk)
    (hpk : pk ≠ []) (or : rk ≠ [] ∨ q.rotationKeys = []) (hsk : sk ≠ []) (fp : FloatKeys p emin pk) (fs : FloatKeys p emin sk) (i : ι)
    (lo hi lo' hi' : ℚ) (wp : Within pk i lo hi) (ws : Within sk i lo' hi') (out : (ι → ℚ) × R × (ι → ℚ)) (frm til : Nat) (t : ℚ)
    (ht : t ∈ Floats p emin) (t0 : 0 ≤ t) (t1 : t < 1) :
    ∃ q' o, buildKeys e q pk rk sk = .ok q' ∧ interpolate e q' out frm til t = .ok o ∧ (lo ≤ o.1 i ∧ o.1 i ≤ hi) ∧
      (lo' ≤ o.2.2 i ∧ o.2.2 i ≤ hi') := by
  obtain ⟨k, hk⟩ := List.exists_mem_of_ne_nil pk hpk
  obtain ⟨q', h1, h2⟩ := C57_actual_partial e hs q pk rk sk hpr ⟨k.frame, Or.inl ⟨k, hk, rfl⟩⟩ (Or.inl hpk) or (Or.inl hsk)
  obtain ⟨p0, p1, r0, r1, s0, s1, h3, a0, a1, -, -, b0, b1⟩ := interpolate_holds e pk rk sk 0 q' h2 out frm til t
  rw [mp] at a0 a1
  rw [ms] at b0 b1
  have ht' : fl t ≤ 1 - 2 ^ (-(p : ℤ)) := by rw [hf.fix t ht]; exact below_one hp ht t1
  refine ⟨q', _, h1, h3, ?_, ?_⟩
  · simp only [mp]
    exact lerp_between hf hp (value_float hf.toIsRounding fp (chan_value hpk a0) i) (value_float hf.toIsRounding fp (chan_value hpk a1) i)
      (fl_nonneg hf.toIsRounding t0) ht' (value_within hf hp he fp wp (chan_value hpk a0)) (value_within hf hp he fp wp (chan_value hpk a1))
  · simp only [ms]
    exact lerp_between hf hp (value_float hf.toIsRounding fs (chan_value hsk b0) i) (value_float hf.toIsRounding fs (chan_value hsk b1) i)
      (fl_nonneg hf.toIsRounding t0) ht' (value_within hf hp he fs ws (chan_value hsk b0)) (value_within hf hp he fs ws (chan_value hsk b1))

/-- With the parameter 0 `Interpolate` returns the keys of the first frame exactly, and where a component is the same in all keyframes it returns
this, for each parameter and in each rounding mode. -/
theorem C126_exact (hf : IsRounding p emin fl) (e : Env (ι → ℚ) R (ι → ℚ) ℚ) (hs : Sorts e) (mp : e.p.mix = mixFl fl)
    (q : Seq (ι → ℚ) R (ι → ℚ)) (pk : List (KF (ι → ℚ))) (rk : List (KF R)) (sk : List (KF (ι → ℚ))) (hpr : Proper pk rk sk)
    (hpk : pk ≠ []) (or : rk ≠ [] ∨ q.rotationKeys = []) (os : sk ≠ [] ∨ q.scaleKeys = []) (fp : FloatKeys p emin pk)
    (out : (ι → ℚ) × R × (ι → ℚ)) (frm til : Nat) :
    ∃ q', buildKeys e q pk rk sk = .ok q' ∧
      (∃ o, interpolate e q' out frm til 0 = .ok o ∧ q'.positionKeys[nearest q' frm - q'.frameBegin]? = some o.1) ∧
      ∀ t i c, Within pk i c c → ∃ o, interpolate e q' out frm til t = .ok o ∧ o.1 i = c := by
  obtain ⟨k, hk⟩ := List.exists_mem_of_ne_nil pk hpk
  obtain ⟨q', h1, h2⟩ := C57_actual_partial e hs q pk rk sk hpr ⟨k.frame, Or.inl ⟨k, hk, rfl⟩⟩ (Or.inl hpk) or os
  have hlt : q'.frameBegin < q'.frameEnd := h2.last.2.2 _ h2.first.1
  have uniq : ∀ frame v, Value (mixFl fl) pk frame v → ∀ i c, Within pk i c c → v i = c := by
    intro frame v hv i c hc
    have eq : ∀ a ∈ pk, a.key i = c := fun a ha => le_antisymm (hc a ha).2 (hc a ha).1
    cases hv with
    | key a ha h => exact eq a ha
    | between a b ha hb g1 g2 hn =>
      show lerpFl fl (a.key i) (b.key i) _ = c
      rw [eq b hb, ← eq a ha, lerp_same hf (fp.float a ha i)]
    | before a ha h hn => exact eq a ha
    | after a ha h hn => exact eq a ha
  refine ⟨q', h1, ?_, ?_⟩
  · obtain ⟨p0, p1, r0, r1, s0, s1, h3, a0, -⟩ := interpolate_holds e pk rk sk 0 q' h2 out frm til 0
    have hl : nearest q' frm - q'.frameBegin < q'.positionKeys.length := by rw [h2.sizes.1]; unfold nearest; omega
    refine ⟨_, h3, ?_⟩
    have hget := List.getElem?_eq_getElem hl
    have e0 : q'.positionKeys[nearest q' frm - q'.frameBegin] = p0 := by
      have b0 := h2.p _ _ hget
      exact Value.unique hpr.dp (chan_value hpk b0) (chan_value hpk a0)
    rw [hget, e0]
    congr 1
    funext i
    rw [mp] at a0 ⊢
    simp only [mixFl, fl_zero hf]
    exact (lerp_zero hf (value_float hf fp (chan_value hpk a0) i) _).symm
  · intro t i c hc
    obtain ⟨p0, p1, r0, r1, s0, s1, h3, a0, a1, -⟩ := interpolate_holds e pk rk sk 0 q' h2 out frm til t
    rw [mp] at a0 a1
    refine ⟨_, h3, ?_⟩
    simp only [mp, mixFl]
    have c0 := uniq _ _ (chan_value hpk a0) i c hc
    rw [uniq _ _ (chan_value hpk a1) i c hc, ← c0, lerp_same hf (value_float hf fp (chan_value hpk a0) i)]

theorem value_before (hf : IsNearest p emin fl) (hp : 1 ≤ p) (he : emin ≤ -p) {kfs : List (KF (ι → ℚ))} (hk : FloatKeys p emin kfs) {i : ι} (hr : Rising kfs i)
    {frame : Nat} {v : ι → ℚ} (hv : Value (mixFl fl) kfs frame v) (k : KF (ι → ℚ)) (hkm : k ∈ kfs) :
    (frame ≤ k.frame → v i ≤ k.key i) ∧ (k.frame ≤ frame → k.key i ≤ v i) := by
  cases hv with
  | key a ha h => exact ⟨fun g => hr a ha k hkm (by omega), fun g => hr k hkm a ha (by omega)⟩
  | between a b ha hb h1 h2 hn =>
    obtain ⟨t0, t1⟩ := param hf.toIsRounding hp he h1 h2 (hk.apart a ha b hb)
    have hab := hr a ha b hb (by omega)
    have h := hn k hkm
    refine ⟨fun g => (lerp_le hf hp (hk.float a ha i) (hk.float b hb i) hab t1).trans (hr b hb k hkm (by omega)),
      fun g => (hr k hkm a ha (by omega)).trans (lerp_ge hf.toIsRounding (hk.float a ha i) hab t0)⟩
  | before a ha h hn =>
    have := hn k hkm
    exact ⟨fun g => hr a ha k hkm this, fun g => by omega⟩
  | after a ha h hn =>
    have := hn k hkm
    exact ⟨fun g => by omega, fun g => hr k hkm a ha this⟩

theorem value_mono (hf : IsNearest p emin fl) (hp : 1 ≤ p) (he : emin ≤ -p) {kfs : List (KF (ι → ℚ))} (hd : Distinct kfs) (hk : FloatKeys p emin kfs) {i : ι}
    (hr : Rising kfs i) {f g : Nat} (hfg : f ≤ g) {v w : ι → ℚ} (hv : Value (mixFl fl) kfs f v) (hw : Value (mixFl fl) kfs g w) : v i ≤ w i := by
  by_cases hex : ∃ k ∈ kfs, f ≤ k.frame ∧ k.frame ≤ g
  · obtain ⟨k, hkm, h1, h2⟩ := hex
    exact ((value_before hf hp he hk hr hv k hkm).1 h1).trans ((value_before hf hp he hk hr hw k hkm).2 h2)
  · have hno : ∀ k ∈ kfs, k.frame < f ∨ g < k.frame := by
      intro k hkm
      by_contra hc
      exact hex ⟨k, hkm, by omega, by omega⟩
    cases hv with
    | key a ha h => have := hno a ha; omega
    | between a b ha hb h1 h2 hn =>
      have g2 : g < b.frame := by have := hno b hb; omega
      have hw' := Value.between (mix := mixFl fl) (frame := g) a b ha hb (by omega) g2 hn
      rw [Value.unique hd hw hw']
      refine lerp_mono hf.toIsRounding (hr a ha b hb (by omega)) (hf.mono ?_)
      refine div_le_div_of_nonneg_right ?_ (by positivity)
      exact_mod_cast (by omega : f - a.frame ≤ g - a.frame)
    | before a ha h hn =>
      have := hno a ha
      rw [Value.unique hd hw (Value.before (mix := mixFl fl) (frame := g) a ha (by omega) hn)]
    | after a ha h hn =>
      rw [Value.unique hd hw (Value.after (mix := mixFl fl) (frame := g) a ha (by omega) hn)]

/-- If a component does not decrease from keyframe to keyframe, it does not decrease from key to key. -/
theorem C126_monotone (hf : IsNearest p emin fl) (hp : 1 ≤ p) (he : emin ≤ -p) (e : Env (ι → ℚ) R (ι → ℚ) ℚ) (hs : Sorts e) (mp : e.p.mix = mixFl fl)
    (q : Seq (ι → ℚ) R (ι → ℚ)) (pk : List (KF (ι → ℚ))) (rk : List (KF R)) (sk : List (KF (ι → ℚ))) (hpr : Proper pk rk sk)
    (hpk : pk ≠ []) (or : rk ≠ [] ∨ q.rotationKeys = []) (os : sk ≠ [] ∨ q.scaleKeys = []) (fp : FloatKeys p emin pk) (i : ι) (hr : Rising pk i) :
    ∃ q', buildKeys e q pk rk sk = .ok q' ∧
      ∀ (m n : Nat) (v w : ι → ℚ), m ≤ n → q'.positionKeys[m]? = some v → q'.positionKeys[n]? = some w → v i ≤ w i := by
  obtain ⟨k, hk⟩ := List.exists_mem_of_ne_nil pk hpk
  obtain ⟨q', h1, h2⟩ := C57_actual_partial e hs q pk rk sk hpr ⟨k.frame, Or.inl ⟨k, hk, rfl⟩⟩ (Or.inl hpk) or os
  refine ⟨q', h1, fun m n v w hmn hv hw => ?_⟩
  have gv := h2.p m v hv
  have gw := h2.p n w hw
  rw [mp] at gv gw
  exact value_mono hf hp he hpr.dp fp hr (by omega) (chan_value hpk gv) (chan_value hpk gw)

/-! ### Accuracy -/

theorem lerp_error (hf : IsRounding p emin fl) (hp : 3 ≤ p) (he : emin ≤ -p) {a b t M : ℚ} (ha : a ∈ Floats p emin) (hb : b ∈ Floats p emin) (t0 : 0 ≤ t)
    (t1 : t ≤ 1) (hA : |a| ≤ M) (hB : |b| ≤ M) :
    |lerpFl fl a b (fl t) - ((1 - t) * a + t * b)| ≤ 10 * unit p * M + (2 * M + 1) * 2 ^ emin := by
  have hM : 0 ≤ M := (abs_nonneg a).trans hA
  have hu0 : 0 < unit p := two_zpow_pos _
  have hu1 : unit p ≤ 1 / 4 := by
    calc unit p ≤ 2 ^ (-2 : ℤ) := zpow_le_zpow_right₀ (by norm_num) (by omega)
      _ = 1 / 4 := by norm_num
  have hη := two_zpow_pos emin
  set u := unit p with hu
  set η : ℚ := 2 ^ emin with hηd
  have s0 : 0 ≤ fl t := fl_nonneg hf t0
  have s1 : fl t ≤ 1 := by
    have := hf.mono t1
    rwa [fl_one hf (by omega) (by omega)] at this
  have hs : |fl t - t| ≤ u + η := by
    have : |fl t - t| ≤ u * |t| + η := round_any hf (by omega) t
    rw [abs_of_nonneg t0] at this
    have h2 : u * t ≤ u := by nlinarith
    exact this.trans (by linarith)
  have hD : |b - a| ≤ 2 * M := by
    have := abs_sub b a
    linarith
  have hd : |fl (b - a) - (b - a)| ≤ u * (2 * M) :=
    (round_sub hf (by omega) hb ha).trans (mul_le_mul_of_nonneg_left hD hu0.le)
  set d := fl (b - a) with hdd
  have hd2 : |d| ≤ 2 * M + u * (2 * M) := by
    have := abs_add_le (b - a) (d - (b - a))
    rw [show b - a + (d - (b - a)) = d by ring] at this
    linarith
  have hy : |fl (d * fl t) - d * fl t| ≤ u * |d| + η := by
    have hr : |fl (d * fl t) - d * fl t| ≤ u * |d * fl t| + η := round_any hf (by omega) (d * fl t)
    refine hr.trans ?_
    have : |d * fl t| ≤ |d| := by
      rw [abs_mul, abs_of_nonneg s0]
      exact mul_le_of_le_one_right (abs_nonneg d) s1
    have := mul_le_mul_of_nonneg_left this hu0.le
    linarith
  have hyd : |fl (d * fl t)| ≤ |d| := by
    have hm : |d * fl t| ≤ |d| := by
      rw [abs_mul, abs_of_nonneg s0]
      exact mul_le_of_le_one_right (abs_nonneg d) s1
    have hmem : |d| ∈ Floats p emin := by
      rcases abs_choice d with h | h <;> rw [h]
      · exact hf.mem _
      · exact neg_mem (hf.mem _)
    rw [abs_le] at hm ⊢
    constructor
    · have := hf.mono hm.1
      rwa [hf.fix _ (neg_mem hmem)] at this
    · have := hf.mono hm.2
      rwa [hf.fix _ hmem] at this
  have hz := round_add hf (by omega) (hf.mem (d * fl t)) ha
  have hsum : |fl (d * fl t) + a| ≤ 3 * M + u * (2 * M) := by
    have := abs_add_le (fl (d * fl t)) a
    linarith
  have hz2 := mul_le_mul_of_nonneg_left hsum hu0.le
  have e1 : |(d - (b - a)) * fl t| ≤ u * (2 * M) := by
    rw [abs_mul, abs_of_nonneg s0]
    exact (mul_le_of_le_one_right (abs_nonneg _) s1).trans hd
  have e2 : |(b - a) * (fl t - t)| ≤ 2 * M * (u + η) := by
    rw [abs_mul]
    exact mul_le_mul hD hs (abs_nonneg _) (by linarith)
  have hsplit : lerpFl fl a b (fl t) - ((1 - t) * a + t * b) =
      (fl (fl (d * fl t) + a) - (fl (d * fl t) + a)) + (fl (d * fl t) - d * fl t) + (d - (b - a)) * fl t + (b - a) * (fl t - t) := by
    simp only [lerpFl, ← hdd]; ring
  rw [hsplit]
  have g1 := abs_add_le ((fl (fl (d * fl t) + a) - (fl (d * fl t) + a)) + (fl (d * fl t) - d * fl t) + (d - (b - a)) * fl t) ((b - a) * (fl t - t))
  have g2 := abs_add_le ((fl (fl (d * fl t) + a) - (fl (d * fl t) + a)) + (fl (d * fl t) - d * fl t)) ((d - (b - a)) * fl t)
  have g3 := abs_add_le (fl (fl (d * fl t) + a) - (fl (d * fl t) + a)) (fl (d * fl t) - d * fl t)
  have g4 := mul_le_mul_of_nonneg_left hd2 hu0.le
  have g5 : u * (u * M) ≤ 1 / 4 * (u * M) := mul_le_mul_of_nonneg_right hu1 (mul_nonneg hu0.le hM)
  nlinarith

/-- The keys differ from the exact ones by at most ten units of relative rounding of the greatest component, plus underflow. -/
theorem C126_accuracy (hf : IsRounding p emin fl) (hp : 3 ≤ p) (he : emin ≤ -p) (e : Env (ι → ℚ) R (ι → ℚ) ℚ) (hs : Sorts e) (mp : e.p.mix = mixFl fl)
    (q : Seq (ι → ℚ) R (ι → ℚ)) (pk : List (KF (ι → ℚ))) (rk : List (KF R)) (sk : List (KF (ι → ℚ))) (hpr : Proper pk rk sk)
    (hpk : pk ≠ []) (or : rk ≠ [] ∨ q.rotationKeys = []) (os : sk ≠ [] ∨ q.scaleKeys = []) (fp : FloatKeys p emin pk) (i : ι) (M : ℚ)
    (hM : ∀ a ∈ pk, |a.key i| ≤ M) :
    ∃ q', buildKeys e q pk rk sk = .ok q' ∧ ∀ (m : Nat) (v : ι → ℚ), q'.positionKeys[m]? = some v →
      ∃ w, Value mixExact pk m w ∧ |v i - w i| ≤ 10 * unit p * M + (2 * M + 1) * 2 ^ emin := by
  obtain ⟨k, hk⟩ := List.exists_mem_of_ne_nil pk hpk
  obtain ⟨q', h1, h2⟩ := C57_actual_partial e hs q pk rk sk hpr ⟨k.frame, Or.inl ⟨k, hk, rfl⟩⟩ (Or.inl hpk) or os
  refine ⟨q', h1, fun m v hv => ?_⟩
  have gv := chan_value hpk (h2.p m v hv)
  rw [mp, Nat.add_zero] at gv
  have hM0 : 0 ≤ M := (abs_nonneg _).trans (hM k hk)
  have hpos : 0 ≤ 10 * unit p * M + (2 * M + 1) * 2 ^ emin := by
    have h1 : 0 < unit p := two_zpow_pos _
    have h2 := two_zpow_pos emin
    positivity
  cases gv with
  | key a ha h => exact ⟨_, .key a ha h, by rw [sub_self, abs_zero]; exact hpos⟩
  | between a b ha hb g1 g2 hn =>
    refine ⟨_, .between a b ha hb g1 g2 hn, ?_⟩
    refine lerp_error hf hp he (fp.float a ha i) (fp.float b hb i) (by positivity) ?_ (hM a ha) (hM b hb)
    refine div_le_one_of_le₀ ?_ (by positivity)
    exact_mod_cast (by omega : m - a.frame ≤ b.frame - a.frame)
  | before a ha h hn => exact ⟨_, .before a ha h hn, by rw [sub_self, abs_zero]; exact hpos⟩
  | after a ha h hn => exact ⟨_, .after a ha h hn, by rw [sub_self, abs_zero]; exact hpos⟩

/-! ### The end of an interpolation -/

/-- Integers near `2 ^ 26` are rounded to multiples of eight. -/
theorem round_eight (hf : IsNearest 24 (-149) fl) {x : ℚ} (j : ℤ) (h0 : 8388608 ≤ j) (h : j ≤ 8388700) (hx : |8 * j - x| < 4) (hx0 : 67108864 ≤ x) : fl x = 8 * j := by
  have hz : ((8 * j : ℤ) : ℚ) ∈ Floats 24 (-149) := by
    have := mem_of_le (p := 24) (emin := -149) (k := j) (e := 3) (by norm_num) (by norm_num) (by rw [abs_of_nonneg (by omega)]; norm_num; omega)
    have e : ((8 * j : ℤ) : ℚ) = j * 2 ^ (3 : ℤ) := by push_cast; ring
    rw [e]; exact this
  have h1 := hf.near x _ hz
  push_cast at h1
  have h2 : (67108864 : ℚ) ≤ fl x := by
    have hm : ((67108864 : ℤ) : ℚ) ∈ Floats 24 (-149) := ⟨1, 26, by norm_num, by norm_num, by norm_num⟩
    have := hf.mono hx0
    push_cast at hm
    rwa [hf.fix _ hm] at this
  obtain ⟨i, hi⟩ := multiple_of_le (k := 2) (hf.mem x) (by
    rw [abs_of_nonneg (by linarith)]
    norm_num
    linarith)
  norm_num at hi
  rw [abs_lt] at hx
  have h3 := abs_lt.1 (h1.trans_lt (abs_lt.2 hx))
  rw [hi] at h3 ⊢
  have h4 : (i : ℚ) < j + 1 := by linarith
  have h5 : (j : ℚ) < i + 1 := by linarith
  have h6 : i < j + 1 := by exact_mod_cast h4
  have h7 : j < i + 1 := by exact_mod_cast h5
  have : i = j := by omega
  rw [this]; ring

theorem lerp_short (hf : IsNearest 24 (-149) fl) : lerpFl fl (-67108864) 3 1 = 0 := by
  unfold lerpFl
  have h1 : fl (3 - -67108864) = 67108864 := by
    rw [round_eight hf 8388608 (by norm_num) (by norm_num) (by norm_num [abs_lt]) (by norm_num)]; norm_num
  rw [h1, mul_one, ← h1, hf.fix _ (hf.mem _), h1]
  norm_num [fl_zero hf.toIsRounding]

theorem lerp_over (hf : IsNearest 24 (-149) fl) : lerpFl fl (-67108864) 5 1 = 8 := by
  unfold lerpFl
  have h1 : fl (5 - -67108864) = 67108872 := by
    rw [round_eight hf 8388609 (by norm_num) (by norm_num) (by norm_num [abs_lt]) (by norm_num)]; norm_num
  rw [h1, mul_one, ← h1, hf.fix _ (hf.mem _), h1]
  norm_num
  exact hf.fix _ ⟨8, 0, by norm_num, by norm_num, by norm_num⟩

/-- Two keyframes, at `-2 ^ 26` and at `x`. -/
def far (x : ℚ) : List (KF (Fin 3 → ℚ)) := [⟨fun _ => -67108864, 0⟩, ⟨fun _ => x, 1⟩]

theorem far_proper (x : ℚ) : Proper (far x) ([] : List (KF R)) ([] : List (KF (Fin 3 → ℚ))) := by
  refine ⟨by simp [far, Distinct], by simp [Distinct], by simp [Distinct], ?_⟩
  rintro f (⟨k, hk, rfl⟩ | ⟨k, hk, -⟩ | ⟨k, hk, -⟩)
  · simp only [far, List.mem_cons, List.not_mem_nil, or_false] at hk
    rcases hk with rfl | rfl <;> simp [W]
  · simp at hk
  · simp at hk

theorem far_floats {x : ℚ} (hx : x ∈ Floats 24 (-149)) : FloatKeys 24 (-149) (far x) := by
  refine ⟨?_, ?_⟩
  · intro a ha i
    simp only [far, List.mem_cons, List.not_mem_nil, or_false] at ha
    rcases ha with rfl | rfl
    · exact ⟨-1, 26, by norm_num, by norm_num, by norm_num⟩
    · exact hx
  · intro a ha b hb
    simp only [far, List.mem_cons, List.not_mem_nil, or_false] at ha hb
    rcases ha with rfl | rfl <;> rcases hb with rfl | rfl <;> norm_num

theorem far_end (hf : IsNearest 24 (-149) fl) (e : Env (Fin 3 → ℚ) R (Fin 3 → ℚ) ℚ) (hs : Sorts e) (mp : e.p.mix = mixFl fl) (x : ℚ)
    (out : (Fin 3 → ℚ) × R × (Fin 3 → ℚ)) : ∃ q' o, buildKeys e init (far x) [] [] = .ok q' ∧ q'.positionKeys[1]? = some (fun _ => x) ∧
      interpolate e q' out 0 1 1 = .ok o ∧ ∀ i, o.1 i = lerpFl fl (-67108864) x 1 := by
  obtain ⟨q', h1, h2⟩ := C57_actual_partial e hs init (far x) [] [] (far_proper x) ⟨0, Or.inl ⟨⟨fun _ => -67108864, 0⟩, by simp [far], rfl⟩⟩
    (Or.inl (by simp [far])) (Or.inr rfl) (Or.inr rfl)
  have hb : q'.frameBegin = 0 := Nat.le_zero.1 (h2.first.2 0 (Or.inl ⟨⟨fun _ => -67108864, 0⟩, by simp [far], rfl⟩))
  have he : q'.frameEnd = 2 := by
    have g1 := h2.last.2.2 1 (Or.inl ⟨⟨fun _ => x, 1⟩, by simp [far], rfl⟩)
    rcases h2.last.2.1 with ⟨k, hk, hke⟩ | ⟨k, hk, -⟩ | ⟨k, hk, -⟩
    · simp only [far, List.mem_cons, List.not_mem_nil, or_false] at hk
      rcases hk with rfl | rfl <;> simp only at hke <;> omega
    · simp at hk
    · simp at hk
  obtain ⟨p0, p1, r0, r1, s0, s1, h3, a0, a1, -⟩ := interpolate_holds e (far x) [] [] 0 q' h2 out 0 1 1
  have n0 : nearest q' 0 - q'.frameBegin + 0 = 0 := by simp [nearest, hb]
  have n1 : nearest q' 1 - q'.frameBegin + 0 = 1 := by simp [nearest, hb, he]
  have hne : far x ≠ [] := by simp [far]
  rw [n0] at a0
  rw [n1] at a1
  have e0 := Value.unique (far_proper (R := R) x).dp (chan_value hne a0) (.key ⟨fun _ => -67108864, 0⟩ (by simp [far]) rfl)
  have e1 := Value.unique (far_proper (R := R) x).dp (chan_value hne a1) (.key ⟨fun _ => x, 1⟩ (by simp [far]) rfl)
  have hl : 1 < q'.positionKeys.length := by rw [h2.sizes.1, hb, he]; norm_num
  refine ⟨q', _, h1, ?_, h3, fun i => ?_⟩
  · have hget := List.getElem?_eq_getElem hl
    rw [hget]
    have := h2.p _ _ hget
    rw [Nat.add_zero] at this
    rw [Value.unique (far_proper (R := R) x).dp (chan_value hne this) (.key ⟨fun _ => x, 1⟩ (by simp [far]) rfl)]
  · rw [mp, e0, e1]
    simp only [mixFl]
    rw [fl_one hf.toIsRounding (by norm_num) (by norm_num)]

/-- With the parameter 1 `Interpolate` does not return the key of the second frame, and leaves the box of the keyframes: from -2^26 to 3 it ends
at 0, and from -2^26 to 5 at 8, in `float` with rounding to the nearest. -/
theorem C126_end_refuted (hf : IsNearest 24 (-149) fl) (e : Env (Fin 3 → ℚ) R (Fin 3 → ℚ) ℚ) (hs : Sorts e) (mp : e.p.mix = mixFl fl)
    (out : (Fin 3 → ℚ) × R × (Fin 3 → ℚ)) :
    FloatKeys 24 (-149) (far 3) ∧ FloatKeys 24 (-149) (far 5) ∧
    (∃ q' o, buildKeys e init (far 3) [] [] = .ok q' ∧ q'.positionKeys[1]? = some (fun _ => 3) ∧ interpolate e q' out 0 1 1 = .ok o ∧ ∀ i, o.1 i = 0) ∧
    ∃ q' o, buildKeys e init (far 5) [] [] = .ok q' ∧ q'.positionKeys[1]? = some (fun _ => 5) ∧ interpolate e q' out 0 1 1 = .ok o ∧ ∀ i, o.1 i = 8 := by
  refine ⟨far_floats ⟨3, 0, by norm_num, by norm_num, by norm_num⟩, far_floats ⟨5, 0, by norm_num, by norm_num, by norm_num⟩, ?_, ?_⟩
  · have := far_end hf e hs mp 3 out
    rwa [lerp_short hf] at this
  · have := far_end hf e hs mp 5 out
    rwa [lerp_over hf] at this

/-! ### Examples -/

/-- Channels of floats. -/
def envFl (fl : ℚ → ℚ) : Env (Fin 3 → ℚ) ℚ (Fin 3 → ℚ) ℚ where
  p := ⟨mixFl fl, fun a _ => a, sortEx, fun _ => 0⟩
  r := ⟨fun a b t => a + t * (b - a), fun a _ => a, sortEx, 1⟩
  s := ⟨mixFl fl, fun a _ => a, sortEx, fun _ => 1⟩

theorem envFl_sorts (fl : ℚ → ℚ) : Sorts (envFl fl) := ⟨sortEx_isSort, sortEx_isSort, sortEx_isSort⟩

theorem far_rising : Rising (far 3) 0 := by
  intro a ha b hb h
  simp only [far, List.mem_cons, List.not_mem_nil, or_false] at ha hb
  rcases ha with rfl | rfl <;> rcases hb with rfl | rfl <;> (simp at h ⊢; try norm_num)

theorem far_within : Within (far 3) 0 (-67108864) 3 := by
  intro a ha
  simp only [far, List.mem_cons, List.not_mem_nil, or_false] at ha
  rcases ha with rfl | rfl <;> norm_num

theorem far3 : FloatKeys 24 (-149) (far 3) := far_floats ⟨3, 0, by norm_num, by norm_num, by norm_num⟩

theorem far_both : Proper (far 3) ([] : List (KF ℚ)) (far 3) := by
  have h := far_proper (R := ℚ) 3
  refine ⟨h.dp, h.dr, h.dp, ?_⟩
  rintro f (hk | hk | hk)
  · exact h.bound f (Or.inl hk)
  · exact h.bound f (Or.inr (Or.inl hk))
  · exact h.bound f (Or.inl hk)

example := C126_box (nearest_isNearest (p := 24) (emin := -149) (by norm_num)) (by norm_num) (by norm_num) (envFl (Float.nearest 24 (-149))) (envFl_sorts _) rfl rfl init (far 3) []
  (far 3) far_both (by simp [far]) (Or.inr rfl) (by simp [far]) far3 far3 0 (-67108864) 3 (-67108864) 3 far_within far_within (0, 1, 1) 0 1 (1 / 2)
  ⟨1, -1, by norm_num, by norm_num, by norm_num⟩ (by norm_num) (by norm_num)

example := C126_exact (nearest_isNearest (p := 24) (emin := -149) (by norm_num)).toIsRounding (envFl (Float.nearest 24 (-149))) (envFl_sorts _) rfl init (far 3) [] []
  (far_proper 3) (by simp [far]) (Or.inr rfl) (Or.inr rfl) far3 (0, 1, 1) 0 1

example := C126_monotone (nearest_isNearest (p := 24) (emin := -149) (by norm_num)) (by norm_num) (by norm_num) (envFl (Float.nearest 24 (-149))) (envFl_sorts _) rfl init (far 3) [] []
  (far_proper 3) (by simp [far]) (Or.inr rfl) (Or.inr rfl) far3 0 far_rising

example := C126_accuracy (nearest_isNearest (p := 24) (emin := -149) (by norm_num)).toIsRounding (by norm_num) (by norm_num) (envFl (Float.nearest 24 (-149))) (envFl_sorts _) rfl init (far 3)
  [] [] (far_proper 3) (by simp [far]) (Or.inr rfl) (Or.inr rfl) far3 0 67108864 (by
    intro a ha
    simp only [far, List.mem_cons, List.not_mem_nil, or_false] at ha
    rcases ha with rfl | rfl <;> norm_num [abs_le])

example := C126_end_refuted (nearest_isNearest (p := 24) (emin := -149) (by norm_num)) (envFl (Float.nearest 24 (-149))) (envFl_sorts _) rfl (0, 1, 1)

example := C126_frame (nearest_isNearest (p := 24) (emin := -149) (by norm_num)).toIsRounding (by norm_num) (by norm_num) 10 17 12 (by norm_num) (by norm_num)
  (by norm_num)

end Geom.Keyframe.Props
