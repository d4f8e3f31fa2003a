import Verif.Props.AnimationFloat

/-!
Property C129, backward playback.
-/

set_option autoImplicit false
set_option linter.unusedSectionVars false

namespace Geom.Playback.Props
open Geom.Playback Geom.Playback.Spec Geom.Float

variable {p : ℕ} {emin : ℤ} {fl : ℚ → ℚ}

theorem one_sub_mem (he : emin ≤ -(p : ℤ)) : (1 : ℚ) - 2 ^ (-(p : ℤ)) ∈ Floats p emin := by
  refine ⟨2 ^ p - 1, -p, ?_, he, ?_⟩
  · have : (1 : ℤ) ≤ 2 ^ p := one_le_pow₀ (by norm_num)
    rw [abs_of_nonneg (by linarith)]
    linarith
  · push_cast
    rw [sub_mul, one_mul, ← zpow_natCast, ← zpow_add₀ (by norm_num)]
    simp

theorem neg_unit_mem (hp : 1 ≤ p) (he : emin ≤ -(p : ℤ)) : -(2 : ℚ) ^ (-(p : ℤ)) ∈ Floats p emin := by
  refine ⟨-1, -p, ?_, he, by push_cast; ring⟩
  rw [abs_neg, abs_one]
  exact one_lt_pow₀ (by norm_num) (by omega)

/-- One update, backward. -/
theorem simulate_back_one (hf : IsNearest p emin fl) (hp : 1 ≤ p) (he : emin ≤ -(p : ℤ)) {k : ℕ} (hk : k < p) {n : ℕ} {s s' : PB ℚ} {d : ℚ}
    (hd : 0 < d) (hv : s.speed < 0) (hm : s.interpolator ∈ Floats p emin) (h0 : 0 ≤ s.interpolator) (h1 : s.interpolator ≤ 1)
    (hb : -2 ^ k ≤ d * s.speed) (ht : 0 < s.interpolator ∨ d * s.speed ≤ -2 ^ (-(p : ℤ))) (h : updateFl fl n s d = .ok s') :
    s'.speed = s.speed ∧ s'.interpolator ∈ Floats p emin ∧ 0 ≤ s'.interpolator ∧ s'.interpolator ≤ 1 ∧ (0 < s.interpolator → 0 < s'.interpolator) ∧
      ∃ e, 0 ≤ e ∧ |e * s.speed - d * s.speed| ≤ 3 / 2 * 2 ^ ((k : ℤ) - p) ∧ step s (.update e) = .ok s' := by
  have hpos := two_zpow_pos ((k : ℤ) - p)
  by_cases hs : s.state = .playing
  swap
  · rw [updateFl_idle n s d (Or.inl hs)] at h
    obtain rfl := Res.ok.inj h
    exact ⟨rfl, hm, h0, h1, id, d, hd.le, by simpa using hpos.le, by simp [step, update, hs]⟩
  have hr := hf.toIsRounding
  have hdv := mul_neg_of_pos_of_neg hd hv
  have hk0 : (0 : ℚ) < 2 ^ k := by positivity
  obtain ⟨a1, a2⟩ := sum_error hf hp he hk h0 h1 (abs_le.2 ⟨hb, by linarith⟩)
  rw [if_neg (not_le.2 hdv), one_mul] at a2
  have hle : (2 : ℚ) ^ (k + 1) ≤ 2 ^ p := pow_le_pow_right₀ (by norm_num) hk
  obtain ⟨c1, -, c2⟩ := C99_interpolator_partial hr hp (by omega) n s s' d hs hd h0 h1 (a1.trans hle) h
  obtain ⟨c2, c3⟩ := c2 hv
  obtain ⟨r, hr1, rfl⟩ := updateFl_ok hr hp (by omega) hs hd rfl (a1.trans hle) h
  obtain ⟨-, f2, f3⟩ := exact_form hs hd hr1
  have hsp : r.speed = s.speed := step_keeps (s := { s with interpolator := fl (s.interpolator + fl (d * s.speed)) - d * s.speed }) rfl hr1
  have hz := hr.fix 0 (zero_mem (by omega))
  have hd0 : fl (d * s.speed) ≤ 0 := hz ▸ hr.mono hdv.le
  have hxi : fl (s.interpolator + fl (d * s.speed)) ≤ s.interpolator := by
    have := hr.mono (by linarith : s.interpolator + fl (d * s.speed) ≤ s.interpolator)
    rwa [hr.fix _ hm] at this
  have hxu : s.interpolator = 0 → fl (s.interpolator + fl (d * s.speed)) ≤ -2 ^ (-(p : ℤ)) := by
    intro hi
    have hd1 := ht.resolve_left (by rw [hi]; exact lt_irrefl _)
    have hu := hr.fix _ (neg_unit_mem hp he)
    have g := hr.mono hd1
    rw [hu] at g
    have g2 := hr.mono (by rw [hi]; linarith : s.interpolator + fl (d * s.speed) ≤ -2 ^ (-(p : ℤ)))
    rwa [hu] at g2
  have hxf := hr.fix _ (hr.mem (s.interpolator + fl (d * s.speed)))
  refine ⟨hsp, c1, c2.le, c3, fun _ => c2, ?_⟩
  generalize hx : fl (s.interpolator + fl (d * s.speed)) = x at *
  have e1 : x - d * s.speed + d * s.speed = x := by ring
  simp only [step] at hr1
  rw [update_backward { s with interpolator := x - d * s.speed } d hs hd hv] at hr1
  simp only [e1] at hr1
  rcases le_or_gt x 0 with hc | hc
  · obtain ⟨g1, -⟩ := f2 hv hc
    rw [if_pos hc] at hr1
    have hx' : 0 ≤ -x := by linarith
    have b1 := Nat.floor_le hx'
    have b2 := Nat.lt_floor_add_one (-x)
    have herr := near_error hf hp (x := r.interpolator) (k := 0) (by rw [g1, zpow_zero, abs_le]; constructor <;> linarith) (by omega)
    have hmono : (2 : ℚ) ^ ((0 : ℤ) - p) ≤ 2 ^ ((k : ℤ) - p) := zpow_le_zpow_right₀ (by norm_num) (by omega)
    have hlt : fl r.interpolator - (⌊-x⌋₊ + 1) < s.interpolator := by
      rcases h0.lt_or_eq with g | g
      · have : (0 : ℚ) ≤ ⌊-x⌋₊ := Nat.cast_nonneg _
        simp only at c3
        linarith
      · rw [← g]
        have hx2 := hxu g.symm
        by_cases hn : ⌊-x⌋₊ = 0
        · have : r.interpolator ≤ 1 - 2 ^ (-(p : ℤ)) := by rw [g1, hn]; push_cast; linarith
          have g3 := hr.mono this
          rw [hr.fix _ (one_sub_mem he)] at g3
          have := two_zpow_pos (-(p : ℤ))
          rw [hn]; push_cast; linarith
        · have : (1 : ℚ) ≤ ⌊-x⌋₊ := by exact_mod_cast Nat.one_le_iff_ne_zero.2 hn
          simp only at c3
          linarith
    have e0 : 0 < (fl r.interpolator - (⌊-x⌋₊ + 1) - s.interpolator) / s.speed := div_pos_of_neg_of_neg (by linarith) hv
    refine ⟨(fl r.interpolator - (⌊-x⌋₊ + 1) - s.interpolator) / s.speed, e0.le, ?_, ?_⟩
    · rw [div_mul_cancel₀ _ hv.ne]
      have e : fl r.interpolator - (⌊-x⌋₊ + 1) - s.interpolator - d * s.speed =
          (fl r.interpolator - r.interpolator) + (x - (s.interpolator + d * s.speed)) := by rw [g1]; ring
      rw [e]
      refine (abs_add_le _ _).trans ?_
      linarith
    · simp only at c2 c3
      simp only [step]
      rw [update_backward s _ hs e0 hv]
      have e2 : s.interpolator + (fl r.interpolator - (⌊-x⌋₊ + 1) - s.interpolator) / s.speed * s.speed = fl r.interpolator - (⌊-x⌋₊ + 1) := by
        rw [div_mul_cancel₀ _ hv.ne]; ring
      simp only [e2]
      have hfl : ⌊-(fl r.interpolator - ((⌊-x⌋₊ : ℚ) + 1))⌋₊ = ⌊-x⌋₊ := by
        rw [Nat.floor_eq_iff (by have : (0 : ℚ) ≤ ⌊-x⌋₊ := Nat.cast_nonneg _; linarith)]
        constructor <;> linarith
      rw [if_pos (by have : (0 : ℚ) ≤ ⌊-x⌋₊ := Nat.cast_nonneg _; linarith), hfl, sub_add_cancel]
      have h2 := iter_withI stepB stepB_withI (⌊-x⌋₊ + 1) s (x - d * s.speed)
      simp only [withI] at h2
      rw [h2] at hr1
      cases hit : iterRes stepB (⌊-x⌋₊ + 1) s with
      | ok a =>
        rw [hit] at hr1
        have hr1 := Res.ok.inj hr1
        subst hr1
        rfl
      | _ => rw [hit] at hr1; cases hr1
  · rw [if_neg (not_le.2 hc)] at hr1
    have hr1 := Res.ok.inj hr1
    subst hr1
    simp only [withI, hxf]
    refine ⟨(x - s.interpolator) / s.speed, div_nonneg_of_nonpos (by linarith) hv.le, ?_, ?_⟩
    · rw [div_mul_cancel₀ _ hv.ne, show x - s.interpolator - d * s.speed = x - (s.interpolator + d * s.speed) by ring]
      linarith
    · rcases hxi.lt_or_eq with g | g
      · simp only [step]
        rw [update_backward s _ hs (div_pos_of_neg_of_neg (by linarith) hv) hv]
        have e2 : s.interpolator + (x - s.interpolator) / s.speed * s.speed = x := by rw [div_mul_cancel₀ _ hv.ne]; ring
        simp only [e2]
        rw [if_neg (not_le.2 hc)]
        rfl
      · subst g
        simp [step, update]

/-- C129: a backward playback in floating-point arithmetic is an exact playback whose time steps differ a little. A playback which has just been started (its
interpolator is 0) needs a first step of at least half a unit in the last place of 1. -/
theorem C129_simulation_backward_partial (hf : IsNearest p emin fl) (hp : 1 ≤ p) (he : emin ≤ -(p : ℤ)) (k : ℕ) (hk : k < p) (n : ℕ) (ds : List ℚ) : ∀ s s' : PB ℚ,
    s.speed < 0 → s.interpolator ∈ Floats p emin → 0 ≤ s.interpolator → s.interpolator ≤ 1 → (∀ d ∈ ds, 0 < d ∧ -2 ^ k ≤ d * s.speed) →
    (0 < s.interpolator ∨ ∀ d ∈ ds, d * s.speed ≤ -2 ^ (-(p : ℤ))) → updatesFl fl n s ds = .ok s' →
    (s'.interpolator ∈ Floats p emin ∧ 0 ≤ s'.interpolator ∧ s'.interpolator ≤ 1) ∧
    ∃ es : List ℚ, es.length = ds.length ∧ (∀ e ∈ es, 0 ≤ e) ∧
      (∀ j < ds.length, |es.getD j 0 * s.speed - ds.getD j 0 * s.speed| ≤ 3 / 2 * 2 ^ ((k : ℤ) - p)) ∧
      run s (es.map .update) = .ok s' := by
  induction ds with
  | nil =>
    intro s s' _ hm h0 h1 _ _ h
    obtain rfl := Res.ok.inj h
    exact ⟨⟨hm, h0, h1⟩, [], rfl, by simp, by simp, rfl⟩
  | cons d ds ih =>
    intro s s' hv hm h0 h1 hb hu h
    simp only [updatesFl] at h
    obtain ⟨t, ht, h'⟩ := Res.bind_eq_ok.1 h
    obtain ⟨hd, hdb⟩ := hb d List.mem_cons_self
    obtain ⟨k1, k2, k3, k4, k5, e, e0, e1, e2⟩ := simulate_back_one hf hp he hk hd hv hm h0 h1 hdb (hu.imp_right fun g => g d List.mem_cons_self) ht
    obtain ⟨i1, es, l1, l2, l3, l4⟩ := ih t s' (by rw [k1]; exact hv) k2 k3 k4 (fun x hx => by rw [k1]; exact hb x (List.mem_cons_of_mem _ hx))
      (hu.imp k5 fun g x hx => by rw [k1]; exact g x (List.mem_cons_of_mem _ hx)) h'
    refine ⟨i1, e :: es, by simp [l1], ?_, ?_, ?_⟩
    · intro x hx
      rcases List.mem_cons.1 hx with rfl | hx
      · exact e0
      · exact l2 x hx
    · intro j hj
      cases j with
      | zero => simpa using e1
      | succ j =>
        have := l3 j (by simpa using hj)
        rw [k1] at this
        simpa using this
    · simp only [List.map_cons, run, e2, Res.bind_ok]
      exact l4

/-- The updates return. -/
theorem updates_back_return (hf : IsNearest p emin fl) (hp : 1 ≤ p) (he : emin ≤ -(p : ℤ)) (k : ℕ) (hk : k < p) (ds : List ℚ) : ∀ s : PB ℚ,
    IterOK s.listener.kind → s.speed < 0 → s.interpolator ∈ Floats p emin → 0 ≤ s.interpolator → s.interpolator ≤ 1 →
    (∀ d ∈ ds, 0 < d ∧ -2 ^ k ≤ d * s.speed) → (0 < s.interpolator ∨ ∀ d ∈ ds, d * s.speed ≤ -2 ^ (-(p : ℤ))) →
    ∃ N s', ∀ n, N ≤ n → updatesFl fl n s ds = .ok s' := by
  induction ds with
  | nil => exact fun s _ _ _ _ _ _ _ => ⟨0, s, fun _ _ => rfl⟩
  | cons d ds ih =>
    intro s hi hv hm h0 h1 hb hu
    obtain ⟨hd, hdb⟩ := hb d List.mem_cons_self
    have one : ∃ N t, (∀ n, N ≤ n → updateFl fl n s d = .ok t) ∧ IterOK t.listener.kind := by
      by_cases hs : s.state = .playing
      · have hdv := mul_neg_of_pos_of_neg hd hv
        have hk0 : (0 : ℚ) < 2 ^ k := by positivity
        obtain ⟨a1, -⟩ := sum_error hf hp he hk h0 h1 (abs_le.2 ⟨hdb, by linarith⟩)
        have hle : (2 : ℚ) ^ (k + 1) ≤ 2 ^ p := pow_le_pow_right₀ (by norm_num) hk
        obtain ⟨N, hN⟩ := C99_update_partial hf.toIsRounding hp (by omega) s d _ hs hd rfl (a1.trans hle)
        obtain ⟨r, hr, hri⟩ := iterOK_step { s with interpolator := fl (s.interpolator + fl (d * s.speed)) - d * s.speed } (.update d) hi trivial
        exact ⟨N, { r with interpolator := fl r.interpolator }, fun n hn => by rw [hN n hn, hr]; rfl, hri⟩
      · exact ⟨0, s, fun n _ => updateFl_idle n s d (Or.inl hs), hi⟩
    obtain ⟨N, t, ht, hti⟩ := one
    obtain ⟨k1, k2, k3, k4, k5, -⟩ := simulate_back_one hf hp he hk hd hv hm h0 h1 hdb (hu.imp_right fun g => g d List.mem_cons_self) (ht N le_rfl)
    obtain ⟨N', s', hs'⟩ := ih t hti (by rw [k1]; exact hv) k2 k3 k4 (fun x hx => by rw [k1]; exact hb x (List.mem_cons_of_mem _ hx))
      (hu.imp k5 fun g x hx => by rw [k1]; exact g x (List.mem_cons_of_mem _ hx))
    refine ⟨max N N', s', fun n hn => ?_⟩
    simp only [updatesFl, ht n (le_of_max_le_left hn), Res.bind_ok]
    exact hs' n (le_of_max_le_right hn)

end Geom.Playback.Props

namespace Geom.Animation.Props
open Geom.Float Geom.Keyframe Geom.Keyframe.Spec Geom.Keyframe.Props Geom.Playback Geom.Playback.Spec Geom.Playback.Props Geom.Animation Geom.Animation.Spec
open Geom.Spline.Spec (unit)

variable {ι R M : Type} {p : ℕ} {emin : ℤ} {fl : ℚ → ℚ}

/-- The film of floats is near the exact film with the time steps of the simulation, backward. -/
theorem film_back_close (hf : IsNearest p emin fl) (hp : 3 ≤ p) (he : emin ≤ -p) {k : ℕ} (hk : k < p) {e : Env (ι → ℚ) R (ι → ℚ) ℚ} (mp : e.p.mix = mixFl fl)
    {q : Seq (ι → ℚ) R (ι → ℚ)} {pk : List (KF (ι → ℚ))} {rk : List (KF R)} {sk : List (KF (ι → ℚ))} {last : ℕ} (h : Ready (exactEnv e) q pk rk sk last)
    (hpk : pk ≠ []) (fp : FloatKeys p emin pk) (i : ι) (B : ℚ) (hB : ∀ a ∈ pk, |a.key i| ≤ B)
    (compose : M → (ι → ℚ) → R → (ι → ℚ) → M) (out0 : (ι → ℚ) × R × (ι → ℚ)) (m : M) (pos : M → ι → ℚ) (hpos : ∀ m p r s, pos (compose m p r s) = p)
    (pb : PB ℚ) (f l : ℕ) (v : ℚ) (hv : v < 0) (a : LArg) (ha : IterOK (pickListener pb.listener a).kind) (hb : IterOK pb.listener.kind) (ds : List ℚ)
    (hd : ∀ d ∈ ds, 2 ^ (-(p : ℤ)) ≤ d * -v ∧ d * -v ≤ 2 ^ k) :
    ∃ N, ∀ n, N ≤ n → ∃ (m1 m2 : M) (es : List ℚ), filmFl fl n e compose out0 q pk rk sk pb f l v a ds m = .ok m1 ∧ (∀ x ∈ es, 0 < x) ∧
      |es.sum * -v - ds.sum * -v| ≤ ds.length * (3 / 2 * 2 ^ ((k : ℤ) - p)) ∧
      film (exactEnv e) compose out0 q pk rk sk pb (.play f l v a :: es.map .update) m = .ok m2 ∧
      |pos m1 i - pos m2 i| ≤ 2 * (10 * unit p * B + (2 * B + 1) * 2 ^ emin) := by
  have hu := two_zpow_pos (-(p : ℤ))
  have hd1 : ∀ d ∈ ds, 0 < d ∧ -2 ^ k ≤ d * v := fun d h => ⟨pos_of_mul_pos_left (hu.trans_le (hd d h).1) (by linarith), by linarith [(hd d h).2]⟩
  have hd2 : ∀ d ∈ ds, d * v ≤ -2 ^ (-(p : ℤ)) := fun d h => by linarith [(hd d h).1]
  obtain ⟨t, ht, hti⟩ := iterOK_step pb (.play f l v a) hb ha
  have ht : play pb f l v a = .ok t := ht
  obtain ⟨h1, h2⟩ := play_interp _ ht
  obtain ⟨N, s', hN⟩ := updates_back_return hf (by omega) he k hk ds t hti (by rw [h2]; exact hv) (by rw [h1]; exact zero_mem (by omega)) (by rw [h1])
    (by rw [h1]; norm_num) (by rw [h2]; exact hd1) (Or.inr (by rw [h2]; exact hd2))
  refine ⟨N, fun n hn => ?_⟩
  obtain ⟨⟨-, b2, b3⟩, es, g2, g3, g4, g5⟩ := C129_simulation_backward_partial hf (by omega) he k hk n ds t s' (by rw [h2]; exact hv)
    (by rw [h1]; exact zero_mem (by omega)) (by rw [h1]) (by rw [h1]; norm_num) (by rw [h2]; exact hd1) (Or.inr (by rw [h2]; exact hd2)) (hN n hn)
  have e3 : Playback.run pb (.play f l v a :: (es.filter (0 < ·)).map .update) = .ok s' := by
    rw [Playback.run, Playback.step, ht, Res.bind_ok, (run_filter es g3 t).1]
    exact g5
  obtain ⟨m1, m2, x1, x2, x3⟩ := film_end hf hp he mp h hpk fp i B hB compose out0 m pos hpos ht (hN n hn) b2 b3 e3
  refine ⟨m1, m2, _, x1, fun e he => by simpa using (List.mem_filter.1 he).2, ?_, x2, x3⟩
  rw [(run_filter es g3 t).2]
  rw [h2] at g4
  have := sum_close v _ ds es g2 g4
  rw [show es.sum * -v - ds.sum * -v = -(es.sum * v - ds.sum * v) by ring, abs_neg]
  exact this

/-- C129: a loop with negative speed is near the exact film, if no step is smaller than half a unit in the last place of 1. -/
theorem C129_loop_backward_partial (hf : IsNearest p emin fl) (hp : 3 ≤ p) (he : emin ≤ -p) (k : ℕ) (hk : k < p) (e : Env (ι → ℚ) R (ι → ℚ) ℚ) (mp : e.p.mix = mixFl fl)
    (q : Seq (ι → ℚ) R (ι → ℚ)) (pk : List (KF (ι → ℚ))) (rk : List (KF R)) (sk : List (KF (ι → ℚ))) (last : ℕ) (h : Ready (exactEnv e) q pk rk sk last)
    (hpk : pk ≠ []) (fp : FloatKeys p emin pk) (i : ι) (B : ℚ) (hB : ∀ a ∈ pk, |a.key i| ≤ B)
    (compose : M → (ι → ℚ) → R → (ι → ℚ) → M) (out0 : (ι → ℚ) × R × (ι → ℚ)) (m : M) (pos : M → ι → ℚ) (hpos : ∀ m p r s, pos (compose m p r s) = p)
    (D : ℚ) (h0 : 0 ≤ D) (hD : ∀ g < last, ∀ x y, Value mixExact pk g x → Value mixExact pk (g + 1) y → |y i - x i| ≤ D)
    (pb : PB ℚ) (f l : ℕ) (hf' : f < Playback.W) (hl : l < Playback.W) (v : ℚ) (hv : v < 0) (a : LArg) (hb : IterOK pb.listener.kind)
    (hD' : ∀ x y, Value mixExact pk (min f last) x → Value mixExact pk (min l last) y → |y i - x i| ≤ D) (ha : (pickListener pb.listener a).kind = .loop) (ds : List ℚ)
    (hd : ∀ d ∈ ds, 2 ^ (-(p : ℤ)) ≤ d * -v ∧ d * -v ≤ 2 ^ k) :
    ∃ N, ∀ n, N ≤ n → ∃ m1 m2, filmFl fl n e compose out0 q pk rk sk pb f l v a ds m = .ok m1 ∧
      film (exactEnv e) compose out0 q pk rk sk pb (.play f l v a :: ds.map .update) m = .ok m2 ∧
      |pos m1 i - pos m2 i| ≤ D * (ds.length * (3 / 2 * 2 ^ ((k : ℤ) - p))) + 2 * (10 * unit p * B + (2 * B + 1) * 2 ^ emin) := by
  have hu := two_zpow_pos (-(p : ℤ))
  have hd1 : ∀ d ∈ ds, 0 < d := fun d h => pos_of_mul_pos_left (hu.trans_le (hd d h).1) (by linarith)
  obtain ⟨N, hN⟩ := film_back_close hf hp he hk mp h hpk fp i B hB compose out0 m pos hpos pb f l v hv a (by rw [ha]; trivial) hb ds hd
  refine ⟨N, fun n hn => ?_⟩
  obtain ⟨m1, m2, es, g1, g2, g3, g4, g5⟩ := hN n hn
  have nn : ∀ l : List ℚ, (∀ d ∈ l, 0 < d) → 0 ≤ l.sum * -v := fun l hl =>
    mul_nonneg (List.sum_nonneg fun d hd => (hl d hd).le) (by linarith)
  obtain ⟨y1, y2, j1, j2, j3⟩ := no_jump h compose pos hpos (fun x => x i) (fun a b t => by simp only [exactEnv, mixExact]; ring) (loopFrame l f) (D := D) (by
      intro n p p' hp hp'
      have hb := loopFrame_between l f n
      unfold Between at hb
      have hs := loopFrame_succ l f n
      by_cases hw : loopFrame l f n = f
      · have : loopFrame l f (n + 1) = l := by rw [hs, hw]; split_ifs <;> omega
        rw [hw] at hp
        rw [this] at hp'
        exact hD' _ _ (chan_value hpk hp) (chan_value hpk hp')
      · have hF : loopFrame l f (n + 1) ≤ loopFrame l f n + 1 ∧ loopFrame l f n ≤ loopFrame l f (n + 1) + 1 := by
          rw [hs]; split_ifs <;> omega
        exact step_bound h (fun x => x i) (fun i => if i = 0 then loopFrame l f n else loopFrame l f (n + 1))
          (fun i => by by_cases hi : i = 0 <;> simp only [hi, if_true, if_false, Nat.add_eq_zero_iff, one_ne_zero, and_false] <;> omega) h0
          (fun g hg x y hx hy => hD g hg x y (chan_value hpk hx) (chan_value hpk hy)) 0 p p' hp hp')
    (nn _ hd1) (nn _ g2) (C94_loop_backward h compose out0 m pb f l hf' hl v hv a ha ds hd1) (C94_loop_backward h compose out0 m pb f l hf' hl v hv a ha es g2)
  obtain rfl : m2 = y2 := Res.ok.inj (g4.symm.trans j2)
  exact ⟨m1, y1, g1, j1, compare h0 g5 j3 g3⟩

/-- C129: the same for ping-pong films. -/
theorem C129_pingPong_backward_partial (hf : IsNearest p emin fl) (hp : 3 ≤ p) (he : emin ≤ -p) (k : ℕ) (hk : k < p) (e : Env (ι → ℚ) R (ι → ℚ) ℚ) (mp : e.p.mix = mixFl fl)
    (q : Seq (ι → ℚ) R (ι → ℚ)) (pk : List (KF (ι → ℚ))) (rk : List (KF R)) (sk : List (KF (ι → ℚ))) (last : ℕ) (h : Ready (exactEnv e) q pk rk sk last)
    (hpk : pk ≠ []) (fp : FloatKeys p emin pk) (i : ι) (B : ℚ) (hB : ∀ a ∈ pk, |a.key i| ≤ B)
    (compose : M → (ι → ℚ) → R → (ι → ℚ) → M) (out0 : (ι → ℚ) × R × (ι → ℚ)) (m : M) (pos : M → ι → ℚ) (hpos : ∀ m p r s, pos (compose m p r s) = p)
    (D : ℚ) (h0 : 0 ≤ D) (hD : ∀ g < last, ∀ x y, Value mixExact pk g x → Value mixExact pk (g + 1) y → |y i - x i| ≤ D)
    (pb : PB ℚ) (f l : ℕ) (hf' : f < Playback.W) (hl : l < Playback.W) (v : ℚ) (hv : v < 0) (a : LArg) (hb : IterOK pb.listener.kind)
    (hne : f ≠ l) (ha : (pickListener pb.listener a).kind = .pingPong) (ds : List ℚ) (hd : ∀ d ∈ ds, 2 ^ (-(p : ℤ)) ≤ d * -v ∧ d * -v ≤ 2 ^ k) :
    ∃ N, ∀ n, N ≤ n → ∃ m1 m2, filmFl fl n e compose out0 q pk rk sk pb f l v a ds m = .ok m1 ∧
      film (exactEnv e) compose out0 q pk rk sk pb (.play f l v a :: ds.map .update) m = .ok m2 ∧
      |pos m1 i - pos m2 i| ≤ D * (ds.length * (3 / 2 * 2 ^ ((k : ℤ) - p))) + 2 * (10 * unit p * B + (2 * B + 1) * 2 ^ emin) := by
  have hu := two_zpow_pos (-(p : ℤ))
  have hd1 : ∀ d ∈ ds, 0 < d := fun d h => pos_of_mul_pos_left (hu.trans_le (hd d h).1) (by linarith)
  obtain ⟨N, hN⟩ := film_back_close hf hp he hk mp h hpk fp i B hB compose out0 m pos hpos pb f l v hv a (by rw [ha]; trivial) hb ds hd
  refine ⟨N, fun n hn => ?_⟩
  obtain ⟨m1, m2, es, g1, g2, g3, g4, g5⟩ := hN n hn
  have nn : ∀ l : List ℚ, (∀ d ∈ l, 0 < d) → 0 ≤ l.sum * -v := fun l hl =>
    mul_nonneg (List.sum_nonneg fun d hd => (hl d hd).le) (by linarith)
  obtain ⟨y1, y2, j1, j2, j3⟩ := no_jump h compose pos hpos (fun x => x i) (fun a b t => by simp only [exactEnv, mixExact]; ring) (fun n => pingPongFrame f l (n + 1)) (D := D)
    (step_bound h (fun x => x i) _ (fun n => pingPong_step f l (n + 1) hne) h0 (fun g hg x y hx hy => hD g hg x y (chan_value hpk hx) (chan_value hpk hy)))
    (nn _ hd1) (nn _ g2) (C94_pingPong_backward h compose out0 m pb f l hf' hl hne v hv a ha ds hd1) (C94_pingPong_backward h compose out0 m pb f l hf' hl hne v hv a ha es g2)
  obtain rfl : m2 = y2 := Res.ok.inj (g4.symm.trans j2)
  exact ⟨m1, y1, g1, j1, compare h0 g5 j3 g3⟩

/-! ### The hypotheses are met -/

example := C129_loop_backward_partial (nearest_isNearest (p := 24) (emin := -149) (by norm_num)) (by norm_num) (by norm_num) 3 (by norm_num) (envFl (Float.nearest 24 (-149))) rfl Keyframe.init (far 3) [] [] 1 far_ready
  (by simp [far]) far3 0 67108864 far_abs (fun (_ : (Fin 3 → ℚ) × ℚ × (Fin 3 → ℚ)) p r s => (p, r, s)) (0, 1, 1) (0, 1, 1) (fun m => m.1) (fun _ _ _ _ => rfl)
  67108867 (by norm_num) (fun _ _ _ _ hx hy => far_jump hx hy) Playback.init 0 1 (by norm_num [Playback.W]) (by norm_num [Playback.W]) (-5 / 2) (by norm_num)
  (.other ⟨1, .loop⟩) trivial (fun _ _ hx hy => far_jump hx hy) rfl [1, 1 / 4, 1 / 4] (by norm_num)

example := C129_pingPong_backward_partial (nearest_isNearest (p := 24) (emin := -149) (by norm_num)) (by norm_num) (by norm_num) 3 (by norm_num) (envFl (Float.nearest 24 (-149))) rfl Keyframe.init (far 3) [] [] 1 far_ready
  (by simp [far]) far3 0 67108864 far_abs (fun (_ : (Fin 3 → ℚ) × ℚ × (Fin 3 → ℚ)) p r s => (p, r, s)) (0, 1, 1) (0, 1, 1) (fun m => m.1) (fun _ _ _ _ => rfl)
  67108867 (by norm_num) (fun _ _ _ _ hx hy => far_jump hx hy) Playback.init 0 1 (by norm_num [Playback.W]) (by norm_num [Playback.W]) (-5 / 2) (by norm_num)
  (.other ⟨1, .pingPong⟩) trivial (by norm_num) rfl [1, 1 / 4, 1 / 4] (by norm_num)

/-- A playback in the middle of a frame, whose steps are smaller than any unit. -/
example (s' : PB ℚ) := Playback.Props.C129_simulation_backward_partial (nearest_isNearest (p := 24) (emin := -149) (by norm_num)) (by norm_num) (by norm_num) 3 (by norm_num) 10
  [1, 1 / 2 ^ 30, 1 / 4]
  { (Playback.init : PB ℚ) with state := .playing, speed := -5 / 2, frame := 3, nextFrame := 4, lastFrame := 9, interpolator := 1 / 2 } s' (by norm_num)
  ⟨1, -1, by norm_num, by norm_num, by norm_num⟩ (by norm_num) (by norm_num) (by norm_num) (Or.inl (by norm_num))

end Geom.Animation.Props
