import Verif.Model.AnimationFloat
import Verif.Spec.AnimationFloat
import Verif.Props.PlaybackFloat
import Verif.Props.KeyframeFloat
import Verif.Props.Animation

/-!
Property C129: animations in floating-point arithmetic.
-/

set_option autoImplicit false
set_option linter.unusedSectionVars false

namespace Geom.Playback.Props
open Geom.Playback Geom.Playback.Spec Geom.Float

variable {p : ℕ} {emin : ℤ} {fl : ℚ → ℚ}

/-! ### A playback of floats is an exact one with other time steps -/

/-- One update. -/
theorem simulate_one (hf : IsNearest p emin fl) (hp : 1 ≤ p) (he : emin ≤ -(p : ℤ)) {k : ℕ} (hk : k < p) {n : ℕ} {s s' : PB ℚ} {d : ℚ}
    (hd : 0 < d) (hv : 0 < s.speed) (hm : s.interpolator ∈ Floats p emin) (h0 : 0 ≤ s.interpolator) (h1 : s.interpolator < 1)
    (hb : d * s.speed ≤ 2 ^ k) (h : updateFl fl n s d = .ok s') :
    s'.speed = s.speed ∧ s'.interpolator ∈ Floats p emin ∧ 0 ≤ s'.interpolator ∧ s'.interpolator < 1 ∧
      ∃ e, 0 ≤ e ∧ |e * s.speed - d * s.speed| ≤ 3 / 2 * 2 ^ ((k : ℤ) - p) ∧ step s (.update e) = .ok s' := by
  have hpos := two_zpow_pos ((k : ℤ) - p)
  by_cases hs : s.state = .playing
  swap
  · rw [updateFl_idle n s d (Or.inl hs)] at h
    obtain rfl := Res.ok.inj h
    exact ⟨rfl, hm, h0, h1, d, hd.le, by simpa using hpos.le, by simp [step, update, hs]⟩
  have hr := hf.toIsRounding
  have hdv := mul_pos hd hv
  obtain ⟨a1, a2⟩ := sum_error hf hp he hk h0 h1.le (abs_le.2 ⟨by linarith, hb⟩)
  rw [if_pos hdv.le] at a2
  have hle : (2 : ℚ) ^ (k + 1) ≤ 2 ^ p := pow_le_pow_right₀ (by norm_num) hk
  obtain ⟨c1, c2, -⟩ := C99_interpolator_partial hr hp (by omega) n s s' d hs hd h0 h1.le (a1.trans hle) h
  obtain ⟨r, hr1, rfl⟩ := updateFl_ok hr hp (by omega) hs hd rfl (a1.trans hle) h
  obtain ⟨f1, -, -⟩ := exact_form hs hd hr1
  have hsp : r.speed = s.speed := step_keeps (s := { s with interpolator := fl (s.interpolator + fl (d * s.speed)) - d * s.speed }) rfl hr1
  have hz := hr.fix 0 (zero_mem (by omega))
  have hd0 : 0 ≤ fl (d * s.speed) := hz ▸ hr.mono hdv.le
  have hxi : s.interpolator ≤ fl (s.interpolator + fl (d * s.speed)) := by
    have := hr.mono (by linarith : s.interpolator ≤ s.interpolator + fl (d * s.speed))
    rwa [hr.fix _ hm] at this
  have hxm := hr.mem (s.interpolator + fl (d * s.speed))
  refine ⟨hsp, c1, (c2 hv.le).1, (c2 hv.le).2, ?_⟩
  generalize hx : fl (s.interpolator + fl (d * s.speed)) = x at *
  have hfin := sub_floor_mem hp (by omega) hxm (h0.trans hxi) ((le_abs_self _).trans (a1.trans hle))
  have hi : ({ r with interpolator := fl r.interpolator } : PB ℚ) = r := by rw [(f1 hv.le).1, hr.fix _ hfin, ← (f1 hv.le).1]
  rw [hi]
  refine ⟨(x - s.interpolator) / s.speed, div_nonneg (by linarith) hv.le, ?_, ?_⟩
  · rw [div_mul_cancel₀ _ hv.ne']
    convert a2 using 2
    ring
  · have hid : ¬ (s.state ≠ .playing ∨ d ≤ 0) := by simp [hs, hd]
    have e1 : x - d * s.speed + d * s.speed = x := by ring
    have e2 : s.interpolator + (x - s.interpolator) / s.speed * s.speed = x := by rw [div_mul_cancel₀ _ hv.ne']; ring
    have hfw : ∀ y : ℚ, isForward { s with interpolator := y } = true := fun y => by simp [isForward, hv.le]
    simp only [step, update, if_neg hid, e1, hfw, if_true] at hr1
    simp only [step, update, e2, hfw, if_true]
    split_ifs with hc
    · have hxe : x = s.interpolator := by
        rcases hc with hc | hc
        · exact absurd hs hc
        · rcases hxi.lt_or_eq with g | g
          · exact absurd hc (not_le.2 (div_pos (by linarith) hv))
          · exact g.symm
      subst hxe
      rw [while_done _ _ (by simpa using h1)] at hr1
      exact hr1
    · exact hr1

/-- C129: a forward playback in floating-point arithmetic is an exact playback whose time steps differ a little: it has the same states, frames, events and
interpolators; each step of at most `2 ^ k` frames differs by at most 3/2 units in the last place of `2 ^ k`. -/
theorem C129_simulation_partial (hf : IsNearest p emin fl) (hp : 1 ≤ p) (he : emin ≤ -(p : ℤ)) (k : ℕ) (hk : k < p) (n : ℕ) (ds : List ℚ) : ∀ s s' : PB ℚ,
    0 < s.speed → s.interpolator ∈ Floats p emin → 0 ≤ s.interpolator → s.interpolator < 1 → (∀ d ∈ ds, 0 < d ∧ d * s.speed ≤ 2 ^ k) →
    updatesFl fl n s ds = .ok s' →
    (s'.interpolator ∈ Floats p emin ∧ 0 ≤ s'.interpolator ∧ s'.interpolator < 1) ∧
    ∃ es : List ℚ, es.length = ds.length ∧ (∀ e ∈ es, 0 ≤ e) ∧
      (∀ j < ds.length, |es.getD j 0 * s.speed - ds.getD j 0 * s.speed| ≤ 3 / 2 * 2 ^ ((k : ℤ) - p)) ∧
      run s (es.map .update) = .ok s' := by
  induction ds with
  | nil =>
    intro s s' _ hm h0 h1 _ h
    obtain rfl := Res.ok.inj h
    exact ⟨⟨hm, h0, h1⟩, [], rfl, by simp, by simp, rfl⟩
  | cons d ds ih =>
    intro s s' hv hm h0 h1 hb h
    simp only [updatesFl] at h
    obtain ⟨t, ht, h'⟩ := Res.bind_eq_ok.1 h
    obtain ⟨hd, hdb⟩ := hb d List.mem_cons_self
    obtain ⟨k1, k2, k3, k4, e, e0, e1, e2⟩ := simulate_one hf hp he hk hd hv hm h0 h1 hdb ht
    obtain ⟨i1, es, l1, l2, l3, l4⟩ := ih t s' (by rw [k1]; exact hv) k2 k3 k4 (fun x hx => by rw [k1]; exact hb x (List.mem_cons_of_mem _ hx)) h'
    refine ⟨i1, e :: es, by simp [l1], ?_, ?_, ?_⟩
    · intro x hx
      rcases List.mem_cons.1 hx with rfl | hx
      · exact e0
      · exact l2 x hx
    · intro j hj
      cases j with
      | zero => simpa using e1
      | succ j =>
        have := l3 j (by simpa using hj)
        rw [k1] at this
        simpa using this
    · simp only [List.map_cons, run, e2, Res.bind_ok]
      exact l4

/-- The updates return. -/
theorem updates_return (hf : IsNearest p emin fl) (hp : 1 ≤ p) (he : emin ≤ -(p : ℤ)) (k : ℕ) (hk : k < p) (ds : List ℚ) : ∀ s : PB ℚ,
    IterOK s.listener.kind → 0 < s.speed → s.interpolator ∈ Floats p emin → 0 ≤ s.interpolator → s.interpolator < 1 →
    (∀ d ∈ ds, 0 < d ∧ d * s.speed ≤ 2 ^ k) → ∃ N s', ∀ n, N ≤ n → updatesFl fl n s ds = .ok s' := by
  induction ds with
  | nil => exact fun s _ _ _ _ _ _ => ⟨0, s, fun _ _ => rfl⟩
  | cons d ds ih =>
    intro s hi hv hm h0 h1 hb
    obtain ⟨hd, hdb⟩ := hb d List.mem_cons_self
    have one : ∃ N t, (∀ n, N ≤ n → updateFl fl n s d = .ok t) ∧ IterOK t.listener.kind := by
      by_cases hs : s.state = .playing
      · have hdv := mul_pos hd hv
        obtain ⟨a1, -⟩ := sum_error hf hp he hk h0 h1.le (abs_le.2 ⟨by linarith, hdb⟩)
        have hle : (2 : ℚ) ^ (k + 1) ≤ 2 ^ p := pow_le_pow_right₀ (by norm_num) hk
        obtain ⟨N, hN⟩ := C99_update_partial hf.toIsRounding hp (by omega) s d _ hs hd rfl (a1.trans hle)
        obtain ⟨r, hr, hri⟩ := iterOK_step { s with interpolator := fl (s.interpolator + fl (d * s.speed)) - d * s.speed } (.update d) hi trivial
        exact ⟨N, { r with interpolator := fl r.interpolator }, fun n hn => by rw [hN n hn, hr]; rfl, hri⟩
      · exact ⟨0, s, fun n _ => updateFl_idle n s d (Or.inl hs), hi⟩
    obtain ⟨N, t, ht, hti⟩ := one
    obtain ⟨k1, k2, k3, k4, -⟩ := simulate_one hf hp he hk hd hv hm h0 h1 hdb (ht N le_rfl)
    obtain ⟨N', s', hs'⟩ := ih t hti (by rw [k1]; exact hv) k2 k3 k4 (fun x hx => by rw [k1]; exact hb x (List.mem_cons_of_mem _ hx))
    refine ⟨max N N', s', fun n hn => ?_⟩
    simp only [updatesFl, ht n (le_of_max_le_left hn), Res.bind_ok]
    exact hs' n (le_of_max_le_right hn)

/-- Steps of no time have no effect. -/
theorem run_filter (es : List ℚ) (h : ∀ e ∈ es, 0 ≤ e) : ∀ s : PB ℚ, run s ((es.filter (0 < ·)).map .update) = run s (es.map .update) ∧
    (es.filter (0 < ·)).sum = es.sum := by
  induction es with
  | nil => exact fun s => ⟨rfl, rfl⟩
  | cons e es ih =>
    intro s
    have ih := ih (fun x hx => h x (List.mem_cons_of_mem _ hx))
    rcases (h e List.mem_cons_self).lt_or_eq with g | g
    · rw [List.filter_cons_of_pos (by simpa using g)]
      refine ⟨?_, by rw [List.sum_cons, List.sum_cons, (ih s).2]⟩
      simp only [List.map_cons, run]
      cases step s (.update e) with
      | ok t => exact (ih t).1
      | _ => rfl
    · rw [List.filter_cons_of_neg (by simp [g.symm])]
      refine ⟨?_, by rw [List.sum_cons, (ih s).2, ← g, zero_add]⟩
      rw [(ih s).1, List.map_cons, run]
      simp [step, update, ← g]

theorem sum_close (v b : ℚ) (ds : List ℚ) : ∀ es : List ℚ, es.length = ds.length → (∀ j < ds.length, |es.getD j 0 * v - ds.getD j 0 * v| ≤ b) →
    |es.sum * v - ds.sum * v| ≤ ds.length * b := by
  induction ds with
  | nil => intro es h _; rw [List.length_eq_zero_iff.1 h]; simp
  | cons d ds ih =>
    intro es h hb
    obtain ⟨e, es, rfl⟩ : ∃ x l, es = x :: l := List.exists_cons_of_length_pos (by rw [h]; simp)
    have h1 := hb 0 (by simp)
    have h2 := ih es (by simpa using h) (fun j hj => by simpa using hb (j + 1) (by simpa using hj))
    simp only [List.getD_cons_zero] at h1
    rw [List.sum_cons, List.sum_cons, List.length_cons, show (e + es.sum) * v - (d + ds.sum) * v = (e * v - d * v) + (es.sum * v - ds.sum * v) by ring]
    refine (abs_add_le _ _).trans ?_
    push_cast
    linarith

end Geom.Playback.Props

namespace Geom.Animation.Props
open Geom.Float Geom.Keyframe Geom.Keyframe.Spec Geom.Keyframe.Props Geom.Playback Geom.Playback.Spec Geom.Playback.Props Geom.Animation Geom.Animation.Spec
open Geom.Spline.Spec (unit)

variable {ι R M : Type} {p : ℕ} {emin : ℤ} {fl : ℚ → ℚ}

/-- The state at the end of a forward film. -/
theorem end_state (hf : IsNearest p emin fl) (hp : 1 ≤ p) (he : emin ≤ -(p : ℤ)) {k : ℕ} (hk : k < p) {n : ℕ} {pb t s' : PB ℚ} {f l : ℕ} {v : ℚ} {a : LArg}
    {ds : List ℚ} (hv : 0 < v) (hb : ∀ d ∈ ds, 0 < d ∧ d * v ≤ 2 ^ k) (ht : play pb f l v a = .ok t) (h : updatesFl fl n t ds = .ok s') :
    (s'.interpolator ∈ Floats p emin ∧ 0 ≤ s'.interpolator ∧ s'.interpolator < 1) ∧
    ∃ es : List ℚ, (∀ e ∈ es, 0 < e) ∧ |es.sum * v - ds.sum * v| ≤ ds.length * (3 / 2 * 2 ^ ((k : ℤ) - p)) ∧
      Playback.run pb (.play f l v a :: es.map .update) = .ok s' := by
  obtain ⟨h1, h2⟩ := play_interp _ ht
  obtain ⟨g1, es, g2, g3, g4, g5⟩ := C129_simulation_partial hf hp he k hk n ds t s' (by rw [h2]; exact hv)
    (by rw [h1]; exact zero_mem (by omega)) (by rw [h1]) (by rw [h1]; norm_num) (by rw [h2]; exact hb) h
  refine ⟨g1, es.filter (0 < ·), fun e he => by simpa using (List.mem_filter.1 he).2, ?_, ?_⟩
  · rw [(run_filter es g3 t).2]
    rw [h2] at g4
    exact sum_close v _ ds es g2 g4
  · rw [Playback.run, Playback.step, ht, Res.bind_ok, (run_filter es g3 t).1]
    exact g5

/-- C129: the film of a forward playback stays in the box of its keyframes, in both channels of vectors. -/
theorem C129_box_partial (hf : IsNearest p emin fl) (hp : 1 ≤ p) (he : emin ≤ -p) (e : Env (ι → ℚ) R (ι → ℚ) ℚ) (hs : Sorts e) (mp : e.p.mix = mixFl fl)
    (ms : e.s.mix = mixFl fl) (q : Seq (ι → ℚ) R (ι → ℚ)) (pk : List (KF (ι → ℚ))) (rk : List (KF R)) (sk : List (KF (ι → ℚ))) (hpr : Proper pk rk sk)
    (hpk : pk ≠ []) (or : rk ≠ [] ∨ q.rotationKeys = []) (hsk : sk ≠ []) (fp : FloatKeys p emin pk) (fs : FloatKeys p emin sk) (i : ι)
    (lo hi lo' hi' : ℚ) (wp : Within pk i lo hi) (ws : Within sk i lo' hi') (compose : M → (ι → ℚ) → R → (ι → ℚ) → M) (out0 : (ι → ℚ) × R × (ι → ℚ))
    (m m' : M) (pos scl : M → ι → ℚ) (hpos : ∀ m p r s, pos (compose m p r s) = p) (hscl : ∀ m p r s, scl (compose m p r s) = s)
    (k : ℕ) (hk : k < p) (n : ℕ) (pb : PB ℚ) (f l : ℕ) (v : ℚ) (hv : 0 < v) (a : LArg) (ds : List ℚ) (hd : ∀ d ∈ ds, 0 < d ∧ d * v ≤ 2 ^ k)
    (h : filmFl fl n e compose out0 q pk rk sk pb f l v a ds m = .ok m') :
    (lo ≤ pos m' i ∧ pos m' i ≤ hi) ∧ (lo' ≤ scl m' i ∧ scl m' i ≤ hi') := by
  unfold filmFl at h
  obtain ⟨q1, hq1, h⟩ := Res.bind_eq_ok.1 h
  obtain ⟨t, ht, h⟩ := Res.bind_eq_ok.1 h
  obtain ⟨s', hs', h⟩ := Res.bind_eq_ok.1 h
  obtain ⟨⟨b1, b2, b3⟩, -⟩ := end_state hf hp he hk hv hd ht hs'
  obtain ⟨q', o, hq', ho, c1, c2⟩ := C126_box hf hp he e hs mp ms q pk rk sk hpr hpk or hsk fp fs i lo hi lo' hi' wp ws out0 s'.frame s'.nextFrame
    s'.interpolator b1 b2 b3
  obtain rfl : q1 = q' := Res.ok.inj (hq1.symm.trans hq')
  obtain ⟨kf, hkf⟩ := List.exists_mem_of_ne_nil pk hpk
  obtain ⟨q2, hq2, hh⟩ := C57_actual_partial e hs q pk rk sk hpr ⟨kf.frame, Or.inl ⟨kf, hkf, rfl⟩⟩ (Or.inl hpk) or (Or.inl hsk)
  obtain rfl : q1 = q2 := Res.ok.inj (hq1.symm.trans hq2)
  have hlt : q1.frameBegin < q1.frameEnd := hh.last.2.2 _ hh.first.1
  simp only [animate, interpolateMatrix, if_pos hlt, ho, Res.bind_ok] at h
  rw [← Res.ok.inj h, hpos, hscl]
  exact ⟨c1, c2⟩

theorem mixes_exact : Mixes (mixExact : (ι → ℚ) → (ι → ℚ) → ℚ → (ι → ℚ)) where
  start a b := by funext i; simp [mixExact]
  same a t := by funext i; simp only [mixExact]; ring
  flip a b t := by funext i; simp only [mixExact]; ring

/-- A value of a channel is near the exact one. -/
theorem value_close (hf : IsNearest p emin fl) (hp : 3 ≤ p) (he : emin ≤ -p) {kfs : List (KF (ι → ℚ))} (hd : Distinct kfs) (fp : FloatKeys p emin kfs) (i : ι) (M : ℚ)
    (hM : ∀ a ∈ kfs, |a.key i| ≤ M) {f : ℕ} {v w : ι → ℚ} (hv : Value (mixFl fl) kfs f v) (hw : Value mixExact kfs f w) :
    |v i - w i| ≤ 10 * unit p * M + (2 * M + 1) * 2 ^ emin := by
  obtain ⟨k, hk⟩ : ∃ k, k ∈ kfs := by cases hv <;> exact ⟨_, ‹_ ∈ kfs›⟩
  have hM0 : 0 ≤ M := (abs_nonneg _).trans (hM k hk)
  have hpos : 0 ≤ 10 * unit p * M + (2 * M + 1) * 2 ^ emin := by
    have h1 : 0 < unit p := two_zpow_pos _
    have h2 := two_zpow_pos emin
    positivity
  cases hv with
  | key a ha h => rw [Value.unique hd hw (.key a ha h), sub_self, abs_zero]; exact hpos
  | between a b ha hb g1 g2 hn =>
    rw [Value.unique hd hw (.between a b ha hb g1 g2 hn)]
    refine lerp_error hf.toIsRounding hp he (fp.float a ha i) (fp.float b hb i) (by positivity) ?_ (hM a ha) (hM b hb)
    refine div_le_one_of_le₀ ?_ (by positivity)
    exact_mod_cast (by omega : f - a.frame ≤ b.frame - a.frame)
  | before a ha h hn => rw [Value.unique hd hw (.before a ha h hn), sub_self, abs_zero]; exact hpos
  | after a ha h hn => rw [Value.unique hd hw (.after a ha h hn), sub_self, abs_zero]; exact hpos

/-- The matrix for a state of the playback. -/
theorem animate_core {P S : Type} (e : Env P R S ℚ) {q : Seq P R S} {pk : List (KF P)} {rk : List (KF R)} {sk : List (KF S)} {last : ℕ} (hs : Sorts e) (hpr : Proper pk rk sk)
    (first : HasFrame pk rk sk 0) (hlast : HasFrame pk rk sk last ∧ ∀ f, HasFrame pk rk sk f → f ≤ last) (op : pk ≠ [] ∨ q.positionKeys = [])
    (or : rk ≠ [] ∨ q.rotationKeys = []) (os : sk ≠ [] ∨ q.scaleKeys = []) (compose : M → P → R → S → M) (out0 : P × R × S) (m : M) :
    ∃ q', buildKeys e q pk rk sk = .ok q' ∧ ∀ pb : PB ℚ, ∃ p0 p1 r s, animate e compose out0 q' m pb = .ok (compose m (e.p.mix p0 p1 pb.interpolator) r s) ∧
      ChanValue e.p.mix e.p.init pk (min pb.frame last) p0 ∧ ChanValue e.p.mix e.p.init pk (min pb.nextFrame last) p1 := by
  obtain ⟨q', h1, h2, h3⟩ := C56_build e hs q pk rk sk hpr first op or os
  refine ⟨q', h1, fun pb => ?_⟩
  obtain ⟨p0, p1, r0, r1, s0, s1, g, g1, g2, -⟩ := interpolate_holds e pk rk sk _ q' h3 out0 pb.frame pb.nextFrame pb.interpolator
  have hlt : q'.frameBegin < q'.frameEnd := h3.last.2.2 _ h3.first.1
  have hl : q'.frameEnd - 1 = last := by
    have a := h3.last.2.2 _ hlast.1
    have b := hlast.2 _ h3.last.2.1
    omega
  have hn : ∀ f, nearest q' f - q'.frameBegin + q'.frameBegin = min f last := by
    intro f; unfold Keyframe.Props.nearest; rw [hl, h2]; omega
  rw [hn] at g1 g2
  exact ⟨p0, p1, _, _, by simp only [animate, interpolateMatrix, if_pos hlt, g, Res.bind_ok]; rfl, g1, g2⟩

/-- The film of floats is near the exact film which ends in the same state of the playback. -/
theorem film_end (hf : IsNearest p emin fl) (hp : 3 ≤ p) (he : emin ≤ -p) {e : Env (ι → ℚ) R (ι → ℚ) ℚ} (mp : e.p.mix = mixFl fl)
    {q : Seq (ι → ℚ) R (ι → ℚ)} {pk : List (KF (ι → ℚ))} {rk : List (KF R)} {sk : List (KF (ι → ℚ))} {last : ℕ} (h : Ready (exactEnv e) q pk rk sk last)
    (hpk : pk ≠ []) (fp : FloatKeys p emin pk) (i : ι) (B : ℚ) (hB : ∀ a ∈ pk, |a.key i| ≤ B)
    (compose : M → (ι → ℚ) → R → (ι → ℚ) → M) (out0 : (ι → ℚ) × R × (ι → ℚ)) (m : M) (pos : M → ι → ℚ) (hpos : ∀ m p r s, pos (compose m p r s) = p)
    {pb t s' : PB ℚ} {f l n : ℕ} {v : ℚ} {a : LArg} {ds es : List ℚ} (ht : play pb f l v a = .ok t) (hN : updatesFl fl n t ds = .ok s')
    (b2 : 0 ≤ s'.interpolator) (b3 : s'.interpolator ≤ 1) (e3 : Playback.run pb (.play f l v a :: es.map .update) = .ok s') :
    ∃ m1 m2 : M, filmFl fl n e compose out0 q pk rk sk pb f l v a ds m = .ok m1 ∧
      film (exactEnv e) compose out0 q pk rk sk pb (.play f l v a :: es.map .update) m = .ok m2 ∧
      |pos m1 i - pos m2 i| ≤ 2 * (10 * unit p * B + (2 * B + 1) * 2 ^ emin) := by
  obtain ⟨q1, c1, c2⟩ := animate_core e (q := q) ⟨h.sorts.p, h.sorts.r, h.sorts.s⟩ h.proper h.first h.last h.op h.or h.os compose out0 m
  obtain ⟨q2, d1, d2⟩ := animate_core (exactEnv e) (q := q) h.sorts h.proper h.first h.last h.op h.or h.os compose out0 m
  obtain ⟨p0, p1, r, s, x1, x2, x3⟩ := c2 s'
  obtain ⟨w0, w1, r', s'', y1, y2, y3⟩ := d2 s'
  refine ⟨compose m (e.p.mix p0 p1 s'.interpolator) r s, compose m ((exactEnv e).p.mix w0 w1 s'.interpolator) r' s'', ?_, ?_, ?_⟩
  · simp only [filmFl, c1, ht, hN, Res.bind_ok, x1]
  · simp only [film, d1, e3, Res.bind_ok, y1]
  rw [hpos, hpos]
  rw [mp] at x2 x3 ⊢
  have x2 := chan_value hpk x2
  have x3 := chan_value hpk x3
  have y2 : Value mixExact pk _ w0 := chan_value hpk y2
  have y3 : Value mixExact pk _ w1 := chan_value hpk y3
  have k0 := value_close hf hp he h.proper.dp fp i B hB x2 y2
  have k1 := value_close hf hp he h.proper.dp fp i B hB x3 y3
  have hw : Within pk i (-B) B := fun a ha => abs_le.1 (hB a ha)
  have k2 := lerp_error hf.toIsRounding hp he (value_float hf.toIsRounding fp x2 i) (value_float hf.toIsRounding fp x3 i) b2 b3
    (abs_le.2 (value_within hf (by omega) he fp hw x2)) (abs_le.2 (value_within hf (by omega) he fp hw x3))
  generalize 10 * unit p * B + (2 * B + 1) * 2 ^ emin = A at *
  show |lerpFl fl (p0 i) (p1 i) (fl s'.interpolator) - ((1 - s'.interpolator) * w0 i + s'.interpolator * w1 i)| ≤ 2 * A
  generalize s'.interpolator = t at *
  have k3 : |(1 - t) * (p0 i - w0 i)| ≤ (1 - t) * A := by
    rw [abs_mul, abs_of_nonneg (by linarith : 0 ≤ 1 - t)]
    exact mul_le_mul_of_nonneg_left k0 (by linarith)
  have k4 : |t * (p1 i - w1 i)| ≤ t * A := by
    rw [abs_mul, abs_of_nonneg b2]
    exact mul_le_mul_of_nonneg_left k1 b2
  rw [abs_le] at k2 k3 k4 ⊢
  constructor <;> linarith [k2.1, k2.2, k3.1, k3.2, k4.1, k4.2]

/-- The film of floats is near the exact film with the time steps of the simulation. -/
theorem film_close (hf : IsNearest p emin fl) (hp : 3 ≤ p) (he : emin ≤ -p) {k : ℕ} (hk : k < p) {e : Env (ι → ℚ) R (ι → ℚ) ℚ} (mp : e.p.mix = mixFl fl)
    {q : Seq (ι → ℚ) R (ι → ℚ)} {pk : List (KF (ι → ℚ))} {rk : List (KF R)} {sk : List (KF (ι → ℚ))} {last : ℕ} (h : Ready (exactEnv e) q pk rk sk last)
    (hpk : pk ≠ []) (fp : FloatKeys p emin pk) (i : ι) (B : ℚ) (hB : ∀ a ∈ pk, |a.key i| ≤ B)
    (compose : M → (ι → ℚ) → R → (ι → ℚ) → M) (out0 : (ι → ℚ) × R × (ι → ℚ)) (m : M) (pos : M → ι → ℚ) (hpos : ∀ m p r s, pos (compose m p r s) = p)
    (pb : PB ℚ) (f l : ℕ) (v : ℚ) (hv : 0 < v) (a : LArg) (ha : IterOK (pickListener pb.listener a).kind) (hb : IterOK pb.listener.kind) (ds : List ℚ)
    (hd : ∀ d ∈ ds, 0 < d ∧ d * v ≤ 2 ^ k) :
    ∃ N, ∀ n, N ≤ n → ∃ (m1 m2 : M) (es : List ℚ), filmFl fl n e compose out0 q pk rk sk pb f l v a ds m = .ok m1 ∧ (∀ x ∈ es, 0 < x) ∧
      |es.sum * v - ds.sum * v| ≤ ds.length * (3 / 2 * 2 ^ ((k : ℤ) - p)) ∧
      film (exactEnv e) compose out0 q pk rk sk pb (.play f l v a :: es.map .update) m = .ok m2 ∧
      |pos m1 i - pos m2 i| ≤ 2 * (10 * unit p * B + (2 * B + 1) * 2 ^ emin) := by
  obtain ⟨t, ht, hti⟩ := iterOK_step pb (.play f l v a) hb ha
  have ht : play pb f l v a = .ok t := ht
  obtain ⟨h1, h2⟩ := play_interp _ ht
  obtain ⟨N, s', hN⟩ := updates_return hf (by omega) he k hk ds t hti (by rw [h2]; exact hv) (by rw [h1]; exact zero_mem (by omega)) (by rw [h1])
    (by rw [h1]; norm_num) (by rw [h2]; exact hd)
  refine ⟨N, fun n hn => ?_⟩
  obtain ⟨⟨b1, b2, b3⟩, es, e1, e2, e3⟩ := end_state hf (by omega) he hk hv hd ht (hN n hn)
  obtain ⟨m1, m2, g1, g2, g3⟩ := film_end hf hp he mp h hpk fp i B hB compose out0 m pos hpos ht (hN n hn) b2 b3.le e3
  exact ⟨m1, m2, es, g1, e1, e2, g2, g3⟩

theorem compare {x y z D b c d : ℚ} (h0 : 0 ≤ D) (h1 : |x - z| ≤ c) (h2 : |z - y| ≤ D * d) (h3 : d ≤ b) : |x - y| ≤ D * b + c := by
  have h4 := mul_le_mul_of_nonneg_left h3 h0
  have h5 := abs_sub_le x z y
  linarith

/-- C129: a one-shot film of floats is near the exact film: if consecutive keys differ by at most `D`, by `D` times the drift of the playback, plus the rounding of
the keys and of the interpolation. -/
theorem C129_oneShot_partial (hf : IsNearest p emin fl) (hp : 3 ≤ p) (he : emin ≤ -p) (k : ℕ) (hk : k < p) (e : Env (ι → ℚ) R (ι → ℚ) ℚ) (mp : e.p.mix = mixFl fl)
    (q : Seq (ι → ℚ) R (ι → ℚ)) (pk : List (KF (ι → ℚ))) (rk : List (KF R)) (sk : List (KF (ι → ℚ))) (last : ℕ) (h : Ready (exactEnv e) q pk rk sk last)
    (hpk : pk ≠ []) (fp : FloatKeys p emin pk) (i : ι) (B : ℚ) (hB : ∀ a ∈ pk, |a.key i| ≤ B)
    (compose : M → (ι → ℚ) → R → (ι → ℚ) → M) (out0 : (ι → ℚ) × R × (ι → ℚ)) (m : M) (pos : M → ι → ℚ) (hpos : ∀ m p r s, pos (compose m p r s) = p)
    (D : ℚ) (h0 : 0 ≤ D) (hD : ∀ g < last, ∀ x y, Value mixExact pk g x → Value mixExact pk (g + 1) y → |y i - x i| ≤ D)
    (pb : PB ℚ) (f l : ℕ) (hf' : f < Playback.W) (hl : l < Playback.W) (v : ℚ) (hv : 0 < v) (a : LArg) (hb : IterOK pb.listener.kind)
    (ha : (pickListener pb.listener a).kind = .oneShot) (ds : List ℚ) (hd : ∀ d ∈ ds, 0 < d ∧ d * v ≤ 2 ^ k) :
    ∃ N, ∀ n, N ≤ n → ∃ m1 m2, filmFl fl n e compose out0 q pk rk sk pb f l v a ds m = .ok m1 ∧
      film (exactEnv e) compose out0 q pk rk sk pb (.play f l v a :: ds.map .update) m = .ok m2 ∧
      |pos m1 i - pos m2 i| ≤ D * (ds.length * (3 / 2 * 2 ^ ((k : ℤ) - p))) + 2 * (10 * unit p * B + (2 * B + 1) * 2 ^ emin) := by
  obtain ⟨N, hN⟩ := film_close hf hp he hk mp h hpk fp i B hB compose out0 m pos hpos pb f l v hv a (by rw [ha]; trivial) hb ds hd
  refine ⟨N, fun n hn => ?_⟩
  obtain ⟨m1, m2, es, g1, g2, g3, g4, g5⟩ := hN n hn
  obtain ⟨y1, y2, j1, j2, j3⟩ := C94_no_jump_oneShot h compose out0 m pos hpos (fun x => x i) (fun a b t => by simp only [exactEnv, mixExact]; ring) D h0
    (fun g hg x y hx hy => hD g hg x y (chan_value hpk hx) (chan_value hpk hy)) pb f l hf' hl v hv.le a ha ds es (fun d h => (hd d h).1) g2
  obtain rfl : m2 = y2 := Res.ok.inj (g4.symm.trans j2)
  exact ⟨m1, y1, g1, j1, compare h0 g5 j3 g3⟩

/-- C129: the same for ping-pong films. -/
theorem C129_pingPong_partial (hf : IsNearest p emin fl) (hp : 3 ≤ p) (he : emin ≤ -p) (k : ℕ) (hk : k < p) (e : Env (ι → ℚ) R (ι → ℚ) ℚ) (mp : e.p.mix = mixFl fl)
    (q : Seq (ι → ℚ) R (ι → ℚ)) (pk : List (KF (ι → ℚ))) (rk : List (KF R)) (sk : List (KF (ι → ℚ))) (last : ℕ) (h : Ready (exactEnv e) q pk rk sk last)
    (hpk : pk ≠ []) (fp : FloatKeys p emin pk) (i : ι) (B : ℚ) (hB : ∀ a ∈ pk, |a.key i| ≤ B)
    (compose : M → (ι → ℚ) → R → (ι → ℚ) → M) (out0 : (ι → ℚ) × R × (ι → ℚ)) (m : M) (pos : M → ι → ℚ) (hpos : ∀ m p r s, pos (compose m p r s) = p)
    (D : ℚ) (h0 : 0 ≤ D) (hD : ∀ g < last, ∀ x y, Value mixExact pk g x → Value mixExact pk (g + 1) y → |y i - x i| ≤ D)
    (pb : PB ℚ) (f l : ℕ) (hf' : f < Playback.W) (hl : l < Playback.W) (v : ℚ) (hv : 0 < v) (a : LArg) (hb : IterOK pb.listener.kind)
    (hne : f ≠ l) (ha : (pickListener pb.listener a).kind = .pingPong) (ds : List ℚ) (hd : ∀ d ∈ ds, 0 < d ∧ d * v ≤ 2 ^ k) :
    ∃ N, ∀ n, N ≤ n → ∃ m1 m2, filmFl fl n e compose out0 q pk rk sk pb f l v a ds m = .ok m1 ∧
      film (exactEnv e) compose out0 q pk rk sk pb (.play f l v a :: ds.map .update) m = .ok m2 ∧
      |pos m1 i - pos m2 i| ≤ D * (ds.length * (3 / 2 * 2 ^ ((k : ℤ) - p))) + 2 * (10 * unit p * B + (2 * B + 1) * 2 ^ emin) := by
  obtain ⟨N, hN⟩ := film_close hf hp he hk mp h hpk fp i B hB compose out0 m pos hpos pb f l v hv a (by rw [ha]; trivial) hb ds hd
  refine ⟨N, fun n hn => ?_⟩
  obtain ⟨m1, m2, es, g1, g2, g3, g4, g5⟩ := hN n hn
  obtain ⟨y1, y2, j1, j2, j3⟩ := C94_no_jump_pingPong h compose out0 m pos hpos (fun x => x i) (fun a b t => by simp only [exactEnv, mixExact]; ring) D h0
    (fun g hg x y hx hy => hD g hg x y (chan_value hpk hx) (chan_value hpk hy)) pb f l hf' hl hne v hv.le a ha ds es (fun d h => (hd d h).1) g2
  obtain rfl : m2 = y2 := Res.ok.inj (g4.symm.trans j2)
  exact ⟨m1, y1, g1, j1, compare h0 g5 j3 g3⟩

/-- C129: the same for loops, if also the last and the first key of the loop differ by at most `D`. -/
theorem C129_loop_partial (hf : IsNearest p emin fl) (hp : 3 ≤ p) (he : emin ≤ -p) (k : ℕ) (hk : k < p) (e : Env (ι → ℚ) R (ι → ℚ) ℚ) (mp : e.p.mix = mixFl fl)
    (q : Seq (ι → ℚ) R (ι → ℚ)) (pk : List (KF (ι → ℚ))) (rk : List (KF R)) (sk : List (KF (ι → ℚ))) (last : ℕ) (h : Ready (exactEnv e) q pk rk sk last)
    (hpk : pk ≠ []) (fp : FloatKeys p emin pk) (i : ι) (B : ℚ) (hB : ∀ a ∈ pk, |a.key i| ≤ B)
    (compose : M → (ι → ℚ) → R → (ι → ℚ) → M) (out0 : (ι → ℚ) × R × (ι → ℚ)) (m : M) (pos : M → ι → ℚ) (hpos : ∀ m p r s, pos (compose m p r s) = p)
    (D : ℚ) (h0 : 0 ≤ D) (hD : ∀ g < last, ∀ x y, Value mixExact pk g x → Value mixExact pk (g + 1) y → |y i - x i| ≤ D)
    (pb : PB ℚ) (f l : ℕ) (hf' : f < Playback.W) (hl : l < Playback.W) (v : ℚ) (hv : 0 < v) (a : LArg) (hb : IterOK pb.listener.kind)
    (hD' : ∀ x y, Value mixExact pk (min l last) x → Value mixExact pk (min f last) y → |y i - x i| ≤ D) (ha : (pickListener pb.listener a).kind = .loop) (ds : List ℚ) (hd : ∀ d ∈ ds, 0 < d ∧ d * v ≤ 2 ^ k) :
    ∃ N, ∀ n, N ≤ n → ∃ m1 m2, filmFl fl n e compose out0 q pk rk sk pb f l v a ds m = .ok m1 ∧
      film (exactEnv e) compose out0 q pk rk sk pb (.play f l v a :: ds.map .update) m = .ok m2 ∧
      |pos m1 i - pos m2 i| ≤ D * (ds.length * (3 / 2 * 2 ^ ((k : ℤ) - p))) + 2 * (10 * unit p * B + (2 * B + 1) * 2 ^ emin) := by
  obtain ⟨N, hN⟩ := film_close hf hp he hk mp h hpk fp i B hB compose out0 m pos hpos pb f l v hv a (by rw [ha]; trivial) hb ds hd
  refine ⟨N, fun n hn => ?_⟩
  obtain ⟨m1, m2, es, g1, g2, g3, g4, g5⟩ := hN n hn
  obtain ⟨y1, y2, j1, j2, j3⟩ := C94_no_jump_loop h compose out0 m pos hpos (fun x => x i) (fun a b t => by simp only [exactEnv, mixExact]; ring) D h0
    (fun g hg x y hx hy => hD g hg x y (chan_value hpk hx) (chan_value hpk hy)) pb f l hf' hl (fun x y hx hy => hD' x y (chan_value hpk hx) (chan_value hpk hy)) v hv.le a ha ds es (fun d h => (hd d h).1) g2
  obtain rfl : m2 = y2 := Res.ok.inj (g4.symm.trans j2)
  exact ⟨m1, y1, g1, j1, compare h0 g5 j3 g3⟩

/-- C129: the same for list loops, if any two frames which are shown one after another differ by at most `D`. -/
theorem C129_list_partial (hf : IsNearest p emin fl) (hp : 3 ≤ p) (he : emin ≤ -p) (k : ℕ) (hk : k < p) (e : Env (ι → ℚ) R (ι → ℚ) ℚ) (mp : e.p.mix = mixFl fl)
    (q : Seq (ι → ℚ) R (ι → ℚ)) (pk : List (KF (ι → ℚ))) (rk : List (KF R)) (sk : List (KF (ι → ℚ))) (last : ℕ) (h : Ready (exactEnv e) q pk rk sk last)
    (hpk : pk ≠ []) (fp : FloatKeys p emin pk) (i : ι) (B : ℚ) (hB : ∀ a ∈ pk, |a.key i| ≤ B)
    (compose : M → (ι → ℚ) → R → (ι → ℚ) → M) (out0 : (ι → ℚ) × R × (ι → ℚ)) (m : M) (pos : M → ι → ℚ) (hpos : ∀ m p r s, pos (compose m p r s) = p)
    (D : ℚ) (h0 : 0 ≤ D) (pb : PB ℚ) (f l : ℕ) (fs : List ℕ) (hlen : 2 ≤ fs.length)
    (hD : ∀ j x y, Value mixExact pk (min (if j = 0 then f else fs.getD (j % fs.length) 0) last) x →
      Value mixExact pk (min (fs.getD ((j + 1) % fs.length) 0) last) y → |y i - x i| ≤ D)
    (v : ℚ) (hv : 0 < v) (id : ℕ) (hb : IterOK pb.listener.kind) (ds : List ℚ) (hd : ∀ d ∈ ds, 0 < d ∧ d * v ≤ 2 ^ k) :
    ∃ N, ∀ n, N ≤ n → ∃ m1 m2, filmFl fl n e compose out0 q pk rk sk pb f l v (.other ⟨id, .listLoop fs 0⟩) ds m = .ok m1 ∧
      film (exactEnv e) compose out0 q pk rk sk pb (.play f l v (.other ⟨id, .listLoop fs 0⟩) :: ds.map .update) m = .ok m2 ∧
      |pos m1 i - pos m2 i| ≤ D * (ds.length * (3 / 2 * 2 ^ ((k : ℤ) - p))) + 2 * (10 * unit p * B + (2 * B + 1) * 2 ^ emin) := by
  obtain ⟨N, hN⟩ := film_close hf hp he hk mp h hpk fp i B hB compose out0 m pos hpos pb f l v hv (.other ⟨id, .listLoop fs 0⟩) (Nat.zero_le _) hb ds hd
  refine ⟨N, fun n hn => ?_⟩
  obtain ⟨m1, m2, es, g1, g2, g3, g4, g5⟩ := hN n hn
  have nn : ∀ l : List ℚ, (∀ d ∈ l, 0 < d) → 0 ≤ l.sum * v := fun l hl => mul_nonneg (List.sum_nonneg fun d hd => (hl d hd).le) hv.le
  obtain ⟨y1, y2, j1, j2, j3⟩ := no_jump h compose pos hpos (fun x => x i) (fun a b t => by simp only [exactEnv, mixExact]; ring) _ (D := D)
    (fun j x y hx hy => hD j x y (chan_value hpk hx) (by simpa [exactEnv] using chan_value hpk hy))
    (nn _ fun d h => (hd d h).1) (nn _ g2) (C94_list h compose out0 m pb fs hlen f l v hv.le id ds fun d h => (hd d h).1)
    (C94_list h compose out0 m pb fs hlen f l v hv.le id es g2)
  obtain rfl : m2 = y2 := Res.ok.inj (g4.symm.trans j2)
  exact ⟨m1, y1, g1, j1, compare h0 g5 j3 g3⟩

/-- C129: backwards, a film leaves the box of its keyframes: after two frames of a loop with speed -1 between the keys `-2 ^ 26` and 5 it shows 8. -/
theorem C129_box_refuted (hf : IsNearest 24 (-149) fl) (e : Env (Fin 3 → ℚ) R (Fin 3 → ℚ) ℚ) (hs : Sorts e) (mp : e.p.mix = mixFl fl)
    (compose : M → (Fin 3 → ℚ) → R → (Fin 3 → ℚ) → M) (out0 : (Fin 3 → ℚ) × R × (Fin 3 → ℚ)) (m : M) (pos : M → Fin 3 → ℚ)
    (hpos : ∀ m p r s, pos (compose m p r s) = p) (i : Fin 3) :
    Within (far 5) i (-67108864) 5 ∧ ∃ m', filmFl fl 2 e compose out0 Keyframe.init (far 5) [] [] Playback.init 0 1 (-1) (.other ⟨1, .loop⟩) [1, 1] m = .ok m' ∧ pos m' i = 8 := by
  obtain ⟨-, -, -, q', o, h1, -, h2, h3⟩ := C126_end_refuted hf e hs mp out0
  have f0 : fl 0 = 0 := hf.fix 0 ⟨0, 0, by norm_num, by norm_num, by norm_num⟩
  have f1 : fl 1 = 1 := hf.fix 1 ⟨1, 0, by norm_num, by norm_num, by norm_num⟩
  have fm : fl (-1) = -1 := hf.fix (-1) ⟨-1, 0, by norm_num, by norm_num, by norm_num⟩
  refine ⟨?_, ?_⟩
  · intro a ha
    simp only [far, List.mem_cons, List.not_mem_nil, or_false] at ha
    rcases ha with rfl | rfl <;> norm_num
  · have hst : ∃ s : PB ℚ, ((play (Playback.init : PB ℚ) 0 1 (-1) (.other ⟨1, .loop⟩)).bind fun s => updatesFl fl 2 s [1, 1]) = .ok s ∧ s.frame = 0 ∧ s.nextFrame = 1 ∧
        s.interpolator = 1 := by
      simp (decide := true) [Playback.init, play, stop, setState, pickListener, postNextFrame, onNextFrame, hasEndReached, areFramesChrono, setNextFrame, setNextFrameTo, post,
        dec, updatesFl, updateFl, bodyBackwardFl, whileFuel, isForward, f0, f1, fm, Res.bind]
    obtain ⟨s, g1, g2, g3, g4⟩ := hst
    obtain ⟨t, ht, hu⟩ := Res.bind_eq_ok.1 g1
    have hlt : q'.frameBegin < q'.frameEnd := by
      obtain ⟨q2, hq2, hh⟩ := C57_actual_partial e hs Keyframe.init (far 5) [] [] (far_proper 5) ⟨0, Or.inl ⟨⟨fun _ => -67108864, 0⟩, by simp [far], rfl⟩⟩ (Or.inr rfl) (Or.inr rfl) (Or.inr rfl)
      obtain rfl : q' = q2 := Res.ok.inj (h1.symm.trans hq2)
      exact hh.last.2.2 _ hh.first.1
    refine ⟨compose m o.1 o.2.1 o.2.2, ?_, by rw [hpos]; exact h3 i⟩
    simp only [filmFl, h1, ht, hu, Res.bind_ok, animate, interpolateMatrix, if_pos hlt, g2, g3, g4, h2]

/-! ### The hypotheses are met -/

theorem far_ready : Ready (exactEnv (envFl (Float.nearest 24 (-149)))) Keyframe.init (far 3) [] [] 1 where
  sorts := ⟨sortEx_isSort, sortEx_isSort, sortEx_isSort⟩
  proper := far_proper 3
  first := Or.inl ⟨⟨fun _ => -67108864, 0⟩, by simp [far], rfl⟩
  last := ⟨Or.inl ⟨⟨fun _ => 3, 1⟩, by simp [far], rfl⟩, fun f hf => by simp [HasFrame, far] at hf; omega⟩
  op := Or.inr rfl
  or := Or.inr rfl
  os := Or.inr rfl
  mp := mixes_exact
  mr := ⟨fun a b => by simp [exactEnv, envFl], fun a t => by simp [exactEnv, envFl], fun a b t => by simp [exactEnv, envFl]; ring⟩
  ms := mixes_exact

theorem far_value {f : ℕ} {x : Fin 3 → ℚ} (h : Value mixExact (far 3) f x) : -67108864 ≤ x 0 ∧ x 0 ≤ 3 := by
  have key : ∀ a ∈ far 3, (-67108864 ≤ a.key 0 ∧ a.key 0 ≤ 3) ∧ a.frame < 2 := by
    intro a ha
    simp only [far, List.mem_cons, List.not_mem_nil, or_false] at ha
    rcases ha with rfl | rfl <;> norm_num
  cases h with
  | key a ha h => exact (key a ha).1
  | between a b ha hb h1 h2 hn => have := (key b hb).2; omega
  | before a ha h hn => exact (key a ha).1
  | after a ha h hn => exact (key a ha).1

theorem far_jump {f g : ℕ} {x y : Fin 3 → ℚ} (hx : Value mixExact (far 3) f x) (hy : Value mixExact (far 3) g y) : |y 0 - x 0| ≤ 67108867 := by
  have h1 := far_value hx
  have h2 := far_value hy
  rw [abs_le]
  constructor <;> linarith

theorem far_abs : ∀ a ∈ far 3, |a.key 0| ≤ 67108864 := by
  intro a ha
  simp only [far, List.mem_cons, List.not_mem_nil, or_false] at ha
  rcases ha with rfl | rfl <;> norm_num [abs_le]

example := C129_box_partial (nearest_isNearest (p := 24) (emin := -149) (by norm_num)) (by norm_num) (by norm_num) (envFl (Float.nearest 24 (-149))) (envFl_sorts _) rfl rfl Keyframe.init (far 3) [] (far 3)
  far_both (by simp [far]) (Or.inr rfl) (by simp [far]) far3 far3 0 (-67108864) 3 (-67108864) 3 far_within far_within
  (fun (_ : (Fin 3 → ℚ) × ℚ × (Fin 3 → ℚ)) p r s => (p, r, s)) (0, 1, 1) (0, 1, 1)

example := C129_oneShot_partial (nearest_isNearest (p := 24) (emin := -149) (by norm_num)) (by norm_num) (by norm_num) 3 (by norm_num) (envFl (Float.nearest 24 (-149))) rfl Keyframe.init (far 3) [] [] 1 far_ready
  (by simp [far]) far3 0 67108864 far_abs (fun (_ : (Fin 3 → ℚ) × ℚ × (Fin 3 → ℚ)) p r s => (p, r, s)) (0, 1, 1) (0, 1, 1) (fun m => m.1) (fun _ _ _ _ => rfl)
  67108867 (by norm_num) (fun _ _ _ _ hx hy => far_jump hx hy) Playback.init 0 1 (by norm_num [Playback.W]) (by norm_num [Playback.W]) (5 / 2) (by norm_num)
  (.other ⟨1, .oneShot⟩) trivial rfl [1, 1 / 4, 1 / 4] (by norm_num)

example := C129_pingPong_partial (nearest_isNearest (p := 24) (emin := -149) (by norm_num)) (by norm_num) (by norm_num) 3 (by norm_num) (envFl (Float.nearest 24 (-149))) rfl Keyframe.init (far 3) [] [] 1 far_ready
  (by simp [far]) far3 0 67108864 far_abs (fun (_ : (Fin 3 → ℚ) × ℚ × (Fin 3 → ℚ)) p r s => (p, r, s)) (0, 1, 1) (0, 1, 1) (fun m => m.1) (fun _ _ _ _ => rfl)
  67108867 (by norm_num) (fun _ _ _ _ hx hy => far_jump hx hy) Playback.init 0 1 (by norm_num [Playback.W]) (by norm_num [Playback.W]) (5 / 2) (by norm_num)
  (.other ⟨1, .pingPong⟩) trivial (by norm_num) rfl [1, 1 / 4, 1 / 4] (by norm_num)

example := C129_loop_partial (nearest_isNearest (p := 24) (emin := -149) (by norm_num)) (by norm_num) (by norm_num) 3 (by norm_num) (envFl (Float.nearest 24 (-149))) rfl Keyframe.init (far 3) [] [] 1 far_ready
  (by simp [far]) far3 0 67108864 far_abs (fun (_ : (Fin 3 → ℚ) × ℚ × (Fin 3 → ℚ)) p r s => (p, r, s)) (0, 1, 1) (0, 1, 1) (fun m => m.1) (fun _ _ _ _ => rfl)
  67108867 (by norm_num) (fun _ _ _ _ hx hy => far_jump hx hy) Playback.init 0 1 (by norm_num [Playback.W]) (by norm_num [Playback.W]) (5 / 2) (by norm_num)
  (.other ⟨1, .loop⟩) trivial (fun _ _ hx hy => far_jump hx hy) rfl [1, 1 / 4, 1 / 4] (by norm_num)

example := C129_list_partial (nearest_isNearest (p := 24) (emin := -149) (by norm_num)) (by norm_num) (by norm_num) 3 (by norm_num) (envFl (Float.nearest 24 (-149))) rfl Keyframe.init (far 3) [] [] 1 far_ready
  (by simp [far]) far3 0 67108864 far_abs (fun (_ : (Fin 3 → ℚ) × ℚ × (Fin 3 → ℚ)) p r s => (p, r, s)) (0, 1, 1) (0, 1, 1) (fun m => m.1) (fun _ _ _ _ => rfl)
  67108867 (by norm_num) Playback.init 0 1 [1, 0, 0] (by norm_num) (fun _ _ _ hx hy => far_jump hx hy) (5 / 2) (by norm_num) 1 trivial [1, 1 / 4, 1 / 4] (by norm_num)

example := C129_box_refuted (nearest_isNearest (p := 24) (emin := -149) (by norm_num)) (envFl (Float.nearest 24 (-149))) (envFl_sorts _) rfl
  (fun (_ : (Fin 3 → ℚ) × ℚ × (Fin 3 → ℚ)) p r s => (p, r, s)) (0, 1, 1) (0, 1, 1) (fun m => m.1) (fun _ _ _ _ => rfl) 0

/-- The playback of the simulation. -/
example := Playback.Props.C129_simulation_partial (nearest_isNearest (p := 24) (emin := -149) (by norm_num)) (by norm_num) (by norm_num) 3 (by norm_num) 10 [1, 1 / 4, 1 / 4]
  { (Playback.init : PB ℚ) with state := .playing, speed := 5 / 2, lastFrame := 9, nextFrame := 1 }

end Geom.Animation.Props
