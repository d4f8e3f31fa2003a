import Verif.Model.Bezier
import Verif.Spec.Bezier
import Mathlib.Algebra.BigOperators.Intervals
import Mathlib.Algebra.BigOperators.Module
import Mathlib.Data.Nat.Choose.Factorization
import Mathlib.Data.Nat.Choose.Sum
import Mathlib.Data.List.GetD
import Mathlib.Tactic.FieldSimp
import Mathlib.Tactic.Module
import Mathlib.Tactic.IntervalCases
import Mathlib.Analysis.Convex.Combination

/-
  C70, C71: Bezier curves. C72: patches. C73: triangles.
-/
set_option autoImplicit false
set_option linter.unusedSectionVars false

namespace Geom.Bezier
open Spec Finset

variable {K V : Type} [Field K] [AddCommGroup V] [Module K V]

/-! Loops. -/

/-- A loop whose iteration `k` is undefined. -/
theorem loop32_ub {S : Type} (body : ℕ → S → Res S) (cont : ℕ → Bool) (st : ℕ → S) (n : ℕ) (hn : n < 2 ^ 32) (hc : cont n = true) (hu : body n (st n) = .ub) :
    ∀ (d fuel lo : ℕ), lo + d = n → d < fuel → (∀ i, lo ≤ i → i < n → cont i = true ∧ body i (st i) = .ok (st (i + 1))) →
      loop32 body cont fuel lo (st lo) = .ub := by
  intro d
  induction d with
  | zero =>
    intro fuel lo h hf _
    obtain ⟨k, rfl⟩ := Nat.exists_eq_succ_of_ne_zero (Nat.pos_iff_ne_zero.1 hf)
    simp only [Nat.add_zero] at h
    subst h
    simp [loop32, hc, hu]
  | succ d ih =>
    intro fuel lo h hf hb
    obtain ⟨k, rfl⟩ := Nat.exists_eq_succ_of_ne_zero (show fuel ≠ 0 by omega)
    obtain ⟨h1, h2⟩ := hb lo (le_refl _) (by omega)
    simp only [loop32]
    rw [if_pos h1, h2]
    simp only [Res.bind]
    rw [w32_of_lt (by omega)]
    exact ih k (lo + 1) (by omega) (by omega) (fun i hi hi' => hb i (by omega) hi')

theorem forLt_ub {S : Type} (hi k : ℕ) (body : ℕ → S → Res S) (st : ℕ → S) (hk : k < hi) (h2 : hi < 2 ^ 32)
    (hb : ∀ i, i < k → body i (st i) = .ok (st (i + 1))) (hu : body k (st k) = .ub) : forLt 0 hi body (st 0) = .ub := by
  refine loop32_ub body _ st k (by omega) (decide_eq_true hk) hu k fuel32 0 (by omega) (by unfold fuel32; omega) fun i _ hi2 => ?_
  exact ⟨decide_eq_true (by omega), hb i hi2⟩

/-! Weights. -/

/-- The weights of Bernstein. -/
def wt (t : K) (r k : ℕ) : K := (r.choose k : K) * t ^ k * (1 - t) ^ (r - k)

theorem wt_zero (t : K) (r : ℕ) : wt t (r + 1) 0 = (1 - t) * wt t r 0 := by
  simp only [wt, Nat.choose_zero_right, Nat.sub_zero, pow_succ]; ring

theorem wt_succ (t : K) (r k : ℕ) : wt t (r + 1) (k + 1) = t * wt t r k + (1 - t) * wt t r (k + 1) := by
  simp only [wt, Nat.choose_succ_succ, Nat.succ_eq_add_one, Nat.add_sub_add_right, Nat.cast_add]
  rcases Nat.lt_or_ge k r with h | h
  · rw [show r - k = (r - (k + 1)) + 1 by omega]
    ring
  · rw [Nat.choose_eq_zero_of_lt (show r < k + 1 by omega)]
    simp
    ring

theorem wt_last (t : K) (r : ℕ) : wt t r (r + 1) = 0 := by simp [wt]

theorem casteljau_eq (t : K) (p : ℕ → V) (r i : ℕ) : casteljau t p r i = ∑ k ∈ range (r + 1), wt t r k • p (i + k) := by
  induction r generalizing i with
  | zero => simp [casteljau, wt]
  | succ r ih =>
    rw [casteljau, ih, ih]
    have e1 : ∑ k ∈ range (r + 1), wt t r k • p (i + k) = ∑ k ∈ range (r + 1), wt t r (k + 1) • p (i + (k + 1)) + wt t r 0 • p (i + 0) := by
      rw [← sum_range_succ' (fun k => wt t r k • p (i + k)), sum_range_succ _ (r + 1), wt_last, zero_smul, add_zero]
    rw [e1, sum_range_succ' (fun k => wt t (r + 1) k • p (i + k)), wt_zero, smul_add, smul_sum, smul_sum, add_right_comm, ← sum_add_distrib, smul_smul]
    congr 1
    refine sum_congr rfl fun k _ => ?_
    rw [wt_succ, add_smul, ← smul_smul, ← smul_smul, add_comm, show i + 1 + k = i + (k + 1) by omega]

/-! 64-bit arithmetic. -/

theorem factorial64_eq (n : ℕ) : factorial64 n = n.factorial % 2 ^ 64 := by
  induction n with
  | zero => decide
  | succ n ih =>
    rw [factorial64]
    split_ifs with h
    · have : n = 0 := by omega
      subst this
      decide
    · rw [w64, ih, Nat.factorial_succ, Nat.mul_mod, Nat.mod_mod, ← Nat.mul_mod]

theorem factorial_lt {n : ℕ} (h : n ≤ 20) : n.factorial < 2 ^ 64 :=
  (Nat.factorial_le h).trans_lt (by decide +kernel)

theorem binomial64_ok {i n : ℕ} (hi : i ≤ n) (hn : n ≤ 20) : binomial64 i n = .ok (n.choose i) := by
  have h := Nat.choose_mul_factorial_mul_factorial hi
  have hlt := factorial_lt hn
  have hc := Nat.choose_pos hi
  have hle : i.factorial * (n - i).factorial ≤ n.factorial := by
    rw [← h, Nat.mul_assoc]
    exact Nat.le_mul_of_pos_left _ hc
  have hp : 0 < i.factorial * (n - i).factorial := Nat.mul_pos (Nat.factorial_pos _) (Nat.factorial_pos _)
  simp only [binomial64, factorial64_eq, w64]
  rw [Nat.mod_eq_of_lt (factorial_lt (by omega)), Nat.mod_eq_of_lt (factorial_lt (show n - i ≤ 20 by omega)), Nat.mod_eq_of_lt (factorial_lt hn),
    Nat.mod_eq_of_lt (by omega), if_neg (by omega)]
  congr 1
  rw [← h, Nat.mul_assoc, Nat.mul_div_cancel _ hp]

theorem bernstein_ok (t : K) {i n : ℕ} (hi : i ≤ n) (h1 : 1 ≤ n) (hn : n ≤ 20) : bernstein t i n = .ok (wt t n i) := by
  rw [bernstein, if_pos ⟨hi, h1⟩, binomial64_ok hi hn]
  rfl

theorem binomial64_cases (i n : ℕ) : binomial64 i n = .ub ∨ ∃ c, binomial64 i n = .ok c := by
  simp only [binomial64]
  split_ifs
  · exact .inl rfl
  · exact .inr ⟨_, rfl⟩

/-! Curves. -/

theorem evaluate_ok (ps : List V) (t : K) (m : ℕ) (hm : ps.length = m + 1) (h32 : m + 1 < 2 ^ 32) (b : ℕ → K) (hb : ∀ i ≤ m, bernstein t i m = .ok (b i)) :
    evaluate ps t = .ok (∑ i ∈ range (m + 1), b i • ps.getD i 0) := by
  have e : w32 (m + 1 + 2 ^ 32 - 1) = m := by unfold w32; omega
  simp only [evaluate, hm, w32_of_lt h32, e]
  refine forLt_ok 0 (m + 1) _ (fun k => ∑ i ∈ range k, b i • ps.getD i 0) (by omega) h32 fun i _ hi => ?_
  rw [hb i (by omega), Res.bind_ok, sum_range_succ]

theorem evaluate_ub (ps : List V) (t : K) (m k : ℕ) (hm : ps.length = m + 1) (h32 : m + 1 < 2 ^ 32) (hk : k ≤ m) (b : ℕ → K) (hb : ∀ i < k, bernstein t i m = .ok (b i))
    (hu : bernstein t k m = .ub) : evaluate ps t = .ub := by
  have e : w32 (m + 1 + 2 ^ 32 - 1) = m := by unfold w32; omega
  simp only [evaluate, hm, w32_of_lt h32, e]
  refine forLt_ub (m + 1) k _ (fun k => ∑ i ∈ range k, b i • ps.getD i 0) (by omega) h32 (fun i hi => ?_) ?_
  · rw [hb i hi, Res.bind_ok, sum_range_succ]
  · rw [hu]; rfl

/-- C70: for 2 to 21 control points the evaluation is defined and gives the point of the construction of de Casteljau, for each parameter. -/
theorem C70_casteljau (ps : List V) (t : K) (h2 : 2 ≤ ps.length) (h21 : ps.length ≤ 21) : evaluate ps t = .ok (curve ps t) := by
  obtain ⟨m, hm⟩ : ∃ m, ps.length = m + 1 := ⟨ps.length - 1, by omega⟩
  rw [evaluate_ok ps t m hm (by omega) (wt t m) fun i hi => bernstein_ok t hi (by omega) (by omega), curve, casteljau_eq]
  simp only [hm, Nat.add_sub_cancel, Nat.zero_add]

/-- C70: the weights of 2 to 21 control points have the sum one. -/
theorem C70_sum (t : K) (n : ℕ) (h1 : 1 ≤ n) (h20 : n ≤ 20) : ∃ b : ℕ → K, (∀ i ≤ n, bernstein t i n = .ok (b i)) ∧ ∑ i ∈ range (n + 1), b i = 1 := by
  refine ⟨wt t n, fun i hi => bernstein_ok t hi h1 h20, ?_⟩
  have := add_pow t (1 - t) n
  rw [show t + (1 - t) = 1 by ring, one_pow] at this
  rw [this]
  exact sum_congr rfl fun i _ => by simp only [wt]; ring

example : ∃ b : ℕ → ℚ, (∀ i ≤ 20, bernstein (1 / 3 : ℚ) i 20 = .ok (b i)) ∧ ∑ i ∈ range 21, b i = 1 := C70_sum _ _ (by norm_num) (by norm_num)

/-- C70: at the ends of the parameter range the curve passes through the first and the last control point. -/
theorem C70_ends (ps : List V) (h2 : 2 ≤ ps.length) (h21 : ps.length ≤ 21) :
    evaluate ps (0 : K) = .ok (ps.head (by rintro rfl; simp at h2)) ∧ evaluate ps (1 : K) = .ok (ps.getLast (by rintro rfl; simp at h2)) := by
  obtain ⟨m, hm⟩ : ∃ m, ps.length = m + 1 := ⟨ps.length - 1, by omega⟩
  have c0 : ∀ r i (p : ℕ → V), casteljau (0 : K) p r i = p i := by
    intro r
    induction r with
    | zero => intros; rfl
    | succ r ih => intro i p; simp [casteljau, ih]
  have c1 : ∀ r i (p : ℕ → V), casteljau (1 : K) p r i = p (i + r) := by
    intro r
    induction r with
    | zero => intros; rfl
    | succ r ih => intro i p; simp only [casteljau, sub_self, zero_smul, zero_add, one_smul, ih]; congr 1; omega
  rw [C70_casteljau _ _ h2 h21, C70_casteljau _ _ h2 h21, curve, curve, c0, c1]
  constructor
  · rw [List.getD_eq_getElem _ _ (by omega), List.head_eq_getElem]
  · rw [List.getD_eq_getElem _ _ (by omega), List.getLast_eq_getElem]
    simp

example : evaluate [(7 : ℚ), 1, 4] (0 : ℚ) = .ok 7 := (C70_ends _ (by decide) (by decide)).1

section ordered
variable [LinearOrder K] [IsStrictOrderedRing K]

theorem casteljau_mem {t : K} (h0 : 0 ≤ t) (h1 : t ≤ 1) {s : Set V} (hs : Convex K s) (p : ℕ → V) (r i : ℕ) (hp : ∀ k ≤ r, p (i + k) ∈ s) : casteljau t p r i ∈ s := by
  induction r generalizing i with
  | zero => exact hp 0 (le_refl _)
  | succ r ih =>
    refine hs (ih i fun k hk => hp k (by omega)) (ih (i + 1) fun k hk => ?_) (by linarith) h0 (by ring)
    rw [show i + 1 + k = i + (k + 1) by omega]
    exact hp (k + 1) (by omega)

/-- C70: for parameters in [0, 1] the weights are not negative. -/
theorem C70_nonneg (t : K) (n i : ℕ) (hi : i ≤ n) (h1 : 1 ≤ n) (h20 : n ≤ 20) (h0 : 0 ≤ t) (ht : t ≤ 1) : ∃ b : K, bernstein t i n = .ok b ∧ 0 ≤ b := by
  have : 0 ≤ 1 - t := sub_nonneg.2 ht
  refine ⟨wt t n i, bernstein_ok t hi h1 h20, ?_⟩
  unfold wt
  positivity

example : ∃ b : ℚ, bernstein (1 / 3 : ℚ) 7 20 = .ok b ∧ 0 ≤ b := C70_nonneg _ _ _ (by norm_num) (by norm_num) (by norm_num) (by norm_num) (by norm_num)

/-- C70: for parameters in [0, 1] the curve stays in the convex hull of its control points. -/
theorem C70_hull (ps : List V) (t : K) (h2 : 2 ≤ ps.length) (h21 : ps.length ≤ 21) (h0 : 0 ≤ t) (h1 : t ≤ 1) :
    ∃ q, evaluate ps t = .ok q ∧ q ∈ convexHull K {p | p ∈ ps} := by
  refine ⟨_, C70_casteljau ps t h2 h21, casteljau_mem h0 h1 (convex_convexHull K _) _ _ _ fun k hk => subset_convexHull K _ ?_⟩
  rw [Nat.zero_add, List.getD_eq_getElem _ _ (by omega)]
  exact List.getElem_mem _

end ordered

example : evaluate [(0 : ℚ), 1, 4] (1 / 2 : ℚ) = .ok (3 / 2) := by
  rw [C70_casteljau _ _ (by decide) (by decide)]
  norm_num [curve, casteljau]

/-! C71. -/

/-- C71 is violated by curves with one control point: the result is the zero vector, not the point. -/
theorem C71_single_refuted (p : V) (t : K) : evaluate [p] t = .ok 0 := by
  rw [evaluate_ok [p] t 0 rfl (by norm_num) (fun _ => 0) fun i hi => by simp [bernstein]]
  simp

theorem factorial64_zero {n : ℕ} (h : 66 ≤ n) : factorial64 n = 0 := by
  rw [factorial64_eq]
  have : 2 ^ 64 ∣ (66).factorial := by decide +kernel
  exact Nat.mod_eq_zero_of_dvd (this.trans (Nat.factorial_dvd_factorial h))

/-- C71 is violated by curves with 67 or more control points: 66! is divisible by 2^64, so the evaluation divides by zero. -/
theorem C71_undefined_refuted (ps : List V) (t : K) (h : 67 ≤ ps.length) (h32 : ps.length < 2 ^ 32) : evaluate ps t = .ub := by
  obtain ⟨m, hm⟩ : ∃ m, ps.length = m + 1 := ⟨ps.length - 1, by omega⟩
  refine evaluate_ub ps t m 0 hm (by omega) (by omega) (fun _ => 0) (fun i hi => absurd hi (Nat.not_lt_zero _)) ?_
  rw [bernstein, if_pos ⟨by omega, by omega⟩, binomial64]
  simp only [Nat.sub_zero, factorial64_zero (show 66 ≤ m by omega), Nat.mul_zero]
  rfl

example : evaluate (List.replicate 67 (1 : ℚ)) (1 / 2 : ℚ) = .ub := C71_undefined_refuted _ _ (by simp) (by simp)

/-- The binomial coefficients of index 2 are wrong for the orders 21 to 65. -/
theorem binomial64_two : ∀ n, 21 ≤ n → n ≤ 65 → binomial64 2 n ≠ .ok (n.choose 2) := by
  intro n h1 h2
  simp only [binomial64, factorial64_eq, w64]
  interval_cases n <;> decide +kernel

/-- C71: exactly the numbers of control points from 2 to 21 (and none at all) give the right curve for all control points and parameters. -/
theorem C71_exact [CharZero K] (n : ℕ) (hn : n < 2 ^ 32) :
    (∀ ps : List K, ps.length = n → ∀ t : K, evaluate ps t = .ok (curve ps t)) ↔ n = 0 ∨ (2 ≤ n ∧ n ≤ 21) := by
  constructor
  · intro h
    by_contra hc
    rcases Nat.lt_or_ge n 2 with h2 | h2
    · have e : n = 1 := by omega
      subst e
      have := h [1] rfl 0
      rw [C71_single_refuted] at this
      simp [curve, casteljau] at this
    · have h22 : 22 ≤ n := by omega
      rcases Nat.lt_or_ge n 67 with h67 | h67
      · obtain ⟨m, rfl⟩ : ∃ m, n = m + 1 := ⟨n - 1, by omega⟩
        let ps : List K := (List.replicate (m + 1) 0).set 2 1
        have hl : ps.length = m + 1 := by simp [ps]
        have hg : ∀ i, ps.getD i 0 = if i = 2 then 1 else 0 := by
          intro i
          simp only [ps, List.getD_eq_getElem?_getD, List.getElem?_set, List.length_replicate]
          rcases eq_or_ne i 2 with rfl | hi
          · rw [if_pos rfl, if_pos (by omega)]; rfl
          · rw [if_neg (Ne.symm hi), if_neg hi, List.getElem?_replicate]
            split_ifs <;> rfl
        have key := h ps hl (1 / 2 : K)
        have h05 : (1 - 1 / 2 : K) = 1 / 2 := by ring
        have hcurve : curve ps (1 / 2 : K) = (m.choose 2 : K) * (1 / 2) ^ m := by
          rw [curve, casteljau_eq, hl, Nat.add_sub_cancel, sum_eq_single 2]
          · simp only [Nat.zero_add]
            rw [hg, if_pos rfl, wt, h05, smul_eq_mul, mul_one, mul_assoc, ← pow_add, show 2 + (m - 2) = m by omega]
          · intro i _ hi
            simp only [Nat.zero_add]
            rw [hg, if_neg hi, smul_zero]
          · intro hi
            exact absurd (mem_range.2 (by omega)) hi
        by_cases hall : ∀ i ≤ m, ∃ c, binomial64 i m = .ok c
        · have hall' : ∀ i, ∃ c, i ≤ m → binomial64 i m = .ok c := fun i => by
            by_cases hi : i ≤ m
            · obtain ⟨c, hc⟩ := hall i hi
              exact ⟨c, fun _ => hc⟩
            · exact ⟨0, fun h => absurd h hi⟩
          choose c hc using hall'
          rw [evaluate_ok ps (1 / 2) m hl hn (fun i => (c i : K) * (1 / 2) ^ i * (1 / 2) ^ (m - i)) (fun i hi => by
            rw [bernstein, if_pos ⟨hi, by omega⟩, hc i hi, h05]; rfl), hcurve, sum_eq_single 2] at key
          · rw [hg, if_pos rfl, smul_eq_mul, mul_one, mul_assoc, ← pow_add, show 2 + (m - 2) = m by omega, Res.ok.injEq] at key
            have hne : ((1 / 2 : K)) ^ m ≠ 0 := pow_ne_zero _ (by norm_num)
            have e := mul_right_cancel₀ hne key
            have e2 : c 2 = m.choose 2 := by exact_mod_cast e
            exact binomial64_two m (by omega) (by omega) (e2 ▸ hc 2 (by omega))
          · intro i _ hi
            rw [hg, if_neg hi, smul_zero]
          · intro hi
            exact absurd (mem_range.2 (by omega)) hi
        · push Not at hall
          classical
          have hex : ∃ i, i ≤ m ∧ ∀ c, binomial64 i m ≠ .ok c := hall
          have hk := Nat.find_spec hex
          have hmin := fun i (hi : i < Nat.find hex) => Nat.find_min hex hi
          generalize Nat.find hex = k at hk hmin
          have hub : binomial64 k m = .ub := (binomial64_cases k m).resolve_right (by rintro ⟨c, hc⟩; exact hk.2 c hc)
          have hbefore : ∀ i, ∃ c, i < k → binomial64 i m = .ok c := fun i => by
            by_cases hi : i < k
            · have := hmin i hi
              push Not at this
              obtain ⟨c, hc⟩ := this (by omega)
              exact ⟨c, fun _ => hc⟩
            · exact ⟨0, fun h => absurd h hi⟩
          choose c hc using hbefore
          rw [evaluate_ub ps (1 / 2) m k hl hn hk.1 (fun i => (c i : K) * (1 / 2) ^ i * (1 - 1 / 2) ^ (m - i)) (fun i hi => by
            rw [bernstein, if_pos ⟨by omega, by omega⟩, hc i hi]; rfl) (by rw [bernstein, if_pos ⟨by omega, by omega⟩, hub]; rfl)] at key
          cases key
      · have := h (List.replicate n 0) (by simp) 0
        rw [C71_undefined_refuted _ _ (by simp; omega) (by simpa using hn)] at this
        cases this
  · rintro (rfl | ⟨h2, h21⟩) ps hl t
    · obtain rfl := List.length_eq_zero_iff.1 hl
      rfl
    · exact C70_casteljau ps t (by omega) (by omega)

example : ¬ ∀ ps : List ℚ, ps.length = 22 → ∀ t : ℚ, evaluate ps t = .ok (curve ps t) := by
  rw [C71_exact 22 (by norm_num)]
  norm_num

end Geom.Bezier
