import Verif.Model.AABBFloat
import Verif.Spec.AABBFloat
import Verif.Props.AABBCollision

/-
  C106: the ray/box query in floating-point arithmetic.
-/
set_option autoImplicit false
set_option linter.unusedSectionVars false

namespace Geom.Float
variable {p : ℕ} {emin : ℤ} {fl : ℚ → ℚ}

/-- The error of a rounding, in any mode, is less than the distance of the floats around the number. -/
theorem round_expo (hf : IsRounding p emin fl) (hp : 1 ≤ p) (x : ℚ) : |fl x - x| ≤ 2 ^ expo p emin x := by
  have hu := two_zpow_pos (expo p emin x)
  have h1 : down p emin x ≤ fl x := by rw [← hf.fix _ (down_mem hp x)]; exact hf.mono (down_le x)
  have h2 : fl x ≤ up p emin x := by rw [← hf.fix _ (up_mem hp x)]; exact hf.mono (le_up x)
  have h3 : x - 2 ^ expo p emin x ≤ down p emin x := by
    have := mul_le_mul_of_nonneg_right (Int.sub_one_lt_floor (x / 2 ^ expo p emin x)).le hu.le
    rw [sub_mul, div_mul_cancel₀ x hu.ne', one_mul] at this
    exact this
  have h4 : up p emin x ≤ x + 2 ^ expo p emin x := by
    have e : expo p emin (-x) = expo p emin x := by simp [expo]
    have := mul_le_mul_of_nonneg_right (Int.sub_one_lt_floor (-x / 2 ^ expo p emin x)).le hu.le
    rw [sub_mul, div_mul_cancel₀ _ hu.ne', one_mul] at this
    simp only [up, down, e]
    linarith
  have h5 := down_le (p := p) (emin := emin) x
  have h6 := le_up (p := p) (emin := emin) x
  rw [abs_le]
  constructor <;> linarith

theorem log_le {x : ℚ} (hx : x ≠ 0) : (2 : ℚ) ^ Int.log 2 |x| ≤ |x| := by
  have := Int.zpow_log_le_self (b := 2) (by norm_num) (abs_pos.2 hx)
  exact_mod_cast this

/-- Numbers that are not too small: the error is relative. -/
theorem round_normal (hf : IsRounding p emin fl) (hp : 1 ≤ p) {x : ℚ} (hx : 2 ^ (emin + p - 1) ≤ |x|) : |fl x - x| ≤ 2 ^ (1 - (p : ℤ)) * |x| := by
  have hx0 : x ≠ 0 := by
    rintro rfl
    have := two_zpow_pos (emin + p - 1)
    simp at hx
    linarith
  have hl : emin + p - 1 ≤ Int.log 2 |x| := (Int.zpow_le_iff_le_log (by norm_num) (abs_pos.2 hx0)).1 (by exact_mod_cast hx)
  have he : expo p emin x = Int.log 2 |x| + (1 - p) := by simp only [expo]; omega
  refine (round_expo hf hp x).trans ?_
  rw [he, zpow_add₀ (by norm_num), mul_comm]
  exact mul_le_mul_of_nonneg_left (log_le hx0) (two_zpow_pos _).le

/-- All numbers: the error is relative, or less than the least float. -/
theorem round_any (hf : IsRounding p emin fl) (hp : 1 ≤ p) (x : ℚ) : |fl x - x| ≤ 2 ^ (1 - (p : ℤ)) * |x| + 2 ^ emin := by
  rcases eq_or_ne x 0 with rfl | hx0
  · rw [hf.fix 0 ⟨0, emin, by simp, le_rfl, by simp⟩]
    have := two_zpow_pos emin
    simpa using this.le
  rcases le_or_gt (2 ^ (emin + p - 1)) |x| with h | h
  · have := round_normal hf hp h
    have := two_zpow_pos emin
    linarith
  · have he : expo p emin x = emin := by
      have hl : Int.log 2 |x| < emin + p - 1 := (Int.lt_zpow_iff_log_lt (by norm_num) (abs_pos.2 hx0)).1 (by exact_mod_cast h)
      simp only [expo]; omega
    have := round_expo hf hp x
    rw [he] at this
    have := mul_nonneg (two_zpow_pos (1 - (p : ℤ))).le (abs_nonneg x)
    linarith

/-- Differences of floats: the error is relative. -/
theorem round_sub (hf : IsRounding p emin fl) (hp : 1 ≤ p) {x y : ℚ} (hx : x ∈ Floats p emin) (hy : y ∈ Floats p emin) :
    |fl (x - y) - (x - y)| ≤ 2 ^ (1 - (p : ℤ)) * |x - y| := by
  rcases le_or_gt (2 ^ (emin + p - 1)) |x - y| with h | h
  · exact round_normal hf hp h
  · obtain ⟨a, ea, _, ha, rfl⟩ := hx
    obtain ⟨b, eb, _, hb, rfl⟩ := hy
    obtain ⟨i, rfl⟩ : ∃ i : ℕ, ea = emin + i := ⟨(ea - emin).toNat, by omega⟩
    obtain ⟨j, rfl⟩ : ∃ j : ℕ, eb = emin + j := ⟨(eb - emin).toNat, by omega⟩
    have e : (a : ℚ) * 2 ^ (emin + i) - b * 2 ^ (emin + j) = ((a * 2 ^ i - b * 2 ^ j : ℤ) : ℚ) * 2 ^ emin := by
      rw [zpow_add₀ (by norm_num), zpow_add₀ (by norm_num), zpow_natCast, zpow_natCast]; push_cast; ring
    rw [e] at h ⊢
    have hmem : ((a * 2 ^ i - b * 2 ^ j : ℤ) : ℚ) * 2 ^ emin ∈ Floats p emin := by
      refine mem_of_le hp le_rfl ?_
      have hu := two_zpow_pos emin
      rw [abs_mul, abs_of_pos hu, show emin + (p : ℤ) - 1 = (p - 1 : ℤ) + emin by ring, zpow_add₀ (by norm_num)] at h
      have h2 := lt_of_mul_lt_mul_right h hu.le
      have h3 : (2 : ℚ) ^ ((p : ℤ) - 1) ≤ 2 ^ p := by rw [← zpow_natCast]; exact zpow_le_zpow_right₀ (by norm_num) (by omega)
      have h4 := h2.le.trans h3
      exact_mod_cast h4
    rw [hf.fix _ hmem, sub_self, abs_zero]
    have := two_zpow_pos (1 - (p : ℤ))
    positivity

/-- Rounding to the nearest, below the middle between two neighbours. -/
theorem nearest_down (hf : IsNearest p emin fl) (hp : 1 ≤ p) {k e : ℤ} (he : emin ≤ e) (h1 : 2 ^ (p - 1) ≤ k) (h2 : k < 2 ^ p) {x : ℚ} (hz : k * 2 ^ e ≤ x)
    (hx : x - k * 2 ^ e < 2 ^ e / 2) : fl x = k * 2 ^ e := by
  have hu := two_zpow_pos e
  have hk0 : 0 ≤ k := le_trans (by positivity) h1
  have m1 : (k : ℚ) * 2 ^ e ∈ Floats p emin := mem_of_le hp he (by rw [abs_of_nonneg hk0]; exact h2.le)
  have m2 : ((k + 1 : ℤ) : ℚ) * 2 ^ e ∈ Floats p emin := mem_of_le hp he (by rw [abs_of_nonneg (by linarith)]; linarith)
  have l1 : (k : ℚ) * 2 ^ e ≤ fl x := by rw [← hf.fix _ m1]; exact hf.mono hz
  have l2 : fl x ≤ ((k + 1 : ℤ) : ℚ) * 2 ^ e := by rw [← hf.fix _ m2]; refine hf.mono ?_; push_cast; linarith
  have big : (2 : ℚ) ^ ((p : ℤ) + (e - 1)) ≤ |fl x| := by
    have hk : (2 : ℚ) ^ (p - 1) ≤ k := by exact_mod_cast h1
    rw [show (p : ℤ) + (e - 1) = ((p - 1 : ℕ) : ℤ) + e by omega, zpow_add₀ (by norm_num), zpow_natCast]
    exact ((mul_le_mul_of_nonneg_right hk hu.le).trans l1).trans (le_abs_self _)
  obtain ⟨j, hj⟩ := multiple_of_le (hf.mem x) big
  rw [sub_add_cancel] at hj
  rw [hj] at l1 l2 ⊢
  have j1 : k ≤ j := by exact_mod_cast le_of_mul_le_mul_right l1 hu
  have j2 : j ≤ k + 1 := by exact_mod_cast le_of_mul_le_mul_right l2 hu
  rcases eq_or_lt_of_le j2 with e1 | e1
  · have := hf.near x _ m1
    rw [hj, e1, abs_of_nonneg (by push_cast; linarith), abs_of_nonpos (by linarith)] at this
    push_cast at this
    linarith
  · rw [show j = k by omega]

end Geom.Float

namespace Geom.AABB.Props
open Geom.Float

variable {n p : ℕ} {emin : ℤ} {fl : ℚ → ℚ}

theorem gamma_pos (p : ℕ) : 0 < gamma p := by
  have h := two_zpow_pos (1 - (p : ℤ))
  have := one_lt_pow₀ (show (1 : ℚ) < 1 + 2 ^ (1 - (p : ℤ)) by linarith) (show 3 ≠ 0 by norm_num)
  unfold gamma
  linarith

theorem margin_nonneg (o d b : ℚ) : 0 ≤ margin p emin o d b := by
  have := gamma_pos p
  have := two_zpow_pos emin
  unfold margin
  positivity

/-- The parameter of a plane. -/
theorem plane_error (hf : IsRounding p emin fl) (hp : 1 ≤ p) {o d b : ℚ} (ho : o ∈ Floats p emin) (hb : b ∈ Floats p emin) (hd : d ≠ 0) (hd' : |d| ≤ 2 ^ (1 - (p : ℤ) - emin)) :
    |planeFl fl o d b - (b - o) / d| ≤ gamma p * |(b - o) / d| + 2 ^ emin := by
  have hu := two_zpow_pos (1 - (p : ℤ))
  have h1 := round_sub hf hp hb ho
  have hn : (2 : ℚ) ^ (emin + p - 1) ≤ |1 / d| := by
    rw [abs_div, abs_one, le_div_iff₀ (abs_pos.2 hd)]
    calc (2 : ℚ) ^ (emin + p - 1) * |d| ≤ 2 ^ (emin + p - 1) * 2 ^ (1 - (p : ℤ) - emin) := mul_le_mul_of_nonneg_left hd' (two_zpow_pos _).le
      _ = 1 := by rw [← zpow_add₀ (by norm_num), show emin + (p : ℤ) - 1 + (1 - p - emin) = 0 by ring, zpow_zero]
  have h2 := round_normal hf hp hn
  have h3 := round_any hf hp (fl (b - o) * fl (1 / d))
  unfold planeFl
  generalize hA : fl (b - o) = A at *
  generalize hR : fl (1 / d) = R at *
  generalize hT : fl (A * R) = T at *
  generalize hU : (2 : ℚ) ^ (1 - (p : ℤ)) = u at *
  generalize hE : (2 : ℚ) ^ emin = η at *
  have e : (b - o) / d = (b - o) * (1 / d) := by ring
  rw [e]
  generalize b - o = a at *
  generalize 1 / d = r at *
  have a1 : |A| ≤ (1 + u) * |a| := by have := abs_sub_abs_le_abs_sub A a; linarith
  have key : |A * R - a * r| ≤ ((1 + u) ^ 2 - 1) * |a * r| := by
    have e : A * R - a * r = A * (R - r) + (A - a) * r := by ring
    rw [e]
    refine (abs_add_le _ _).trans ?_
    rw [abs_mul, abs_mul, abs_mul]
    have b1 : |A| * |R - r| ≤ ((1 + u) * |a|) * (u * |r|) := mul_le_mul a1 h2 (abs_nonneg _) (by positivity)
    have b2 : |A - a| * |r| ≤ (u * |a|) * |r| := mul_le_mul_of_nonneg_right h1 (abs_nonneg _)
    nlinarith
  have a2 : |A * R| ≤ (1 + u) ^ 2 * |a * r| := by have := abs_sub_abs_le_abs_sub (A * R) (a * r); linarith
  have a3 : |T - a * r| ≤ |T - A * R| + |A * R - a * r| := abs_sub_le _ _ _
  have a4 := mul_le_mul_of_nonneg_left a2 hu.le
  have : gamma p = (1 + u) ^ 3 - 1 := by rw [gamma, hU]
  rw [this]
  nlinarith

/-- The parameter is in the slab of the component. -/
def InSlab (fl : ℚ → ℚ) (eps : ℚ) (box : Box n ℚ) (o d : Fin n → ℚ) (i : Fin n) (t : ℚ) : Prop :=
  if |d i| < eps then box.min i ≤ o i ∧ o i ≤ box.max i
  else min (planeFl fl (o i) (d i) (box.min i)) (planeFl fl (o i) (d i) (box.max i)) ≤ t ∧
    t ≤ max (planeFl fl (o i) (d i) (box.min i)) (planeFl fl (o i) (d i) (box.max i))

theorem slabsFl_some (eps : ℚ) (box : Box n ℚ) (o d : Fin n → ℚ) : ∀ (is : List (Fin n)) (lo hi t : ℚ), lo ≤ hi → slabsFl fl eps box o d is lo hi = some t →
    lo ≤ t ∧ t ≤ hi ∧ ∀ i ∈ is, InSlab fl eps box o d i t
  | [], lo, hi, t, h, e => by
    simp only [slabsFl, Option.some.injEq] at e
    subst e
    exact ⟨le_rfl, h, fun i hi => absurd hi List.not_mem_nil⟩
  | i :: is, lo, hi, t, h, e => by
    simp only [slabsFl] at e
    split_ifs at e with h1 h2 h3 h4 h5
    · obtain ⟨a, b, c⟩ := slabsFl_some eps box o d is lo hi t h e
      push Not at h2
      refine ⟨a, b, fun j hj => ?_⟩
      rcases List.mem_cons.1 hj with rfl | hj
      · rw [InSlab, if_pos h1]; exact h2
      · exact c j hj
    · obtain ⟨a, b, c⟩ := slabsFl_some eps box o d is _ _ t (not_lt.1 h4) e
      refine ⟨(le_max_left _ _).trans a, b.trans (min_le_left _ _), fun j hj => ?_⟩
      rcases List.mem_cons.1 hj with rfl | hj
      · rw [InSlab, if_neg h1, min_eq_right h3.le, max_eq_left h3.le]
        exact ⟨(le_max_right _ _).trans a, b.trans (min_le_right _ _)⟩
      · exact c j hj
    · obtain ⟨a, b, c⟩ := slabsFl_some eps box o d is _ _ t (not_lt.1 h5) e
      refine ⟨(le_max_left _ _).trans a, b.trans (min_le_left _ _), fun j hj => ?_⟩
      rcases List.mem_cons.1 hj with rfl | hj
      · rw [InSlab, if_neg h1, min_eq_left (not_lt.1 h3), max_eq_right (not_lt.1 h3)]
        exact ⟨(le_max_right _ _).trans a, b.trans (min_le_right _ _)⟩
      · exact c j hj

theorem slabsFl_hit (eps : ℚ) (box : Box n ℚ) (o d : Fin n → ℚ) : ∀ (is : List (Fin n)) (lo hi s : ℚ), lo ≤ s → s ≤ hi → (∀ i ∈ is, InSlab fl eps box o d i s) →
    ∃ t, t ≤ s ∧ slabsFl fl eps box o d is lo hi = some t
  | [], lo, hi, s, h, _, _ => ⟨lo, h, rfl⟩
  | i :: is, lo, hi, s, h, h', hs => by
    have h0 := hs i (List.mem_cons_self ..)
    have ih := fun lo hi a b => slabsFl_hit eps box o d is lo hi s a b fun j hj => hs j (List.mem_cons_of_mem _ hj)
    rw [InSlab] at h0
    simp only [slabsFl]
    split_ifs at h0 ⊢ with h1 h2 h3 h4 h5
    · rcases h2 with h2 | h2 <;> linarith [h0.1, h0.2]
    · exact ih lo hi h h'
    · rw [min_eq_right h3.le, max_eq_left h3.le] at h0
      exact absurd (h4.trans_le ((max_le h h0.1).trans (le_min h' h0.2))) (lt_irrefl _) 
    · rw [min_eq_right h3.le, max_eq_left h3.le] at h0
      exact ih _ _ (max_le h h0.1) (le_min h' h0.2)
    · rw [min_eq_left (not_lt.1 h3), max_eq_right (not_lt.1 h3)] at h0
      exact absurd (h5.trans_le ((max_le h h0.1).trans (le_min h' h0.2))) (lt_irrefl _) 
    · rw [min_eq_left (not_lt.1 h3), max_eq_right (not_lt.1 h3)] at h0
      exact ih _ _ (max_le h h0.1) (le_min h' h0.2)

/-- Between the parameters of the two sides: between the sides, up to the margins. -/
theorem inSlab_near (hf : IsRounding p emin fl) (hp : 1 ≤ p) {eps : ℚ} (he : 0 < eps) {box : Box n ℚ} {o d : Fin n → ℚ} {i : Fin n}
    (hv : box.min i ≤ box.max i) (ho : o i ∈ Floats p emin) (hl : box.min i ∈ Floats p emin) (hr : box.max i ∈ Floats p emin)
    (hd : d i = 0 ∨ eps ≤ |d i|) (hd' : |d i| ≤ 2 ^ (1 - (p : ℤ) - emin)) (t : ℚ) :
    (InSlab fl eps box o d i t → box.min i - margin p emin (o i) (d i) (box.min i) ≤ rayAt o d t i ∧
      rayAt o d t i ≤ box.max i + margin p emin (o i) (d i) (box.max i)) ∧
    (box.min i + margin p emin (o i) (d i) (box.min i) ≤ rayAt o d t i ∧ rayAt o d t i ≤ box.max i - margin p emin (o i) (d i) (box.max i) →
      InSlab fl eps box o d i t) := by
  have g1 := margin_nonneg (p := p) (emin := emin) (o i) (d i) (box.min i)
  have g2 := margin_nonneg (p := p) (emin := emin) (o i) (d i) (box.max i)
  unfold InSlab rayAt
  rcases hd with hd | hd
  · have : |d i| < eps := by rw [hd, abs_zero]; exact he
    rw [if_pos this, hd, zero_mul, zero_add]
    rw [hd] at g1 g2
    constructor
    · rintro ⟨h1, h2⟩; constructor <;> linarith
    · rintro ⟨h1, h2⟩; constructor <;> linarith
  · rw [if_neg (not_lt.2 hd)]
    have hd0 : d i ≠ 0 := abs_pos.1 (he.trans_le hd)
    have f0 : fl 0 = 0 := hf.fix 0 ⟨0, emin, by simp, le_rfl, by simp⟩
    have e1 := abs_le.1 (plane_error hf hp ho hl hd0 hd')
    have e2 := abs_le.1 (plane_error hf hp ho hr hd0 hd')
    have hm : fl (box.min i - o i) ≤ fl (box.max i - o i) := hf.mono (by linarith)
    unfold margin
    generalize (2 : ℚ) ^ emin = η at *
    generalize gamma p = γ at *
    generalize hT1 : planeFl fl (o i) (d i) (box.min i) = T1 at *
    generalize hT2 : planeFl fl (o i) (d i) (box.max i) = T2 at *
    rw [abs_div] at e1 e2
    rcases lt_or_gt_of_ne hd0 with hneg | hpos
    · have hr0 : fl (1 / d i) ≤ 0 := by rw [← f0]; exact hf.mono (div_nonpos_of_nonneg_of_nonpos zero_le_one hneg.le)
      have h12 : T2 ≤ T1 := by rw [← hT1, ← hT2]; exact hf.mono (mul_le_mul_of_nonpos_right hm hr0)
      rw [min_eq_right h12, max_eq_left h12]
      have c1 : (box.min i - o i) / d i * d i = box.min i - o i := div_mul_cancel₀ _ hd0
      have c2 : (box.max i - o i) / d i * d i = box.max i - o i := div_mul_cancel₀ _ hd0
      have c3 : |box.min i - o i| / |d i| * |d i| = |box.min i - o i| := div_mul_cancel₀ _ (abs_pos.2 hd0).ne'
      have c4 : |box.max i - o i| / |d i| * |d i| = |box.max i - o i| := div_mul_cancel₀ _ (abs_pos.2 hd0).ne'
      rw [abs_of_neg hneg] at *
      generalize (box.min i - o i) / d i = x1 at *
      generalize (box.max i - o i) / d i = x2 at *
      generalize |box.min i - o i| / -d i = y1 at *
      generalize |box.max i - o i| / -d i = y2 at *
      rw [← c3, ← c4]
      have neg : 0 < -d i := by linarith
      constructor
      · rintro ⟨h1, h2⟩
        have a1 := mul_le_mul_of_nonneg_right (show t ≤ x1 + (γ * y1 + η) by linarith) neg.le
        have a2 := mul_le_mul_of_nonneg_right (show x2 - (γ * y2 + η) ≤ t by linarith) neg.le
        constructor <;> nlinarith
      · rintro ⟨h1, h2⟩
        have a1 : t * -d i ≤ (x1 - (γ * y1 + η)) * -d i := by nlinarith
        have a2 : (x2 + (γ * y2 + η)) * -d i ≤ t * -d i := by nlinarith
        have := le_of_mul_le_mul_right a1 neg
        have := le_of_mul_le_mul_right a2 neg
        constructor <;> linarith
    · have hr0 : 0 ≤ fl (1 / d i) := by rw [← f0]; exact hf.mono (by positivity)
      have h12 : T1 ≤ T2 := by rw [← hT1, ← hT2]; exact hf.mono (mul_le_mul_of_nonneg_right hm hr0)
      rw [min_eq_left h12, max_eq_right h12]
      have c1 : (box.min i - o i) / d i * d i = box.min i - o i := div_mul_cancel₀ _ hd0
      have c2 : (box.max i - o i) / d i * d i = box.max i - o i := div_mul_cancel₀ _ hd0
      have c3 : |box.min i - o i| / |d i| * |d i| = |box.min i - o i| := div_mul_cancel₀ _ (abs_pos.2 hd0).ne'
      have c4 : |box.max i - o i| / |d i| * |d i| = |box.max i - o i| := div_mul_cancel₀ _ (abs_pos.2 hd0).ne'
      rw [abs_of_pos hpos] at *
      generalize (box.min i - o i) / d i = x1 at *
      generalize (box.max i - o i) / d i = x2 at *
      generalize |box.min i - o i| / d i = y1 at *
      generalize |box.max i - o i| / d i = y2 at *
      rw [← c3, ← c4]
      constructor
      · rintro ⟨h1, h2⟩
        have a1 := mul_le_mul_of_nonneg_right (show x1 - (γ * y1 + η) ≤ t by linarith) hpos.le
        have a2 := mul_le_mul_of_nonneg_right (show t ≤ x2 + (γ * y2 + η) by linarith) hpos.le
        constructor <;> nlinarith
      · rintro ⟨h1, h2⟩
        have a1 : (x1 + (γ * y1 + η)) * d i ≤ t * d i := by nlinarith
        have a2 : t * d i ≤ (x2 - (γ * y2 + η)) * d i := by nlinarith
        have := le_of_mul_le_mul_right a1 hpos
        have := le_of_mul_le_mul_right a2 hpos
        constructor <;> linarith

/-- C106: a hit is a hit of the box that is enlarged by the margins. -/
theorem C106_sound_partial (hf : IsRounding p emin fl) (hp : 1 ≤ p) (eps big : ℚ) (he : 0 < eps) (hb : 0 ≤ big) (box : Box n ℚ) (o d : Fin n → ℚ)
    (hi : Inputs p emin eps box o d) (t : ℚ) (h : interpFl fl eps big box o d = some t) :
    0 ≤ t ∧ t ≤ big ∧ ∀ i, box.min i - margin p emin (o i) (d i) (box.min i) ≤ rayAt o d t i ∧
      rayAt o d t i ≤ box.max i + margin p emin (o i) (d i) (box.max i) := by
  obtain ⟨h1, h2, h3⟩ := slabsFl_some eps box o d _ 0 big t hb h
  exact ⟨h1, h2, fun i => (inSlab_near hf hp he (hi.valid i) (hi.origin i) (hi.min i) (hi.max i) (hi.clear i) (hi.bounded i) t).1 (h3 i (List.mem_finRange i))⟩

/-- C106: a ray that meets the box that is diminished by the margins is reported, not later than there. -/
theorem C106_complete_partial (hf : IsRounding p emin fl) (hp : 1 ≤ p) (eps big : ℚ) (he : 0 < eps) (box : Box n ℚ) (o d : Fin n → ℚ)
    (hi : Inputs p emin eps box o d) (s : ℚ) (h0 : 0 ≤ s) (hs : s ≤ big)
    (h : ∀ i, box.min i + margin p emin (o i) (d i) (box.min i) ≤ rayAt o d s i ∧ rayAt o d s i ≤ box.max i - margin p emin (o i) (d i) (box.max i)) :
    ∃ t, t ≤ s ∧ interpFl fl eps big box o d = some t :=
  slabsFl_hit eps box o d _ 0 big s h0 hs fun i _ =>
    (inSlab_near hf hp he (hi.valid i) (hi.origin i) (hi.min i) (hi.max i) (hi.clear i) (hi.bounded i) s).2 (h i)

/-- C106: from a point in the box the query reports this point, without an error. -/
theorem C106_inside (hf : IsRounding p emin fl) (eps big : ℚ) (hb : 0 ≤ big) (box : Box n ℚ) (o d : Fin n → ℚ) (ho : ∀ i, o i ∈ Floats p emin)
    (h : ∀ i, box.min i ≤ o i ∧ o i ≤ box.max i) : interpFl fl eps big box o d = some 0 ∧ rayHitPointFl fl eps big box o d = some o := by
  have f0 : fl 0 = 0 := hf.fix 0 ⟨0, emin, by simp, le_rfl, by simp⟩
  have e : interpFl fl eps big box o d = some 0 := by
    obtain ⟨t, ht, e⟩ := slabsFl_hit (fl := fl) eps box o d (List.finRange n) 0 big 0 le_rfl hb fun i _ => by
      unfold InSlab
      split_ifs
      · exact h i
      · have h1 : fl (box.min i - o i) ≤ 0 := by rw [← f0]; exact hf.mono (by linarith [(h i).1])
        have h2 : 0 ≤ fl (box.max i - o i) := by rw [← f0]; exact hf.mono (by linarith [(h i).2])
        unfold planeFl
        rcases le_total 0 (fl (1 / d i)) with hr | hr
        · exact ⟨(min_le_left _ _).trans (by rw [← f0]; exact hf.mono (mul_nonpos_of_nonpos_of_nonneg h1 hr)),
            (le_max_right _ _).trans' (by rw [← f0]; exact hf.mono (mul_nonneg h2 hr))⟩
        · exact ⟨(min_le_right _ _).trans (by rw [← f0]; exact hf.mono (mul_nonpos_of_nonneg_of_nonpos h2 hr)),
            (le_max_left _ _).trans' (by rw [← f0]; exact hf.mono (mul_nonneg_of_nonpos_of_nonpos h1 hr))⟩
    have h0 := (slabsFl_some eps box o d _ 0 big t hb e).1
    obtain rfl := le_antisymm ht h0
    exact e
  refine ⟨e, ?_⟩
  simp only [rayHitPointFl, e, lt_irrefl, if_false, Option.some.injEq]
  funext i
  rw [mul_zero, f0, zero_add, hf.fix _ (ho i)]

/-- The box of the witness for a direction: the ray from the origin passes through the corner (d, 1). -/
def cornerBox (d : ℚ) : Box 2 ℚ := ⟨![0, 1], ![d, 2]⟩

theorem corner_missed (hf : IsNearest p emin fl) (hp : 2 ≤ p) (he : emin ≤ 0) {d eps big : ℚ} (hd : 1 ≤ d) (hm : d ∈ Floats p emin) (h : fl (d * fl (1 / d)) < 1)
    (h1 : eps ≤ 1) (hb : 0 ≤ big) : interpFl fl eps big (cornerBox d) ![0, 0] ![d, 1] = none := by
  have f0 : fl 0 = 0 := hf.fix 0 ⟨0, emin, by simp, le_rfl, by simp⟩
  have hk : ∀ k : ℤ, |k| ≤ 2 → fl k = k := fun k h => hf.fix _ (int_mem (by omega) he (h.trans (by
    calc (2 : ℤ) = 2 ^ 1 := rfl
      _ ≤ 2 ^ p := pow_le_pow_right₀ (by norm_num) (by omega))))
  have f1 : fl 1 = 1 := by simpa using hk 1 (by norm_num)
  have f2 : fl 2 = 2 := by simpa using hk 2 (by norm_num)
  rcases hx : interpFl fl eps big (cornerBox d) ![0, 0] ![d, 1] with _ | t
  · rfl
  exfalso
  obtain ⟨h2, h3, h4⟩ := slabsFl_some eps _ _ _ _ 0 big t hb hx
  have a := h4 0 (List.mem_finRange _)
  have b := h4 1 (List.mem_finRange _)
  simp only [InSlab, cornerBox, planeFl, Matrix.cons_val_zero, Matrix.cons_val_one, sub_zero, f0, zero_mul, hf.fix d hm, div_one, mul_one, f1, f2] at a b
  rw [if_neg (by rw [abs_of_pos (by linarith)]; linarith)] at a
  rw [if_neg (by rw [abs_one]; linarith)] at b
  have c := a.2
  rw [max_def] at c
  split_ifs at c <;> norm_num at b <;> linarith [b.1]

theorem corner_met {d big : ℚ} (hd : 0 ≤ d) (hb : 1 ≤ big) : (hits (cornerBox d) ![0, 0] ![d, 1] 0 big).Nonempty := by
  refine ⟨1, zero_le_one, hb, fun i => ?_⟩
  fin_cases i
  · simp [cornerBox, hd]
  · norm_num [cornerBox]

/-- C106: in general no exact answer. With `float` a ray through a corner of a box is not reported. -/
theorem C106_float_refuted (hf : IsNearest 24 (-149) fl) (eps big : ℚ) (h1 : eps ≤ 1) (hb : 1 ≤ big) :
    interpFl fl eps big (cornerBox 41) ![0, 0] ![41, 1] = none ∧ (hits (cornerBox 41) ![0, 0] ![41, 1] 0 big).Nonempty := by
  refine ⟨corner_missed hf (by norm_num) (by norm_num) (by norm_num) ⟨41, 0, by norm_num, by norm_num, by norm_num⟩ ?_ h1 (by linarith), corner_met (by norm_num) hb⟩
  have e : fl (1 / 41) = (13094412 : ℤ) * 2 ^ (-29 : ℤ) :=
    nearest_down hf (by norm_num) (by norm_num) (by norm_num) (by norm_num) (by norm_num) (by norm_num)
  rw [e, nearest_down hf (k := 2 ^ 24 - 1) (e := -24) (by norm_num) (by norm_num) (by norm_num) (by norm_num) (by norm_num) (by norm_num)]
  norm_num

/-- C106: the same with `double`. -/
theorem C106_double_refuted (hf : IsNearest 53 (-1074) fl) (eps big : ℚ) (h1 : eps ≤ 1) (hb : 1 ≤ big) :
    interpFl fl eps big (cornerBox 49) ![0, 0] ![49, 1] = none ∧ (hits (cornerBox 49) ![0, 0] ![49, 1] 0 big).Nonempty := by
  refine ⟨corner_missed hf (by norm_num) (by norm_num) (by norm_num) ⟨49, 0, by norm_num, by norm_num, by norm_num⟩ ?_ h1 (by linarith), corner_met (by norm_num) hb⟩
  have e : fl (1 / 49) = (5882252574524729 : ℤ) * 2 ^ (-58 : ℤ) :=
    nearest_down hf (by norm_num) (by norm_num) (by norm_num) (by norm_num) (by norm_num) (by norm_num)
  rw [e, nearest_down hf (k := 2 ^ 53 - 1) (e := -53) (by norm_num) (by norm_num) (by norm_num) (by norm_num) (by norm_num) (by norm_num)]
  norm_num

/-- The inputs for a ray to a box, with `float`. -/
theorem sampleInputs : Inputs 24 (-149) (1 / 100) (⟨![2, -1], ![4, 1]⟩ : Box 2 ℚ) ![0, 0] ![3, 0] where
  valid i := by fin_cases i <;> norm_num
  origin i := by fin_cases i <;> exact ⟨0, 0, by norm_num, by norm_num, by norm_num⟩
  min i := by
    fin_cases i
    · exact ⟨2, 0, by norm_num, by norm_num, by norm_num⟩
    · exact ⟨-1, 0, by norm_num, by norm_num, by norm_num⟩
  max i := by
    fin_cases i
    · exact ⟨4, 0, by norm_num, by norm_num, by norm_num⟩
    · exact ⟨1, 0, by norm_num, by norm_num, by norm_num⟩
  clear i := by fin_cases i <;> norm_num
  bounded i := by fin_cases i <;> norm_num

/-- The ray meets the diminished box. -/
theorem sampleMargin : ∀ i, (⟨![2, -1], ![4, 1]⟩ : Box 2 ℚ).min i + margin 24 (-149) (![0, 0] i) (![3, 0] i) ((⟨![2, -1], ![4, 1]⟩ : Box 2 ℚ).min i) ≤ rayAt ![0, 0] ![3, 0] 1 i ∧
    rayAt ![0, 0] ![3, 0] 1 i ≤ (⟨![2, -1], ![4, 1]⟩ : Box 2 ℚ).max i - margin 24 (-149) (![0, 0] i) (![3, 0] i) ((⟨![2, -1], ![4, 1]⟩ : Box 2 ℚ).max i) := by
  intro i
  fin_cases i <;> norm_num [margin, gamma, rayAt]

/-- The ray hits the box, at a parameter which is at most 1; and the point is in the box up to the margins. -/
example : ∃ t, t ≤ 1 ∧ interpFl (nearest 24 (-149)) (1 / 100) 1000000 (⟨![2, -1], ![4, 1]⟩ : Box 2 ℚ) ![0, 0] ![3, 0] = some t ∧ 0 ≤ t := by
  have hf := nearest_isNearest (p := 24) (emin := -149) (by norm_num)
  obtain ⟨t, ht, h⟩ := C106_complete_partial hf.toIsRounding (by norm_num) (1 / 100) 1000000 (by norm_num) _ _ _ sampleInputs 1 (by norm_num) (by norm_num)
    sampleMargin
  exact ⟨t, ht, h, (C106_sound_partial hf.toIsRounding (by norm_num) (1 / 100) 1000000 (by norm_num) (by norm_num) _ _ _ sampleInputs t h).1⟩

example : interpFl (nearest 24 (-149)) (1 / 100) 1000000 (⟨![2, -1], ![4, 1]⟩ : Box 2 ℚ) ![3, 0] ![3, 5] = some 0 :=
  (C106_inside (nearest_isNearest (p := 24) (emin := -149) (by norm_num)).toIsRounding _ _ (by norm_num) _ _ _
    (fun i => by
      fin_cases i
      · exact ⟨3, 0, by norm_num, by norm_num, by norm_num⟩
      · exact ⟨0, 0, by norm_num, by norm_num, by norm_num⟩)
    (by intro i; fin_cases i <;> norm_num)).1

example := C106_float_refuted (nearest_isNearest (by norm_num)) (1 / 100) 1000000 (by norm_num) (by norm_num)

end Geom.AABB.Props
