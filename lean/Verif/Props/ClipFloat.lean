import Verif.Model.ClipFloat
import Verif.Spec.ClipFloat
import Verif.Props.Clip

/-!
Property C101: clipping of a triangle in floating-point arithmetic.
-/

set_option linter.unusedSectionVars false
set_option autoImplicit false

namespace Geom.Clip.Props

open Plane (Eqn Pl Relation)
open Triangle (Tri)
open _root_.Geom.Float (Floats IsRounding IsNearest two_zpow_pos mem_of_le int_mem near_error)
open Spec Proof

variable {p : ℕ} {emin : ℤ} {fl : ℚ → ℚ}

/-! Exact operations on a grid. -/

theorem multiple_fl (hf : IsNearest p emin fl) (hp : 1 ≤ p) {e B : ℤ} (he : emin ≤ e) (hB : B ≤ 2 ^ p) {x : ℚ} (h : Multiple e B x) :
    fl x = x := by
  obtain ⟨k, hk, rfl⟩ := h
  exact hf.fix _ (mem_of_le hp he (hk.trans hB))

theorem multiple_add {e A B : ℤ} {x y : ℚ} (hx : Multiple e A x) (hy : Multiple e B y) : Multiple e (A + B) (x + y) := by
  obtain ⟨j, hj, rfl⟩ := hx
  obtain ⟨k, hk, rfl⟩ := hy
  exact ⟨j + k, (abs_add_le j k).trans (add_le_add hj hk), by push_cast; ring⟩

theorem multiple_neg {e A : ℤ} {x : ℚ} (hx : Multiple e A x) : Multiple e A (-x) := by
  obtain ⟨j, hj, rfl⟩ := hx
  exact ⟨-j, by rwa [abs_neg], by push_cast; ring⟩

theorem multiple_sub {e A B : ℤ} {x y : ℚ} (hx : Multiple e A x) (hy : Multiple e B y) : Multiple e (A + B) (x - y) := by
  rw [sub_eq_add_neg]
  exact multiple_add hx (multiple_neg hy)

theorem multiple_mul {d e A B : ℤ} {x y : ℚ} (hx : Multiple d A x) (hy : Multiple e B y) : Multiple (d + e) (A * B) (x * y) := by
  obtain ⟨j, hj, rfl⟩ := hx
  obtain ⟨k, hk, rfl⟩ := hy
  refine ⟨j * k, ?_, ?_⟩
  · rw [abs_mul]
    exact mul_le_mul hj hk (abs_nonneg k) ((abs_nonneg j).trans hj)
  · rw [zpow_add₀ (by norm_num)]; push_cast; ring

theorem multiple_nonneg {e A : ℤ} {x : ℚ} (hx : Multiple e A x) : 0 ≤ A := by
  obtain ⟨j, hj, -⟩ := hx
  exact (abs_nonneg j).trans hj

theorem dotFl_exact (hf : IsNearest p emin fl) (hp : 1 ≤ p) {u v N Y : ℤ} (he : emin ≤ u + v) (hB : 3 * (N * Y) ≤ 2 ^ p) {n x : V3 ℚ}
    (hn : MultipleV u N n) (hx : MultipleV v Y x) : dotFl fl n x = V3.dot n x ∧ Multiple (u + v) (3 * (N * Y)) (V3.dot n x) := by
  have h1 := multiple_mul hn.1 hx.1
  have h2 := multiple_mul hn.2.1 hx.2.1
  have h3 := multiple_mul hn.2.2 hx.2.2
  have h0 := multiple_nonneg h1
  have h12 := multiple_add h1 h2
  have h123 := multiple_add h12 h3
  have e1 := multiple_fl hf hp he (by linarith) h1
  have e2 := multiple_fl hf hp he (by linarith) h2
  have e3 := multiple_fl hf hp he (by linarith) h3
  have e12 := multiple_fl hf hp he (by linarith) h12
  have e123 := multiple_fl hf hp he (by linarith) h123
  have hd : V3.dot n x = n.x * x.x + n.y * x.y + n.z * x.z := rfl
  refine ⟨?_, ?_⟩
  · unfold dotFl
    rw [e1, e2, e3, e12, e123, hd]
  · rw [hd]
    have e : N * Y + N * Y + N * Y = 3 * (N * Y) := by ring
    rwa [e] at h123

/-! The quotient. -/

theorem quot_neg (hf : IsNearest p emin fl) (hp : 1 ≤ p) (he : emin ≤ -(p + 1)) {t : ℚ} (ht : t ≤ -2 ^ (-((p : ℤ) + 1))) : fl t < 0 := by
  have h1 : -(2 : ℚ) ^ (-((p : ℤ) + 1)) ∈ Floats p emin := by
    have := mem_of_le (p := p) (emin := emin) (k := -1) (e := -((p : ℤ) + 1)) hp he (by
      rw [abs_neg, abs_one]; exact one_le_pow₀ (by norm_num))
    simpa using this
  have h2 := hf.mono ht
  rw [hf.fix _ h1] at h2
  have := two_zpow_pos (-((p : ℤ) + 1))
  linarith

theorem quot_above (hf : IsNearest p emin fl) (hp : 2 ≤ p) (he : emin ≤ -(p + 1)) {t : ℚ} (ht : 1 + 2 ^ (-(p : ℤ)) < t) : 1 < fl t := by
  obtain ⟨q, rfl⟩ : ∃ q, p = q + 1 := ⟨p - 1, by omega⟩
  have hu := two_zpow_pos (-((q + 1 : ℕ) : ℤ))
  have hz : 1 + 2 * (2 : ℚ) ^ (-((q + 1 : ℕ) : ℤ)) ∈ Floats (q + 1) emin := by
    have h1 := mem_of_le (p := q + 1) (emin := emin) (k := 2 ^ q + 1) (e := -(q : ℤ)) (by omega) (by push_cast at he; omega) (by
      rw [abs_of_pos (by positivity), pow_succ]
      have : (1 : ℤ) ≤ 2 ^ q := one_le_pow₀ (by norm_num)
      linarith)
    have e1 : (((2 ^ q + 1 : ℤ)) : ℚ) * 2 ^ (-(q : ℤ)) = 1 + 2 * (2 : ℚ) ^ (-((q + 1 : ℕ) : ℤ)) := by
      have e2 : (2 : ℚ) ^ (-((q + 1 : ℕ) : ℤ)) * 2 = 2 ^ (-(q : ℤ)) := by
        rw [← zpow_add_one₀ (by norm_num)]; congr 1; push_cast; ring
      have e3 : (2 : ℚ) ^ q * 2 ^ (-(q : ℤ)) = 1 := by
        rw [zpow_neg, zpow_natCast]; exact mul_inv_cancel₀ (by positivity)
      push_cast at e2 ⊢
      linear_combination e3 - e2
    rwa [e1] at h1
  by_contra hc
  rw [not_lt] at hc
  rcases le_or_gt (1 + 2 * (2 : ℚ) ^ (-((q + 1 : ℕ) : ℤ))) t with h | h
  · have := hf.mono h
    rw [hf.fix _ hz] at this
    linarith
  · have := hf.near t _ hz
    rw [abs_of_nonpos (by linarith : fl t - t ≤ 0), abs_of_nonneg (by linarith)] at this
    linarith

/-- The rounded quotient is between zero and one only if the quotient is. -/
theorem quot_range (hf : IsNearest p emin fl) (hp : 2 ≤ p) (he : emin ≤ -(p + 1)) {e : ℤ} {da db : ℚ} (ha : Multiple e (2 ^ p) da)
    (hb : Multiple e (2 ^ p) db) (hne : db - da ≠ 0) :
    (0 ≤ fl (-da / (db - da)) ∧ fl (-da / (db - da)) ≤ 1) ↔ (0 ≤ -da / (db - da) ∧ -da / (db - da) ≤ 1) := by
  have f0 : fl 0 = 0 := by
    have := int_mem (p := p) (emin := emin) (k := 0) (by omega) (by omega) (by simp)
    exact_mod_cast hf.fix _ this
  have f1 : fl 1 = 1 := by
    have := int_mem (p := p) (emin := emin) (k := 1) (by omega) (by omega) (by rw [abs_one]; exact one_le_pow₀ (by norm_num))
    exact_mod_cast hf.fix _ this
  constructor
  swap
  · rintro ⟨h0, h1⟩
    have h0' := hf.mono h0
    have h1' := hf.mono h1
    rw [f0] at h0'
    rw [f1] at h1'
    exact ⟨h0', h1'⟩
  obtain ⟨A, hA, rfl⟩ := ha
  obtain ⟨B, hB, rfl⟩ := hb
  have hu := two_zpow_pos e
  have hBA : B - A ≠ 0 := by
    intro h
    apply hne
    rw [← sub_mul, ← Int.cast_sub, h]; simp
  have hBA' : ((B : ℚ) - A) ≠ 0 := by exact_mod_cast hBA
  have eq : -((A : ℚ) * 2 ^ e) / ((B : ℚ) * 2 ^ e - A * 2 ^ e) = -A / (B - A) := by
    rw [← sub_mul, ← neg_mul, mul_div_mul_right _ _ hu.ne']
  rw [eq]
  rintro ⟨h0, h1⟩
  obtain ⟨hA1, hA2⟩ := abs_le.1 hA
  obtain ⟨hB1, hB2⟩ := abs_le.1 hB
  have hp2 : (2 : ℚ) ^ (-((p : ℤ) + 1)) * (2 * 2 ^ p) = 1 := by
    rw [neg_add, zpow_add₀ (by norm_num), zpow_neg, zpow_natCast]
    have : (2 : ℚ) ^ p ≠ 0 := by positivity
    field_simp
  have hp1 : (2 : ℚ) ^ (-(p : ℤ)) * 2 ^ p = 1 := by
    rw [zpow_neg, zpow_natCast]; exact inv_mul_cancel₀ (by positivity)
  have hq := two_zpow_pos (-((p : ℤ) + 1))
  have hq' := two_zpow_pos (-(p : ℤ))
  have ht : -(A : ℚ) / (B - A) * (B - A) = -A := div_mul_cancel₀ _ hBA'
  have key1 : ¬ -(A : ℚ) / (B - A) < 0 := by
    intro hlt
    refine absurd (quot_neg hf (by omega) he ?_) (not_lt.2 h0)
    -- numerator at least one, denominator at most 2 ^ (p + 1)
    have hden : |(B : ℚ) - A| ≤ 2 * 2 ^ p := by
      have : |B - A| ≤ 2 * 2 ^ p := by rw [abs_le]; constructor <;> linarith
      exact_mod_cast this
    have hnum : (1 : ℚ) ≤ |(A : ℚ)| := by
      have hA0 : A ≠ 0 := by rintro rfl; simp at hlt
      exact_mod_cast Int.one_le_abs hA0
    have h2 : |-(A : ℚ) / (B - A)| = |(A : ℚ)| / |(B : ℚ) - A| := by rw [abs_div, abs_neg]
    rw [abs_of_neg hlt] at h2
    have h3 : (2 : ℚ) ^ (-((p : ℤ) + 1)) ≤ |(A : ℚ)| / |(B : ℚ) - A| := by
      rw [le_div_iff₀ (abs_pos.2 hBA')]
      calc (2 : ℚ) ^ (-((p : ℤ) + 1)) * |(B : ℚ) - A| ≤ 2 ^ (-((p : ℤ) + 1)) * (2 * 2 ^ p) := mul_le_mul_of_nonneg_left hden hq.le
        _ = 1 := hp2
        _ ≤ _ := hnum
    linarith
  have key2 : ¬ 1 < -(A : ℚ) / (B - A) := by
    intro hlt
    refine absurd (quot_above hf hp he ?_) (not_lt.2 h1)
    have e2 : -(A : ℚ) / (B - A) - 1 = -B / (B - A) := by field_simp; ring
    have hpos : 0 < -(B : ℚ) / (B - A) := by linarith
    have hB0 : B ≠ 0 := by rintro rfl; simp at hpos
    -- the same sign
    have hden : |(B : ℚ) - A| < 2 ^ p := by
      have : |B - A| < 2 ^ p := by
        rcases lt_or_gt_of_ne hBA with hs | hs
        · have hs' : (B : ℚ) - A < 0 := by exact_mod_cast hs
          have hBp : 0 < B := by
            have : -(B : ℚ) < 0 := by
              by_contra hc
              exact absurd hpos (not_lt.2 (div_nonpos_of_nonneg_of_nonpos (not_lt.1 hc) hs'.le))
            have : (0 : ℚ) < B := by linarith
            exact_mod_cast this
          rw [abs_of_neg hs]; linarith
        · have hs' : 0 < (B : ℚ) - A := by exact_mod_cast hs
          have hBp : B < 0 := by
            have : 0 < -(B : ℚ) := by
              by_contra hc
              exact absurd hpos (not_lt.2 (div_nonpos_of_nonpos_of_nonneg (not_lt.1 hc) hs'.le))
            have : (B : ℚ) < 0 := by linarith
            exact_mod_cast this
          rw [abs_of_pos hs]; linarith
      exact_mod_cast this
    have hnum : (1 : ℚ) ≤ |(B : ℚ)| := by exact_mod_cast Int.one_le_abs hB0
    have h2 : |-(B : ℚ) / (B - A)| = |(B : ℚ)| / |(B : ℚ) - A| := by rw [abs_div, abs_neg]
    rw [abs_of_pos hpos] at h2
    have h3 : (2 : ℚ) ^ (-(p : ℤ)) < |(B : ℚ)| / |(B : ℚ) - A| := by
      rw [lt_div_iff₀ (abs_pos.2 hBA')]
      calc (2 : ℚ) ^ (-(p : ℤ)) * |(B : ℚ) - A| < 2 ^ (-(p : ℤ)) * 2 ^ p := mul_lt_mul_of_pos_left hden hq'
        _ = 1 := hp1
        _ ≤ _ := hnum
    linarith
  exact ⟨not_lt.1 key1, not_lt.1 key2⟩

/-! The polygons of the two computations. -/

/-- Polygons whose vertices are near. -/
def NearS (d : ℚ) (s s' : Poly ℚ × Poly ℚ) : Prop := List.Forall₂ (Near d) s.1 s'.1 ∧ List.Forall₂ (Near d) s.2 s'.2

/-- If the first computation is defined, so is the second, with a near result. -/
def Sim (d : ℚ) (r r' : Res (Poly ℚ × Poly ℚ)) : Prop := ∀ s, r = .ok s → ∃ s', r' = .ok s' ∧ NearS d s s'

theorem sim_ok {d : ℚ} {s s' : Poly ℚ × Poly ℚ} (h : NearS d s s') : Sim d (.ok s) (.ok s') := by
  rintro _ ⟨⟩
  exact ⟨_, rfl, h⟩

theorem sim_bind {d : ℚ} {r r' : Res (Poly ℚ × Poly ℚ)} {f f' : Poly ℚ × Poly ℚ → Res (Poly ℚ × Poly ℚ)} (h : Sim d r r')
    (hf : ∀ s s', NearS d s s' → Sim d (f s) (f' s')) : Sim d (r.bind f) (r'.bind f') := by
  intro x hx
  rw [Res.bind_eq_ok] at hx
  obtain ⟨s, hs, hx⟩ := hx
  obtain ⟨s', hs', hn⟩ := h s hs
  rw [hs', Res.bind_ok]
  exact hf s s' hn x hx

theorem near_refl {d : ℚ} (hd : 0 ≤ d) (v : V3 ℚ) : Near d v v := by simp [Near, hd]

theorem forall₂_snoc {d : ℚ} {a b : Poly ℚ} (h : List.Forall₂ (Near d) a b) {v w : V3 ℚ} (hv : Near d v w) :
    List.Forall₂ (Near d) (a ++ [v]) (b ++ [w]) := by
  induction h with
  | nil => exact .cons hv .nil
  | cons h1 _ ih => exact .cons h1 ih

theorem add_near {d : ℚ} {a b : Poly ℚ} (h : List.Forall₂ (Near d) a b) {v w : V3 ℚ} (hv : Near d v w) {q : Poly ℚ} (hq : a.add v = .ok q) :
    ∃ q', b.add w = .ok q' ∧ List.Forall₂ (Near d) q q' := by
  unfold Poly.add at hq ⊢
  split_ifs at hq with hl
  cases hq
  rw [← h.length_eq, if_pos hl]
  exact ⟨_, rfl, forall₂_snoc h hv⟩

theorem addVertex_sim {d : ℚ} {s s' : Poly ℚ × Poly ℚ} (h : NearS d s s') {v w : V3 ℚ} (hv : Near d v w) (r : Relation) :
    Sim d (addVertex s v r) (addVertex s' w r) := by
  intro x hx
  cases r <;> simp only [addVertex, Res.bind_eq_ok] at hx ⊢
  · obtain ⟨f, hf, hx⟩ := hx
    cases hx
    obtain ⟨f', hf', n⟩ := add_near h.1 hv hf
    exact ⟨_, ⟨f', hf', rfl⟩, n, h.2⟩
  · cases hx
    exact ⟨_, rfl, h⟩
  · obtain ⟨f, hf, hx⟩ := hx
    cases hx
    obtain ⟨f', hf', n⟩ := add_near h.2 hv hf
    exact ⟨_, ⟨f', hf', rfl⟩, h.1, n⟩
  · obtain ⟨f, hf, g, hg, hx⟩ := hx
    cases hx
    obtain ⟨f', hf', n⟩ := add_near h.1 hv hf
    obtain ⟨g', hg', n'⟩ := add_near h.2 hv hg
    exact ⟨_, ⟨f', hf', g', hg', rfl⟩, n, n'⟩

theorem cutPoint_near (hf : IsNearest p emin fl) (hp : 1 ≤ p) (he : emin ≤ -(p + 1)) (i : ℕ) {t : ℚ} (h0 : 0 ≤ t) (h1 : t ≤ 1)
    (h0' : 0 ≤ fl t) (h1' : fl t ≤ 1) : Near (2 ^ (-(p : ℤ))) (cutPoint i t) (cutPointFl fl i (fl t)) := by
  have hu := two_zpow_pos (-(p : ℤ))
  have a : |fl t - t| ≤ 2 ^ (-(p : ℤ)) / 2 := by
    have := near_error hf hp (x := t) (k := 0) (by rw [zpow_zero, abs_of_nonneg h0]; exact h1) (by omega)
    rwa [zero_sub] at this
  have b : |fl (1 - fl t) - (1 - fl t)| ≤ 2 ^ (-(p : ℤ)) / 2 := by
    have := near_error hf hp (x := 1 - fl t) (k := 0) (by rw [zpow_zero, abs_of_nonneg (by linarith)]; linarith) (by omega)
    rwa [zero_sub] at this
  have c : |fl (1 - fl t) - (1 - t)| ≤ 2 ^ (-(p : ℤ)) := by
    have e : fl (1 - fl t) - (1 - t) = (fl (1 - fl t) - (1 - fl t)) - (fl t - t) := by ring
    rw [e]
    refine (abs_sub _ _).trans ?_
    linarith
  have a' : |fl t - t| ≤ 2 ^ (-(p : ℤ)) := by linarith
  unfold cutPoint cutPointFl
  split <;> simp only [Near, sub_self, abs_zero] <;> exact ⟨by first | assumption | exact hu.le, by first | assumption | exact hu.le,
    by first | assumption | exact hu.le⟩

theorem addCut_sim (hf : IsNearest p emin fl) (hp : 2 ≤ p) (he : emin ≤ -(p + 1)) {e : ℤ} {da db : ℚ} (ha : Multiple e (2 ^ p) da)
    (hb : Multiple e (2 ^ p) db) (nz : Bool) {s s' : Poly ℚ × Poly ℚ} (h : NearS (2 ^ (-(p : ℤ))) s s') (i : ℕ) (r : Relation) :
    Sim (2 ^ (-(p : ℤ))) (addCut s i r (Ext.div nz (-da) (db - da))) (addCutFl fl s' i r (roundExt fl (Ext.div nz (-da) (db - da)))) := by
  unfold addCut addCutFl
  by_cases hr : r ≠ .onto
  swap
  · rw [if_neg hr, if_neg hr]; exact sim_ok h
  rw [if_pos hr, if_pos hr]
  by_cases h0 : db - da = 0
  · have key : ∀ x : Ext ℚ, (x = .nan ∨ x = .negInf ∨ x = .posInf) → roundExt fl x = x ∧ (x.ge 0 && x.le 1) = false := by
      rintro x (rfl | rfl | rfl) <;> exact ⟨rfl, rfl⟩
    have hx : Ext.div nz (-da) (db - da) = .nan ∨ Ext.div nz (-da) (db - da) = .negInf ∨ Ext.div nz (-da) (db - da) = .posInf := by
      unfold Ext.div
      rw [if_pos h0]
      split_ifs <;> simp
    obtain ⟨k1, k2⟩ := key _ hx
    rw [k1, k2]
    exact sim_ok h
  · rw [Ext.div_ne h0]
    have hq := quot_range hf hp he ha hb h0
    generalize -da / (db - da) = t at hq
    simp only [roundExt, Ext.ge, Ext.le, ← Bool.decide_and, decide_eq_true_eq]
    by_cases ht : 0 ≤ t ∧ t ≤ 1
    · rw [if_pos ht, if_pos (hq.2 ht)]
      exact addVertex_sim h (cutPoint_near hf (by omega) he i ht.1 ht.2 (hq.2 ht).1 (hq.2 ht).2) _
    · rw [if_neg ht, if_neg (fun h => ht (hq.1 h))]
      exact sim_ok h

theorem subFl_exact (hf : IsNearest p emin fl) (hp : 1 ≤ p) {v X : ℤ} (he : emin ≤ v) (hX : 2 * X ≤ 2 ^ p) {a b : V3 ℚ} (ha : MultipleV v X a)
    (hb : MultipleV v X b) : subFl fl a b = a - b ∧ MultipleV v (2 * X) (a - b) := by
  have e : X + X = 2 * X := by ring
  have h1 := multiple_sub ha.1 hb.1
  have h2 := multiple_sub ha.2.1 hb.2.1
  have h3 := multiple_sub ha.2.2 hb.2.2
  rw [e] at h1 h2 h3
  refine ⟨?_, h1, h2, h3⟩
  unfold subFl
  rw [multiple_fl hf hp he hX h1, multiple_fl hf hp he hX h2, multiple_fl hf hp he hX h3]
  rfl

/-- On a grid with few enough points the rounded computation of the distances is exact. -/
theorem sgnDistanceFl_exact (hf : IsNearest p emin fl) (hp : 1 ≤ p) {u v N X D : ℤ} (he : emin ≤ u + v) (hX : 0 ≤ N * X)
    (hB : 6 * (N * X) + D ≤ 2 ^ p) (eq : Eqn) {pl : Pl ℚ} (hn : MultipleV u N pl.normal) (hd : Multiple (u + v) D pl.distance) {x : V3 ℚ}
    (hx : MultipleV v X x) :
    sgnDistanceFl fl eq pl x = Plane.sgnDistance eq pl x ∧ Multiple (u + v) (2 ^ p) (Plane.sgnDistance eq pl x) := by
  have hD := multiple_nonneg hd
  obtain ⟨e1, h1⟩ := dotFl_exact hf hp he (by linarith) hn hx
  have hs : Multiple (u + v) D (eq.distanceSign pl.distance) := by
    cases eq
    · exact hd
    · exact multiple_neg hd
  have h2 := multiple_sub h1 hs
  unfold sgnDistanceFl Plane.sgnDistance
  rw [e1]
  refine ⟨multiple_fl hf hp he (by linarith) h2, ?_⟩
  obtain ⟨k, hk, e⟩ := h2
  exact ⟨k, by linarith, e⟩

/-- C101: If the plane and the corners lie on a grid with few enough points (`6 * N * X + D ≤ 2 ^ p`: for `float` e.g. coordinates up to
2 ^ 20 units with an axis-aligned plane), then `ClipTriangle` with rounding to the nearest stays within its arrays, takes the same
decisions as exact arithmetic, and each of its barycentric coordinates is wrong by at most one unit in the last place below one. -/
theorem C101_agrees_partial (hf : IsNearest p emin fl) (hp : 2 ≤ p) (he : emin ≤ -(p + 1)) {u v N X D : ℤ} (hv : emin ≤ v)
    (huv : emin ≤ u + v) (hN : 1 ≤ N) (hB : 6 * (N * X) + D ≤ 2 ^ p) (nz : ℕ → Bool) (eq : Eqn) (pl : Pl ℚ) (t : Tri ℚ) (eps : ℚ)
    (heps : 0 ≤ eps) (hn : MultipleV u N pl.normal) (hd : Multiple (u + v) D pl.distance) (ha : MultipleV v X t.a) (hb : MultipleV v X t.b)
    (hc : MultipleV v X t.c) :
    ∃ r f b f' b', clipTriangle nz eq pl t eps [] [] = .ok (r, f, b) ∧ clipTriangleFl fl nz eq pl t eps [] [] = .ok (r, f', b') ∧
      f'.length ≤ 4 ∧ b'.length ≤ 4 ∧ List.Forall₂ (Near (2 ^ (-(p : ℤ)))) f f' ∧ List.Forall₂ (Near (2 ^ (-(p : ℤ)))) b b' := by
  have hX := multiple_nonneg ha.1
  have hD := multiple_nonneg hd
  have hNX : X ≤ N * X := le_mul_of_one_le_left hX hN
  have hX2 : 2 * X ≤ 2 ^ p := by linarith
  have hP := two_zpow_pos (-(p : ℤ))
  have hcor : ∀ i, MultipleV v X (corner t i) := by
    intro i
    unfold corner
    split <;> assumption
  have hsg : ∀ i, sgnDistanceFl fl eq pl (corner t i) = Plane.sgnDistance eq pl (corner t i) ∧
      Multiple (u + v) (2 ^ p) (Plane.sgnDistance eq pl (corner t i)) := fun i =>
    sgnDistanceFl_exact hf (by omega) huv (by linarith) hB eq hn hd (hcor i)
  have hrel : ∀ i, relationPointFl fl eq pl (corner t i) eps = Plane.relationPoint eq pl (corner t i) eps := by
    intro i
    unfold relationPointFl Plane.relationPoint
    rw [(hsg i).1]
  have hdot : ∀ a b : V3 ℚ, V3.dot pl.normal (b - a) = Plane.sgnDistance eq pl b - Plane.sgnDistance eq pl a := by
    intro a b
    simp only [Plane.sgnDistance]
    vec_simp; ring
  have hint : ∀ i j, ∀ n, interpFl fl n eq pl (corner t i) (subFl fl (corner t j) (corner t i)) =
      roundExt fl (Ext.div n (-Plane.sgnDistance eq pl (corner t i)) (Plane.sgnDistance eq pl (corner t j) - Plane.sgnDistance eq pl (corner t i))) := by
    intro i j n
    obtain ⟨e1, h1⟩ := subFl_exact hf (by omega) hv hX2 (hcor j) (hcor i)
    have e2 := dotFl_exact hf (by omega) huv (by linarith) hn h1
    unfold interpFl
    rw [e1, e2.1, (hsg i).1, hdot]
  have step : ∀ (i : ℕ) (s s' : Poly ℚ × Poly ℚ), NearS (2 ^ (-(p : ℤ))) s s' →
      Sim (2 ^ (-(p : ℤ))) (edgeStep (nz i) eq pl t (fun i => Plane.relationPoint eq pl (corner t i) eps) i s)
        (edgeStepFl fl (nz i) eq pl t (fun i => Plane.relationPoint eq pl (corner t i) eps) i s') := by
    intro i s s' h
    unfold edgeStep edgeStepFl
    dsimp only
    rw [hint, Plane.interp, hdot]
    refine sim_bind (addCut_sim hf hp he (hsg i).2 (hsg _).2 (nz i) h i _) fun s s' h => ?_
    split_ifs
    · exact addVertex_sim h (near_refl hP.le _) _
    · exact sim_ok h
  have all : Sim (2 ^ (-(p : ℤ)))
      ((addVertex ([], []) (bary 0) (Plane.relationPoint eq pl (corner t 0) eps)).bind fun s =>
        (edgeStep (nz 0) eq pl t (fun i => Plane.relationPoint eq pl (corner t i) eps) 0 s).bind fun s =>
        (edgeStep (nz 1) eq pl t (fun i => Plane.relationPoint eq pl (corner t i) eps) 1 s).bind fun s =>
        (edgeStep (nz 2) eq pl t (fun i => Plane.relationPoint eq pl (corner t i) eps) 2 s))
      ((addVertex ([], []) (bary 0) (Plane.relationPoint eq pl (corner t 0) eps)).bind fun s =>
        (edgeStepFl fl (nz 0) eq pl t (fun i => Plane.relationPoint eq pl (corner t i) eps) 0 s).bind fun s =>
        (edgeStepFl fl (nz 1) eq pl t (fun i => Plane.relationPoint eq pl (corner t i) eps) 1 s).bind fun s =>
        (edgeStepFl fl (nz 2) eq pl t (fun i => Plane.relationPoint eq pl (corner t i) eps) 2 s)) :=
    sim_bind (addVertex_sim ⟨.nil, .nil⟩ (near_refl hP.le _) _) fun s s' h => sim_bind (step 0 s s' h) fun s s' h =>
      sim_bind (step 1 s s' h) fun s s' h => step 2 s s' h
  have hcl := clip_cases nz eq pl t eps heps
  have hlen : ∀ r f b, clipTriangle nz eq pl t eps [] [] = .ok (r, f, b) → f.length ≤ 4 ∧ b.length ≤ 4 := by
    intro r f b h
    rcases hcl with ⟨h', -⟩ | ⟨h', -⟩ | ⟨f', b', h', -, -, g, -⟩ <;> rw [h'] at h <;> cases h
    · exact ⟨by simp, by simp⟩
    · exact ⟨by simp, by simp⟩
    · exact ⟨g.frontMax, by rcases g.backCount with h | h <;> omega⟩
  have hok : ∃ r f b, clipTriangle nz eq pl t eps [] [] = .ok (r, f, b) := by
    rcases hcl with ⟨h', -⟩ | ⟨h', -⟩ | ⟨f', b', h', -⟩
    exacts [⟨_, _, _, h'⟩, ⟨_, _, _, h'⟩, ⟨_, _, _, h'⟩]
  obtain ⟨r, f, b, hr⟩ := hok
  obtain ⟨l1, l2⟩ := hlen r f b hr
  suffices h : ∃ f' b', clipTriangleFl fl nz eq pl t eps [] [] = .ok (r, f', b') ∧ NearS (2 ^ (-(p : ℤ))) (f, b) (f', b') by
    obtain ⟨f', b', h1, h2⟩ := h
    exact ⟨r, f, b, f', b', hr, h1, by rw [← h2.1.length_eq]; exact l1, by rw [← h2.2.length_eq]; exact l2, h2.1, h2.2⟩
  unfold clipTriangle at hr
  unfold clipTriangleFl
  simp only [hrel]
  dsimp only at hr
  split_ifs at hr ⊢ with h1 h2
  · cases hr; exact ⟨_, _, rfl, .nil, .nil⟩
  · cases hr; exact ⟨_, _, rfl, .nil, .nil⟩
  · simp only [Res.bind_eq_ok] at hr
    obtain ⟨s0, e0, s1, e1, s2, e2, s3, e3, e4⟩ := hr
    cases e4
    obtain ⟨s', hs', hn'⟩ := all s3 (by simp only [Res.bind_eq_ok]; exact ⟨s0, e0, s1, e1, s2, e2, e3⟩)
    simp only [Res.bind_eq_ok] at hs'
    obtain ⟨t0, g0, t1, g1, t2, g2, g3⟩ := hs'
    exact ⟨_, _, by rw [g0, Res.bind_ok, g1, Res.bind_ok, g2, Res.bind_ok, g3, Res.bind_ok], hn'⟩

/-- A triangle with small whole coordinates and the plane x = 1, single precision. -/
example : ∃ r f b f' b', clipTriangle (fun _ => false) .nxEqD ⟨⟨1, 0, 0⟩, 1⟩ ⟨⟨0, 0, 0⟩, ⟨3, 0, 0⟩, ⟨0, 2, 0⟩⟩ (0 : ℚ) [] [] = .ok (r, f, b) ∧
    clipTriangleFl (Float.nearest 24 (-149)) (fun _ => false) .nxEqD ⟨⟨1, 0, 0⟩, 1⟩ ⟨⟨0, 0, 0⟩, ⟨3, 0, 0⟩, ⟨0, 2, 0⟩⟩ (0 : ℚ) [] [] =
      .ok (r, f', b') ∧ f'.length ≤ 4 ∧ b'.length ≤ 4 ∧ List.Forall₂ (Near (2 ^ (-((24 : ℕ) : ℤ)))) f f' ∧
      List.Forall₂ (Near (2 ^ (-((24 : ℕ) : ℤ)))) b b' :=
  C101_agrees_partial (Float.nearest_isNearest (by norm_num)) (by norm_num) (by norm_num) (u := 0) (v := 0) (N := 1) (X := 3) (D := 1)
    (by norm_num) (by norm_num) (by norm_num) (by norm_num) _ _ _ _ _ le_rfl
    ⟨⟨1, by norm_num, by norm_num⟩, ⟨0, by norm_num, by norm_num⟩, ⟨0, by norm_num, by norm_num⟩⟩ ⟨1, by norm_num, by norm_num⟩
    ⟨⟨0, by norm_num, by norm_num⟩, ⟨0, by norm_num, by norm_num⟩, ⟨0, by norm_num, by norm_num⟩⟩
    ⟨⟨3, by norm_num, by norm_num⟩, ⟨0, by norm_num, by norm_num⟩, ⟨0, by norm_num, by norm_num⟩⟩
    ⟨⟨0, by norm_num, by norm_num⟩, ⟨2, by norm_num, by norm_num⟩, ⟨0, by norm_num, by norm_num⟩⟩

/-- A small number added to a large power of two is lost. -/
theorem absorb (hf : IsNearest p emin fl) (hp : 2 ≤ p) {k : ℤ} (hk : emin ≤ k) {x : ℚ} (h : |x - 2 ^ ((p : ℤ) + 2 + k)| ≤ 2 ^ k) :
    fl x = 2 ^ ((p : ℤ) + 2 + k) := by
  have hu := two_zpow_pos k
  have hZ : (2 : ℚ) ^ ((p : ℤ) + 2 + k) ∈ Floats p emin := by
    have := mem_of_le (p := p) (emin := emin) (k := 1) (e := (p : ℤ) + 2 + k) (by omega) (by omega) (by rw [abs_one]; exact one_le_pow₀ (by norm_num))
    simpa using this
  have e1 : (2 : ℚ) ^ ((p : ℤ) + 2 + k) = (2 ^ p : ℤ) * 2 ^ (k + 1 + 1) := by
    push_cast
    rw [← zpow_natCast, ← zpow_add₀ (by norm_num)]
    congr 1; ring
  have e2 : (2 : ℚ) ^ (k + 1 + 1) = 4 * 2 ^ k := by
    rw [zpow_add_one₀ (by norm_num), zpow_add_one₀ (by norm_num)]; ring
  have e3 : (2 : ℚ) ^ ((p : ℤ) + (k + 1)) = 2 ^ p * (2 * 2 ^ k) := by
    rw [zpow_add₀ (by norm_num), zpow_natCast, zpow_add_one₀ (by norm_num)]; ring
  have hP : (4 : ℚ) ≤ 2 ^ p := by
    calc (4 : ℚ) = 2 ^ 2 := by norm_num
      _ ≤ 2 ^ p := pow_le_pow_right₀ (by norm_num) hp
  have h1 := hf.near x _ hZ
  rw [abs_sub_comm (2 ^ ((p : ℤ) + 2 + k)) x] at h1
  have h2 := abs_le.1 (h1.trans h)
  have h3 := abs_le.1 h
  have hm : 4 * (2 : ℚ) ^ k ≤ 2 ^ p * 2 ^ k := mul_le_mul_of_nonneg_right hP hu.le
  have e4 : (2 : ℚ) ^ ((p : ℤ) + 2 + k) = 4 * (2 ^ p * 2 ^ k) := by rw [e1, e2]; push_cast; ring
  have hbig : (2 : ℚ) ^ ((p : ℤ) + (k + 1)) ≤ |fl x| := by
    refine le_trans ?_ (le_abs_self _)
    rw [e3]
    linarith [h2.1, h3.1]
  obtain ⟨j, hj⟩ := Float.multiple_of_le (hf.mem x) hbig
  have hlt : |j - 2 ^ p| < 1 := by
    have h5 : |((j - 2 ^ p : ℤ) : ℚ)| * (4 * 2 ^ k) < 1 * (4 * 2 ^ k) := by
      have : ((j - 2 ^ p : ℤ) : ℚ) * (4 * 2 ^ k) = fl x - 2 ^ ((p : ℤ) + 2 + k) := by rw [hj, e1, e2]; push_cast; ring
      rw [← abs_of_pos (show (0 : ℚ) < 4 * 2 ^ k by linarith), ← abs_mul, this, abs_of_pos (show (0 : ℚ) < 4 * 2 ^ k by linarith), abs_lt]
      constructor <;> linarith [h2.1, h2.2, h3.1, h3.2]
    have h6 := lt_of_mul_lt_mul_right h5 (by linarith)
    exact_mod_cast h6
  have hj' : j = 2 ^ p := by
    have := Int.abs_lt_one_iff.1 hlt
    linarith
  rw [hj, hj', e1]

theorem neg_nearest (hf : IsNearest p emin fl) : IsNearest p emin fun x => -fl (-x) where
  mem x := Float.neg_mem (hf.mem _)
  fix x hx := by rw [hf.fix _ (Float.neg_mem hx), neg_neg]
  mono x y h := neg_le_neg (hf.mono (neg_le_neg h))
  near x z hz := by
    have := hf.near (-x) _ (Float.neg_mem hz)
    rw [← abs_neg (-fl (-x) - x), ← abs_neg (z - x)]
    convert this using 2 <;> ring

theorem dotFl_x (hf : IsNearest p emin fl) (f0 : fl 0 = 0) {x : ℚ} (hx : x ∈ Floats p emin) (y z : ℚ) :
    dotFl fl ⟨1, 0, 0⟩ ⟨x, y, z⟩ = x := by
  simp [dotFl, f0, hf.fix x hx]

theorem addCutFl_in {s : Poly ℚ × Poly ℚ} {i : ℕ} {r : Relation} (hr : r ≠ .onto) {t : ℚ} (h0 : 0 ≤ t) (h1 : t ≤ 1) :
    addCutFl fl s i r (.fin t) = addVertex s (cutPointFl fl i t) .onto := by
  unfold addCutFl
  rw [if_pos hr, if_pos (by simp [Ext.ge, Ext.le, h0, h1])]

/-- C101: in general `ClipTriangle` may write beyond its arrays. For each precision, each rounding to the nearest, each epsilon and both forms of
the plane there is a triangle for which a polygon gets a fifth vertex. For `float` and epsilon 1e-5 the triangle is (1024, 0, 0),
(2^-16, 1, 0), (-2^-16, 0, 1) with the plane x = 0. -/
theorem C101_bounds_refuted (hf : IsNearest p emin fl) (hp : 2 ≤ p) (he : emin ≤ 0) {k : ℤ} (hk : emin ≤ k) {eps : ℚ} (heps : 0 ≤ eps)
    (hek : eps < 2 ^ k) (nz : ℕ → Bool) (eq : Eqn) :
    clipTriangleFl fl nz eq ⟨⟨1, 0, 0⟩, 0⟩ ⟨⟨2 ^ ((p : ℤ) + 2 + k), 0, 0⟩, ⟨2 ^ k, 1, 0⟩, ⟨-2 ^ k, 0, 1⟩⟩ eps [] [] = .ub := by
  have hu := two_zpow_pos k
  have hZ := two_zpow_pos ((p : ℤ) + 2 + k)
  have hle : (2 : ℚ) ^ k ≤ 2 ^ ((p : ℤ) + 2 + k) := zpow_le_zpow_right₀ (by norm_num) (by omega)
  have pow_mem : ∀ e : ℤ, emin ≤ e → (2 : ℚ) ^ e ∈ Floats p emin := by
    intro e he
    have := mem_of_le (p := p) (emin := emin) (k := 1) (e := e) (by omega) he (by rw [abs_one]; exact one_le_pow₀ (by norm_num))
    simpa using this
  have f0 : fl 0 = 0 := by
    have := int_mem (p := p) (emin := emin) (k := 0) (by omega) (by omega) (by simp)
    exact_mod_cast hf.fix _ this
  have f1 : fl 1 = 1 := by
    have := hf.fix _ (pow_mem 0 he)
    simpa using this
  have range : ∀ t : ℚ, 0 ≤ t → t ≤ 1 → 0 ≤ fl t ∧ fl t ≤ 1 := by
    intro t h0 h1
    have h0' := hf.mono h0
    have h1' := hf.mono h1
    rw [f0] at h0'
    rw [f1] at h1'
    exact ⟨h0', h1'⟩
  have hs : ∀ x y z : ℚ, x ∈ Floats p emin → sgnDistanceFl fl eq ⟨⟨1, 0, 0⟩, 0⟩ ⟨x, y, z⟩ = x := by
    intro x y z hx
    have : (eq.distanceSign (0 : ℚ)) = 0 := by cases eq <;> simp [Eqn.distanceSign]
    unfold sgnDistanceFl
    rw [dotFl_x hf f0 hx, this, sub_zero, hf.fix x hx]
  have mZ := pow_mem ((p : ℤ) + 2 + k) (by omega)
  have mk := pow_mem k hk
  have mk' := pow_mem (k + 1) (by omega)
  have ek : (2 : ℚ) ^ (k + 1) = 2 * 2 ^ k := by rw [zpow_add_one₀ (by norm_num)]; ring
  -- the directions
  have d0 : fl (2 ^ k - 2 ^ ((p : ℤ) + 2 + k)) = -2 ^ ((p : ℤ) + 2 + k) := by
    have h := absorb (neg_nearest hf) hp hk (x := 2 ^ ((p : ℤ) + 2 + k) - 2 ^ k) (by rw [abs_le]; constructor <;> linarith)
    rw [neg_sub] at h
    linarith
  have d1 : fl (-2 ^ k - 2 ^ k) = -(2 * 2 ^ k) := by
    have h := hf.fix _ (Float.neg_mem mk')
    rw [ek] at h
    rw [← h]; congr 1; ring
  have d2 : fl (2 ^ ((p : ℤ) + 2 + k) - -2 ^ k) = 2 ^ ((p : ℤ) + 2 + k) :=
    absorb hf hp hk (by rw [abs_le]; constructor <;> linarith)
  have i0 : interpFl fl (nz 0) eq ⟨⟨1, 0, 0⟩, 0⟩ ⟨2 ^ ((p : ℤ) + 2 + k), 0, 0⟩
      (subFl fl ⟨2 ^ k, 1, 0⟩ ⟨2 ^ ((p : ℤ) + 2 + k), 0, 0⟩) = .fin 1 := by
    unfold interpFl subFl
    dsimp only
    rw [d0, hs _ _ _ mZ, dotFl_x hf f0 (Float.neg_mem mZ), Ext.div_ne (by linarith), div_self (by linarith)]
    simp only [roundExt, f1]
  have i1 : ∃ t, interpFl fl (nz 1) eq ⟨⟨1, 0, 0⟩, 0⟩ ⟨2 ^ k, 1, 0⟩ (subFl fl ⟨-2 ^ k, 0, 1⟩ ⟨2 ^ k, 1, 0⟩) = .fin t ∧ 0 ≤ t ∧ t ≤ 1 := by
    unfold interpFl subFl
    dsimp only
    rw [d1, hs _ _ _ mk, dotFl_x hf f0 (by rw [← ek]; exact Float.neg_mem mk'), Ext.div_ne (by linarith)]
    refine ⟨_, rfl, range _ ?_ ?_⟩
    · exact div_nonneg_of_nonpos (by linarith) (by linarith)
    · rw [div_le_one_of_neg (by linarith)]; linarith
  have i2 : ∃ t, interpFl fl (nz 2) eq ⟨⟨1, 0, 0⟩, 0⟩ ⟨-2 ^ k, 0, 1⟩ (subFl fl ⟨2 ^ ((p : ℤ) + 2 + k), 0, 0⟩ ⟨-2 ^ k, 0, 1⟩) = .fin t ∧
      0 ≤ t ∧ t ≤ 1 := by
    unfold interpFl subFl
    dsimp only
    rw [d2, hs _ _ _ (Float.neg_mem mk), dotFl_x hf f0 mZ, Ext.div_ne (by linarith)]
    refine ⟨_, rfl, range _ ?_ ?_⟩
    · exact div_nonneg (by linarith) hZ.le
    · rw [div_le_one hZ]; linarith
  obtain ⟨t1, i1, a1, b1⟩ := i1
  obtain ⟨t2, i2, a2, b2⟩ := i2
  have r0 : relationPointFl fl eq ⟨⟨1, 0, 0⟩, 0⟩ ⟨2 ^ ((p : ℤ) + 2 + k), 0, 0⟩ eps = .inFrontOf := by
    unfold relationPointFl
    rw [hs _ _ _ mZ, if_pos (by linarith)]
  have r1 : relationPointFl fl eq ⟨⟨1, 0, 0⟩, 0⟩ ⟨2 ^ k, 1, 0⟩ eps = .inFrontOf := by
    unfold relationPointFl
    rw [hs _ _ _ mk, if_pos (by linarith)]
  have r2 : relationPointFl fl eq ⟨⟨1, 0, 0⟩, 0⟩ ⟨-2 ^ k, 0, 1⟩ eps = .behind := by
    unfold relationPointFl
    rw [hs _ _ _ (Float.neg_mem mk), if_neg (by linarith), if_pos (by linarith)]
  unfold clipTriangleFl
  simp only [edgeStepFl, corner, Nat.zero_add, Nat.reduceAdd, Nat.reduceMod, r0, r1, r2, i0, i1, i2]
  rw [if_neg (by simp), if_neg (by simp)]
  simp only [addCutFl_in (show Relation.inFrontOf ≠ .onto by simp) zero_le_one le_rfl, addCutFl_in (show Relation.behind ≠ .onto by simp) a1 b1,
    addCutFl_in (show Relation.inFrontOf ≠ .onto by simp) a2 b2]
  simp [addVertex, Poly.add, Res.bind]

/-- Single precision, epsilon 1e-5: the corners are floats, and a.x is 1024. -/
example : clipTriangleFl (Float.nearest 24 (-149)) (fun _ => false) .nxEqD ⟨⟨1, 0, 0⟩, 0⟩
    ⟨⟨1024, 0, 0⟩, ⟨1 / 65536, 1, 0⟩, ⟨-1 / 65536, 0, 1⟩⟩ (1 / 100000) [] [] = .ub := by
  have := C101_bounds_refuted (Float.nearest_isNearest (p := 24) (emin := -149) (by norm_num)) (by norm_num) (by norm_num) (k := -16)
    (by norm_num) (eps := 1 / 100000) (by norm_num) (by norm_num) (fun _ => false) .nxEqD
  norm_num at this ⊢
  exact this

end Geom.Clip.Props
