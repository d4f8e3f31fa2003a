import Verif.Props.LinesFloat
import Verif.Props.Lines

/-
  C117: the nearest points of two segments with integer coordinates in floating-point arithmetic. If the coordinates are small, then the
  products of the code are exact, and the divisions are rounded.
-/
set_option autoImplicit false
set_option linter.unusedSectionVars false

namespace Geom.Lines.Props
open Geom.Float Geom.Lines.Spec DotSpace
open Clip (dotFl subFl)
open Plane.Spec (ulp FloatV)

/-! ## Lengths -/

section
variable {V : Type} [AddCommGroup V] [Module ℚ V] [DotSpace ℚ V]

/-- The length of the vector is at most `d`. -/
def Len (v : V) (d : ℚ) : Prop := 0 ≤ d ∧ dot v v ≤ d ^ 2

theorem Len.add {v w : V} {d e : ℚ} (h : Len v d) (k : Len w e) : Len (v + w) (d + e) := by
  obtain ⟨h0, h1⟩ := h
  obtain ⟨k0, k1⟩ := k
  refine ⟨by linarith, ?_⟩
  have c := cauchy v w
  have n1 : 0 ≤ dot v v := dot_self_nonneg v
  have n2 : 0 ≤ dot w w := dot_self_nonneg w
  have hvw : dot v w ≤ d * e := by
    refine (le_abs_self _).trans (abs_le_of_sq_le_sq ?_ (mul_nonneg h0 k0))
    have : dot v v * dot w w ≤ d ^ 2 * e ^ 2 := mul_le_mul h1 k1 n2 (sq_nonneg d)
    nlinarith
  have : dot (v + w) (v + w) = dot v v + 2 * dot v w + dot w w := by
    rw [add_dot, dot_add, dot_add, dot_comm w v]; ring
  rw [this]; nlinarith

theorem Len.neg {v : V} {d : ℚ} (h : Len v d) : Len (-v) d := ⟨h.1, by rw [neg_dot, dot_neg, neg_neg]; exact h.2⟩

theorem Len.smul {v : V} {d s m : ℚ} (h : Len v d) (hs : |s| ≤ m) : Len (s • v) (m * d) := by
  have hm : 0 ≤ m := (abs_nonneg s).trans hs
  refine ⟨mul_nonneg hm h.1, ?_⟩
  rw [smul_dot, dot_smul, mul_pow]
  have h1 : s * s ≤ m ^ 2 := by rw [← abs_mul_abs_self s, sq]; exact mul_le_mul hs hs (abs_nonneg s) hm
  have := mul_le_mul h1 h.2 (dot_self_nonneg v) (sq_nonneg m)
  linarith

theorem Len.mono {v : V} {d e : ℚ} (h : Len v d) (k : d ≤ e) : Len v e :=
  ⟨h.1.trans k, h.2.trans (pow_le_pow_left₀ h.1 k 2)⟩

/-! ## The exact minimum -/

/-- The difference of the points with the parameters `s` and `t`. -/
def diff (u v r : V) (s t : ℚ) : V := r + s • u - t • v

/-- The first parameter is free in [0, 1], the second one is free. -/
theorem min_strip (u v r : V) (hv : 0 < dot (K := ℚ) v v) {s : ℚ}
    (hs : s = if dot u u * dot v v - dot u v * dot u v ≠ 0 then saturate ((dot u v * dot v r - dot u r * dot v v) / (dot u u * dot v v - dot u v * dot u v)) else 0)
    {s' t' : ℚ} (h0 : 0 ≤ s') (h1 : s' ≤ 1) :
    dot (diff u v r s ((dot u v * s + dot v r) / dot v v)) (diff u v r s ((dot u v * s + dot v r) / dot v v)) ≤ dot (diff u v r s' t') (diff u v r s' t') := by
  have hD := cauchy u v
  have hp := parallel u v r
  have key : 0 ≤ ((dot u u * dot v v - dot u v * dot u v) * s - (dot u v * dot v r - dot u r * dot v v)) * (s' - s) := by
    by_cases h : dot u u * dot v v - dot u v * dot u v = 0
    · have e := hp h
      have : dot u v * dot v r - dot u r * dot v v = 0 := by
        by_cases hu : dot (K := ℚ) u u = 0
        · rw [eq_zero_of_dot u hu, zero_dot, zero_dot]; ring
        · have : dot u u * (dot u v * dot v r - dot u r * dot v v) = 0 := by linear_combination dot u v * e - dot u r * h
          exact (mul_eq_zero.1 this).resolve_left hu
      rw [h, this]; simp
    · rw [if_pos h] at hs
      have := saturate_opt (a := dot u u * dot v v - dot u v * dot u v) (m := (dot u v * dot v r - dot u r * dot v v) / (dot u u * dot v v - dot u v * dot u v)) hD h0 h1
      rw [← hs] at this
      have e : (dot u u * dot v v - dot u v * dot u v) * (s - (dot u v * dot v r - dot u r * dot v v) / (dot u u * dot v v - dot u v * dot u v)) =
          (dot u u * dot v v - dot u v * dot u v) * s - (dot u v * dot v r - dot u r * dot v v) := by rw [mul_sub, mul_div_cancel₀ _ h]
      rwa [e] at this
  set t := (dot u v * s + dot v r) / dot v v with ht
  have et : t * dot v v = dot u v * s + dot v r := by rw [ht, div_mul_cancel₀ _ hv.ne']
  have h2 : 0 ≤ dot ((s' - s) • u - (t' - t) • v) ((s' - s) • u - (t' - t) • v) := dot_self_nonneg _
  have grad : 0 ≤ (dot u r + s * dot u u - t * dot u v) * (s' - s) := by
    refine nonneg_of_mul_nonneg_right ?_ hv
    have : dot v v * ((dot u r + s * dot u u - t * dot u v) * (s' - s)) =
        ((dot u u * dot v v - dot u v * dot u v) * s - (dot u v * dot v r - dot u r * dot v v)) * (s' - s) := by
      linear_combination (- dot u v * (s' - s)) * et
    rw [this]; exact key
  have zero : (-dot v r - s * dot u v + t * dot v v) * (t' - t) = 0 := by
    rw [show -dot v r - s * dot u v + t * dot v v = 0 by linarith, zero_mul]
  simp only [diff, sub_dot, dot_sub, add_dot, dot_add, smul_dot, dot_smul, dot_comm u r, dot_comm v r, dot_comm v u] at h2 grad zero ⊢
  linarith

/-- The second parameter is fixed. -/
theorem min_edge (u v r : V) (hu : 0 < dot (K := ℚ) u u) (t : ℚ) {s' : ℚ} (h0 : 0 ≤ s') (h1 : s' ≤ 1) :
    dot (diff u v r (saturate ((t * dot u v - dot u r) / dot u u)) t) (diff u v r (saturate ((t * dot u v - dot u r) / dot u u)) t) ≤
      dot (diff u v r s' t) (diff u v r s' t) := by
  have := saturate_opt (a := dot u u) (m := (t * dot u v - dot u r) / dot u u) hu.le h0 h1
  generalize hs : saturate ((t * dot u v - dot u r) / dot u u) = s at *
  have e : dot u u * (s - (t * dot u v - dot u r) / dot u u) = dot u u * s - (t * dot u v - dot u r) := by rw [mul_sub, mul_div_cancel₀ _ hu.ne']
  rw [e] at this
  clear e hs
  have h2 : 0 ≤ dot ((s' - s) • u) ((s' - s) • u) := dot_self_nonneg _
  simp only [diff, sub_dot, dot_sub, add_dot, dot_add, smul_dot, dot_smul, dot_comm u r, dot_comm v r, dot_comm v u] at h2 this ⊢
  nlinarith

/-- The exact parameters of the code are optimal. -/
theorem min_square (u v r : V) {eps : ℚ} (he : 0 ≤ eps) (hu : dot u u ≤ eps → u = 0) (hv : dot v v ≤ eps → v = 0) {s t : ℚ}
    (h : (if dot u u ≤ eps ∧ dot v v ≤ eps then none
      else if dot u u ≤ eps then some (0, saturate (dot v r / dot v v))
      else if dot v v ≤ eps then some (saturate (-dot u r / dot u u), 0)
      else if (dot u v * (if dot u u * dot v v - dot u v * dot u v ≠ 0 then saturate ((dot u v * dot v r - dot u r * dot v v) / (dot u u * dot v v - dot u v * dot u v)) else 0) + dot v r) / dot v v < 0
      then some (saturate (-dot u r / dot u u), 0)
      else if (dot u v * (if dot u u * dot v v - dot u v * dot u v ≠ 0 then saturate ((dot u v * dot v r - dot u r * dot v v) / (dot u u * dot v v - dot u v * dot u v)) else 0) + dot v r) / dot v v > 1
      then some (saturate ((dot u v - dot u r) / dot u u), 1)
      else some (if dot u u * dot v v - dot u v * dot u v ≠ 0 then saturate ((dot u v * dot v r - dot u r * dot v v) / (dot u u * dot v v - dot u v * dot u v)) else 0,
        (dot u v * (if dot u u * dot v v - dot u v * dot u v ≠ 0 then saturate ((dot u v * dot v r - dot u r * dot v v) / (dot u u * dot v v - dot u v * dot u v)) else 0) + dot v r) / dot v v)) = some (s, t))
    {s' t' : ℚ} (hs0 : 0 ≤ s') (hs1 : s' ≤ 1) (ht0 : 0 ≤ t') (ht1 : t' ≤ 1) :
    dot (diff u v r s t) (diff u v r s t) ≤ dot (diff u v r s' t') (diff u v r s' t') := by
  have hzA : dot (K := ℚ) u u = 0 → u = 0 := eq_zero_of_dot _
  have hzB : dot (K := ℚ) v v = 0 → v = 0 := eq_zero_of_dot _
  obtain ⟨-, hopt⟩ := params_scalar he
    (fun h => by rw [hu h, zero_dot]) (fun h => by rw [hv h, zero_dot])
    (cauchy u v) (parallel u v r)
    (fun h => by rw [hzA h, zero_dot]) (fun h => by rw [hzB h, dot_zero]) (fun h => by rw [hzA h, zero_dot])
    (fun h => by rw [hzB h, zero_dot]) h
  exact optimal_of u v r s t hopt s' t' hs0 hs1 ht0 ht1

end

/-! ## Rounding -/

variable {p : ℕ} {emin : ℤ} {fl : ℚ → ℚ}

theorem ulp_pos : 0 < ulp p := two_zpow_pos _

theorem round_le (hf : IsRounding p emin fl) (hp : 1 ≤ p) (he : emin ≤ 1 - (p : ℤ)) (x : ℚ) : |fl x - x| ≤ ulp p * (|x| + 1) := by
  have h1 := round_any hf hp x
  have h2 : (2 : ℚ) ^ emin ≤ ulp p := zpow_le_zpow_right₀ (by norm_num) he
  change _ ≤ ulp p * |x| + _ at h1
  linarith

theorem fl_one (hf : IsRounding p emin fl) (hp : 1 ≤ p) (he : emin ≤ 1 - (p : ℤ)) : fl 1 = 1 := by
  have := hf.fix _ (int_mem (p := p) (emin := emin) (k := 1) hp (by omega) (by rw [abs_one]; exact one_le_pow₀ (by norm_num)))
  simpa using this

theorem saturate_round (hf : IsRounding p emin fl) (hp : 1 ≤ p) (he : emin ≤ 1 - (p : ℤ)) (x : ℚ) :
    |saturate (fl x) - saturate x| ≤ 2 * ulp p := by
  have hu : 0 < ulp p := ulp_pos
  have z := fl_zero hf
  have o := fl_one hf hp he
  rcases saturate_cases x with ⟨e, h⟩ | ⟨e, h, h'⟩ | ⟨e, h⟩ <;> rw [e]
  · have k := hf.mono h.le
    rw [z] at k
    rw [show saturate (fl x) = 0 from max_eq_left ((min_le_right _ _).trans k), sub_self, abs_zero]
    positivity
  · have k := hf.mono h
    have k' := hf.mono h'
    rw [z] at k
    rw [o] at k'
    rw [show saturate (fl x) = fl x by rw [saturate, min_eq_right k', max_eq_right k]]
    have := round_le hf hp he x
    rw [abs_of_nonneg h] at this
    nlinarith
  · have k := hf.mono h.le
    rw [o] at k
    rw [show saturate (fl x) = 1 by rw [saturate, min_eq_left k]; exact max_eq_right zero_le_one, sub_self, abs_zero]
    positivity

/-- The second parameter. -/
theorem param_round (hf : IsRounding p emin fl) (hp : 1 ≤ p) (he : emin ≤ 1 - (p : ℤ)) {b f e s s' : ℚ} (h1 : 1 ≤ e) (hs : |s - s'| ≤ 2 * ulp p)
    (s0 : 0 ≤ s) (s1 : s ≤ 1) :
    |fl (fl (fl (b * s) + f) / e) - (b * s' + f) / e| ≤ ulp p * (11 * ((|b| + |f| + 1) / e) + 1) := by
  have hu : 0 < ulp p := ulp_pos
  have hu1 : ulp p ≤ 1 := zpow_le_one_of_nonpos₀ (by norm_num) (by omega)
  have e0 : 0 < e := by linarith
  have nb := abs_nonneg b
  have nf := abs_nonneg f
  set S := |b| + |f| + 1 with hS
  have hbs : |b * s| ≤ |b| := by rw [abs_mul, abs_of_nonneg s0]; nlinarith
  have r1 := round_le hf hp he (b * s)
  set w := fl (b * s)
  have r2 := round_le hf hp he (w + f)
  set v := fl (w + f)
  have r3 := round_le hf hp he (v / e)
  have w1 : |w - b * s| ≤ ulp p * (|b| + 1) := r1.trans (by nlinarith)
  have w2 : |b * s - b * s'| ≤ |b| * (2 * ulp p) := by
    rw [← mul_sub, abs_mul]; exact mul_le_mul_of_nonneg_left hs nb
  have w3 : |w + f| ≤ 2 * S := by
    have := abs_add_three (w - b * s) (b * s) f
    rw [show w - b * s + b * s + f = w + f by ring] at this
    have : ulp p * (|b| + 1) ≤ |b| + 1 := by nlinarith
    rw [hS]; linarith
  have v1 : |v - (b * s' + f)| ≤ ulp p * (5 * S) := by
    have := abs_add_three (v - (w + f)) (w - b * s) (b * s - b * s')
    rw [show v - (w + f) + (w - b * s) + (b * s - b * s') = v - (b * s' + f) by ring] at this
    have : ulp p * (|w + f| + 1) ≤ ulp p * (2 * S + 1) := mul_le_mul_of_nonneg_left (by linarith) hu.le
    have : 0 ≤ ulp p * |f| := by positivity
    rw [hS] at *
    nlinarith
  have v2 : |v / e - (b * s' + f) / e| ≤ ulp p * (5 * (S / e)) := by
    rw [← sub_div, abs_div, abs_of_pos e0, div_le_iff₀ e0]
    calc _ ≤ _ := v1
      _ = _ := by field_simp
  have v3 : |v / e| ≤ 6 * (S / e) := by
    rw [abs_div, abs_of_pos e0, div_le_iff₀ e0]
    have k1 := abs_add_le (v - (w + f)) (w + f)
    rw [sub_add_cancel] at k1
    have k2 : ulp p * (|w + f| + 1) ≤ |w + f| + 1 := by nlinarith [abs_nonneg (w + f)]
    have k3 : 6 * (S / e) * e = 6 * S := by field_simp
    rw [k3]
    linarith
  have t := abs_add_le (fl (v / e) - v / e) (v / e - (b * s' + f) / e)
  rw [sub_add_sub_cancel] at t
  have : ulp p * (|v / e| + 1) ≤ ulp p * (6 * (S / e) + 1) := mul_le_mul_of_nonneg_left (by linarith) hu.le
  nlinarith

/-! ## Integers -/

/-- A vector of integers of at most `m`. -/
def IntV (m : ℤ) (v : V3 ℚ) : Prop := ∃ i j k : ℤ, v = ⟨i, j, k⟩ ∧ |i| ≤ m ∧ |j| ≤ m ∧ |k| ≤ m

theorem fl_int (hf : IsRounding p emin fl) (hp : 1 ≤ p) (he : emin ≤ 1 - (p : ℤ)) {j m : ℤ} (h : |j| ≤ m) (hm : m ≤ 2 ^ p) : fl (j : ℚ) = j :=
  hf.fix _ (int_mem hp (by omega) (h.trans hm))

theorem abs_mul_le {i j m : ℤ} (hi : |i| ≤ m) (hj : |j| ≤ m) : |i * j| ≤ m * m := by
  rw [abs_mul]; exact mul_le_mul hi hj (abs_nonneg _) ((abs_nonneg _).trans hi)

theorem sub_int (hf : IsRounding p emin fl) (hp : 1 ≤ p) (he : emin ≤ 1 - (p : ℤ)) {m : ℤ} (hm : 2 * m ≤ 2 ^ p) {v w : V3 ℚ} (hv : IntV m v) (hw : IntV m w) :
    subFl fl v w = v - w ∧ IntV (2 * m) (v - w) := by
  obtain ⟨a, b, c, rfl, h1, h2, h3⟩ := hv
  obtain ⟨a', b', c', rfl, k1, k2, k3⟩ := hw
  have d : ∀ i j : ℤ, |i| ≤ m → |j| ≤ m → |i - j| ≤ 2 * m := fun i j hi hj => (abs_sub _ _).trans (by linarith)
  have F : ∀ i j : ℤ, |i| ≤ m → |j| ≤ m → fl ((i : ℚ) - j) = i - j := fun i j hi hj => by
    have := fl_int hf hp he (d i j hi hj) hm
    push_cast at this; exact this
  refine ⟨?_, a - a', b - b', c - c', ?_, d _ _ h1 k1, d _ _ h2 k2, d _ _ h3 k3⟩
  · simp only [subFl, F _ _ h1 k1, F _ _ h2 k2, F _ _ h3 k3]; ext <;> simp
  · ext <;> simp

theorem dot_int (hf : IsRounding p emin fl) (hp : 1 ≤ p) (he : emin ≤ 1 - (p : ℤ)) {m : ℤ} (hm : 3 * (m * m) ≤ 2 ^ p) {v w : V3 ℚ} (hv : IntV m v) (hw : IntV m w) :
    dotFl fl v w = dot v w ∧ ∃ j : ℤ, dot v w = j ∧ |j| ≤ 3 * (m * m) := by
  obtain ⟨a, b, c, rfl, h1, h2, h3⟩ := hv
  obtain ⟨a', b', c', rfl, k1, k2, k3⟩ := hw
  have p1 := abs_mul_le h1 k1
  have p2 := abs_mul_le h2 k2
  have p3 := abs_mul_le h3 k3
  have mm : 0 ≤ m * m := mul_self_nonneg m
  have s2 : |a * a' + b * b'| ≤ 2 * (m * m) := (abs_add_le _ _).trans (by linarith)
  have s3 : |a * a' + b * b' + c * c'| ≤ 3 * (m * m) := (abs_add_le _ _).trans (by linarith)
  have e1 := fl_int hf hp he p1 (by linarith)
  have e2 := fl_int hf hp he p2 (by linarith)
  have e3 := fl_int hf hp he p3 (by linarith)
  have e4 := fl_int hf hp he s2 (by linarith)
  have e5 := fl_int hf hp he s3 hm
  push_cast at e1 e2 e3 e4 e5
  refine ⟨?_, a * a' + b * b' + c * c', ?_, s3⟩
  · simp only [dotFl, e1, e2, e3, e4, e5]
    rfl
  · push_cast; rfl

theorem IntV.len {m : ℤ} (hm : 0 ≤ m) {v : V3 ℚ} (hv : IntV m v) : dot v v ≤ 3 * (m : ℚ) ^ 2 ∧ Len v (2 * m) := by
  obtain ⟨a, b, c, rfl, h1, h2, h3⟩ := hv
  have k : ∀ i : ℤ, |i| ≤ m → (i : ℚ) * i ≤ (m : ℚ) ^ 2 := fun i hi => by
    have := abs_mul_le hi hi
    rw [abs_mul_self] at this
    rw [sq]; exact_mod_cast this
  have e : dot (⟨a, b, c⟩ : V3 ℚ) ⟨a, b, c⟩ = (a : ℚ) * a + b * b + c * c := rfl
  have m0 : (0 : ℚ) ≤ m := by exact_mod_cast hm
  have h : dot (⟨a, b, c⟩ : V3 ℚ) ⟨a, b, c⟩ ≤ 3 * (m : ℚ) ^ 2 := by rw [e]; linarith [k a h1, k b h2, k c h3]
  exact ⟨h, by positivity, by nlinarith [sq_nonneg (m : ℚ)]⟩

/-- The parameters of the code with exact products. -/
theorem params_int (hf : IsRounding p emin fl) (hp : 1 ≤ p) (he : emin ≤ 1 - (p : ℤ)) {n : ℕ} (hn : 288 * n ^ 4 ≤ 2 ^ p) {A B : Seg (V3 ℚ)}
    (hA : IntV n A.a ∧ IntV n A.b) (hB : IntV n B.a ∧ IntV n B.b) {eps : ℚ} (h0 : 0 ≤ eps) :
    let u := A.b - A.a
    let v := B.b - B.a
    let r := A.a - B.a
    let s := if dot u u * dot v v - dot u v * dot u v ≠ 0 then saturate (fl ((dot u v * dot v r - dot u r * dot v v) / (dot u u * dot v v - dot u v * dot u v))) else 0
    let t := fl (fl (fl (dot u v * s) + dot v r) / dot v v)
    closestParamsFl fl eps A B = .ok (if dot u u ≤ eps ∧ dot v v ≤ eps then none
      else if dot u u ≤ eps then some (0, saturate (fl (dot v r / dot v v)))
      else if dot v v ≤ eps then some (saturate (fl (-dot u r / dot u u)), 0)
      else if t < 0 then some (saturate (fl (-dot u r / dot u u)), 0)
      else if t > 1 then some (saturate (fl ((dot u v - dot u r) / dot u u)), 1)
      else some (s, t)) := by
  intro u v r s t
  have hn' : 288 * (n : ℤ) ^ 4 ≤ 2 ^ p := by exact_mod_cast hn
  have n0 : (0 : ℤ) ≤ n := by positivity
  have n2 : (n : ℤ) * n ≤ (n : ℤ) ^ 4 := by
    rcases Nat.eq_zero_or_pos n with h | h
    · rw [h]; simp
    · have : (1 : ℤ) ≤ n := by exact_mod_cast h
      nlinarith [mul_le_mul this this zero_le_one n0, mul_nonneg n0 n0]
  have n1 : (n : ℤ) ≤ (n : ℤ) * n := by
    rcases Nat.eq_zero_or_pos n with h | h
    · rw [h]; simp
    · have : (1 : ℤ) ≤ n := by exact_mod_cast h
      nlinarith
  have n4 : (0 : ℤ) ≤ (n : ℤ) ^ 4 := by positivity
  obtain ⟨eu, iu⟩ := sub_int hf hp he (by linarith) hA.2 hA.1
  obtain ⟨ev, iv⟩ := sub_int hf hp he (by linarith) hB.2 hB.1
  obtain ⟨er, ir⟩ := sub_int hf hp he (by linarith) hA.1 hB.1
  have mm : 3 * ((2 * n : ℤ) * (2 * n)) ≤ 2 ^ p := by nlinarith
  obtain ⟨ea, a, ha, la⟩ := dot_int hf hp he mm iu iu
  obtain ⟨ee, e, hee, le⟩ := dot_int hf hp he mm iv iv
  obtain ⟨ef, f, hff, lf⟩ := dot_int hf hp he mm iv ir
  obtain ⟨ec, c, hc, lc⟩ := dot_int hf hp he mm iu ir
  obtain ⟨eb, b, hb, lb⟩ := dot_int hf hp he mm iu iv
  have q : (3 * ((2 * n : ℤ) * (2 * n))) * (3 * ((2 * n : ℤ) * (2 * n))) = 144 * (n : ℤ) ^ 4 := by ring
  have P := fun {i j : ℤ} (hi : |i| ≤ 3 * ((2 * n : ℤ) * (2 * n))) (hj : |j| ≤ 3 * ((2 * n : ℤ) * (2 * n))) => (q ▸ abs_mul_le hi hj : |i * j| ≤ 144 * (n : ℤ) ^ 4)
  have X : ∀ {i j k l : ℤ}, |i| ≤ 3 * ((2 * n : ℤ) * (2 * n)) → |j| ≤ 3 * ((2 * n : ℤ) * (2 * n)) → |k| ≤ 3 * ((2 * n : ℤ) * (2 * n)) →
      |l| ≤ 3 * ((2 * n : ℤ) * (2 * n)) → fl (fl ((i : ℚ) * j) - fl ((k : ℚ) * l)) = i * j - k * l := by
    intro i j k l hi hj hk hl
    have e1 := fl_int hf hp he (P hi hj) (by linarith)
    have e2 := fl_int hf hp he (P hk hl) (by linarith)
    have e3 := fl_int hf hp he (j := i * j - k * l) (m := 288 * (n : ℤ) ^ 4) ((abs_sub _ _).trans (by linarith [P hi hj, P hk hl])) hn'
    push_cast at e1 e2 e3
    rw [e1, e2, e3]
  have X1 : fl ((b : ℚ) - c) = b - c := by
    have := fl_int hf hp he (j := b - c) (m := 288 * (n : ℤ) ^ 4) ((abs_sub _ _).trans (by nlinarith)) hn'
    push_cast at this; exact this
  have hd : ∀ x y : ℚ, y ≠ 0 → divFl fl x y = .ok (fl (x / y)) := fun x y h => if_neg h
  unfold closestParamsFl
  simp only [eu, ev, er, ea, ee, ef, ec, eb]
  simp only [s, t, u, v, r, ha, hee, hff, hc, hb, X la le lb lb, X lb lf lc le, X1]
  by_cases g1 : (a : ℚ) ≤ eps ∧ (e : ℚ) ≤ eps
  · rw [if_pos g1, if_pos g1]
  rw [if_neg g1, if_neg g1]
  by_cases g2 : (a : ℚ) ≤ eps
  · have : (e : ℚ) ≠ 0 := fun h => g1 ⟨g2, by rw [h]; exact h0⟩
    rw [if_pos g2, if_pos g2, hd _ _ this]; rfl
  have a0 : (a : ℚ) ≠ 0 := fun h => g2 (by rw [h]; exact h0)
  rw [if_neg g2, if_neg g2]
  by_cases g3 : (e : ℚ) ≤ eps
  · rw [if_pos g3, if_pos g3, hd _ _ a0]; rfl
  have e0 : (e : ℚ) ≠ 0 := fun h => g3 (by rw [h]; exact h0)
  rw [if_neg g3, if_neg g3]
  by_cases g4 : (a : ℚ) * e - b * b ≠ 0
  · simp only [if_pos g4, hd _ _ g4, hd _ _ e0, hd _ _ a0, Res.map, Res.bind]
    split_ifs <;> rfl
  · simp only [if_neg g4, hd _ _ e0, hd _ _ a0, Res.map, Res.bind]
    split_ifs <;> rfl

theorem len_comp {v : V3 ℚ} {d : ℚ} (h1 : |v.x| ≤ d) (h2 : |v.y| ≤ d) (h3 : |v.z| ≤ d) : Len v (2 * d) := by
  have hd : 0 ≤ d := (abs_nonneg _).trans h1
  have k : ∀ x : ℚ, |x| ≤ d → x * x ≤ d ^ 2 := fun x hx => by
    rw [← abs_mul_abs_self, sq]; exact mul_le_mul hx hx (abs_nonneg _) hd
  refine ⟨by positivity, ?_⟩
  have e : dot v v = v.x * v.x + v.y * v.y + v.z * v.z := rfl
  rw [e]
  nlinarith [k _ h1, k _ h2, k _ h3, sq_nonneg d]

/-- The returned point and the point of the segment with the same parameter. -/
theorem along_len (hf : IsRounding p emin fl) (hp : 1 ≤ p) (he : emin ≤ 1 - (p : ℤ)) {n : ℕ} (n1 : 1 ≤ n) (hn : 288 * n ^ 4 ≤ 2 ^ p) {l : Seg (V3 ℚ)} (h : IntV n l.a ∧ IntV n l.b)
    {s : ℚ} (h0 : 0 ≤ s) (h1 : s ≤ 1) : Len (alongFl fl (subFl fl l.b l.a) s l.a - (l.a + s • (l.b - l.a))) (24 * n * ulp p) := by
  have hu : 0 < ulp p := ulp_pos
  have hη : (2 : ℚ) ^ emin ≤ ulp p := zpow_le_zpow_right₀ (by norm_num) he
  have hN : (n : ℤ) ≤ 2 ^ p := by
    have h4 : n ≤ n ^ 4 := Nat.le_self_pow (by norm_num) n
    have : n ≤ 2 ^ p := by omega
    exact_mod_cast this
  have n1' : (1 : ℚ) ≤ n := by exact_mod_cast n1
  have M : ∀ i : ℤ, |i| ≤ n → (i : ℚ) ∈ Floats p emin := fun i hi => int_mem hp (by omega) (hi.trans hN)
  have key : ∀ i j : ℤ, |i| ≤ n → |j| ≤ n → |fl (fl (fl ((j : ℚ) - i) * s) + i) - (i + s * (j - i))| ≤ 12 * n * ulp p := by
    intro i j hi hj
    have := along_error hf hp (M i hi) (M j hj) h0 h1
    rw [show (1 - s) * (i : ℚ) + s * j = i + s * (j - i) by ring] at this
    refine this.trans ?_
    have hi' : |(i : ℚ)| ≤ n := by exact_mod_cast hi
    have hj' : |(j : ℚ)| ≤ n := by exact_mod_cast hj
    have hd : |(j : ℚ) - i| ≤ 2 * n := (abs_sub _ _).trans (by linarith)
    unfold segErr
    have : ulp p * (|(i : ℚ)| + 5 * |(j : ℚ) - i|) ≤ ulp p * (11 * n) := mul_le_mul_of_nonneg_left (by linarith) hu.le
    nlinarith
  obtain ⟨⟨a, b, c, ea, ha, hb, hc⟩, a', b', c', eb, ha', hb', hc'⟩ := h
  rw [show (24 : ℚ) * n * ulp p = 2 * (12 * n * ulp p) by ring]
  refine len_comp ?_ ?_ ?_
  · rw [ea, eb]; simpa [alongFl, subFl] using key a a' ha ha'
  · rw [ea, eb]; simpa [alongFl, subFl] using key b b' hb hb'
  · rw [ea, eb]; simpa [alongFl, subFl] using key c c' hc hc'

/-- The bound for the error of the second parameter. -/
theorem len_param {n : ℕ} (n1 : 1 ≤ n) {u v r : V3 ℚ} (hu : dot u u ≤ 12 * (n : ℚ) ^ 2) (hv : dot v v ≤ 12 * (n : ℚ) ^ 2) (hr : dot r r ≤ 12 * (n : ℚ) ^ 2)
    (h1 : 1 ≤ dot (K := ℚ) v v) {w δ : ℚ} (hw : 0 ≤ w) (hδ : |δ| ≤ w * (11 * ((|dot u v| + |dot v r| + 1) / dot v v) + 1)) : Len (δ • v) (114 * n * w) := by
  have n1' : (1 : ℚ) ≤ n := by exact_mod_cast n1
  have nn : (1 : ℚ) ≤ (n : ℚ) ^ 2 := one_le_pow₀ n1'
  have c1 := cauchy u v
  have c2 := cauchy v r
  set e := dot v v with he
  set b := dot u v
  set f := dot v r
  have e0 : 0 < e := by linarith
  have hb : b * b ≤ 12 * (n : ℚ) ^ 2 * e := by nlinarith
  have hf : f * f ≤ 12 * (n : ℚ) ^ 2 * e := by nlinarith
  have h1e : 1 ≤ (n : ℚ) ^ 2 * e := by nlinarith
  set S := |b| + |f| + 1 with hS
  have S0 : 0 ≤ S := by positivity
  have hS2 : S ^ 2 ≤ 75 * (n : ℚ) ^ 2 * e := by
    have : S ^ 2 ≤ 3 * (b * b + f * f + 1) := by
      rw [hS]
      nlinarith [sq_nonneg (|b| - |f|), sq_nonneg (|b| - 1), sq_nonneg (|f| - 1), abs_mul_abs_self b, abs_mul_abs_self f]
    nlinarith
  have hS1 : S ≤ 30 * (n : ℚ) ^ 2 := by
    refine (le_abs_self _).trans (abs_le_of_sq_le_sq ?_ (by positivity))
    have : 75 * (n : ℚ) ^ 2 * e ≤ 75 * (n : ℚ) ^ 2 * (12 * (n : ℚ) ^ 2) := mul_le_mul_of_nonneg_left hv (by positivity)
    nlinarith
  have q1 : (S / e) ^ 2 * e ≤ 75 * (n : ℚ) ^ 2 := by
    have : (S / e) ^ 2 * e = S ^ 2 / e := by field_simp
    rw [this, div_le_iff₀ e0]; exact hS2
  have q2 : S / e * e = S := by field_simp
  set k := S / e
  have hk : 0 ≤ k := div_nonneg S0 e0.le
  have bound : (11 * k + 1) ^ 2 * e ≤ (114 * (n : ℚ)) ^ 2 := by
    have : (11 * k + 1) ^ 2 * e = 121 * (k ^ 2 * e) + 22 * (k * e) + e := by ring
    rw [this, q2]; nlinarith
  refine ⟨by positivity, ?_⟩
  rw [smul_dot, dot_smul, ← he]
  have d2 : δ * δ ≤ (w * (11 * k + 1)) ^ 2 := by
    rw [← abs_mul_abs_self, sq]; exact mul_le_mul hδ hδ (abs_nonneg _) (by positivity)
  calc δ * (δ * e) = δ * δ * e := by ring
    _ ≤ (w * (11 * k + 1)) ^ 2 * e := mul_le_mul_of_nonneg_right d2 e0.le
    _ = w ^ 2 * ((11 * k + 1) ^ 2 * e) := by ring
    _ ≤ w ^ 2 * (114 * (n : ℚ)) ^ 2 := mul_le_mul_of_nonneg_left bound (sq_nonneg w)
    _ = _ := by ring

/-- C117: for segments with small integers as coordinates the distance of the returned points is the distance of the segments up to rounding. -/
theorem C117_integers_partial (hf : IsRounding p emin fl) (hp : 1 ≤ p) (he : emin ≤ 1 - (p : ℤ)) {n : ℕ} (n1 : 1 ≤ n) (hn : 288 * n ^ 4 ≤ 2 ^ p) {eps : ℚ} (h0 : 0 ≤ eps) (h1 : eps < 1)
    (A B : Seg (V3 ℚ)) (hA : IntSeg n A) (hB : IntSeg n B) :
    ∃ r, closestSegmentFl fl eps A B = .ok r ∧ NearlyNearest (200 * n * ulp p) A B r.a r.b := by
  have iA : IntV n A.a ∧ IntV n A.b := by
    obtain ⟨a, b, c, a', b', c', rfl, h, h'⟩ := hA
    exact ⟨⟨a, b, c, rfl, h⟩, a', b', c', rfl, h'⟩
  have iB : IntV n B.a ∧ IntV n B.b := by
    obtain ⟨a, b, c, a', b', c', rfl, h, h'⟩ := hB
    exact ⟨⟨a, b, c, rfl, h⟩, a', b', c', rfl, h'⟩
  have n1' : (1 : ℚ) ≤ n := by exact_mod_cast n1
  have hu : 0 < ulp p := ulp_pos
  have nu : 0 < n * ulp p := by positivity
  have sub : ∀ {x y : V3 ℚ}, IntV n x → IntV n y → IntV (2 * n) (x - y) := by
    rintro x y ⟨a, b, c, rfl, h1, h2, h3⟩ ⟨a', b', c', rfl, k1, k2, k3⟩
    exact ⟨a - a', b - b', c - c', by ext <;> simp, (abs_sub _ _).trans (by linarith), (abs_sub _ _).trans (by linarith), (abs_sub _ _).trans (by linarith)⟩
  have len : ∀ {x : V3 ℚ}, IntV (2 * n) x → dot x x ≤ 12 * (n : ℚ) ^ 2 ∧ Len x (4 * n) := by
    intro x hx
    obtain ⟨h1, h2⟩ := hx.len (by positivity)
    push_cast at h1 h2
    exact ⟨by linarith, h2.mono (by linarith)⟩
  have small : ∀ {x : V3 ℚ}, IntV (2 * n) x → (dot (K := ℚ) x x ≤ eps → x = 0) ∧ (¬ dot (K := ℚ) x x ≤ eps → 1 ≤ dot (K := ℚ) x x) := by
    rintro x ⟨a, b, c, rfl, -⟩
    have e : dot (⟨a, b, c⟩ : V3 ℚ) ⟨a, b, c⟩ = ((a * a + b * b + c * c : ℤ) : ℚ) := by push_cast; rfl
    constructor
    · intro h
      refine eq_zero_of_dot _ ?_
      rw [e] at h ⊢
      have h2 : (a * a + b * b + c * c : ℤ) < 1 := by exact_mod_cast h.trans_lt h1
      have h3 : (0 : ℤ) ≤ a * a + b * b + c * c := by linarith [mul_self_nonneg a, mul_self_nonneg b, mul_self_nonneg c]
      have : (a * a + b * b + c * c : ℤ) = 0 := by omega
      rw [this]; rfl
    · intro h
      rw [e] at h ⊢
      have h2 : (0 : ℚ) < ((a * a + b * b + c * c : ℤ) : ℚ) := lt_of_le_of_lt h0 (not_le.1 h)
      have h3 : (0 : ℤ) < a * a + b * b + c * c := by exact_mod_cast h2
      exact_mod_cast h3
  have par := params_int hf hp he hn iA iB h0
  have iu := sub iA.2 iA.1
  have iv := sub iB.2 iB.1
  have ir := sub iA.1 iB.1
  obtain ⟨uu, lu⟩ := len iu
  obtain ⟨vv, lv⟩ := len iv
  obtain ⟨rr, -⟩ := len ir
  obtain ⟨zu, ou⟩ := small iu
  obtain ⟨zv, ov⟩ := small iv
  -- the points of the segments
  have pts : ∀ x y, InSeg (K := ℚ) A x → InSeg (K := ℚ) B y → ∃ s t : ℚ, (0 ≤ s ∧ s ≤ 1 ∧ 0 ≤ t ∧ t ≤ 1) ∧
      x - y = diff (A.b - A.a) (B.b - B.a) (A.a - B.a) s t := by
    intro x y hx hy
    obtain ⟨s, s0, s1, rfl⟩ := (inSeg_iff A x).1 hx
    obtain ⟨t, t0, t1, rfl⟩ := (inSeg_iff B y).1 hy
    exact ⟨s, t, ⟨s0, s1, t0, t1⟩, by unfold diff; module⟩
  -- the result for parameters which are nearly optimal
  have fin : ∀ s t : ℚ, closestParamsFl fl eps A B = .ok (some (s, t)) → (0 ≤ s ∧ s ≤ 1) → (0 ≤ t ∧ t ≤ 1) →
      (∀ s' t' d : ℚ, 0 ≤ s' → s' ≤ 1 → 0 ≤ t' → t' ≤ 1 → Len (diff (A.b - A.a) (B.b - B.a) (A.a - B.a) s' t') d →
        Len (diff (A.b - A.a) (B.b - B.a) (A.a - B.a) s t) (d + 130 * (n * ulp p))) →
      ∃ r, closestSegmentFl fl eps A B = .ok r ∧ NearlyNearest (200 * n * ulp p) A B r.a r.b := by
    intro s t hst hs ht hopt
    rw [closestSegmentFl, hst]
    refine ⟨_, rfl, ?_⟩
    intro x' y' hx hy d hd hle
    obtain ⟨s', t', ⟨s0, s1, t0, t1⟩, e⟩ := pts x' y' hx hy
    have k1 := hopt s' t' d s0 s1 t0 t1 ⟨hd, by rw [← e]; exact hle⟩
    have k2 := along_len hf hp he n1 hn iA hs.1 hs.2
    have k3 := (along_len hf hp he n1 hn iB ht.1 ht.2).neg
    have k := ((k1.add k2).add k3).mono (e := d + 200 * n * ulp p) (by linarith)
    refine le_trans (le_of_eq ?_) k.2
    rw [distSq]
    congr 1 <;> (unfold diff; module)
  have sat : ∀ x : ℚ, 0 ≤ saturate x ∧ saturate x ≤ 1 := saturate_mem
  have sr := saturate_round hf hp he
  -- a change of the parameters
  have move : ∀ {s t s' t' d m m' : ℚ}, Len (diff (A.b - A.a) (B.b - B.a) (A.a - B.a) s' t') d → Len ((s - s') • (A.b - A.a)) m → Len ((t - t') • (B.b - B.a)) m' →
      Len (diff (A.b - A.a) (B.b - B.a) (A.a - B.a) s t) (d + m + m') := by
    intro s t s' t' d m m' k1 k2 k3
    have := (k1.add k2).add k3.neg
    convert this using 1
    unfold diff; module
  have stay : ∀ {x : V3 ℚ} (t : ℚ), Len ((t - t) • x) 0 := by
    intro x t
    rw [sub_self, zero_smul]
    exact ⟨le_rfl, by rw [zero_dot]; norm_num⟩
  have msq := fun {s t} => min_square (A.b - A.a) (B.b - B.a) (A.a - B.a) (eps := eps) h0 zu zv (s := s) (t := t)
  by_cases g1 : dot (A.b - A.a) (A.b - A.a) ≤ eps ∧ dot (B.b - B.a) (B.b - B.a) ≤ eps
  · simp only [if_pos g1] at par
    rw [closestSegmentFl, par]
    refine ⟨_, rfl, ?_⟩
    intro x' y' hx hy d hd hle
    obtain ⟨s', t', -, e⟩ := pts x' y' hx hy
    refine le_trans ?_ ((Len.mono (v := x' - y') (d := d) (e := d + 200 * n * ulp p) ⟨hd, hle⟩ (by linarith)).2)
    rw [e, diff, zu g1.1, zv g1.2, smul_zero, smul_zero, add_zero, sub_zero]
    exact le_rfl
  simp only [if_neg g1] at par msq
  by_cases g2 : dot (A.b - A.a) (A.b - A.a) ≤ eps
  · simp only [if_pos g2] at par msq
    refine fin _ _ par ⟨le_rfl, zero_le_one⟩ (sat _) ?_
    intro s' t' d s0 s1 t0 t1 hd
    have opt := msq rfl s0 s1 t0 t1
    refine (move ⟨hd.1, opt.trans hd.2⟩ (stay 0) (lv.smul (sr _))).mono (by linarith)
  simp only [if_neg g2] at par msq
  by_cases g3 : dot (B.b - B.a) (B.b - B.a) ≤ eps
  · simp only [if_pos g3] at par msq
    refine fin _ _ par (sat _) ⟨le_rfl, zero_le_one⟩ ?_
    intro s' t' d s0 s1 t0 t1 hd
    have opt := msq rfl s0 s1 t0 t1
    refine (move ⟨hd.1, opt.trans hd.2⟩ (lu.smul (sr _)) (stay 0)).mono (by linarith)
  simp only [if_neg g3] at par msq
  have u1 := ou g2
  have v1 := ov g3
  -- the general case
  obtain ⟨s, hs⟩ : ∃ s, s = if dot (A.b - A.a) (A.b - A.a) * dot (B.b - B.a) (B.b - B.a) - dot (A.b - A.a) (B.b - B.a) * dot (A.b - A.a) (B.b - B.a) ≠ 0 then
    saturate ((dot (A.b - A.a) (B.b - B.a) * dot (B.b - B.a) (A.a - B.a) - dot (A.b - A.a) (A.a - B.a) * dot (B.b - B.a) (B.b - B.a)) /
      (dot (A.b - A.a) (A.b - A.a) * dot (B.b - B.a) (B.b - B.a) - dot (A.b - A.a) (B.b - B.a) * dot (A.b - A.a) (B.b - B.a))) else 0 := ⟨_, rfl⟩
  obtain ⟨q, hq⟩ : ∃ q, q = if dot (A.b - A.a) (A.b - A.a) * dot (B.b - B.a) (B.b - B.a) - dot (A.b - A.a) (B.b - B.a) * dot (A.b - A.a) (B.b - B.a) ≠ 0 then
    saturate (fl ((dot (A.b - A.a) (B.b - B.a) * dot (B.b - B.a) (A.a - B.a) - dot (A.b - A.a) (A.a - B.a) * dot (B.b - B.a) (B.b - B.a)) /
      (dot (A.b - A.a) (A.b - A.a) * dot (B.b - B.a) (B.b - B.a) - dot (A.b - A.a) (B.b - B.a) * dot (A.b - A.a) (B.b - B.a)))) else 0 := ⟨_, rfl⟩
  have hqs : |q - s| ≤ 2 * ulp p := by
    rw [hq, hs]
    split_ifs
    · exact sr _
    · rw [sub_self, abs_zero]; positivity
  have hq01 : 0 ≤ q ∧ q ≤ 1 := by
    rw [hq]
    split_ifs
    · exact sat _
    · exact ⟨le_rfl, zero_le_one⟩
  have hs01 : 0 ≤ s ∧ s ≤ 1 := by
    rw [hs]
    split_ifs
    · exact sat _
    · exact ⟨le_rfl, zero_le_one⟩
  simp only [← hs] at msq
  simp only [← hq] at par
  have strip := fun {s' t' : ℚ} => min_strip (A.b - A.a) (B.b - B.a) (A.a - B.a) (by linarith) hs (s' := s') (t' := t')
  have prm := param_round hf hp he (b := dot (A.b - A.a) (B.b - B.a)) (f := dot (B.b - B.a) (A.a - B.a)) v1 hqs hq01.1 hq01.2
  obtain ⟨t, ht⟩ : ∃ t, t = (dot (A.b - A.a) (B.b - B.a) * s + dot (B.b - B.a) (A.a - B.a)) / dot (B.b - B.a) (B.b - B.a) := ⟨_, rfl⟩
  obtain ⟨w, hw⟩ : ∃ w, w = fl (fl (fl (dot (A.b - A.a) (B.b - B.a) * q) + dot (B.b - B.a) (A.a - B.a)) / dot (B.b - B.a) (B.b - B.a)) := ⟨_, rfl⟩
  simp only [← ht] at msq strip prm
  simp only [← hw] at par prm
  have lp : ∀ {δ : ℚ}, |δ| ≤ |w - t| → Len (δ • (B.b - B.a)) (114 * n * ulp p) := fun hδ => len_param n1 uu vv rr v1 hu.le (hδ.trans prm)
  by_cases g4 : w < 0
  · simp only [if_pos g4] at par
    refine fin _ _ par (sat _) ⟨le_rfl, zero_le_one⟩ ?_
    intro s' t' d s0 s1 t0 t1 hd
    by_cases g : t < 0
    · simp only [if_pos g] at msq
      have opt := msq rfl s0 s1 t0 t1
      refine (move ⟨hd.1, opt.trans hd.2⟩ (lu.smul (sr _)) (stay 0)).mono (by linarith)
    · have k1 := strip (t' := t') s0 s1
      have k2 : Len (diff (A.b - A.a) (B.b - B.a) (A.a - B.a) s 0) (d + 0 + 114 * n * ulp p) := by
        refine move ⟨hd.1, k1.trans hd.2⟩ (stay s) (lp ?_)
        rw [zero_sub, abs_neg, abs_of_nonneg (not_lt.1 g), abs_of_nonpos (by linarith)]; linarith
      have k3 := min_edge (A.b - A.a) (B.b - B.a) (A.a - B.a) (by linarith) 0 hs01.1 hs01.2
      rw [zero_mul, zero_sub] at k3
      exact (move ⟨k2.1, k3.trans k2.2⟩ (lu.smul (sr _)) (stay 0)).mono (by linarith)
  simp only [if_neg g4] at par
  by_cases g5 : w > 1
  · simp only [if_pos g5] at par
    refine fin _ _ par (sat _) ⟨zero_le_one, le_rfl⟩ ?_
    intro s' t' d s0 s1 t0 t1 hd
    by_cases g : t > 1
    · simp only [if_neg (show ¬ t < 0 by linarith), if_pos g] at msq
      have opt := msq rfl s0 s1 t0 t1
      refine (move ⟨hd.1, opt.trans hd.2⟩ (lu.smul (sr _)) (stay 1)).mono (by linarith)
    · have k1 := strip (t' := t') s0 s1
      have k2 : Len (diff (A.b - A.a) (B.b - B.a) (A.a - B.a) s 1) (d + 0 + 114 * n * ulp p) := by
        refine move ⟨hd.1, k1.trans hd.2⟩ (stay s) (lp ?_)
        rw [abs_of_nonneg (by linarith), abs_of_nonneg (by linarith)]; linarith
      have k3 := min_edge (A.b - A.a) (B.b - B.a) (A.a - B.a) (by linarith) 1 hs01.1 hs01.2
      rw [one_mul] at k3
      exact (move ⟨k2.1, k3.trans k2.2⟩ (lu.smul (sr _)) (stay 1)).mono (by linarith)
  simp only [if_neg g5] at par
  refine fin _ _ par hq01 ⟨not_lt.1 g4, not_lt.1 g5⟩ ?_
  intro s' t' d s0 s1 t0 t1 hd
  have k1 := strip (t' := t') s0 s1
  exact (move ⟨hd.1, k1.trans hd.2⟩ (lu.smul hqs) (lp le_rfl)).mono (by linarith)

/-- With `float` coordinates up to 15, with `double` coordinates up to 2364. -/
example : 288 * 15 ^ 4 ≤ 2 ^ 24 ∧ 288 * 2364 ^ 4 ≤ 2 ^ 53 := by norm_num

example : IntSeg 15 ⟨⟨0, 0, 0⟩, ⟨15, 2, -3⟩⟩ ∧ IntSeg 15 ⟨⟨1, 7, 0⟩, ⟨-4, 2, 9⟩⟩ :=
  ⟨⟨0, 0, 0, 15, 2, -3, by norm_num, by norm_num, by norm_num⟩, ⟨1, 7, 0, -4, 2, 9, by norm_num, by norm_num, by norm_num⟩⟩

/-- The bound excludes points which are far from the nearest ones: the segments cross in the point (2, 2, 0). -/
example : InSeg (K := ℚ) (V := V3 ℚ) ⟨⟨0, 0, 0⟩, ⟨4, 4, 0⟩⟩ ⟨2, 2, 0⟩ ∧ InSeg (K := ℚ) (V := V3 ℚ) ⟨⟨0, 4, 0⟩, ⟨4, 0, 0⟩⟩ ⟨2, 2, 0⟩ ∧ 200 * 4 * ulp 24 < 1 / 10000 := by
  refine ⟨⟨1 / 2, 1 / 2, by norm_num, by norm_num, by norm_num, ?_⟩, ⟨1 / 2, 1 / 2, by norm_num, by norm_num, by norm_num, ?_⟩, by norm_num [ulp]⟩
  · ext <;> norm_num
  · ext <;> norm_num

end Geom.Lines.Props
