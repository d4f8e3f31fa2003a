import Verif.Model.BoxSizeFloat
import Verif.Spec.BoxSizeFloat
import Verif.Props.PlaneFloat
import Verif.Props.AABB

/-
  C114: size and center of boxes in floating-point arithmetic, scalar and vectorized.
-/
set_option autoImplicit false
set_option linter.unusedSectionVars false

namespace Geom.AABB.Props
open Geom.AABB.Spec Geom.VAABB
open Geom.Float

variable {n : ℕ} {p : ℕ} {emin : ℤ} {fl : ℚ → ℚ} {big : ℚ}

/-- C114: the vectorized centers are those of the four boxes, whatever the rounding, also if the sum overflows. -/
theorem C114_centers (fl : ℚ → ℚ) (big : ℚ) (min max : Fin 4 → Fin 3 → ℚ) (k : Fin 4) :
    centersX fl big (makeN min max) k = centerFl fl big ⟨min k, max k⟩ 0 ∧ centersY fl big (makeN min max) k = centerFl fl big ⟨min k, max k⟩ 1 ∧
      centersZ fl big (makeN min max) k = centerFl fl big ⟨min k, max k⟩ 2 := by
  have h : ∀ x : Ext ℚ, (match x with
      | .fin x => roundE fl big (x * (1 / 2))
      | .posInf => .posInf
      | .negInf => .negInf
      | .nan => .nan) = divTwo fl big x := by
    intro x
    cases x <;> simp [divTwo, div_eq_mul_inv]
  fin_cases k <;> exact ⟨h _, h _, h _⟩

theorem lane_sub (fl : ℚ → ℚ) (big : ℚ) (min max : Fin 4 → Fin 3 → ℚ) (k : Fin 4) :
    widths fl big (makeN min max) k = roundE fl big (max k 0 - min k 0) ∧ heights fl big (makeN min max) k = roundE fl big (max k 1 - min k 1) ∧
      depths fl big (makeN min max) k = roundE fl big (max k 2 - min k 2) := by
  fin_cases k <;> exact ⟨rfl, rfl, rfl⟩

/-- The mirrored rounding. -/
theorem mirror (hf : IsRounding p emin fl) : IsRounding p emin fun x => -fl (-x) where
  mem x := neg_mem (hf.mem _)
  fix x hx := by rw [hf.fix _ (neg_mem hx), neg_neg]
  mono a b h := neg_le_neg (hf.mono (neg_le_neg h))

theorem double_mem {x : ℚ} (hx : x ∈ Floats p emin) : 2 * x ∈ Floats p emin := by
  obtain ⟨m, e, h1, h2, rfl⟩ := hx
  exact ⟨m, e + 1, h1, by omega, by rw [zpow_add₀ (by norm_num), zpow_one]; ring⟩

theorem fl_zero (hf : IsRounding p emin fl) : fl 0 = 0 := hf.fix 0 ⟨0, emin, by simp, le_rfl, by simp⟩

theorem fl_sub_neg (hf : IsRounding p emin fl) (hp : 1 ≤ p) {a b : ℚ} (ha : a ∈ Floats p emin) (hb : b ∈ Floats p emin) :
    fl (a - b) < 0 ↔ a < b := by
  have := Plane.Props.fl_sub_pos (mirror hf) hp hb ha
  rwa [neg_sub, neg_pos] at this

theorem absE_eq (hf : IsRounding p emin fl) (hp : 1 ≤ p) (hb : 0 ≤ big) {x y : ℚ} (hx : x ∈ Floats p emin) (hy : y ∈ Floats p emin) :
    roundE fl big (x - y) = absE (roundE fl big (x - y)) ↔ y ≤ x := by
  have h1 := fl_sub_neg hf hp hx hy
  rw [← not_lt, ← h1]
  unfold roundE
  split_ifs with a b
  · simp only [absE, true_iff]; linarith
  · simp only [absE, reduceCtorEq, false_iff, not_not]; linarith
  · simp only [absE, Ext.fin.injEq, not_lt]
    exact eq_comm.trans abs_eq_self

/-- C114: the sizes of the four boxes are the absolute values of the vectorized sizes, and equal to them exactly for valid boxes. -/
theorem C114_sizes_partial (hf : IsRounding p emin fl) (hp : 1 ≤ p) (hb : 0 ≤ big) (min max : Fin 4 → Fin 3 → ℚ) (k : Fin 4)
    (h : FloatBox p emin big ⟨min k, max k⟩) :
    (sizeFl fl big ⟨min k, max k⟩ 0 = absE (widths fl big (makeN min max) k) ∧ sizeFl fl big ⟨min k, max k⟩ 1 = absE (heights fl big (makeN min max) k) ∧
      sizeFl fl big ⟨min k, max k⟩ 2 = absE (depths fl big (makeN min max) k)) ∧
    (widths fl big (makeN min max) k = sizeFl fl big ⟨min k, max k⟩ 0 ↔ min k 0 ≤ max k 0) ∧
    (heights fl big (makeN min max) k = sizeFl fl big ⟨min k, max k⟩ 1 ↔ min k 1 ≤ max k 1) ∧
    (depths fl big (makeN min max) k = sizeFl fl big ⟨min k, max k⟩ 2 ↔ min k 2 ≤ max k 2) := by
  obtain ⟨e0, e1, e2⟩ := lane_sub fl big min max k
  rw [e0, e1, e2]
  exact ⟨⟨rfl, rfl, rfl⟩, absE_eq hf hp hb (h.max 0) (h.min 0), absE_eq hf hp hb (h.max 1) (h.min 1), absE_eq hf hp hb (h.max 2) (h.min 2)⟩

/-- C114: for a box with min = 1 and max = 0, and for the default box, the vectorized sizes are negative, while `Size` is positive. -/
theorem C114_sizes_refuted (hf : IsRounding p emin fl) (hp : 1 ≤ p) (he : emin ≤ 0) (h1 : 1 ≤ big) (hm : big ∈ Floats p emin) (k : Fin 4) :
    (widths fl big (makeN (fun _ _ => 1) fun _ _ => 0) k = .fin (-1) ∧ sizeFl fl big (⟨fun _ => 1, fun _ => 0⟩ : Box 3 ℚ) 0 = .fin 1) ∧
    (widths fl big (resetN big) k = .negInf ∧ ∀ i, sizeFl fl big (reset (-big) big : Box 3 ℚ) i = .posInf) := by
  have e : fl (-1) = -1 := hf.fix _ (neg_mem (by simpa using int_mem (k := 1) hp he (by simpa using one_le_pow₀ (by norm_num))))
  have r1 : roundE fl big (0 - 1) = .fin (-1) := by
    rw [zero_sub, roundE, e, if_neg (by linarith), if_neg (by linarith)]
  have r2 : roundE fl big (-big - big) = .negInf := by
    rw [roundE, show -big - big = -(2 * big) by ring, hf.fix _ (neg_mem (double_mem hm)), if_neg (by linarith), if_pos (by linarith)]
  refine ⟨⟨?_, ?_⟩, r2, fun i => ?_⟩
  · rw [(lane_sub fl big _ _ k).1]
    exact r1
  · show absE (roundE fl big (0 - 1)) = _
    rw [r1]
    simp [absE]
  · show absE (roundE fl big (-big - big)) = _
    rw [r2]
    rfl

theorem mono_roundE (hf : Monotone fl) {x y : ℚ} (h : x ≤ y) : LeE (roundE fl big x) (roundE fl big y) := by
  have := hf h
  unfold roundE
  split_ifs <;> simp only [LeE] <;> linarith

/-- C114: `Size` is not negative; it is zero exactly if min = max (differences do not underflow); a box inside of a box is not larger; without
overflow the error is one rounding. -/
theorem C114_size (hf : IsRounding p emin fl) (hp : 1 ≤ p) (hb : 0 ≤ big) (hm : big ∈ Floats p emin) (b : Box n ℚ) (h : FloatBox p emin big b) (i : Fin n) :
    LeE (.fin 0) (sizeFl fl big b i) ∧ (sizeFl fl big b i = .fin 0 ↔ b.min i = b.max i) ∧
    (∀ o : Box n ℚ, FloatBox p emin big o → (∀ i, b.min i ≤ b.max i) → insideOf b o = true → LeE (sizeFl fl big b i) (sizeFl fl big o i)) ∧
    (|b.max i - b.min i| ≤ big → ∃ s, sizeFl fl big b i = .fin s ∧ |s - (size b i)| ≤ Plane.Spec.ulp p * size b i) := by
  refine ⟨?_, ?_, ?_, ?_⟩
  · unfold sizeFl roundE
    split_ifs <;> simp [LeE, absE]
  · have h1 := fl_sub_neg hf hp (h.max i) (h.min i)
    have h2 := Plane.Props.fl_sub_pos hf hp (h.max i) (h.min i)
    have h3 : fl (b.max i - b.min i) = 0 ↔ b.min i = b.max i := by
      constructor
      · intro e
        rw [e] at h1 h2
        simp only [lt_irrefl, false_iff, not_lt] at h1 h2
        exact le_antisymm h1 h2
      · intro e
        rw [e, sub_self, fl_zero hf]
    rw [← h3]
    unfold sizeFl roundE
    split_ifs with c d
    · simp only [absE, reduceCtorEq, false_iff]; linarith
    · simp only [absE, reduceCtorEq, false_iff]; linarith
    · simp [absE]
  · intro o ho hv hi
    obtain ⟨k1, k2⟩ : o.min i ≤ b.min i ∧ b.max i ≤ o.max i := by
      have := hi
      simp only [insideOf, List.all_eq_true, List.mem_finRange, true_implies, Bool.not_eq_true', Bool.or_eq_false_iff] at this
      simpa [CLt.lt] using this i
    have e : ∀ c : Box n ℚ, FloatBox p emin big c → c.min i ≤ c.max i → sizeFl fl big c i = roundE fl big (c.max i - c.min i) := fun c hc hv =>
      ((absE_eq hf hp hb (hc.max i) (hc.min i)).2 hv).symm
    rw [e b h (hv i), e o ho (by linarith [hv i])]
    exact mono_roundE hf.mono (by linarith)
  · intro hs
    have hlo : -big ≤ fl (b.max i - b.min i) := by
      rw [← hf.fix _ (neg_mem hm)]
      exact hf.mono (abs_le.1 hs).1
    have hhi : fl (b.max i - b.min i) ≤ big := by
      rw [← hf.fix _ hm]
      exact hf.mono (abs_le.1 hs).2
    refine ⟨|fl (b.max i - b.min i)|, ?_, ?_⟩
    · simp only [sizeFl, roundE]
      rw [if_neg (by linarith), if_neg (by linarith)]
      rfl
    · exact (abs_abs_sub_abs_le_abs_sub _ _).trans (round_sub hf hp (h.max i) (h.min i))

/-- Halving a float: the error is at most half of the least float. -/
theorem half_error (hf : IsRounding p emin fl) {y : ℚ} (hy : y ∈ Floats p emin) : |fl (y / 2) - y / 2| ≤ 2 ^ emin / 2 := by
  obtain ⟨m, e, h1, h2, rfl⟩ := hy
  have hu := two_zpow_pos emin
  rcases h2.lt_or_eq with h | rfl
  · have e1 : (m : ℚ) * 2 ^ e / 2 = m * 2 ^ (e - 1) := by
      rw [zpow_sub₀ (by norm_num), zpow_one]; ring
    rw [e1, hf.fix _ ⟨m, e - 1, h1, by omega, rfl⟩, sub_self, abs_zero]
    positivity
  · have k : ∀ j : ℤ, |j| ≤ |m| → fl (j * 2 ^ emin) = j * 2 ^ emin := fun j hj => hf.fix _ ⟨j, emin, lt_of_le_of_lt hj h1, le_rfl, rfl⟩
    rcases Int.even_or_odd' m with ⟨c, rfl | rfl⟩
    · have e1 : (((2 * c : ℤ) : ℚ)) * 2 ^ emin / 2 = c * 2 ^ emin := by push_cast; ring
      rw [e1, k c (by rw [abs_mul]; have := abs_nonneg c; norm_num; linarith), sub_self, abs_zero]
      positivity
    · have l1 : |c| ≤ |2 * c + 1| := by
        rcases abs_cases c with ⟨a, _⟩ | ⟨a, _⟩ <;> rcases abs_cases (2 * c + 1) with ⟨b, _⟩ | ⟨b, _⟩ <;> omega
      have l2 : |c + 1| ≤ |2 * c + 1| := by
        rcases abs_cases (c + 1) with ⟨a, _⟩ | ⟨a, _⟩ <;> rcases abs_cases (2 * c + 1) with ⟨b, _⟩ | ⟨b, _⟩ <;> omega
      have e1 : (((2 * c + 1 : ℤ) : ℚ)) * 2 ^ emin / 2 = c * 2 ^ emin + 2 ^ emin / 2 := by push_cast; ring
      have m1 := hf.mono (show (c : ℚ) * 2 ^ emin ≤ c * 2 ^ emin + 2 ^ emin / 2 by linarith)
      have m2 := hf.mono (show (c : ℚ) * 2 ^ emin + 2 ^ emin / 2 ≤ ((c + 1 : ℤ) : ℚ) * 2 ^ emin by push_cast; linarith)
      rw [k _ l1] at m1
      rw [k _ l2] at m2
      push_cast at m2
      rw [e1, abs_le]
      constructor <;> linarith

/-- C114: without overflow of the sum the center of a valid box is in the box, for every rounding mode, and it is the exact center up to the error
of the sum and half of the least float. -/
theorem C114_center_partial (hf : IsRounding p emin fl) (hp : 1 ≤ p) (hm : big ∈ Floats p emin) (b : Box n ℚ) (h : FloatBox p emin big b)
    (hv : ∀ i, b.min i ≤ b.max i) (hs : ∀ i, |b.min i + b.max i| ≤ big) :
    containsE b (centerFl fl big b) = true ∧ ∀ i, ∃ c, centerFl fl big b i = .fin c ∧ b.min i ≤ c ∧ c ≤ b.max i ∧
      |c - center b i| ≤ Plane.Spec.ulp p * |center b i| + 2 ^ emin / 2 := by
  have key : ∀ i, ∃ c, centerFl fl big b i = .fin c ∧ b.min i ≤ c ∧ c ≤ b.max i ∧ |c - center b i| ≤ Plane.Spec.ulp p * |center b i| + 2 ^ emin / 2 := by
    intro i
    have hlo : -big ≤ fl (b.min i + b.max i) := by
      rw [← hf.fix _ (neg_mem hm)]
      exact hf.mono (abs_le.1 (hs i)).1
    have hhi : fl (b.min i + b.max i) ≤ big := by
      rw [← hf.fix _ hm]
      exact hf.mono (abs_le.1 (hs i)).2
    have h1 : b.min i ≤ fl (fl (b.min i + b.max i) / 2) := by
      rw [← hf.fix _ (h.min i)]
      apply hf.mono
      have := hf.mono (show 2 * b.min i ≤ b.min i + b.max i by linarith [hv i])
      rw [hf.fix _ (double_mem (h.min i))] at this
      rw [hf.fix _ (h.min i)]
      linarith
    have h2 : fl (fl (b.min i + b.max i) / 2) ≤ b.max i := by
      rw [← hf.fix _ (h.max i)]
      apply hf.mono
      have := hf.mono (show b.min i + b.max i ≤ 2 * b.max i by linarith [hv i])
      rw [hf.fix _ (double_mem (h.max i))] at this
      rw [hf.fix _ (h.max i)]
      linarith
    have b1 := abs_le.1 (h.minBound i)
    have b2 := abs_le.1 (h.maxBound i)
    refine ⟨fl (fl (b.min i + b.max i) / 2), ?_, h1, h2, ?_⟩
    · simp only [centerFl, roundE]
      rw [if_neg (by linarith), if_neg (by linarith)]
      simp only [divTwo, roundE]
      rw [if_neg (by linarith), if_neg (by linarith)]
    · have r1 := half_error hf (hf.mem (b.min i + b.max i))
      have r2 := Plane.Props.round_add hf hp (h.min i) (h.max i)
      have e1 : Plane.Spec.ulp p * |center b i| = Plane.Spec.ulp p * |b.min i + b.max i| / 2 := by
        rw [center, abs_div, abs_two]; ring
      rw [e1]
      simp only [center]
      rw [abs_le] at r1 r2 ⊢
      constructor <;> linarith
  refine ⟨?_, key⟩
  simp only [containsE, List.all_eq_true, List.mem_finRange, true_implies]
  intro i
  obtain ⟨c, e, h1, h2, -⟩ := key i
  rw [e]
  simp [Ext.lt, Ext.gt, h1, h2]

/-- Points beyond half of the largest number. -/
theorem center_far (hf : IsRounding p emin fl) (hb : 0 < big) (hm : big ∈ Floats p emin) :
    FloatBox p emin big (resetTo fun _ => big : Box n ℚ) ∧ contains (resetTo fun _ => big : Box n ℚ) (fun _ => big) = true ∧
    ∀ i, centerFl fl big (resetTo fun _ => big : Box n ℚ) i = .posInf := by
  refine ⟨⟨fun _ => hm, fun _ => hm, fun _ => (abs_of_pos hb).le, fun _ => (abs_of_pos hb).le⟩, by simp [contains, resetTo, CLt.lt], fun i => ?_⟩
  have : fl (big + big) = 2 * big := by rw [← two_mul, hf.fix _ (double_mem hm)]
  simp only [centerFl, resetTo, roundE, this]
  rw [if_pos (by linarith)]
  rfl

theorem maxFloat_mem : maxFloat ∈ Floats 24 (-149) := ⟨2 ^ 24 - 1, 104, by norm_num, by norm_num, by norm_num [maxFloat]⟩

theorem maxDouble_mem : maxDouble ∈ Floats 53 (-1074) := ⟨2 ^ 53 - 1, 971, by norm_num, by norm_num, by norm_num [maxDouble]⟩

/-- C114: with `float` the center of the box of the point at the largest number is infinite, outside of the box. -/
theorem C114_overflow_float_refuted (hf : IsRounding 24 (-149) fl) : ∃ b : Box 3 ℚ, FloatBox 24 (-149) maxFloat b ∧ (∀ i, b.min i ≤ b.max i) ∧
    (∀ i, centerFl fl maxFloat b i = .posInf) ∧ containsE b (centerFl fl maxFloat b) = false := by
  obtain ⟨h1, -, h3⟩ := center_far (n := 3) hf (by norm_num [maxFloat]) maxFloat_mem
  refine ⟨_, h1, fun i => le_rfl, h3, ?_⟩
  rw [funext h3]
  simp [containsE, Ext.gt]

/-- C114: with `double` the center of the box of the point at the largest number is infinite, outside of the box. -/
theorem C114_overflow_double_refuted (hf : IsRounding 53 (-1074) fl) : ∃ b : Box 3 ℚ, FloatBox 53 (-1074) maxDouble b ∧ (∀ i, b.min i ≤ b.max i) ∧
    (∀ i, centerFl fl maxDouble b i = .posInf) ∧ containsE b (centerFl fl maxDouble b) = false := by
  obtain ⟨h1, -, h3⟩ := center_far (n := 3) hf (by norm_num [maxDouble]) maxDouble_mem
  refine ⟨_, h1, fun i => le_rfl, h3, ?_⟩
  rw [funext h3]
  simp [containsE, Ext.gt]

/-- A box for the theorems: [1, 4] in each component. -/
theorem sampleBox : FloatBox 24 (-149) maxFloat (⟨fun _ => 1, fun _ => 4⟩ : Box 3 ℚ) :=
  ⟨fun _ => ⟨1, 0, by norm_num, by norm_num, by norm_num⟩, fun _ => ⟨1, 2, by norm_num, by norm_num, by norm_num⟩, fun _ => by norm_num [maxFloat],
    fun _ => by norm_num [maxFloat]⟩

example : centersX (nearest 24 (-149)) maxFloat (makeN (fun _ _ => 1) fun _ _ => 4) 2 = .fin (5 / 2) := by
  rw [(C114_centers _ _ _ _ _).1]
  have h5 := (nearest_isNearest (p := 24) (emin := -149) (by norm_num)).fix 5 ⟨5, 0, by norm_num, by norm_num, by norm_num⟩
  have h2 := (nearest_isNearest (p := 24) (emin := -149) (by norm_num)).fix (5 / 2) ⟨5, -1, by norm_num, by norm_num, by norm_num⟩
  norm_num [centerFl, roundE, h5, divTwo, h2, maxFloat]

example (k : Fin 4) : widths (nearest 24 (-149)) maxFloat (makeN (fun _ _ => 1) fun _ _ => 4) k = sizeFl (nearest 24 (-149)) maxFloat (⟨fun _ => 1, fun _ => 4⟩ : Box 3 ℚ) 0 :=
  ((C114_sizes_partial (nearest_isNearest (by norm_num)).toIsRounding (by norm_num) (by norm_num [maxFloat]) _ _ k sampleBox).2.1).2 (by norm_num)

example : widths (nearest 24 (-149)) maxFloat (resetN maxFloat) 3 = .negInf :=
  (C114_sizes_refuted (nearest_isNearest (by norm_num)).toIsRounding (by norm_num) (by norm_num) (by norm_num [maxFloat]) maxFloat_mem 3).2.1

example : ¬ sizeFl (nearest 24 (-149)) maxFloat (⟨fun _ => 1, fun _ => 4⟩ : Box 3 ℚ) 1 = .fin 0 := by
  rw [(C114_size (nearest_isNearest (by norm_num)).toIsRounding (by norm_num) (by norm_num [maxFloat]) maxFloat_mem _ sampleBox 1).2.1]
  norm_num

example : containsE (⟨fun _ => 1, fun _ => 4⟩ : Box 3 ℚ) (centerFl (nearest 24 (-149)) maxFloat ⟨fun _ => 1, fun _ => 4⟩) = true :=
  (C114_center_partial (nearest_isNearest (by norm_num)).toIsRounding (by norm_num) maxFloat_mem _ sampleBox (fun _ => by norm_num)
    fun _ => by norm_num [maxFloat]).1

example : ∃ b : Box 3 ℚ, containsE b (centerFl (nearest 53 (-1074)) maxDouble b) = false :=
  (C114_overflow_double_refuted (nearest_isNearest (by norm_num)).toIsRounding).imp fun _ h => h.2.2.2

example := C114_overflow_float_refuted (nearest_isNearest (by norm_num)).toIsRounding

end Geom.AABB.Props
