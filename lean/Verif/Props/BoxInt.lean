import Verif.Spec.BoxInt
import Verif.Props.BoxSizeFloat

/-
  C115: boxes of integers. C116: conversions of boxes.
-/
set_option autoImplicit false
set_option linter.unusedSectionVars false

namespace Geom.AABB.Props
open Geom.AABB.Spec
open Geom.Float

variable {n : ℕ} {T : Type}

theorem assign_ok (f : Fin n → Res T) (g : Fin n → T) : ∀ (is : List (Fin n)) (v : Fin n → T), is.Nodup → (∀ i ∈ is, f i = .ok (g i)) →
    ∃ w, assign f is v = .ok w ∧ (∀ i ∈ is, w i = g i) ∧ ∀ i, i ∉ is → w i = v i
  | [], v, _, _ => ⟨v, rfl, by simp, by simp⟩
  | i :: is, v, hn, h => by
    obtain ⟨h1, h2⟩ := List.nodup_cons.1 hn
    obtain ⟨w, e, a, b⟩ := assign_ok f g is (Function.update v i (g i)) h2 fun j hj => h j (List.mem_cons_of_mem _ hj)
    refine ⟨w, ?_, ?_, ?_⟩
    · simp only [assign, h i List.mem_cons_self, Res.bind_ok]
      exact e
    · intro j hj
      rcases List.mem_cons.1 hj with rfl | hj
      · rw [b _ h1]; simp
      · exact a j hj
    · intro j hj
      rw [List.mem_cons, not_or] at hj
      rw [b j hj.2, Function.update_of_ne hj.1]

theorem assign_some (f : Fin n → Res T) : ∀ (is : List (Fin n)) (v w : Fin n → T), assign f is v = .ok w → ∀ i ∈ is, ∃ x, f i = .ok x
  | [], _, _, _ => by simp
  | j :: is, v, w, h => by
    simp only [assign] at h
    obtain ⟨x, e, h⟩ := Res.bind_eq_ok.1 h
    intro i hi
    rcases List.mem_cons.1 hi with rfl | hi
    · exact ⟨x, e⟩
    · exact assign_some f is _ w h i hi

theorem assign_ub (f : Fin n → Res T) (hf : ∀ i, (∃ x, f i = .ok x) ∨ f i = .ub) : ∀ (is : List (Fin n)) (v : Fin n → T),
    (∃ w, assign f is v = .ok w) ∨ assign f is v = .ub
  | [], v => .inl ⟨v, rfl⟩
  | j :: is, v => by
    rcases hf j with ⟨x, e⟩ | e
    · simp only [assign, e, Res.bind_ok]
      exact assign_ub f hf is _
    · simp [assign, e]

/-- The loop over all components. -/
theorem assign_iff (f : Fin n → Res T) (v w : Fin n → T) : assign f (List.finRange n) v = .ok w ↔ ∀ i, f i = .ok (w i) := by
  constructor
  · intro h
    choose g hg using fun i => assign_some f _ v w h i (List.mem_finRange i)
    obtain ⟨w', e, a, -⟩ := assign_ok f g _ v (List.nodup_finRange n) fun i _ => hg i
    rw [h] at e
    cases e
    intro i
    rw [hg i, a i (List.mem_finRange i)]
  · intro h
    obtain ⟨w', e, a, -⟩ := assign_ok f w _ v (List.nodup_finRange n) fun i _ => h i
    rw [e, funext fun i => a i (List.mem_finRange i)]

theorem int32_ok {x y : ℤ} : int32 x = .ok y ↔ y = x ∧ -2 ^ 31 ≤ x ∧ x < 2 ^ 31 := by
  unfold int32
  split_ifs with h
  · simp only [Res.ok.injEq]
    exact ⟨fun e => ⟨e.symm, h⟩, fun e => e.1.symm⟩
  · simp only [false_iff]
    exact fun e => h e.2

theorem int32_or (x : ℤ) : (∃ y, int32 x = .ok y) ∨ int32 x = .ub := by
  unfold int32
  split_ifs
  · exact .inl ⟨_, rfl⟩
  · exact .inr rfl

theorem bind_or {f : ℤ → ℤ} (x : ℤ) : (∃ y, ((int32 x).bind fun d => int32 (f d)) = .ok y) ∨ ((int32 x).bind fun d => int32 (f d)) = .ub := by
  rcases int32_or x with ⟨y, e⟩ | e
  · rw [e]; exact int32_or _
  · rw [e]; exact .inr rfl

theorem eq_ub {α : Type} {r : Res α} (h : (∃ w, r = .ok w) ∨ r = .ub) (hn : ∀ w, r ≠ .ok w) : r = .ub := by
  rcases h with ⟨w, e⟩ | e
  · exact absurd e (hn w)
  · exact e

/-- C115: `Size` of a box of integers is defined exactly if each difference is less than 2^31, and then it is the exact size. -/
theorem C115_size_partial (b : Box n ℤ) : (∀ s, sizeInt b = .ok s ↔ ∀ i, s i = |b.max i - b.min i| ∧ s i < 2 ^ 31) ∧
    ((∃ i, 2 ^ 31 ≤ |b.max i - b.min i|) → sizeInt b = .ub) := by
  have key : ∀ s, sizeInt b = .ok s ↔ ∀ i, s i = |b.max i - b.min i| ∧ s i < 2 ^ 31 := by
    intro s
    unfold sizeInt
    rw [assign_iff]
    refine forall_congr' fun i => ?_
    simp only [Res.bind_eq_ok, int32_ok]
    constructor
    · rintro ⟨_, ⟨rfl, h⟩, e, h'⟩
      exact ⟨e, by rw [e]; exact h'.2⟩
    · rintro ⟨e, h⟩
      rw [e] at h
      have := abs_lt.1 h
      exact ⟨_, ⟨rfl, this.1.le, this.2⟩, e, by linarith [abs_nonneg (b.max i - b.min i)], h⟩
  refine ⟨key, ?_⟩
  rintro ⟨i, hi⟩
  refine eq_ub (assign_ub _ (fun i => bind_or _) _ _) fun w hw => ?_
  obtain ⟨e, h⟩ := (key w).1 hw i
  omega

theorem half_int (s : ℤ) : (0 ≤ s → 2 * s.tdiv 2 ≤ s ∧ s ≤ 2 * s.tdiv 2 + 1) ∧ (s < 0 → s ≤ 2 * s.tdiv 2 ∧ 2 * s.tdiv 2 ≤ s + 1) := by
  refine ⟨fun h => ?_, fun h => ?_⟩
  · rw [Int.tdiv_eq_ediv_of_nonneg h]; omega
  · obtain ⟨t, rfl⟩ : ∃ t, s = -t := ⟨-s, by omega⟩
    rw [Int.neg_tdiv, Int.tdiv_eq_ediv_of_nonneg (by omega)]; omega

/-- C115: `Center` of a box of integers is defined exactly if each sum is in the limits; then it is at most one half away from the exact center,
towards zero, and in the box if the box is valid. -/
theorem C115_center_partial (b : Box n ℤ) : ((∃ c, centerInt b = .ok c) ↔ ∀ i, -2 ^ 31 ≤ b.min i + b.max i ∧ b.min i + b.max i < 2 ^ 31) ∧
    (∀ c, centerInt b = .ok c → (∀ i, |2 * c i - (b.min i + b.max i)| ≤ 1 ∧ |2 * c i| ≤ |b.min i + b.max i|) ∧
      ((∀ i, b.min i ≤ b.max i) → contains b c = true)) ∧
    ((∃ i, b.min i + b.max i < -2 ^ 31 ∨ 2 ^ 31 ≤ b.min i + b.max i) → centerInt b = .ub) := by
  have key : ∀ c, centerInt b = .ok c ↔ ∀ i, (-2 ^ 31 ≤ b.min i + b.max i ∧ b.min i + b.max i < 2 ^ 31) ∧ c i = (b.min i + b.max i).tdiv 2 := by
    intro s
    unfold centerInt
    rw [assign_iff]
    refine forall_congr' fun i => ?_
    simp only [Res.bind_eq_ok, int32_ok]
    constructor
    · rintro ⟨_, ⟨rfl, h⟩, e, h'⟩
      exact ⟨h, e⟩
    · rintro ⟨h, e⟩
      refine ⟨_, ⟨rfl, h⟩, e, ?_⟩
      have := half_int (b.min i + b.max i)
      omega
  refine ⟨⟨fun ⟨c, hc⟩ i => ((key c).1 hc i).1, fun h => ⟨_, (key _).2 fun i => ⟨h i, rfl⟩⟩⟩, fun c hc => ⟨fun i => ?_, fun hv => ?_⟩, ?_⟩
  · obtain ⟨-, e⟩ := (key c).1 hc i
    have := half_int (b.min i + b.max i)
    rw [abs_le]
    refine ⟨by omega, ?_⟩
    rcases abs_cases (2 * c i) with ⟨a, _⟩ | ⟨a, _⟩ <;> rcases abs_cases (b.min i + b.max i) with ⟨d, _⟩ | ⟨d, _⟩ <;> omega
  · simp only [contains, List.all_eq_true, List.mem_finRange, true_implies, CLt.lt, Bool.not_eq_true', Bool.or_eq_false_iff, decide_eq_false_iff_not, not_lt]
    intro i
    obtain ⟨-, e⟩ := (key c).1 hc i
    have := hv i
    have := half_int (b.min i + b.max i)
    omega
  · rintro ⟨i, hi⟩
    refine eq_ub (assign_ub _ (fun i => bind_or _) _ _) fun w hw => ?_
    obtain ⟨h, -⟩ := (key w).1 hw i
    omega

/-- C115: there are valid boxes whose `Size` and boxes whose `Center` is undefined, and `Size` is undefined for the default box. -/
theorem C115_refuted : (∃ b : Box 2 ℤ, IntBox b ∧ (∀ i, b.min i ≤ b.max i) ∧ sizeInt b = .ub) ∧
    (∃ b : Box 2 ℤ, IntBox b ∧ (∀ i, b.min i ≤ b.max i) ∧ centerInt b = .ub) ∧ sizeInt (reset (-2 ^ 31) (2 ^ 31 - 1) : Box 2 ℤ) = .ub := by
  refine ⟨⟨⟨fun _ => -2 ^ 31, fun _ => 0⟩, fun i => by norm_num, fun i => by norm_num, (C115_size_partial _).2 ⟨0, by norm_num⟩⟩,
    ⟨⟨fun _ => 2 ^ 30, fun _ => 2 ^ 30⟩, fun i => by norm_num, fun i => le_rfl, (C115_center_partial _).2.2 ⟨0, by norm_num⟩⟩,
    (C115_size_partial _).2 ⟨0, by norm_num [reset]⟩⟩

theorem sampleCenter : centerInt (⟨![-3, 0], ![0, 5]⟩ : Box 2 ℤ) = .ok ![-1, 2] := by
  rw [centerInt, assign_iff]
  decide

example : sizeInt (⟨![-3, 0], ![0, 5]⟩ : Box 2 ℤ) = .ok ![3, 5] := ((C115_size_partial _).1 _).2 (by decide)
example : contains (⟨![-3, 0], ![0, 5]⟩ : Box 2 ℤ) ![-1, 2] = true := ((C115_center_partial _).2.1 _ sampleCenter).2 (by decide)

/- Conversions. -/

theorem trunc_mono {x y : ℚ} (h : x ≤ y) : trunc x ≤ trunc y := by
  unfold trunc
  split_ifs with a b b
  · exact Int.floor_le_floor h
  · linarith
  · exact (Int.ceil_nonpos.2 (by linarith)).trans (Int.floor_nonneg.2 b)
  · exact Int.ceil_le_ceil h

theorem trunc_int (k : ℤ) : trunc k = k := by
  unfold trunc
  split_ifs <;> simp

theorem convert_mono {t : Target} (ht : Sound t) {x y u v : ℚ} (h : x ≤ y) (hx : convert t x = .ok u) (hy : convert t y = .ok v) : u ≤ v := by
  cases t with
  | float fl big =>
    obtain ⟨p, emin, hf, -⟩ := ht
    simp only [convert] at hx hy
    split_ifs at hx hy
    cases hx; cases hy
    exact hf.mono h
  | int lo hi =>
    simp only [convert] at hx hy
    split_ifs at hx hy
    cases hx; cases hy
    exact_mod_cast trunc_mono h

theorem convert_mid {t : Target} {x y z u v : ℚ} (h1 : x ≤ y) (h2 : y ≤ z) (hx : convert t x = .ok u) (hz : convert t z = .ok v) : ∃ w, convert t y = .ok w := by
  cases t with
  | float fl big =>
    simp only [convert] at hx hz
    split_ifs at hx hz with a b
    rw [abs_le] at a b
    exact ⟨_, if_pos (abs_le.2 ⟨by linarith, by linarith⟩)⟩
  | int lo hi =>
    simp only [convert] at hx hz
    split_ifs at hx hz with a b
    exact ⟨_, if_pos ⟨a.1.trans (trunc_mono h1), (trunc_mono h2).trans b.2⟩⟩

theorem convert_has {t : Target} {x : ℚ} (h : Has t x) : convert t x = .ok x := by
  cases t with
  | float fl big => simp [convert, h.1, h.2]
  | int lo hi =>
    obtain ⟨k, rfl, h1, h2⟩ := h
    simp [convert, trunc_int, h1, h2]

theorem convert_into {t : Target} (ht : Sound t) {x u : ℚ} (h : convert t x = .ok u) : Has t u := by
  cases t with
  | float fl big =>
    obtain ⟨p, emin, hf, hb⟩ := ht
    simp only [convert] at h
    split_ifs at h with a
    cases h
    rw [abs_le] at a
    refine ⟨hf.fix _ (hf.mem x), abs_le.2 ⟨?_, ?_⟩⟩
    · rw [← hf.fix _ (neg_mem hb)]; exact hf.mono a.1
    · rw [← hf.fix _ hb]; exact hf.mono a.2
  | int lo hi =>
    simp only [convert] at h
    split_ifs at h with a
    cases h
    exact ⟨_, rfl, a⟩

theorem castPoint_iff {t : Target} {p q : Fin n → ℚ} : castPoint t p = .ok q ↔ ∀ i, convert t (p i) = .ok (q i) := assign_iff _ _ _

theorem castBox_iff {t : Target} {b c : Box n ℚ} : castBox t b = .ok c ↔ ∀ i, convert t (b.min i) = .ok (c.min i) ∧ convert t (b.max i) = .ok (c.max i) := by
  simp only [castBox, Res.bind_eq_ok, castPoint_iff]
  constructor
  · rintro ⟨lo, h1, hi, h2, e⟩
    cases e
    exact fun i => ⟨h1 i, h2 i⟩
  · exact fun h => ⟨c.min, fun i => (h i).1, c.max, fun i => (h i).2, rfl⟩

theorem contains_iff' (b : Box n ℚ) (p : Fin n → ℚ) : contains b p = true ↔ ∀ i, b.min i ≤ p i ∧ p i ≤ b.max i := by
  simp [contains, CLt.lt]

theorem insideOf_iff' (b c : Box n ℚ) : insideOf b c = true ↔ ∀ i, c.min i ≤ b.min i ∧ b.max i ≤ c.max i := by
  simp [insideOf, CLt.lt]

theorem overlap_iff' (b c : Box n ℚ) : overlap b c = true ↔ ∀ i, c.min i ≤ b.max i ∧ b.min i ≤ c.max i := by
  simp [overlap, CLt.lt]

/-- C116: if `Cast` of a box is defined, it is a box of the new type; it is valid if the box is valid; each point in the box can be converted, and is in the
new box; a box inside of the box, or that overlaps it, keeps this relation. -/
theorem C116_partial {t : Target} (ht : Sound t) (b c : Box n ℚ) (h : castBox t b = .ok c) :
    (∀ i, Has t (c.min i) ∧ Has t (c.max i)) ∧
    ((∀ i, b.min i ≤ b.max i) → ∀ i, c.min i ≤ c.max i) ∧
    (∀ x, contains b x = true → ∃ y, castPoint t x = .ok y ∧ contains c y = true) ∧
    (∀ d, (∀ i, d.min i ≤ d.max i) → insideOf d b = true → ∃ e, castBox t d = .ok e ∧ insideOf e c = true) ∧
    (∀ d e, castBox t d = .ok e → overlap b d = true → overlap c e = true) := by
  rw [castBox_iff] at h
  refine ⟨fun i => ⟨convert_into ht (h i).1, convert_into ht (h i).2⟩, fun hv i => convert_mono ht (hv i) (h i).1 (h i).2, fun x hx => ?_, fun d hd hi => ?_, fun d e he ho => ?_⟩
  · rw [contains_iff'] at hx
    choose y hy using fun i => convert_mid (hx i).1 (hx i).2 (h i).1 (h i).2
    refine ⟨y, castPoint_iff.2 hy, (contains_iff' _ _).2 fun i => ?_⟩
    exact ⟨convert_mono ht (hx i).1 (h i).1 (hy i), convert_mono ht (hx i).2 (hy i) (h i).2⟩
  · rw [insideOf_iff'] at hi
    choose y hy using fun i => convert_mid (hi i).1 ((hd i).trans (hi i).2) (h i).1 (h i).2
    choose z hz using fun i => convert_mid ((hi i).1.trans (hd i)) (hi i).2 (h i).1 (h i).2
    refine ⟨⟨y, z⟩, castBox_iff.2 fun i => ⟨hy i, hz i⟩, (insideOf_iff' _ _).2 fun i => ?_⟩
    exact ⟨convert_mono ht (hi i).1 (h i).1 (hy i), convert_mono ht (hi i).2 (hz i) (h i).2⟩
  · rw [castBox_iff] at he
    rw [overlap_iff'] at ho ⊢
    exact fun i => ⟨convert_mono ht (ho i).1 (he i).1 (h i).2, convert_mono ht (ho i).2 (h i).1 (he i).2⟩

/-- C116: `Cast` to a type that has the numbers of the box does not change the box (`float` to `double`, integers to `double`). -/
theorem C116_exact (t : Target) (b : Box n ℚ) (h : ∀ i, Has t (b.min i) ∧ Has t (b.max i)) : castBox t b = .ok b :=
  castBox_iff.2 fun i => ⟨convert_has (h i).1, convert_has (h i).2⟩

/-- C116: `Cast` from `double` to `float`: the new box need not contain the box. `Cast` to integers: a box that is empty (min > max) may get a point, boxes
without a common point may overlap, and the default box of `float` has no conversion. -/
theorem C116_refuted {fl : ℚ → ℚ} (hf : IsNearest 24 (-149) fl) :
    (∃ b c : Box 3 ℚ, (∀ i, b.min i ≤ b.max i ∧ b.min i ∈ Floats 53 (-1074) ∧ b.max i ∈ Floats 53 (-1074)) ∧ castBox (.float fl maxFloat) b = .ok c ∧ insideOf b c = false) ∧
    (∃ b c : Box 3 ℚ, (∀ x, contains b x = false) ∧ castBox (.int (-2 ^ 31) (2 ^ 31 - 1)) b = .ok c ∧ contains c 0 = true) ∧
    (∃ b c d e : Box 3 ℚ, (∀ i, b.min i ≤ b.max i ∧ d.min i ≤ d.max i) ∧ overlap b d = false ∧ castBox (.int (-2 ^ 31) (2 ^ 31 - 1)) b = .ok c ∧
      castBox (.int (-2 ^ 31) (2 ^ 31 - 1)) d = .ok e ∧ overlap c e = true) ∧
    castBox (.int (-2 ^ 31) (2 ^ 31 - 1)) (reset (-maxFloat) maxFloat : Box 3 ℚ) = .ub := by
  have fx : fl (1 + 2 ^ (-30 : ℤ)) = 1 := by
    have h2 := hf.mono (show (1 : ℚ) ≤ 1 + 2 ^ (-30 : ℤ) by norm_num)
    rw [hf.fix 1 ⟨1, 0, by norm_num, by norm_num, by norm_num⟩] at h2
    have h3 := hf.near (1 + 2 ^ (-30 : ℤ)) 1 ⟨1, 0, by norm_num, by norm_num, by norm_num⟩
    obtain ⟨j, hj⟩ := multiple_of_le (k := -24) (hf.mem (1 + 2 ^ (-30 : ℤ))) (by rw [abs_of_pos (by linarith)]; simpa using h2)
    rw [hj] at h2 h3 ⊢
    have h4 := (abs_le.1 (h3.trans (by norm_num [abs_le] : |(1 : ℚ) - (1 + 2 ^ (-30 : ℤ))| ≤ 2 ^ (-30 : ℤ)))).2
    norm_num at h2 h4 ⊢
    have h5 : (j : ℚ) < 8388609 := by linarith
    have h6 : (8388608 : ℚ) ≤ j := by linarith
    have h7 : j = 8388608 := by
      have a : j < 8388609 := by exact_mod_cast h5
      have b : 8388608 ≤ j := by exact_mod_cast h6
      omega
    rw [h7]; norm_num
  have tr : ∀ x : ℚ, 0 ≤ x → x < 1 → convert (.int (-2 ^ 31) (2 ^ 31 - 1)) x = .ok 0 := by
    intro x h0 h1
    have : trunc x = 0 := by
      rw [trunc, if_pos h0]
      exact Int.floor_eq_zero_iff.2 ⟨h0, h1⟩
    simp [convert, this]
  refine ⟨⟨⟨fun _ => 1 + 2 ^ (-30 : ℤ), fun _ => 1 + 2 ^ (-30 : ℤ)⟩, ⟨fun _ => 1, fun _ => 1⟩, fun i => ?_, ?_, ?_⟩,
    ⟨⟨fun _ => 1 / 2, fun _ => 1 / 4⟩, ⟨fun _ => 0, fun _ => 0⟩, fun x => ?_, ?_, ?_⟩,
    ⟨⟨fun _ => 1 / 4, fun _ => 1 / 4⟩, ⟨fun _ => 0, fun _ => 0⟩, ⟨fun _ => 1 / 2, fun _ => 1 / 2⟩, ⟨fun _ => 0, fun _ => 0⟩, fun i => ⟨le_rfl, le_rfl⟩, ?_, ?_, ?_, ?_⟩, ?_⟩
  · have : (1 + 2 ^ (-30 : ℤ) : ℚ) ∈ Floats 53 (-1074) := ⟨2 ^ 30 + 1, -30, by norm_num, by norm_num, by norm_num⟩
    exact ⟨le_rfl, this, this⟩
  · have : convert (.float fl maxFloat) (1 + 2 ^ (-30 : ℤ)) = .ok 1 := by
      simp only [convert, fx]
      rw [if_pos (by norm_num [maxFloat, abs_le])]
    exact castBox_iff.2 fun i => ⟨this, this⟩
  · rw [Bool.eq_false_iff, ne_eq, insideOf_iff']
    intro h
    have := (h 0).2
    norm_num at this
  · rw [Bool.eq_false_iff, ne_eq, contains_iff']
    intro h
    have := h 0
    norm_num at this
    linarith
  · exact castBox_iff.2 fun i => ⟨tr _ (by norm_num) (by norm_num), tr _ (by norm_num) (by norm_num)⟩
  · rw [contains_iff']; simp
  · rw [Bool.eq_false_iff, ne_eq, overlap_iff']
    intro h
    have := (h 0).1
    norm_num at this
  · exact castBox_iff.2 fun i => ⟨tr _ (by norm_num) (by norm_num), tr _ (by norm_num) (by norm_num)⟩
  · exact castBox_iff.2 fun i => ⟨tr _ (by norm_num) (by norm_num), tr _ (by norm_num) (by norm_num)⟩
  · rw [overlap_iff']; simp
  · have e : convert (.int (-2 ^ 31) (2 ^ 31 - 1)) maxFloat = .ub := by
      have : trunc maxFloat = (2 ^ 24 - 1) * 2 ^ 104 := by
        have := trunc_int ((2 ^ 24 - 1) * 2 ^ 104)
        rw [← this]
        norm_num [maxFloat]
      simp only [convert, this]
      norm_num
    have : castPoint (.int (-2 ^ 31) (2 ^ 31 - 1)) (fun _ : Fin 3 => maxFloat) = .ub := by
      have : List.finRange 3 = [0, 1, 2] := by decide
      simp only [castPoint, this, assign, e, Res.bind_ub]
    simp only [castBox, reset, this, Res.bind_ub]

example : ∃ y, castPoint (.int (-2 ^ 31) (2 ^ 31 - 1)) ![3 / 2, 5 / 2] = .ok y ∧ contains (⟨![-1, 0], ![2, 3]⟩ : Box 2 ℚ) y = true := by
  refine (C116_partial (t := .int (-2 ^ 31) (2 ^ 31 - 1)) trivial ⟨![-3 / 2, 1 / 2], ![5 / 2, 3]⟩ ⟨![-1, 0], ![2, 3]⟩ ?_).2.2.1 _ ?_
  · rw [castBox_iff]
    intro i
    fin_cases i <;> norm_num [convert, trunc, Int.ceil_eq_iff, Int.floor_eq_iff]
  · rw [contains_iff']
    intro i
    fin_cases i <;> norm_num

example : castBox (.int (-2 ^ 31) (2 ^ 31 - 1)) (⟨![-1, 0], ![2, 3]⟩ : Box 2 ℚ) = .ok ⟨![-1, 0], ![2, 3]⟩ :=
  C116_exact _ _ fun i => by
    fin_cases i
    · exact ⟨⟨-1, by norm_num, by norm_num, by norm_num⟩, ⟨2, by norm_num, by norm_num, by norm_num⟩⟩
    · exact ⟨⟨0, by norm_num, by norm_num, by norm_num⟩, ⟨3, by norm_num, by norm_num, by norm_num⟩⟩

end Geom.AABB.Props
