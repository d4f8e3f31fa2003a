import Verif.Model.AABBCollision
import Verif.Proof.AABB
import Verif.Base.Tac

/-!
Properties C07 and C08: ray and segment against a box, for each dimension.
-/

set_option linter.unusedSectionVars false

set_option autoImplicit false

namespace Geom.AABB.Props

variable {n : Nat} {K : Type} [Field K] [LinearOrder K] [IsStrictOrderedRing K]

/-- Each component of the direction is zero or not below the tolerance. -/
def ClearDirection (eps : K) (d : Fin n → K) : Prop := ∀ i, d i = 0 ∨ eps ≤ |d i|

/-- The ray parameters from `lo` to `hi` at which the ray is inside the box. -/
def hits (box : Box n K) (o d : Fin n → K) (lo hi : K) : Set K :=
  {t | lo ≤ t ∧ t ≤ hi ∧ ∀ i, box.min i ≤ o i + t * d i ∧ o i + t * d i ≤ box.max i}

/-! ## The slab loop -/

/-- One axis: the parameters in the slab are those between the two quotients. -/
theorem slab_axis {a b o d t : K} (hab : a ≤ b) (hd : d ≠ 0) :
    (a ≤ o + t * d ∧ o + t * d ≤ b) ↔
      min ((a - o) * (1 / d)) ((b - o) * (1 / d)) ≤ t ∧
      t ≤ max ((a - o) * (1 / d)) ((b - o) * (1 / d)) := by
  rw [mul_one_div, mul_one_div]
  rcases lt_or_gt_of_ne hd with h | h
  · have h1 : (b - o) / d ≤ (a - o) / d := by
      rw [div_le_div_right_of_neg h]; linarith
    rw [min_eq_right h1, max_eq_left h1, div_le_iff_of_neg h, le_div_iff_of_neg h]
    constructor <;> rintro ⟨h1, h2⟩ <;> constructor <;> linarith
  · have h1 : (a - o) / d ≤ (b - o) / d := by
      rw [div_le_div_iff_of_pos_right h]; linarith
    rw [min_eq_left h1, max_eq_right h1, div_le_iff₀ h, le_div_iff₀ h]
    constructor <;> rintro ⟨h1, h2⟩ <;> constructor <;> linarith

/-- The loop computes the least element of the intersection of the slabs. -/
theorem slabs_spec (eps : K) (he : 0 < eps) (box : Box n K) (hv : Valid box) (o d : Fin n → K)
    (hd : ClearDirection eps d) (is : List (Fin n)) : ∀ lo hi : K, lo ≤ hi →
    (∀ t, slabs eps box o d is lo hi = some t → IsLeast {t | lo ≤ t ∧ t ≤ hi ∧ ∀ i ∈ is,
      box.min i ≤ o i + t * d i ∧ o i + t * d i ≤ box.max i} t) ∧
    (slabs eps box o d is lo hi = none → ¬ ∃ t, lo ≤ t ∧ t ≤ hi ∧ ∀ i ∈ is,
      box.min i ≤ o i + t * d i ∧ o i + t * d i ≤ box.max i) := by
  induction is with
  | nil =>
    intro lo hi hlh
    refine ⟨fun t h => ?_, fun h => ?_⟩
    · simp only [slabs, Option.some.injEq] at h
      subst h
      exact ⟨⟨le_rfl, hlh, by simp⟩, fun t ht => ht.1⟩
    · simp [slabs] at h
  | cons i is ih =>
    intro lo hi hlh
    by_cases hz : |d i| < eps
    · -- parallel to the slab
      have hdi : d i = 0 := by
        rcases hd i with h | h
        · exact h
        · exact absurd hz (not_lt.2 h)
      by_cases ho : o i < box.min i ∨ o i > box.max i
      · have e : slabs eps box o d (i :: is) lo hi = none := by
          simp only [slabs, if_pos hz, if_pos ho]
        refine ⟨fun t h => by rw [e] at h; exact absurd h (by simp), fun _ => ?_⟩
        rintro ⟨t, -, -, h⟩
        have := h i List.mem_cons_self
        rw [hdi, mul_zero, add_zero] at this
        rcases ho with ho | ho
        · exact absurd this.1 (not_le.2 ho)
        · exact absurd this.2 (not_le.2 ho)
      · have e : slabs eps box o d (i :: is) lo hi = slabs eps box o d is lo hi := by
          simp only [slabs, if_pos hz, if_neg ho]
        push Not at ho
        have hi' : ∀ t : K, box.min i ≤ o i + t * d i ∧ o i + t * d i ≤ box.max i := by
          intro t; rw [hdi, mul_zero, add_zero]; exact ho
        obtain ⟨h1, h2⟩ := ih lo hi hlh
        rw [e]
        refine ⟨fun t h => ?_, fun h => ?_⟩
        · obtain ⟨⟨a, b, c⟩, l⟩ := h1 t h
          refine ⟨⟨a, b, fun j hj => ?_⟩, fun t' ht' =>
            l ⟨ht'.1, ht'.2.1, fun j hj => ht'.2.2 j (List.mem_cons_of_mem _ hj)⟩⟩
          rcases List.mem_cons.1 hj with rfl | hj
          · exact hi' t
          · exact c j hj
        · rintro ⟨t, a, b, c⟩
          exact h2 h ⟨t, a, b, fun j hj => c j (List.mem_cons_of_mem _ hj)⟩
    · have hdi : d i ≠ 0 := by
        intro h; rw [h, abs_zero] at hz; exact hz he
      have ax : ∀ t, _ := fun t => slab_axis (a := box.min i) (b := box.max i) (o := o i) (d := d i)
        (t := t) (hv i) hdi
      set q1 := (box.min i - o i) * (1 / d i) with hq1
      set q2 := (box.max i - o i) * (1 / d i) with hq2
      have e : slabs eps box o d (i :: is) lo hi =
          if max lo (min q1 q2) > min hi (max q1 q2) then none
          else slabs eps box o d is (max lo (min q1 q2)) (min hi (max q1 q2)) := by
        simp only [slabs, if_neg hz]
        rw [← hq1, ← hq2]
        by_cases hq : q1 > q2
        · rw [if_pos hq, min_eq_right hq.le, max_eq_left hq.le]
        · rw [if_neg hq, min_eq_left (not_lt.1 hq), max_eq_right (not_lt.1 hq)]
      have set_eq : ∀ t, (lo ≤ t ∧ t ≤ hi ∧ ∀ j ∈ i :: is,
          box.min j ≤ o j + t * d j ∧ o j + t * d j ≤ box.max j) ↔
          (max lo (min q1 q2) ≤ t ∧ t ≤ min hi (max q1 q2) ∧ ∀ j ∈ is,
          box.min j ≤ o j + t * d j ∧ o j + t * d j ≤ box.max j) := by
        intro t
        rw [max_le_iff, le_min_iff]
        have := ax t
        constructor
        · rintro ⟨a, b, c⟩
          have h := this.1 (c i List.mem_cons_self)
          exact ⟨⟨a, h.1⟩, ⟨b, h.2⟩, fun j hj => c j (List.mem_cons_of_mem _ hj)⟩
        · rintro ⟨⟨a, a'⟩, ⟨b, b'⟩, c⟩
          refine ⟨a, b, fun j hj => ?_⟩
          rcases List.mem_cons.1 hj with rfl | hj
          · exact this.2 ⟨a', b'⟩
          · exact c j hj
      have hS : {t | lo ≤ t ∧ t ≤ hi ∧ ∀ j ∈ i :: is,
          box.min j ≤ o j + t * d j ∧ o j + t * d j ≤ box.max j} =
          {t | max lo (min q1 q2) ≤ t ∧ t ≤ min hi (max q1 q2) ∧ ∀ j ∈ is,
          box.min j ≤ o j + t * d j ∧ o j + t * d j ≤ box.max j} := by
        ext t; exact set_eq t
      rw [e, hS]
      by_cases hc : max lo (min q1 q2) > min hi (max q1 q2)
      · rw [if_pos hc]
        refine ⟨fun t h => absurd h (by simp), fun _ => ?_⟩
        rintro ⟨t, h⟩
        have := (set_eq t).1 h
        exact absurd (this.1.trans this.2.1) (not_le.2 hc)
      · rw [if_neg hc]
        obtain ⟨h1, h2⟩ := ih _ _ (not_lt.1 hc)
        refine ⟨h1, fun h => ?_⟩
        rintro ⟨t, ht⟩
        exact h2 h ⟨t, (set_eq t).1 ht⟩

/-! ## C07 -/

section
variable (eps big : K) (he : 0 < eps) (hb : 0 ≤ big) (box : Box n K) (hv : Valid box)
  (o d : Fin n → K) (hd : ClearDirection eps d)
include he hb hv hd

/-- On success the parameter is the first one at which the ray is in the box. -/
theorem C07_least (t : K) (h : interp eps big box o d = some t) :
    IsLeast (hits box o d 0 big) t := by
  have := (slabs_spec eps he box hv o d hd (List.finRange n) 0 big hb).1 t h
  simpa [hits] using this

/-- The query succeeds exactly if the ray meets the box. -/
theorem C07_decides : (∃ t, interp eps big box o d = some t) ↔ (hits box o d 0 big).Nonempty := by
  constructor
  · rintro ⟨t, h⟩
    exact ⟨t, (C07_least eps big he hb box hv o d hd t h).1⟩
  · rintro ⟨t, ht⟩
    cases h : interp eps big box o d with
    | some t => exact ⟨t, rfl⟩
    | none =>
      refine absurd ⟨t, ?_⟩ ((slabs_spec eps he box hv o d hd (List.finRange n) 0 big hb).2 h)
      simpa [hits] using ht

/-- The overload with a point: it succeeds exactly if the ray meets the box, and yields the first
point of the ray in the box. -/
theorem C07_point : (∀ p, rayHitPoint eps big box o d = some p →
      p ∈ pts box ∧ ∃ t, p = rayAt o d t ∧ IsLeast (hits box o d 0 big) t) ∧
    ((∃ p, rayHitPoint eps big box o d = some p) ↔ (hits box o d 0 big).Nonempty) := by
  have key : ∀ t, interp eps big box o d = some t → rayHitPoint eps big box o d = some (rayAt o d t) := by
    intro t h
    have h0 := (C07_least eps big he hb box hv o d hd t h).1.1
    simp only [rayHitPoint, h]
    rw [if_neg (not_lt.2 h0)]
  constructor
  · intro p hp
    cases h : interp eps big box o d with
    | none => simp [rayHitPoint, h] at hp
    | some t =>
      rw [key t h, Option.some.injEq] at hp
      subst hp
      have hl := C07_least eps big he hb box hv o d hd t h
      refine ⟨fun i => ?_, t, rfl, hl⟩
      have := hl.1.2.2 i
      simp only [rayAt]
      rw [add_comm, mul_comm]
      exact this
  · rw [← C07_decides eps big he hb box hv o d hd]
    constructor
    · rintro ⟨p, hp⟩
      cases h : interp eps big box o d with
      | none => simp [rayHitPoint, h] at hp
      | some t => exact ⟨t, rfl⟩
    · rintro ⟨t, h⟩
      exact ⟨_, key t h⟩

/-- The overload without output. -/
theorem C07_bool : rayHit eps big box o d = true ↔ (hits box o d 0 big).Nonempty := by
  rw [← C07_decides eps big he hb box hv o d hd]
  cases h : interp eps big box o d with
  | none => simp [rayHit, h]
  | some t =>
    have h0 := (C07_least eps big he hb box hv o d hd t h).1.1
    simp [rayHit, h, h0]
end

/-- For an arbitrary direction: the parameter is the one of the ray whose small components are
replaced by zero; so the answer is exact for that ray. -/
theorem C07_snapped (eps big : K) (box : Box n K) (o d : Fin n → K) (he : 0 < eps) :
    interp eps big box o d = interp eps big box o (fun i => if |d i| < eps then 0 else d i) ∧
    ClearDirection eps (fun i => if |d i| < eps then 0 else d i) := by
  constructor
  · have key : ∀ (is : List (Fin n)) (lo hi : K), slabs eps box o d is lo hi =
        slabs eps box o (fun i => if |d i| < eps then 0 else d i) is lo hi := by
      intro is
      induction is with
      | nil => intro lo hi; rfl
      | cons i is ih =>
        intro lo hi
        by_cases h : |d i| < eps
        · simp only [slabs, h, if_true, abs_zero, he, ih]
        · simp only [slabs, h, if_false, ih]
    exact key _ _ _
  · intro i
    by_cases h : |d i| < eps
    · left; simp [h]
    · right; simp [h, not_lt.1 h]

/-- A ray which hits the unit box at its first face, at parameter 2. -/
theorem sampleRay : interp (1 / 1000) 1000000 (⟨![0, 0, 0], ![1, 1, 1]⟩ : Box 3 ℚ) ![-1, -1, 1 / 2]
    ![1 / 2, 3 / 4, 0] = some 2 ∧ ClearDirection (1 / 1000) ![(1 / 2 : ℚ), 3 / 4, 0] ∧
    Valid (⟨![0, 0, 0], ![1, 1, 1]⟩ : Box 3 ℚ) := by
  refine ⟨by decide +kernel, ?_, ?_⟩
  · intro i; fin_cases i <;> simp [abs] <;> norm_num
  · intro i; fin_cases i <;> norm_num

example := C07_least _ _ (by norm_num) (by norm_num) _ sampleRay.2.2 _ _ sampleRay.2.1 2 sampleRay.1
example := (C07_decides _ 1000000 (by norm_num) (by norm_num) _ sampleRay.2.2 ![-1, -1, 1 / 2] _ sampleRay.2.1).1 ⟨2, sampleRay.1⟩
example := C07_point _ 1000000 (by norm_num) (by norm_num) _ sampleRay.2.2 ![-1, -1, 1 / 2] _ sampleRay.2.1
example : rayHit (1 / 1000) 1000000 (⟨![0, 0, 0], ![1, 1, 1]⟩ : Box 3 ℚ) ![-1, -1, 1 / 2] ![1 / 2, 3 / 4, 0] = true :=
  (C07_bool _ _ (by norm_num) (by norm_num) _ sampleRay.2.2 _ _ sampleRay.2.1).2
    ⟨2, by norm_num, by norm_num, by intro i; fin_cases i <;> norm_num⟩

/-! ## C08 -/

/-- The points of a segment. -/
def segPts (l : Seg n K) : Set (Fin n → K) :=
  {p | ∃ t, 0 ≤ t ∧ t ≤ 1 ∧ ∀ i, p i = l.a i + t * (l.b i - l.a i)}

theorem seg_hits (box : Box n K) (l : Seg n K) :
    (segPts l ∩ pts box).Nonempty ↔ (hits box l.a l.direction 0 1).Nonempty := by
  constructor
  · rintro ⟨p, ⟨t, h0, h1, h⟩, hp⟩
    refine ⟨t, h0, h1, fun i => ?_⟩
    have := hp i
    rw [h i] at this
    exact this
  · rintro ⟨t, h0, h1, h⟩
    exact ⟨fun i => l.a i + t * (l.b i - l.a i), ⟨t, h0, h1, fun i => rfl⟩, h⟩

/-- The overload with an output point decides whether the segment meets the box, and yields the
first point of the segment in the box. -/
theorem C08_point_overload (eps big : K) (he : 0 < eps) (hb : 1 ≤ big) (box : Box n K)
    (hv : Valid box) (l : Seg n K) (hd : ClearDirection eps l.direction) :
    ((∃ p, lineHitPoint eps big box l = some p) ↔ (segPts l ∩ pts box).Nonempty) ∧
    (∀ p, lineHitPoint eps big box l = some p → p ∈ segPts l ∧ p ∈ pts box ∧
      ∃ t, p = rayAt l.a l.direction t ∧ IsLeast (hits box l.a l.direction 0 1) t) := by
  have hb0 : 0 ≤ big := zero_le_one.trans hb
  have snd : ∀ p, lineHitPoint eps big box l = some p → p ∈ segPts l ∧ p ∈ pts box ∧
      ∃ t, p = rayAt l.a l.direction t ∧ IsLeast (hits box l.a l.direction 0 1) t := by
    intro p hp
    cases h : interp eps big box l.a l.direction with
    | none => simp [lineHitPoint, h] at hp
    | some t =>
      have hl := C07_least eps big he hb0 box hv l.a l.direction hd t h
      simp only [lineHitPoint, h] at hp
      split_ifs at hp with hc
      push Not at hc
      simp only [Option.some.injEq] at hp
      subst hp
      refine ⟨⟨t, hc.1, hc.2, fun i => ?_⟩, fun i => ?_, t, rfl,
        ⟨⟨hc.1, hc.2, hl.1.2.2⟩, fun t' ht' => hl.2 ⟨ht'.1, ht'.2.1.trans hb, ht'.2.2⟩⟩⟩
      · simp only [rayAt, Seg.direction]; ring
      · have := hl.1.2.2 i
        simp only [rayAt]
        rw [add_comm, mul_comm]
        exact this
  refine ⟨⟨?_, ?_⟩, snd⟩
  · rintro ⟨p, hp⟩
    obtain ⟨h1, h2, -⟩ := snd p hp
    exact ⟨p, h1, h2⟩
  · intro hne
    obtain ⟨t, ht⟩ := (seg_hits box l).1 hne
    have ht' : t ∈ hits box l.a l.direction 0 big := ⟨ht.1, ht.2.1.trans hb, ht.2.2⟩
    obtain ⟨s, hs⟩ := (C07_decides eps big he hb0 box hv l.a l.direction hd).2 ⟨t, ht'⟩
    have hl := C07_least eps big he hb0 box hv l.a l.direction hd s hs
    have : ¬ (s < 0 ∨ s > 1) := by
      push Not
      exact ⟨hl.1.1, (hl.2 ht').trans ht.2.1⟩
    exact ⟨_, by simp only [lineHitPoint, hs]; rw [if_neg this]⟩

/-- A segment which enters the unit box. -/
example : ∃ p, lineHitPoint (1 / 1000) 1000000 (⟨![0, 0, 0], ![1, 1, 1]⟩ : Box 3 ℚ) ⟨![-1, -1, 1 / 2], ![1, 2, 1 / 2]⟩ = some p :=
  ((C08_point_overload _ _ (by norm_num) (by norm_num) _ (by intro i; fin_cases i <;> norm_num) _
    (by intro i; fin_cases i <;> simp [Seg.direction, abs] <;> norm_num)).1).2
    ⟨![0, 1 / 2, 1 / 2], ⟨1 / 2, by norm_num, by norm_num, by intro i; fin_cases i <;> norm_num⟩,
      by intro i; fin_cases i <;> norm_num⟩

/-- What the overload without output decides in fact: it measures the parameter against the
length of the segment instead of 1. -/
theorem C08_bool_overload_actual (eps big : ℝ) (he : 0 < eps) (hb : 0 ≤ big) (box : Box n ℝ)
    (hv : Valid box) (l : Seg n ℝ) (hd : ClearDirection eps l.direction) (hl : l.length ≤ big) :
    lineHit eps big box l = true ↔ (hits box l.a l.direction 0 l.length).Nonempty := by
  constructor
  · intro h
    cases e : interp eps big box l.a l.direction with
    | none => simp [lineHit, e] at h
    | some t =>
      have hL := C07_least eps big he hb box hv l.a l.direction hd t e
      simp only [lineHit, e] at h
      split_ifs at h with h1 h2
      exact ⟨t, hL.1.1, not_lt.1 h2, hL.1.2.2⟩
  · rintro ⟨t, ht⟩
    have ht' : t ∈ hits box l.a l.direction 0 big := ⟨ht.1, ht.2.1.trans hl, ht.2.2⟩
    obtain ⟨s, hs⟩ := (C07_decides eps big he hb box hv l.a l.direction hd).2 ⟨t, ht'⟩
    have hL := C07_least eps big he hb box hv l.a l.direction hd s hs
    simp only [lineHit, hs]
    rw [if_neg (not_lt.2 hL.1.1), if_neg (not_lt.2 ((hL.2 ht').trans ht.2.1))]

/-- A segment of length 5 along the sides 3 and 4. -/
example : ClearDirection (1 / 1000) (⟨![-1, -1], ![2, 3]⟩ : Seg 2 ℝ).direction ∧ (⟨![-1, -1], ![2, 3]⟩ : Seg 2 ℝ).length ≤ 1000000 ∧
    Valid (⟨![0, 0], ![1, 1]⟩ : Box 2 ℝ) := by
  refine ⟨?_, ?_, ?_⟩
  · intro i; fin_cases i <;> right <;> norm_num [Seg.direction]
  · simp only [Seg.length]
    rw [Real.sqrt_le_left (by norm_num)]
    norm_num [Seg.direction, Fin.sum_univ_two]
  · intro i; fin_cases i <;> norm_num

/-- Hence both overloads are right for segments of length one. -/
theorem C08_bool_overload_partial (eps big : ℝ) (he : 0 < eps) (hb : 1 ≤ big) (box : Box n ℝ)
    (hv : Valid box) (l : Seg n ℝ) (hd : ClearDirection eps l.direction) (hl : l.length = 1) :
    lineHit eps big box l = true ↔ (segPts l ∩ pts box).Nonempty := by
  rw [C08_bool_overload_actual eps big he (zero_le_one.trans hb) box hv l hd (hl ▸ hb), hl, seg_hits]

/-- A segment of length one along the sides 3/5 and 4/5. -/
example : ClearDirection (1 / 1000) (⟨![-1, -1], ![-2 / 5, -1 / 5]⟩ : Seg 2 ℝ).direction ∧ (⟨![-1, -1], ![-2 / 5, -1 / 5]⟩ : Seg 2 ℝ).length = 1 := by
  refine ⟨?_, ?_⟩
  · intro i; fin_cases i <;> right <;> norm_num [Seg.direction]
  · simp only [Seg.length]
    rw [Real.sqrt_eq_one]
    norm_num [Seg.direction, Fin.sum_univ_two]

theorem length_axis (x : ℝ) (hx : 0 ≤ x) : (⟨![0, 0, 0], ![x, 0, 0]⟩ : Seg 3 ℝ).length = x := by
  simp [Seg.length, Fin.sum_univ_three, Real.sqrt_sq hx]

/-- The claim is false in both directions: a short segment which meets the box is rejected and a
long segment which ends before the box is accepted. -/
theorem C08_bool_overload_refuted (eps big : ℝ) (he : 0 < eps) (he' : eps ≤ 1 / 2) (hb : 4 ≤ big) :
    (∃ (box : Box 3 ℝ) (l : Seg 3 ℝ), Valid box ∧ ClearDirection eps l.direction ∧
      (segPts l ∩ pts box).Nonempty ∧ lineHit eps big box l = false) ∧
    (∃ (box : Box 3 ℝ) (l : Seg 3 ℝ), Valid box ∧ ClearDirection eps l.direction ∧
      ¬ (segPts l ∩ pts box).Nonempty ∧ lineHit eps big box l = true) := by
  have clear : ∀ x : ℝ, eps ≤ x → ClearDirection eps (⟨![0, 0, 0], ![x, 0, 0]⟩ : Seg 3 ℝ).direction := by
    intro x hx i
    fin_cases i
    · right
      simp [Seg.direction, abs_of_pos (he.trans_le hx), hx]
    · left; simp [Seg.direction]
    · left; simp [Seg.direction]
  constructor
  · have hv : Valid (⟨![3 / 8, 0, 0], ![1, 0, 0]⟩ : Box 3 ℝ) := by
      intro i; fin_cases i <;> norm_num
    refine ⟨⟨![3 / 8, 0, 0], ![1, 0, 0]⟩, ⟨![0, 0, 0], ![1 / 2, 0, 0]⟩, hv, clear _ he', ?_, ?_⟩
    · refine ⟨![1 / 2, 0, 0], ⟨1, by norm_num, le_rfl, fun i => ?_⟩, fun i => ?_⟩
      · fin_cases i <;> simp
      · fin_cases i <;> norm_num
    · rw [Bool.eq_false_iff, Ne, C08_bool_overload_actual eps big he (by linarith) _ hv _ (clear _ he')
        (by rw [length_axis _ (by norm_num)]; linarith), length_axis _ (by norm_num)]
      rintro ⟨t, -, h2, h3⟩
      have := (h3 0).1
      simp [Seg.direction] at this
      linarith
  · have hv : Valid (⟨![8, 0, 0], ![9, 0, 0]⟩ : Box 3 ℝ) := by
      intro i; fin_cases i <;> norm_num
    have hc := clear 4 (by linarith)
    refine ⟨⟨![8, 0, 0], ![9, 0, 0]⟩, ⟨![0, 0, 0], ![4, 0, 0]⟩, hv, hc, ?_, ?_⟩
    · rw [seg_hits]
      rintro ⟨t, -, h2, h3⟩
      have := (h3 0).1
      simp [Seg.direction] at this
      linarith
    · rw [C08_bool_overload_actual eps big he (by linarith) _ hv _ hc
        (by rw [length_axis _ (by norm_num)]; linarith), length_axis _ (by norm_num)]
      refine ⟨2, by norm_num, by norm_num, fun i => ?_⟩
      fin_cases i <;> norm_num [Seg.direction]

example := C08_bool_overload_refuted (1 / 1000) 1000000 (by norm_num) (by norm_num) (by norm_num)

end Geom.AABB.Props
