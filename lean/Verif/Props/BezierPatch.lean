import Verif.Props.Bezier
import Mathlib.Tactic.Zify

/-
  C72: Bezier patches. C73: Bezier triangles.
-/
set_option autoImplicit false
set_option linter.unusedSectionVars false

namespace Geom.Bezier
open Spec Finset

variable {K V : Type} [Field K] [AddCommGroup V] [Module K V]

/-! Cells in a list. -/

theorem cells_append (hist : List (ℕ × ℕ × V)) (u v : ℕ) (x : V) (i j : ℕ) :
    cells (hist ++ [(u, v, x)]) i j = if u = i ∧ v = j then x else cells hist i j := by
  simp [cells, List.foldl_append]

/-! C72. -/

namespace Patch

/-- The patch after a history of assignments. -/
def run (order : ℕ) (hist : List (ℕ × ℕ × V)) : Patch V := hist.foldl (fun p h => p.set h.1 h.2.1 h.2.2) (setOrder order)

theorem run_append (order : ℕ) (hist : List (ℕ × ℕ × V)) (u v : ℕ) (x : V) : run order (hist ++ [(u, v, x)]) = (run order hist).set u v x := by
  simp [run, List.foldl_append]

theorem set_order (p : Patch V) (u v : ℕ) (x : V) : (p.set u v x).order = p.order ∧ (p.set u v x).controlPoints.length = p.controlPoints.length := by
  simp only [set]
  split_ifs <;> simp

theorem run_order (order : ℕ) (hist : List (ℕ × ℕ × V)) :
    (run order hist).order = order ∧ (run order hist).controlPoints.length = w32 (w32 (order + 1) * w32 (order + 1)) := by
  induction hist using List.reverseRecOn with
  | nil => simp [run, setOrder]
  | append_singleton h a ih =>
    obtain ⟨u, v, x⟩ := a
    rw [run_append, (set_order _ _ _ _).1, (set_order _ _ _ _).2]
    exact ih

theorem get_set (p : Patch V) (u v i j : ℕ) (x : V) (h : p.getIndex u v < p.controlPoints.length) :
    (p.set u v x).get i j = if p.getIndex u v = p.getIndex i j then x else p.get i j := by
  have hi : (p.set u v x).getIndex i j = p.getIndex i j := by simp only [getIndex, (set_order p u v x).1]
  have hs : (p.set u v x).controlPoints = p.controlPoints.set (p.getIndex u v) x := by simp only [set]; rw [if_pos h]
  simp only [get, hi, hs, List.length_set]
  split_ifs with h1 h2 h2
  · rw [← h2, List.getD_eq_getElem?_getD, List.getElem?_set, if_pos rfl, if_pos h]; rfl
  · rw [List.getD_eq_getElem?_getD, List.getElem?_set, if_neg h2, ← List.getD_eq_getElem?_getD]
  · rw [← h2] at h1; exact absurd h h1
  · rfl

theorem index_eq {p : Patch V} {u v : ℕ} (ho : p.order < 65535) (hu : u ≤ p.order) (hv : v ≤ p.order) : p.getIndex u v = v * (p.order + 1) + u := by
  have h1 : v * (p.order + 1) ≤ 65534 * 65535 := Nat.mul_le_mul (by omega) (by omega)
  rw [getIndex, w32_of_lt (show p.order + 1 < 2 ^ 32 by omega), w32_of_lt (show v * (p.order + 1) < 2 ^ 32 by omega), w32_of_lt (by omega)]

theorem size_eq {o : ℕ} (ho : o < 65535) : w32 (w32 (o + 1) * w32 (o + 1)) = (o + 1) * (o + 1) := by
  have h1 : (o + 1) * (o + 1) ≤ 65535 * 65535 := Nat.mul_le_mul (by omega) (by omega)
  rw [w32_of_lt (show o + 1 < 2 ^ 32 by omega), w32_of_lt (by omega)]

theorem index_lt {o u v : ℕ} (hu : u ≤ o) (hv : v ≤ o) : v * (o + 1) + u < (o + 1) * (o + 1) := by nlinarith

theorem index_inj {o u v i j : ℕ} (hu : u ≤ o) (hi : i ≤ o) (h : v * (o + 1) + u = j * (o + 1) + i) : u = i ∧ v = j := by
  have h2 := congrArg (· / (o + 1)) h
  have hd : ∀ a b, b ≤ o → (a * (o + 1) + b) / (o + 1) = a := fun a b hb => by
    rw [Nat.mul_comm, Nat.mul_add_div (by omega), Nat.div_eq_of_lt (by omega), Nat.add_zero]
  simp only [hd _ _ hu, hd _ _ hi] at h2
  subst h2
  exact ⟨by omega, rfl⟩

end Patch

/-- C72: for orders below 65535 the control points are independent cells: after each history of assignments within the range each cell has
its last value. -/
theorem C72_cells (o : ℕ) (ho : o < 65535) (hist : List (ℕ × ℕ × V)) (hh : ∀ h ∈ hist, h.1 ≤ o ∧ h.2.1 ≤ o) (i j : ℕ) (hi : i ≤ o) (hj : j ≤ o) :
    (Patch.run o hist).get i j = cells hist i j := by
  induction hist using List.reverseRecOn with
  | nil => simp [Patch.run, Patch.setOrder, Patch.get, cells]
  | append_singleton h a ih =>
    obtain ⟨u, v, x⟩ := a
    obtain ⟨hu, hv⟩ := hh (u, v, x) (by simp)
    dsimp only at hu hv
    obtain ⟨r1, r2⟩ := Patch.run_order o h
    have e1 := Patch.index_eq (p := Patch.run o h) (u := u) (v := v) (by omega) (by omega) (by omega)
    have e2 := Patch.index_eq (p := Patch.run o h) (u := i) (v := j) (by omega) (by omega) (by omega)
    rw [r1] at e1 e2
    rw [Patch.run_append, cells_append, Patch.get_set _ _ _ _ _ _ (by rw [r2, e1, Patch.size_eq ho]; exact Patch.index_lt hu hv), e1, e2,
      ih fun h' hm => hh h' (List.mem_append_left _ hm)]
    by_cases hc : u = i ∧ v = j
    · rw [if_pos hc, if_pos (by rw [hc.1, hc.2])]
    · rw [if_neg hc, if_neg fun hx => hc (Patch.index_inj hu hi hx)]

example : (Patch.run (V := ℚ) 1 [(0, 0, 1), (1, 0, 2), (1, 0, 3)]).get 1 0 = 3 := by
  rw [C72_cells 1 (by norm_num) _ (by simp) 1 0 (by norm_num) (by norm_num)]
  norm_num [cells]

/-- C72 is violated by the order 65535: (order + 1)^2 is 2^32, the patch has no control points, each assignment is lost. -/
theorem C72_lost_refuted (hist : List (ℕ × ℕ × V)) (i j : ℕ) : (Patch.run 65535 hist).get i j = 0 := by
  have h := (Patch.run_order 65535 hist).2
  rw [show w32 (w32 (65535 + 1) * w32 (65535 + 1)) = 0 by decide +kernel] at h
  simp [Patch.get, h]

theorem Patch.eval_ok (p : Patch V) (u v : K) (h32 : p.order + 1 < 2 ^ 32) (bu bv : ℕ → K) (hu : ∀ i ≤ p.order, bernstein u i p.order = .ok (bu i))
    (hv : ∀ i ≤ p.order, bernstein v i p.order = .ok (bv i)) :
    p.eval u v = .ok (∑ i ∈ range (p.order + 1), ∑ j ∈ range (p.order + 1), (bu i * bv j) • p.get i j) := by
  refine forLe_ok 0 p.order _ (fun k => ∑ i ∈ range k, ∑ j ∈ range (p.order + 1), (bu i * bv j) • p.get i j) (by omega) h32 fun i _ hi => ?_
  have := forLe_ok 0 p.order (fun j result =>
      (bernstein u i p.order).bind fun bu => (bernstein v j p.order).bind fun bv => .ok (result + (bu * bv) • p.get i j))
    (fun k => ∑ i ∈ range i, ∑ j ∈ range (p.order + 1), (bu i * bv j) • p.get i j + ∑ j ∈ range k, (bu i * bv j) • p.get i j) (by omega) h32 fun j _ hj => by
      rw [hu i hi, hv j hj, Res.bind_ok, Res.bind_ok, sum_range_succ _ j, add_assoc]
  simp only [sum_range_zero, add_zero] at this
  rw [this, sum_range_succ _ i]

/-- C72: for the orders 1 to 20 the evaluation gives the point of the construction of de Casteljau in both directions, for each parameter. -/
theorem C72_casteljau (p : Patch V) (u v : K) (h1 : 1 ≤ p.order) (h20 : p.order ≤ 20) : p.eval u v = .ok (patch p.order p.get u v) := by
  rw [p.eval_ok u v (by omega) (wt u p.order) (wt v p.order) (fun i hi => bernstein_ok u hi h1 h20) (fun i hi => bernstein_ok v hi h1 h20), patch, casteljau_eq]
  congr 1
  refine sum_congr rfl fun i _ => ?_
  rw [casteljau_eq, smul_sum]
  refine sum_congr rfl fun j _ => ?_
  rw [smul_smul, Nat.zero_add, Nat.zero_add]

theorem casteljau_zero (p : ℕ → V) (r i : ℕ) : casteljau (0 : K) p r i = p i := by
  induction r generalizing i with
  | zero => rfl
  | succ r ih => simp [casteljau, ih]

theorem casteljau_one (p : ℕ → V) (r i : ℕ) : casteljau (1 : K) p r i = p (i + r) := by
  induction r generalizing i with
  | zero => rfl
  | succ r ih => simp only [casteljau, sub_self, zero_smul, zero_add, one_smul, ih]; congr 1; omega

/-- C72: the corners of the patch are control points. -/
theorem C72_corners (p : Patch V) (h1 : 1 ≤ p.order) (h20 : p.order ≤ 20) :
    p.eval (0 : K) (0 : K) = .ok (p.get 0 0) ∧ p.eval (1 : K) (0 : K) = .ok (p.get p.order 0) ∧
    p.eval (0 : K) (1 : K) = .ok (p.get 0 p.order) ∧ p.eval (1 : K) (1 : K) = .ok (p.get p.order p.order) := by
  refine ⟨?_, ?_, ?_, ?_⟩ <;> rw [C72_casteljau _ _ _ h1 h20, patch] <;> simp [casteljau_zero, casteljau_one]

example (p : Patch ℚ) (h : p.order = 3) : p.eval (1 : ℚ) (0 : ℚ) = .ok (p.get 3 0) := by
  rw [(C72_corners p (by omega) (by omega)).2.1, h]

/-- C72: for parameters in [0, 1] the patch stays in the convex hull of its control points. -/
theorem C72_hull [LinearOrder K] [IsStrictOrderedRing K] (p : Patch V) (u v : K) (h1 : 1 ≤ p.order) (h20 : p.order ≤ 20) (u0 : 0 ≤ u) (u1 : u ≤ 1)
    (v0 : 0 ≤ v) (v1 : v ≤ 1) : ∃ q, p.eval u v = .ok q ∧ q ∈ convexHull K {x | ∃ i j, i ≤ p.order ∧ j ≤ p.order ∧ x = p.get i j} := by
  refine ⟨_, C72_casteljau p u v h1 h20, casteljau_mem u0 u1 (convex_convexHull K _) _ _ _ fun i hi => ?_⟩
  refine casteljau_mem v0 v1 (convex_convexHull K _) _ _ _ fun j hj => ?_
  exact subset_convexHull K _ ⟨_, _, by omega, by omega, rfl⟩

example (p : Patch ℚ) (h : p.order = 3) : ∃ q, p.eval (1 / 3 : ℚ) (1 / 4 : ℚ) = .ok q ∧ q ∈ convexHull ℚ {x | ∃ i j, i ≤ p.order ∧ j ≤ p.order ∧ x = p.get i j} :=
  C72_hull p _ _ (by omega) (by omega) (by norm_num) (by norm_num) (by norm_num) (by norm_num)

/-- C72 is violated by the (default) order 0: the point of the patch is zero, whatever the control point is. -/
theorem C72_zero_refuted (p : Patch V) (h : p.order = 0) (u v : K) : p.eval u v = .ok 0 := by
  rw [p.eval_ok u v (by omega) (fun _ => 0) (fun _ => 0) (fun i hi => by rw [h]; simp [bernstein]) (fun i hi => by rw [h]; simp [bernstein])]
  simp

/-- A patch of order one. -/
example : (Patch.run (V := ℚ) 1 [(0, 0, 1), (1, 0, 2), (0, 1, 3), (1, 1, 5)]).eval (1 / 2 : ℚ) (1 / 2 : ℚ) = .ok (11 / 4) := by
  rw [C72_casteljau _ _ _ (by decide) (by decide)]
  have c := C72_cells (V := ℚ) 1 (by norm_num) [(0, 0, 1), (1, 0, 2), (0, 1, 3), (1, 1, 5)] (by simp)
  have o := (Patch.run_order (V := ℚ) 1 [(0, 0, 1), (1, 0, 2), (0, 1, 3), (1, 1, 5)]).1
  simp only [patch, o, casteljau]
  rw [c 0 0, c 0 1, c 1 0, c 1 1] <;> norm_num [cells]

/-! C73. -/

namespace Tri

/-- The triangle after a history of assignments. -/
def run (order : ℕ) (hist : List (ℕ × ℕ × V)) : Tri V := hist.foldl (fun p h => p.set h.1 h.2.1 h.2.2) (setOrder order)

theorem run_append (order : ℕ) (hist : List (ℕ × ℕ × V)) (u v : ℕ) (x : V) : run order (hist ++ [(u, v, x)]) = (run order hist).set u v x := by
  simp [run, List.foldl_append]

theorem set_order (p : Tri V) (u v : ℕ) (x : V) : (p.set u v x).order = p.order ∧ (p.set u v x).controlPoints.length = p.controlPoints.length := by
  simp only [set]
  split_ifs <;> simp

theorem run_order (order : ℕ) (hist : List (ℕ × ℕ × V)) : (run order hist).order = order ∧
    (run order hist).controlPoints.length = w32 (w32 (w32 (order + 1) * w32 (w32 (order + 1) + 1)) / 2) := by
  induction hist using List.reverseRecOn with
  | nil => simp [run, setOrder]
  | append_singleton h a ih =>
    obtain ⟨u, v, x⟩ := a
    rw [run_append, (set_order _ _ _ _).1, (set_order _ _ _ _).2]
    exact ih

theorem get_set (p : Tri V) (u v i j : ℕ) (x : V) :
    (p.set u v x).get i j = if p.getIndex u v = p.getIndex i j ∧ p.getIndex i j < p.controlPoints.length then x else p.get i j := by
  have hi : (p.set u v x).getIndex i j = p.getIndex i j := by simp only [getIndex, (set_order p u v x).1]
  have hl := (set_order p u v x).2
  by_cases h : p.getIndex u v < p.controlPoints.length
  · have hs : (p.set u v x).controlPoints = p.controlPoints.set (p.getIndex u v) x := by simp only [set]; rw [if_pos h]
    simp only [get, hi, hs, List.length_set]
    by_cases h2 : p.getIndex u v = p.getIndex i j
    · rw [if_pos (show _ ∧ _ from ⟨h2, h2 ▸ h⟩), ← h2, if_pos h, List.getD_eq_getElem?_getD, List.getElem?_set, if_pos rfl, if_pos h]; rfl
    · rw [if_neg (show ¬(_ ∧ _) from fun hx => h2 hx.1)]
      split_ifs
      · rw [List.getD_eq_getElem?_getD, List.getElem?_set, if_neg h2, ← List.getD_eq_getElem?_getD]
      · rfl
  · have hs : p.set u v x = p := by simp only [set]; rw [if_neg h]
    rw [hs, if_neg fun hx => h (by rw [And.left hx]; exact And.right hx)]

theorem index_eq {p : Tri V} {i j : ℕ} (ho : p.order + 2 < 65536) (hij : i + j ≤ p.order) : p.getIndex i j = if 0 < j then j * p.order + 1 + i else i := by
  rw [getIndex]
  split_ifs with hj
  · have h1 : j * (p.order + 1) ≤ 65533 * 65534 := Nat.mul_le_mul (by omega) (by omega)
    have h2 : j * (p.order + 1) = j * p.order + j := by ring
    rw [w32_of_lt (show p.order + 1 < 2 ^ 32 by omega), w32_of_lt (show j * (p.order + 1) < 2 ^ 32 by omega)]
    unfold w32
    omega
  · rfl

theorem size_eq {o : ℕ} (ho : o + 2 < 65536) : w32 (w32 (w32 (o + 1) * w32 (w32 (o + 1) + 1)) / 2) = (o + 1) * (o + 2) / 2 := by
  have h1 : (o + 1) * (o + 2) ≤ 65534 * 65535 := Nat.mul_le_mul (by omega) (by omega)
  rw [w32_of_lt (show o + 1 < 2 ^ 32 by omega), w32_of_lt (show o + 1 + 1 < 2 ^ 32 by omega), show o + 1 + 1 = o + 2 from rfl,
    w32_of_lt (show (o + 1) * (o + 2) < 2 ^ 32 by omega), w32_of_lt (by omega)]

theorem index_inj {o i j u v : ℕ} (hij : i + j ≤ o) (huv : u + v ≤ o)
    (h : (if 0 < v then v * o + 1 + u else u) = if 0 < j then j * o + 1 + i else i) : u = i ∧ v = j := by
  rcases Nat.lt_trichotomy v j with hlt | rfl | hgt
  · exfalso
    rw [if_pos (show 0 < j by omega)] at h
    have h2 : (v + 1) * o ≤ j * o := Nat.mul_le_mul_right _ hlt
    have h3 : (v + 1) * o = v * o + o := by ring
    split_ifs at h
    · omega
    · have : v = 0 := by omega
      subst this
      omega
  · split_ifs at h
    · exact ⟨by omega, rfl⟩
    · exact ⟨h, rfl⟩
  · exfalso
    rw [if_pos (show 0 < v by omega)] at h
    have h2 : (j + 1) * o ≤ v * o := Nat.mul_le_mul_right _ hgt
    have h3 : (j + 1) * o = j * o + o := by ring
    split_ifs at h
    · omega
    · have : j = 0 := by omega
      subst this
      omega

end Tri

/-- C73, what holds: after each history of assignments within the range, a cell has its last value if its index is one of the array,
otherwise it is zero. -/
theorem C73_cells_partial (o : ℕ) (ho : o + 2 < 65536) (hist : List (ℕ × ℕ × V)) (hh : ∀ h ∈ hist, h.1 + h.2.1 ≤ o) (i j : ℕ) (hij : i + j ≤ o) :
    (Tri.run o hist).get i j = if j = 0 ∨ j * o + 1 + i < (o + 1) * (o + 2) / 2 then cells hist i j else 0 := by
  have hsize : o < (o + 1) * (o + 2) / 2 := by
    have : (o + 1) * (o + 2) = o * o + 3 * o + 2 := by ring
    have := Nat.le_mul_self o
    omega
  have stored : (if 0 < j then j * o + 1 + i else i) < (o + 1) * (o + 2) / 2 ↔ j = 0 ∨ j * o + 1 + i < (o + 1) * (o + 2) / 2 := by
    split_ifs with h
    · exact ⟨.inr, fun hx => hx.resolve_left (by omega)⟩
    · exact ⟨fun _ => .inl (by omega), fun _ => by omega⟩
  induction hist using List.reverseRecOn with
  | nil => simp [Tri.run, Tri.setOrder, Tri.get, cells]
  | append_singleton h a ih =>
    obtain ⟨u, v, x⟩ := a
    have huv := hh (u, v, x) (by simp)
    dsimp only at huv
    obtain ⟨r1, r2⟩ := Tri.run_order o h
    have e1 := Tri.index_eq (p := Tri.run o h) (i := u) (j := v) (by omega) (by rw [r1]; exact huv)
    have e2 := Tri.index_eq (p := Tri.run o h) (i := i) (j := j) (by omega) (by omega)
    rw [r1] at e1 e2
    rw [Tri.run_append, cells_append, Tri.get_set, e1, e2, r2, Tri.size_eq ho, ih fun h' hm => hh h' (List.mem_append_left _ hm)]
    by_cases hs : j = 0 ∨ j * o + 1 + i < (o + 1) * (o + 2) / 2
    · rw [if_pos hs, if_pos hs]
      by_cases hc : u = i ∧ v = j
      · obtain ⟨rfl, rfl⟩ := hc
        rw [if_pos ⟨rfl, stored.2 hs⟩, if_pos ⟨rfl, rfl⟩]
      · rw [if_neg hc, if_neg fun hx => hc (Tri.index_inj hij huv hx.1)]
    · rw [if_neg hs, if_neg hs, if_neg fun hx => hs (stored.1 hx.2)]

example : (Tri.run (V := ℚ) 3 [(1, 1, 7), (2, 1, 5)]).get 1 1 = 7 := by
  rw [C73_cells_partial 3 (by norm_num) _ (by simp) 1 1 (by norm_num)]
  norm_num [cells]

/-- C73, up to the order two: independent cells. -/
theorem C73_partial (o : ℕ) (ho : o ≤ 2) (hist : List (ℕ × ℕ × V)) (hh : ∀ h ∈ hist, h.1 + h.2.1 ≤ o) (i j : ℕ) (hij : i + j ≤ o) :
    (Tri.run o hist).get i j = cells hist i j := by
  rw [C73_cells_partial o (by omega) hist hh i j hij, if_pos]
  interval_cases o
  · left; omega
  · have hj : j ≤ 1 := by omega
    interval_cases j <;> omega
  · have hj : j ≤ 2 := by omega
    interval_cases j <;> omega

/-- C73 is violated by each order from three on (as far as the size is below 2^31): the cell (0, order) does not exist, it is always zero. -/
theorem C73_refuted (o : ℕ) (h3 : 3 ≤ o) (ho : o + 2 < 65536) (hist : List (ℕ × ℕ × V)) (hh : ∀ h ∈ hist, h.1 + h.2.1 ≤ o) :
    (Tri.run o hist).get 0 o = 0 := by
  rw [C73_cells_partial o ho hist hh 0 o (by omega), if_neg]
  rintro (h | h)
  · omega
  · have e1 : (o + 1) * (o + 2) = o * o + 3 * o + 2 := by ring
    have e2 : 3 * o ≤ o * o := Nat.mul_le_mul_right _ h3
    omega

/-- A history for which a value is lost. -/
example : (Tri.run (V := ℚ) 3 [(0, 3, 7)]).get 0 3 = 0 := C73_refuted 3 (le_refl _) (by norm_num) _ (by simp)
example : (Tri.run (V := ℚ) 2 [(0, 2, 7), (1, 1, 5)]).get 0 2 = 7 := by
  rw [C73_partial 2 (le_refl _) _ (by simp) 0 2 (by norm_num)]
  simp [cells]

end Geom.Bezier
