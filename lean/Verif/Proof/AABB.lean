import Verif.Spec.AABB

set_option linter.unusedSectionVars false

set_option autoImplicit false

namespace Geom.AABB

variable {n : Nat} {T : Type} [LinearOrder T]

theorem lt_eq (a b : T) : CLt.lt a b = decide (a < b) := rfl

theorem insert_min (b : Box n T) (p : Fin n → T) (i : Fin n) :
    (insert b p).min i = min (b.min i) (p i) := by
  simp only [insert, lt_eq, decide_eq_true_eq]
  split_ifs with h
  · exact (min_eq_right h.le).symm
  · exact (min_eq_left (not_lt.1 h)).symm

theorem insert_max (b : Box n T) (p : Fin n → T) (i : Fin n) :
    (insert b p).max i = max (b.max i) (p i) := by
  simp only [insert, lt_eq, decide_eq_true_eq]
  split_ifs with h
  · exact (max_eq_right h.le).symm
  · exact (max_eq_left (not_lt.1 h)).symm

theorem insertBox_min (b c : Box n T) (i : Fin n) :
    (insertBox b c).min i = min (b.min i) (c.min i) := by
  simp only [insertBox, lt_eq, decide_eq_true_eq]
  split_ifs with h
  · exact (min_eq_right h.le).symm
  · exact (min_eq_left (not_lt.1 h)).symm

theorem insertBox_max (b c : Box n T) (i : Fin n) :
    (insertBox b c).max i = max (b.max i) (c.max i) := by
  simp only [insertBox, lt_eq, decide_eq_true_eq]
  split_ifs with h
  · exact (max_eq_right h.le).symm
  · exact (max_eq_left (not_lt.1 h)).symm

theorem repair_min (b : Box n T) (i : Fin n) :
    (repair b).min i = min (b.min i) (b.max i) := by
  simp only [repair, lt_eq, decide_eq_true_eq]
  split_ifs with h
  · exact (min_eq_right h.le).symm
  · exact (min_eq_left (not_lt.1 h)).symm

theorem repair_max (b : Box n T) (i : Fin n) :
    (repair b).max i = max (b.min i) (b.max i) := by
  simp only [repair, lt_eq, decide_eq_true_eq]
  split_ifs with h
  · exact (max_eq_left h.le).symm
  · exact (max_eq_right (not_lt.1 h)).symm

theorem contains_iff (b : Box n T) (p : Fin n → T) : contains b p = true ↔ p ∈ pts b := by
  simp [contains, pts, lt_eq, not_lt]

theorem insideOf_iff (b c : Box n T) :
    insideOf b c = true ↔ ∀ i, c.min i ≤ b.min i ∧ b.max i ≤ c.max i := by
  simp [insideOf, lt_eq, not_lt]

theorem overlap_iff (a b : Box n T) :
    overlap a b = true ↔ ∀ i, b.min i ≤ a.max i ∧ a.min i ≤ b.max i := by
  simp [overlap, lt_eq, not_lt]

/-- Lower corner after a sequence of insertions: the greatest bound below the former lower
corner and all points. -/
theorem le_insertAll_min (ps : List (Fin n → T)) : ∀ (b : Box n T) (i : Fin n) (x : T),
    x ≤ (insertAll b ps).min i ↔ x ≤ b.min i ∧ ∀ p ∈ ps, x ≤ p i := by
  induction ps with
  | nil => intro b i x; simp [insertAll]
  | cons p ps ih =>
    intro b i x
    have := ih (insert b p) i x
    simp only [insertAll, List.foldl_cons] at this ⊢
    rw [this, insert_min, le_min_iff]
    simp [and_assoc]

theorem insertAll_max_le (ps : List (Fin n → T)) : ∀ (b : Box n T) (i : Fin n) (x : T),
    (insertAll b ps).max i ≤ x ↔ b.max i ≤ x ∧ ∀ p ∈ ps, p i ≤ x := by
  induction ps with
  | nil => intro b i x; simp [insertAll]
  | cons p ps ih =>
    intro b i x
    have := ih (insert b p) i x
    simp only [insertAll, List.foldl_cons] at this ⊢
    rw [this, insert_max, max_le_iff]
    simp [and_assoc]

/-- Two boxes with the same lower bounds of their lower and upper bounds of their upper corners. -/
theorem box_ext_bounds {b c : Box n T} (h1 : ∀ i x, x ≤ b.min i ↔ x ≤ c.min i)
    (h2 : ∀ i x, b.max i ≤ x ↔ c.max i ≤ x) : b = c := by
  ext i
  · exact le_antisymm ((h1 i _).1 le_rfl) ((h1 i _).2 le_rfl)
  · exact le_antisymm ((h2 i _).2 le_rfl) ((h2 i _).1 le_rfl)

/-- Points of a valid box: updating one coordinate of the lower corner by that of the upper. -/
theorem min_mem {b : Box n T} (h : Valid b) : b.min ∈ pts b := fun i => ⟨le_rfl, h i⟩
theorem max_mem {b : Box n T} (h : Valid b) : b.max ∈ pts b := fun i => ⟨h i, le_rfl⟩

end Geom.AABB
