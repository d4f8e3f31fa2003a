import Verif.Props.TriangleMesh
import Verif.Props.Plane

/-
  C35: `SilhouetteEdges`.
-/
set_option autoImplicit false
set_option linter.unusedSectionVars false

namespace Geom.TMesh
open Spec

theorem normalizeVec_unitNormal (a b c : V3 ℝ) :
    Plane.normalizeVec (V3.cross (b - a) (c - a)) = unitNormal a b c := by
  unfold Plane.normalizeVec unitNormal V3.lenSq
  split_ifs with h
  · rw [h, Real.sqrt_zero, div_zero]
    have : V3.cross (b - a) (c - a) = 0 := by
      have h' := h
      simp only [V3.dot] at h'
      ext <;> simp only [V3.zero_x, V3.zero_y, V3.zero_z] <;> nlinarith [sq_nonneg (V3.cross (b - a) (c - a)).x,
        sq_nonneg (V3.cross (b - a) (c - a)).y, sq_nonneg (V3.cross (b - a) (c - a)).z]
    rw [this]
    ext <;> simp
  · rfl

theorem triangleNormal_ok (m : Mesh ℝ) (hm : Valid m) (k : ℕ) (hk : k < m.triangles.length) :
    ∃ n, triangleNormal m k = .ok n ∧ NormalOf m k n := by
  obtain ⟨t, h1, h1'⟩ := getR_lt m.triangles k hk
  obtain ⟨ha, hb, hc⟩ := (valid_iff m).1 hm t (List.mem_of_getElem? h1)
  obtain ⟨a, h2, h2'⟩ := getR_lt _ _ ha
  obtain ⟨b, h3, h3'⟩ := getR_lt _ _ hb
  obtain ⟨c, h4, h4'⟩ := getR_lt _ _ hc
  refine ⟨unitNormal a.position b.position c.position, ?_, t, a, b, c, h1, h2, h3, h4, rfl⟩
  simp only [triangleNormal, h1', Res.bind, corners, h2', h3', h4', normalizeVec_unitNormal]

theorem normalOf_unique (m : Mesh ℝ) (k : ℕ) (n n' : V3 ℝ) (h : NormalOf m k n) (h' : NormalOf m k n') : n = n' := by
  obtain ⟨t, a, b, c, h1, h2, h3, h4, rfl⟩ := h
  obtain ⟨t', a', b', c', h1', h2', h3', h4', rfl⟩ := h'
  rw [h1] at h1'; cases h1'
  rw [h2] at h2'; cases h2'
  rw [h3] at h3'; cases h3'
  rw [h4] at h4'; cases h4'
  rfl

theorem near_iff (m : Mesh ℝ) (delta : ℝ) (k l : ℕ) (n n' : V3 ℝ) (h : NormalOf m k n) (h' : NormalOf m l n') :
    Near m delta k l ↔ |V3.dot n n' - 1| < delta := by
  constructor
  · rintro ⟨x, x', hx, hx', hd⟩
    rwa [normalOf_unique m k n x h hx, normalOf_unique m l n' x' h' hx']
  · exact fun hd => ⟨n, n', h, h', hd⟩

theorem allClose_ok (m : Mesh ℝ) (hm : Valid m) (eps tol : ℝ) (k0 : ℕ) (pattern : V3 ℝ) (hp : NormalOf m k0 pattern)
    (l : List ℕ) (hl : ∀ k ∈ l, k < m.triangles.length) :
    ∃ b, allClose m eps tol pattern l = .ok b ∧ (b = true ↔ ∀ k ∈ l, Near m (eps + tol) k k0) := by
  induction l with
  | nil => exact ⟨true, rfl, by simp⟩
  | cons k l ih =>
    obtain ⟨b, h1, h2⟩ := ih fun k hk => hl k (List.mem_cons_of_mem _ hk)
    obtain ⟨n, h3, h4⟩ := triangleNormal_ok m hm k (hl k List.mem_cons_self)
    have hn := near_iff m (eps + tol) k k0 n pattern h4 hp
    simp only [allClose, h3, Res.bind, List.forall_mem_cons, hn]
    split_ifs with h
    · exact ⟨false, rfl, by simp [not_lt.2 h]⟩
    · exact ⟨b, h1, by rw [h2]; simp [not_le.1 h]⟩

theorem partOfSilh_ok (m : Mesh ℝ) (hm : Valid m) (eps tol : ℝ) (e : Edge) :
    ∃ b, partOfSilh m eps tol e = .ok b ∧ (b = true ↔ Flat m (eps + tol) e) := by
  obtain ⟨hs, hmem⟩ := C33_edge m e
  have hlt : ∀ k ∈ findEdge m e, k < m.triangles.length := by
    intro k hk
    obtain ⟨t, ht, _⟩ := (hmem k).1 hk
    exact (List.getElem?_eq_some_iff.1 ht).1
  unfold partOfSilh Flat
  simp only [← hmem]
  cases hl : findEdge m e with
  | nil => exact ⟨false, rfl, by simp⟩
  | cons k0 l =>
    cases l with
    | nil =>
      refine ⟨false, rfl, ?_⟩
      simp only [Bool.false_eq_true, List.mem_singleton, false_iff]
      rintro ⟨k, rfl, ⟨l, h1, h2⟩, _⟩
      exact h1 h2
    | cons k1 l =>
      rw [hl] at hs hlt
      rw [List.pairwise_cons] at hs
      obtain ⟨n, h1, h2⟩ := triangleNormal_ok m hm k0 (hlt k0 List.mem_cons_self)
      obtain ⟨b, h3, h4⟩ := allClose_ok m hm eps tol k0 n h2 (k1 :: l) fun k hk => hlt k (List.mem_cons_of_mem _ hk)
      refine ⟨b, by simp only [h1, Res.bind, h3], ?_⟩
      rw [h4]
      constructor
      · intro h
        refine ⟨k0, List.mem_cons_self, ⟨k1, ?_, by simp⟩, fun k hk => ?_⟩
        · have := hs.1 k1 List.mem_cons_self
          omega
        · rcases List.mem_cons.1 hk with rfl | hk
          · exact ⟨le_rfl, fun h => absurd rfl h⟩
          · exact ⟨(hs.1 k hk).le, fun _ => h k hk⟩
      · rintro ⟨k, hk, _, hall⟩
        obtain rfl : k = k0 := by
          rcases List.mem_cons.1 hk with rfl | hk
          · rfl
          · have := hs.1 k hk
            have := (hall k0 List.mem_cons_self).1
            omega
        intro k' hk'
        have := hs.1 k' hk'
        exact (hall k' (List.mem_cons_of_mem _ hk')).2 (by omega)

theorem removeIf_ok {α : Type} (p : α → Res Bool) (P : α → Prop) (l : List α)
    (h : ∀ a, ∃ b, p a = .ok b ∧ (b = true ↔ P a)) :
    ∃ l', removeIf p l = .ok l' ∧ List.Sublist l' l ∧ ∀ a, a ∈ l' ↔ a ∈ l ∧ ¬ P a := by
  induction l with
  | nil => exact ⟨[], rfl, List.Sublist.refl _, by simp⟩
  | cons x l ih =>
    obtain ⟨l', h1, h2, h3⟩ := ih
    obtain ⟨b, h4, h5⟩ := h x
    simp only [removeIf, h4, h1, Res.bind]
    refine ⟨_, rfl, ?_, fun a => ?_⟩
    · split
      · exact h2.cons x
      · exact h2.cons_cons x
    · cases b with
      | true =>
        have hx := h5.1 rfl
        rw [if_pos rfl, h3, List.mem_cons]
        constructor
        · rintro ⟨h, h'⟩; exact ⟨.inr h, h'⟩
        · rintro ⟨rfl | h, h'⟩
          · exact absurd hx h'
          · exact ⟨h, h'⟩
      | false =>
        have hx : ¬ P x := fun hc => by simpa using h5.2 hc
        rw [if_neg (by simp), List.mem_cons, List.mem_cons, h3]
        constructor
        · rintro (rfl | ⟨h, h'⟩)
          · exact ⟨.inl rfl, hx⟩
          · exact ⟨.inr h, h'⟩
        · rintro ⟨rfl | h, h'⟩
          · exact .inl rfl
          · exact .inr ⟨h, h'⟩

/-- C35: for a mesh with valid indices `SilhouetteEdges` returns those edges of the mesh, in the order of
`Edges`, which are not inside of a flat surface; flat is measured by `1 - cos` of the angle between the
normals, compared with `eps + sin |tolerance|`. -/
theorem C35_partial (m : Mesh ℝ) (hm : Valid m) (eps tolerance : ℝ) :
    ∃ l, silhouetteEdges m eps tolerance = .ok l ∧ List.Sublist l (edges m) ∧
      ∀ e, e ∈ l ↔ e ∈ edges m ∧ ¬ Flat m (eps + Real.sin |tolerance|) e :=
  removeIf_ok _ _ _ fun e => partOfSilh_ok m hm eps (Real.sin |tolerance|) e

theorem flat_mono (m : Mesh ℝ) (d d' : ℝ) (h : d ≤ d') (e : Edge) (hf : Flat m d e) : Flat m d' e := by
  obtain ⟨k, h1, h2, h3⟩ := hf
  refine ⟨k, h1, h2, fun l hl => ⟨(h3 l hl).1, fun hne => ?_⟩⟩
  obtain ⟨n, n', hn, hn', hlt⟩ := (h3 l hl).2 hne
  exact ⟨n, n', hn, hn', hlt.trans_le h⟩

/-- C35: up to a right angle a larger tolerance never returns more edges. -/
theorem C35_mono_partial (m : Mesh ℝ) (hm : Valid m) (eps t t' : ℝ) (h0 : 0 ≤ t) (h1 : t ≤ t') (h2 : t' ≤ Real.pi / 2) :
    ∃ l l', silhouetteEdges m eps t = .ok l ∧ silhouetteEdges m eps t' = .ok l' ∧ ∀ e ∈ l', e ∈ l := by
  obtain ⟨l, a1, _, a2⟩ := C35_partial m hm eps t
  obtain ⟨l', b1, _, b2⟩ := C35_partial m hm eps t'
  refine ⟨l, l', a1, b1, fun e he => ?_⟩
  rw [b2] at he
  refine (a2 e).2 ⟨he.1, fun hf => he.2 (flat_mono m _ _ ?_ e hf)⟩
  rw [abs_of_nonneg h0, abs_of_nonneg (h0.trans h1)]
  have : Real.sin t ≤ Real.sin t' := Real.sin_le_sin_of_le_of_le_pi_div_two (by linarith [Real.pi_pos]) h2 h1
  linarith

/-- Two triangles with a common edge (0, 1); the second one is turned around it. -/
def fold (y z : ℝ) : Mesh ℝ :=
  ⟨[⟨⟨0, 0, 0⟩, 0, 0⟩, ⟨⟨1, 0, 0⟩, 0, 0⟩, ⟨⟨0, 1, 0⟩, 0, 0⟩, ⟨⟨0, y, z⟩, 0, 0⟩], [⟨0, 1, 2⟩, ⟨1, 0, 3⟩]⟩

theorem fold_valid (y z : ℝ) : Valid (fold y z) := by
  rw [valid_iff]
  simp [fold]

theorem fold_n0 (y z : ℝ) : NormalOf (fold y z) 0 ⟨0, 0, 1⟩ := by
  refine ⟨_, _, _, _, rfl, rfl, rfl, rfl, ?_⟩
  simp only [unitNormal]
  vec_simp [V3.cross, V3.dot]
  norm_num

theorem fold_n1 (y z : ℝ) (h : y ^ 2 + z ^ 2 = 1) : NormalOf (fold y z) 1 ⟨0, z, -y⟩ := by
  refine ⟨_, _, _, _, rfl, rfl, rfl, rfl, ?_⟩
  have hc : V3.cross ((⟨0, 0, 0⟩ : V3 ℝ) - ⟨1, 0, 0⟩) (⟨0, y, z⟩ - ⟨1, 0, 0⟩) = ⟨0, z, -y⟩ := by
    vec_simp [V3.cross]
    norm_num
  have hd : V3.dot (⟨0, z, -y⟩ : V3 ℝ) ⟨0, z, -y⟩ = 1 := by
    simp only [V3.dot]; linarith
  simp only [unitNormal, hc, hd, Real.sqrt_one, div_one]
  exact (one_smul ℝ _).symm

/-- For a unit vector `(z, -y)`, the edge is flat exactly if `1 + y` is small. -/
theorem fold_flat (y z d : ℝ) (h : y ^ 2 + z ^ 2 = 1) : Flat (fold y z) d ⟨0, 1⟩ ↔ |-y - 1| < d := by
  have n0 := fold_n0 y z
  have n1 := fold_n1 y z h
  have has : ∀ k, Has (fold y z) (fun t => Adj t 0 1) k ↔ k = 0 ∨ k = 1 := by
    intro k
    constructor
    · rintro ⟨t, ht, _⟩
      have := (List.getElem?_eq_some_iff.1 ht).1
      simp only [fold, List.length_cons, List.length_nil] at this
      omega
    · rintro (rfl | rfl)
      · exact ⟨_, rfl, 0, .inl ⟨rfl, rfl⟩⟩
      · exact ⟨_, rfl, 0, .inr ⟨rfl, rfl⟩⟩
  have hn := near_iff (fold y z) d 1 0 _ _ n1 n0
  have hdot : V3.dot (⟨0, z, -y⟩ : V3 ℝ) ⟨0, 0, 1⟩ = -y := by simp [V3.dot]
  rw [hdot] at hn
  rw [← hn]
  unfold Flat
  simp only [has]
  constructor
  · rintro ⟨k, hk, _, h⟩
    have hk0 := (h 0 (.inl rfl)).1
    obtain rfl : k = 0 := by omega
    exact (h 1 (.inr rfl)).2 (by decide)
  · intro h
    refine ⟨0, .inl rfl, ⟨1, by decide, .inr rfl⟩, ?_⟩
    rintro l (rfl | rfl)
    · exact ⟨le_rfl, fun h => absurd rfl h⟩
    · exact ⟨by decide, fun _ => h⟩

/-- C35 is violated in the documented range of tolerances: with a right angle as tolerance the edge between two
perpendicular triangles is not returned, with the larger tolerance pi it is. -/
theorem C35_mono_refuted (eps : ℝ) (h0 : 0 < eps) (h1 : eps ≤ 1) :
    ∃ m : Mesh ℝ, Valid m ∧ ∃ l l', silhouetteEdges m eps (Real.pi / 2) = .ok l ∧
      silhouetteEdges m eps Real.pi = .ok l' ∧ (⟨0, 1⟩ : Edge) ∉ l ∧ (⟨0, 1⟩ : Edge) ∈ l' := by
  have hf := fun d => fold_flat 0 1 d (by norm_num)
  obtain ⟨l, a1, _, a2⟩ := C35_partial (fold 0 1) (fold_valid 0 1) eps (Real.pi / 2)
  obtain ⟨l', b1, _, b2⟩ := C35_partial (fold 0 1) (fold_valid 0 1) eps Real.pi
  refine ⟨_, fold_valid 0 1, l, l', a1, b1, ?_, ?_⟩
  · rw [a2, hf, abs_of_pos (by positivity : (0 : ℝ) < Real.pi / 2), Real.sin_pi_div_two]
    norm_num
    intro _
    linarith
  · rw [b2, hf, abs_of_pos Real.pi_pos, Real.sin_pi]
    refine ⟨by rw [C32_edges]; exact ⟨by decide, ⟨0, 1, 2⟩, List.mem_cons_self, 0, .inl ⟨rfl, rfl⟩⟩, ?_⟩
    norm_num
    linarith

/-- C35: the tolerance is not the angle between the normals: with a tolerance of 30 degrees (pi/6) an edge between
triangles whose normals deviate by more than 53 degrees (the cosine is 3/5) is not returned. -/
theorem C35_angle_refuted (eps : ℝ) (h0 : 0 ≤ eps) :
    ∃ m : Mesh ℝ, Valid m ∧ (⟨0, 1⟩ : Edge) ∈ edges m ∧
      (∃ n n', NormalOf m 0 n ∧ NormalOf m 1 n' ∧ V3.dot n n' = 3 / 5) ∧
      3 / 5 < Real.cos (Real.pi / 6) ∧
      ∃ l, silhouetteEdges m eps (Real.pi / 6) = .ok l ∧ (⟨0, 1⟩ : Edge) ∉ l := by
  have hu : (-3 / 5 : ℝ) ^ 2 + (4 / 5) ^ 2 = 1 := by norm_num
  obtain ⟨l, a1, _, a2⟩ := C35_partial (fold (-3 / 5) (4 / 5)) (fold_valid _ _) eps (Real.pi / 6)
  refine ⟨_, fold_valid (-3 / 5) (4 / 5), by rw [C32_edges]; exact ⟨by decide, ⟨0, 1, 2⟩, List.mem_cons_self, 0,
    .inl ⟨rfl, rfl⟩⟩, ⟨⟨0, 0, 1⟩, ⟨0, 4 / 5, -(-3 / 5)⟩, fold_n0 _ _, fold_n1 _ _ hu, by simp [V3.dot]; norm_num⟩, ?_, l, a1, ?_⟩
  · rw [Real.cos_pi_div_six]
    have : (6 / 5 : ℝ) < √3 := by
      rw [Real.lt_sqrt (by norm_num)]
      norm_num
    linarith
  · rw [a2, fold_flat _ _ _ hu, abs_of_pos (by positivity : (0 : ℝ) < Real.pi / 6), Real.sin_pi_div_six]
    rintro ⟨_, h⟩
    apply h
    norm_num [abs_lt]
    linarith

/-! The theorems for the two triangles. -/

example := C35_partial (fold (-3 / 5) (4 / 5)) ((valid_iff _).2 (by simp [fold])) (1 / 1000) (Real.pi / 6)
example := C35_mono_partial (fold (-3 / 5) (4 / 5)) ((valid_iff _).2 (by simp [fold])) (1 / 1000) 0 (Real.pi / 2) le_rfl (by positivity) le_rfl
example := C35_mono_refuted (1 / 1000) (by norm_num) (by norm_num)
example := C35_angle_refuted (1 / 1000) (by norm_num)

end Geom.TMesh
