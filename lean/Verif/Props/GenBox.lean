import Verif.Props.Closed
import Verif.Props.TriangleMesh
import Verif.Spec.GenBox

/-
  C96: the bounding boxes of generated meshes.
-/
set_option autoImplicit false
set_option linter.unusedSectionVars false

namespace Geom.Gen
open TMesh (Mesh Vertex Ix boundingBox)
open Spec

/-- A vertex of the mesh has this position. -/
def AtPos (m : M) (p : V3 ℝ) : Prop := ∃ v ∈ m.vertices, v.position = p

/-- A face has this corner. -/
def Hits (fs : List Face) (p : V3 ℝ) : Prop := ∃ f ∈ fs, p = f.1 ∨ p = f.2.1 ∨ p = f.2.2

theorem Hits.left {fs gs : List Face} {p : V3 ℝ} (h : Hits fs p) : Hits (fs ++ gs) p := by
  obtain ⟨f, hf, hp⟩ := h; exact ⟨f, List.mem_append_left _ hf, hp⟩

theorem Hits.right {fs gs : List Face} {p : V3 ℝ} (h : Hits gs p) : Hits (fs ++ gs) p := by
  obtain ⟨f, hf, hp⟩ := h; exact ⟨f, List.mem_append_right _ hf, hp⟩

theorem atPos_of {m m' : M} {fs : List Face} (h : NewFaces m m' fs) {p : V3 ℝ} (hp : Hits fs p) : AtPos m' p := by
  obtain ⟨ts, _, he⟩ := h
  obtain ⟨f, hf, hp⟩ := hp
  have : some f ∈ ts.map (face m') := by rw [he]; exact List.mem_map_of_mem hf
  obtain ⟨t, _, ht⟩ := List.mem_map.1 this
  unfold face at ht
  split at ht
  · rename_i a b c ha hb hc
    cases ht
    rcases hp with rfl | rfl | rfl
    · exact ⟨a, List.mem_of_getElem? ha, rfl⟩
    · exact ⟨b, List.mem_of_getElem? hb, rfl⟩
    · exact ⟨c, List.mem_of_getElem? hc, rfl⟩
  · cases ht

theorem quad_hits (alt : Bool) (u v : ℕ) (a b c d : V3 ℝ) :
    Hits (quad alt u v a b c d) a ∧ Hits (quad alt u v a b c d) b ∧ Hits (quad alt u v a b c d) c ∧ Hits (quad alt u v a b c d) d := by
  unfold quad Hits
  split_ifs <;> simp

theorem grid_hits {R C : ℕ} {g : ℕ → ℕ → List Face} (D : ℕ → ℕ → V3 ℝ)
    (h : ∀ i j, Hits (g i j) (D i j) ∧ Hits (g i j) (D (i + 1) j) ∧ Hits (g i j) (D i (j + 1)) ∧ Hits (g i j) (D (i + 1) (j + 1)))
    (hR : 1 ≤ R) (hC : 1 ≤ C) {i j : ℕ} (hi : i ≤ R) (hj : j ≤ C) : Hits (grid R C g) (D i j) := by
  have lift : ∀ {i j p}, i < R → j < C → Hits (g i j) p → Hits (grid R C g) p := by
    rintro i j p hi hj ⟨f, hf, hp⟩
    exact ⟨f, List.mem_flatMap.2 ⟨i, List.mem_range.2 hi, List.mem_flatMap.2 ⟨j, List.mem_range.2 hj, hf⟩⟩, hp⟩
  rcases Nat.lt_or_ge i R with hi' | hi' <;> rcases Nat.lt_or_ge j C with hj' | hj'
  · exact lift hi' hj' (h i j).1
  · obtain ⟨k, rfl⟩ : ∃ k, j = k + 1 := ⟨j - 1, by omega⟩
    exact lift hi' (by omega) (h i k).2.2.1
  · obtain ⟨k, rfl⟩ : ∃ k, i = k + 1 := ⟨i - 1, by omega⟩
    exact lift (by omega) hj' (h k j).2.1
  · obtain ⟨k, rfl⟩ : ∃ k, i = k + 1 := ⟨i - 1, by omega⟩
    obtain ⟨l, rfl⟩ : ∃ k, j = k + 1 := ⟨j - 1, by omega⟩
    exact lift (by omega) (by omega) (h k l).2.2.2

/-- The box of a mesh whose vertices are in a box with the origin as center. -/
theorem box_within {m : M} {s : V3 ℝ} {lo hi : ℝ} (hl : Fits lo hi s) (hne : m.vertices ≠ [])
    (hs : ∀ v ∈ m.vertices, |v.position.x| ≤ s.x ∧ |v.position.y| ≤ s.y ∧ |v.position.z| ≤ s.z) :
    Within (boundingBox lo hi m) (boxOf s) ∧ ∀ p, AtPos m p →
      ((boundingBox lo hi m).min 0 ≤ p.x ∧ p.x ≤ (boundingBox lo hi m).max 0) ∧ ((boundingBox lo hi m).min 1 ≤ p.y ∧ p.y ≤ (boundingBox lo hi m).max 1) ∧
      ((boundingBox lo hi m).min 2 ≤ p.z ∧ p.z ≤ (boundingBox lo hi m).max 2) := by
  obtain ⟨l1, l2, l3, l4, l5, l6⟩ := hl
  have hh := TMesh.C39_hull lo hi m hne (by
    intro p hp
    obtain ⟨v, hv, rfl⟩ := List.mem_map.1 hp
    obtain ⟨a, b, c⟩ := hs v hv
    rw [abs_le] at a b c
    intro i
    fin_cases i
    · exact ⟨l1.trans a.1, a.2.trans l2⟩
    · exact ⟨l3.trans b.1, b.2.trans l4⟩
    · exact ⟨l5.trans c.1, c.2.trans l6⟩)
  refine ⟨hh.2 (boxOf s) ?_, ?_⟩
  · intro p hp
    obtain ⟨v, hv, rfl⟩ := List.mem_map.1 hp
    obtain ⟨a, b, c⟩ := hs v hv
    rw [abs_le] at a b c
    intro i
    fin_cases i
    · exact a
    · exact b
    · exact c
  · rintro p ⟨v, hv, rfl⟩
    have := hh.1 (List.mem_map.2 ⟨v, hv, rfl⟩ : _ ∈ TMesh.positions m)
    exact ⟨this 0, this 1, this 2⟩

/-- Opposite points that reach the sides. -/
theorem tight {a b s x : ℝ} (h1 : -s ≤ a) (h2 : b ≤ s) (hx : |x| = s) (h3 : a ≤ x ∧ x ≤ b) (h4 : a ≤ -x ∧ -x ≤ b) : a = -s ∧ b = s := by
  subst hx
  rcases abs_cases x with ⟨e, _⟩ | ⟨e, _⟩ <;> rw [e] at h1 h2 ⊢ <;> constructor <;> linarith [h3.1, h3.2, h4.1, h4.2]

theorem box_eq {b : AABB.Box 3 ℝ} {s : V3 ℝ} (h0 : b.min 0 = -s.x ∧ b.max 0 = s.x) (h1 : b.min 1 = -s.y ∧ b.max 1 = s.y)
    (h2 : b.min 2 = -s.z ∧ b.max 2 = s.z) : b = boxOf s := by
  obtain ⟨mn, mx⟩ := b
  unfold boxOf
  congr 1
  · funext i; fin_cases i <;> simp_all
  · funext i; fin_cases i <;> simp_all

theorem abs_mul_le {r a : ℝ} (h : |a| ≤ 1) : |r * a| ≤ |r| := by
  rw [abs_mul]; exact mul_le_of_le_one_right (abs_nonneg r) h

theorem atAngle_le (r : V2 ℝ) (y phi : ℝ) : |(atAngle r y phi).x| ≤ |r.x| ∧ |(atAngle r y phi).z| ≤ |r.y| :=
  ⟨abs_mul_le (Real.abs_sin_le_one _), abs_mul_le (Real.abs_cos_le_one _)⟩

theorem scaled_le {s : ℝ} (h0 : 0 ≤ s) (h1 : s ≤ 1) (r : V2 ℝ) : |(scaled s r).x| ≤ |r.x| ∧ |(scaled s r).y| ≤ |r.y| := by
  simp only [scaled, abs_mul, abs_of_nonneg h0]
  exact ⟨mul_le_of_le_one_left (abs_nonneg _) h1, mul_le_of_le_one_left (abs_nonneg _) h1⟩

/-- The quarters of the full turn. -/
theorem quarters {H : ℕ} (hH : 0 < H) (h4 : 4 ∣ H) : ∃ k, H = 4 * k ∧ 2 * Real.pi * (k : ℕ) / H = Real.pi / 2 ∧
    2 * Real.pi * ((2 * k : ℕ) : ℝ) / H = Real.pi ∧ 2 * Real.pi * ((3 * k : ℕ) : ℝ) / H = Real.pi / 2 + Real.pi := by
  obtain ⟨k, rfl⟩ := h4
  have : (k : ℝ) ≠ 0 := by
    have : 0 < k := by omega
    positivity
  refine ⟨k, rfl, ?_, ?_, ?_⟩ <;> push_cast <;> field_simp <;> ring

/-- The box of a mesh with a row of vertices around the Y axis, at heights from `a` to `-a`. -/
theorem box_round {m : M} {s : V3 ℝ} {lo hi : ℝ} (hl : Fits lo hi s) (H : ℕ) (hH : 0 < H) (r : V2 ℝ) (y : ℝ) (p q : V3 ℝ)
    (hp : AtPos m p) (hq : AtPos m q) (hpq : q.y = -p.y) (hy : |p.y| = s.y)
    (hs : ∀ v ∈ m.vertices, |v.position.x| ≤ s.x ∧ |v.position.y| ≤ s.y ∧ |v.position.z| ≤ s.z)
    (hr : ∀ u ≤ H, AtPos m (atAngle r y (2 * Real.pi * u / H))) (hx : |r.x| = s.x) (hz : |r.y| = s.z) :
    Within (boundingBox lo hi m) (boxOf s) ∧ ((boundingBox lo hi m).min 1 = -s.y ∧ (boundingBox lo hi m).max 1 = s.y) ∧
    (4 ∣ H → boundingBox lo hi m = boxOf s) := by
  have hne : m.vertices ≠ [] := by obtain ⟨v, hv, _⟩ := hp; exact List.ne_nil_of_mem hv
  obtain ⟨hw, hb⟩ := box_within hl hne hs
  have ty : (boundingBox lo hi m).min 1 = -s.y ∧ (boundingBox lo hi m).max 1 = s.y :=
    tight (hw 1).1 (hw 1).2 hy (hb p hp).2.1 (by have := (hb q hq).2.1; rwa [hpq] at this)
  refine ⟨hw, ty, fun h4 => ?_⟩
  obtain ⟨k, hk, a1, a2, a3⟩ := quarters hH h4
  have b0 := hb _ (hr 0 (by omega))
  have b1 := hb _ (hr k (by omega))
  have b2 := hb _ (hr (2 * k) (by omega))
  have b3 := hb _ (hr (3 * k) (by omega))
  rw [a1] at b1
  rw [a2] at b2
  rw [a3] at b3
  simp only [atAngle, Nat.cast_zero, mul_zero, zero_div, Real.sin_zero, Real.cos_zero, Real.sin_pi_div_two, Real.cos_pi_div_two, Real.sin_pi, Real.cos_pi,
    Real.sin_add_pi, Real.cos_add_pi, mul_one, mul_neg] at b0 b1 b2 b3
  exact box_eq (tight (hw 0).1 (hw 0).2 hx b1.1 b3.1) ty (tight (hw 2).1 (hw 2).2 hz b0.2.2 b2.2.2)

/-- The new vertices of an empty mesh. -/
theorem grows_all {m' : M} {nv nt : ℕ} {P : Vertex ℝ → Prop} (h : Grows ⟨[], []⟩ m' nv nt P) : ∀ v ∈ m'.vertices, P v := by
  obtain ⟨vs, e, _, hv⟩ := h.verts
  rw [e]; simpa using hv

theorem mantle_hits {alt : Bool} {H V : ℕ} (hH : 1 ≤ H) (hV : 1 ≤ V) (D : ℕ → ℕ → V3 ℝ) {i j : ℕ} (hi : i ≤ H) (hj : j ≤ V) :
    Hits (grid H V fun u v => quad alt u v (D (u + 1) v) (D u v) (D u (v + 1)) (D (u + 1) (v + 1))) (D i j) :=
  grid_hits D (fun i j => by
    obtain ⟨a, b, c, d⟩ := quad_hits alt i j (D (i + 1) j) (D i j) (D i (j + 1)) (D (i + 1) (j + 1))
    exact ⟨b, a, c, d⟩) hH hV hi hj

/-- C96: cylinder. -/
theorem C96_cylinder (d : CylinderDesc) (lo hi : ℝ) (hl : Fits lo hi ⟨|d.radius.x|, |d.height| / 2, |d.radius.y|⟩) (hH : max 3 d.segsX + 1 < 2 ^ 32)
    (hV : 2 * (max 1 d.segsY + 1) ≤ 2 ^ 32) (hB : 2 * d.bottomCov ≤ 2 ^ 32) (hT : 2 * d.topCov ≤ 2 ^ 32) :
    ∃ m', genCylinder d ⟨[], []⟩ = .ok m' ∧
      let s : V3 ℝ := ⟨|d.radius.x|, |d.height| / 2, |d.radius.y|⟩
      Within (boundingBox lo hi m') (boxOf s) ∧ ((boundingBox lo hi m').min 1 = -s.y ∧ (boundingBox lo hi m').max 1 = s.y) ∧
      (4 ∣ max 3 d.segsX → boundingBox lo hi m' = boxOf s) := by
  have h3 : 3 ≤ max 3 d.segsX := le_max_left _ _
  have h1 : 1 ≤ max 1 d.segsY := le_max_left _ _
  obtain ⟨m', e, hg, hf⟩ := C44_cylinder d ⟨[], []⟩ hH (by omega) (by omega) (by omega)
  refine ⟨m', e, ?_⟩
  replace hf := hf hV hB hT
  replace hg := grows_all hg
  dsimp only at hf
  generalize max 3 d.segsX = H at *
  generalize max 1 d.segsY = V at *
  have hV' : (V : ℝ) ≠ 0 := by positivity
  have pos : ∀ {u v}, u ≤ H → v ≤ V → AtPos m' (atAngle d.radius (d.height / 2 - d.height * (v / V)) (2 * Real.pi * u / H)) := fun hu hv =>
    atPos_of hf (Hits.left (Hits.left (mantle_hits (by omega) h1 (fun u v => atAngle d.radius (d.height / 2 - d.height * (v / V)) (2 * Real.pi * u / H)) hu hv)))
  refine box_round hl H (by omega) d.radius _ _ _ (pos (Nat.zero_le _) (Nat.zero_le _)) (pos (Nat.zero_le _) (le_refl V)) ?_ ?_ ?_ (fun u hu => pos hu (Nat.zero_le _)) rfl rfl
  · simp only [atAngle]; rw [div_self hV']; simp; ring
  · simp only [atAngle]; simp [abs_div]
  · intro v hv
    rcases (hg v hv).1 with ⟨hy, phi, hp⟩ | ⟨hy, s, phi, s0, s1, hp⟩
    · have := atAngle_le d.radius v.position.y phi
      rw [← hp] at this
      exact ⟨this.1, hy, this.2⟩
    · have := atAngle_le (scaled s d.radius) v.position.y phi
      rw [← hp] at this
      have sl := scaled_le s0 s1 d.radius
      exact ⟨this.1.trans sl.1, hy.le, this.2.trans sl.2⟩

example := C96_cylinder ⟨⟨4, 2⟩, 3, 5, 2, 1, 2, true⟩ (-100) 100 (by norm_num [Fits, abs_of_pos]) (by norm_num) (by norm_num) (by norm_num)
  (by norm_num)

theorem cone_hits {alt : Bool} {H V : ℕ} (hH : 1 ≤ H) (hV : 1 ≤ V) (tip : V3 ℝ) (D : ℕ → ℕ → V3 ℝ) :
    Hits (mantleOfCone alt H V tip D) tip ∧ ∀ u ≤ H, Hits (mantleOfCone alt H V tip D) (D u V) := by
  have lift : ∀ {u f p}, u < H → (f = (tip, D u 1, D (u + 1) 1) ∨ ∃ j < V - 1, f ∈ quad alt u (j + 1) (D (u + 1) (j + 1)) (D u (j + 1)) (D u (j + 2)) (D (u + 1) (j + 2))) →
      (p = f.1 ∨ p = f.2.1 ∨ p = f.2.2) → Hits (mantleOfCone alt H V tip D) p := by
    intro u f p hu hf hp
    refine ⟨f, List.mem_flatMap.2 ⟨u, List.mem_range.2 hu, ?_⟩, hp⟩
    rcases hf with rfl | ⟨j, hj, hf⟩
    · exact List.mem_cons_self
    · exact List.mem_cons_of_mem _ (List.mem_flatMap.2 ⟨j, List.mem_range.2 hj, hf⟩)
  have step : ∀ u < H, Hits (mantleOfCone alt H V tip D) (D u V) ∧ Hits (mantleOfCone alt H V tip D) (D (u + 1) V) := by
    intro u hu
    rcases Nat.lt_or_ge 1 V with h | h
    · obtain ⟨k, rfl⟩ : ∃ k, V = k + 2 := ⟨V - 2, by omega⟩
      obtain ⟨_, _, ⟨f, hf, hp⟩, ⟨g, hg, hq⟩⟩ := quad_hits alt u (k + 1) (D (u + 1) (k + 1)) (D u (k + 1)) (D u (k + 2)) (D (u + 1) (k + 2))
      exact ⟨lift hu (.inr ⟨k, by omega, hf⟩) hp, lift hu (.inr ⟨k, by omega, hg⟩) hq⟩
    · obtain rfl : V = 1 := by omega
      exact ⟨lift hu (.inl rfl) (.inr (.inl rfl)), lift hu (.inl rfl) (.inr (.inr rfl))⟩
  refine ⟨lift (u := 0) (by omega) (.inl rfl) (.inl rfl), fun u hu => ?_⟩
  rcases Nat.lt_or_ge u H with h | h
  · exact (step u h).1
  · obtain ⟨k, rfl⟩ : ∃ k, u = k + 1 := ⟨u - 1, by omega⟩
    exact (step k (by omega)).2

/-- C96: cone. -/
theorem C96_cone (d : ConeDesc) (lo hi : ℝ) (hl : Fits lo hi ⟨|d.radius.x|, |d.height| / 2, |d.radius.y|⟩) (hH : max 3 d.segsX + 1 < 2 ^ 32)
    (hV : 2 * (max 1 d.segsY + 1) ≤ 2 ^ 32) (hB : 2 * d.cov ≤ 2 ^ 32) :
    ∃ m', genCone d ⟨[], []⟩ = .ok m' ∧
      let s : V3 ℝ := ⟨|d.radius.x|, |d.height| / 2, |d.radius.y|⟩
      Within (boundingBox lo hi m') (boxOf s) ∧ ((boundingBox lo hi m').min 1 = -s.y ∧ (boundingBox lo hi m').max 1 = s.y) ∧
      (4 ∣ max 3 d.segsX → boundingBox lo hi m' = boxOf s) := by
  have h3 : 3 ≤ max 3 d.segsX := le_max_left _ _
  have h1 : 1 ≤ max 1 d.segsY := le_max_left _ _
  obtain ⟨m', e, hg, hf⟩ := C44_cone d ⟨[], []⟩ hH (by omega) (by omega)
  refine ⟨m', e, ?_⟩
  replace hf := hf hV hB
  replace hg := grows_all hg
  generalize max 3 d.segsX = H at *
  generalize max 1 d.segsY = V at *
  have hV' : (V : ℝ) ≠ 0 := by positivity
  obtain ⟨c1, c2⟩ := cone_hits (alt := d.alternateGrid) (show 1 ≤ H by omega) h1 ⟨0, d.height / 2, 0⟩
    (fun u v => atAngle (scaled (v / V) d.radius) (d.height / 2 - v / V * d.height) (2 * Real.pi * u / H))
  have bottom : ∀ u ≤ H, AtPos m' (atAngle d.radius (d.height / 2 - 1 * d.height) (2 * Real.pi * u / H)) := by
    intro u hu
    have := atPos_of hf (Hits.left (c2 u hu))
    rwa [div_self hV', show scaled 1 d.radius = d.radius by simp [scaled]] at this
  refine box_round hl H (by omega) d.radius _ _ _ (atPos_of hf (Hits.left c1)) (bottom 0 (Nat.zero_le _)) ?_ ?_ ?_ bottom rfl rfl
  · simp only [atAngle]; ring
  · simp [abs_div]
  · intro v hv
    obtain ⟨s, phi, s0, s1, hp⟩ := hg v hv
    have sl := scaled_le s0 s1 d.radius
    have hy : |d.height / 2 - s * d.height| ≤ |d.height| / 2 := by
      rw [show d.height / 2 - s * d.height = d.height * (1 / 2 - s) by ring, abs_mul]
      have : |1 / 2 - s| ≤ 1 / 2 := by rw [abs_le]; constructor <;> linarith
      nlinarith [abs_nonneg d.height]
    have hy' : |-d.height / 2| ≤ |d.height| / 2 := by rw [abs_div, abs_neg]; simp
    rcases hp with hp | hp
    · have := atAngle_le (scaled s d.radius) (d.height / 2 - s * d.height) phi
      rw [hp]
      exact ⟨this.1.trans sl.1, hy, this.2.trans sl.2⟩
    · have := atAngle_le (scaled s d.radius) (-d.height / 2) phi
      rw [hp]
      exact ⟨this.1.trans sl.1, hy', this.2.trans sl.2⟩

example := C96_cone ⟨⟨4, 2⟩, 3, 5, 2, 1, true⟩ (-100) 100 (by norm_num [Fits, abs_of_pos]) (by norm_num) (by norm_num) (by norm_num)

theorem between_le {s : ℝ} (h0 : 0 ≤ s) (h1 : s ≤ 1) {a b : ℝ} (h : |a| ≤ |b|) : |(1 - s) * a + s * b| ≤ |b| := by
  calc |(1 - s) * a + s * b| ≤ |(1 - s) * a| + |s * b| := abs_add_le _ _
    _ = (1 - s) * |a| + s * |b| := by rw [abs_mul, abs_mul, abs_of_nonneg h0, abs_of_nonneg (by linarith : 0 ≤ 1 - s)]
    _ ≤ (1 - s) * |b| + s * |b| := by gcongr
    _ = |b| := by ring

/-- C96: pipe whose inner radii are not larger than the outer ones. -/
theorem C96_pipe (d : PipeDesc) (lo hi : ℝ) (hl : Fits lo hi ⟨|d.outerRadius.x|, |d.height| / 2, |d.outerRadius.y|⟩)
    (hx : |d.innerRadius.x| ≤ |d.outerRadius.x|) (hz : |d.innerRadius.y| ≤ |d.outerRadius.y|) (hH : max 3 d.segsX + 1 < 2 ^ 32)
    (hV : 2 * (max 1 d.segsY + 1) ≤ 2 ^ 32) (hB : 2 * (d.bottomCov + 1) ≤ 2 ^ 32) (hT : 2 * (d.topCov + 1) ≤ 2 ^ 32) :
    ∃ m', genPipe d ⟨[], []⟩ = .ok m' ∧
      let s : V3 ℝ := ⟨|d.outerRadius.x|, |d.height| / 2, |d.outerRadius.y|⟩
      Within (boundingBox lo hi m') (boxOf s) ∧ ((boundingBox lo hi m').min 1 = -s.y ∧ (boundingBox lo hi m').max 1 = s.y) ∧
      (4 ∣ max 3 d.segsX → boundingBox lo hi m' = boxOf s) := by
  have h3 : 3 ≤ max 3 d.segsX := le_max_left _ _
  have h1 : 1 ≤ max 1 d.segsY := le_max_left _ _
  obtain ⟨m', e, hg, hf⟩ := C45_pipe d ⟨[], []⟩ hH (by omega) (by omega) (by omega)
  refine ⟨m', e, ?_⟩
  replace hf := hf hV hB hT
  replace hg := grows_all hg
  dsimp only at hf
  generalize max 3 d.segsX = H at *
  generalize max 1 d.segsY = V at *
  have hV' : (V : ℝ) ≠ 0 := by positivity
  have pos : ∀ {u v}, u ≤ H → v ≤ V → AtPos m' (atAngle d.outerRadius (d.height / 2 - d.height * (v / V)) (2 * Real.pi * u / H)) := fun hu hv =>
    atPos_of hf (Hits.left (Hits.left (Hits.left
      (mantle_hits (by omega) h1 (fun u v => atAngle d.outerRadius (d.height / 2 - d.height * (v / V)) (2 * Real.pi * u / H)) hu hv))))
  refine box_round hl H (by omega) d.outerRadius _ _ _ (pos (Nat.zero_le _) (Nat.zero_le _)) (pos (Nat.zero_le _) (le_refl V)) ?_ ?_ ?_ (fun u hu => pos hu (Nat.zero_le _)) rfl rfl
  · simp only [atAngle]; rw [div_self hV']; simp; ring
  · simp only [atAngle]; simp [abs_div]
  · intro v hv
    rcases (hg v hv).1 with ⟨hy, phi, hp | hp⟩ | ⟨hy, s, phi, s0, s1, hp⟩
    · have := atAngle_le d.outerRadius v.position.y phi
      rw [← hp] at this
      exact ⟨this.1, hy, this.2⟩
    · have := atAngle_le d.innerRadius v.position.y phi
      rw [← hp] at this
      exact ⟨this.1.trans hx, hy, this.2.trans hz⟩
    · have := atAngle_le (between s d.innerRadius d.outerRadius) v.position.y phi
      rw [← hp] at this
      exact ⟨this.1.trans (between_le s0 s1 hx), hy.le, this.2.trans (between_le s0 s1 hz)⟩

example := C96_pipe ⟨⟨2, 1⟩, ⟨4, 2⟩, 3, 5, 2, 1, 2, true⟩ (-100) 100 (by norm_num [Fits, abs_of_pos]) (by norm_num [abs_of_pos])
  (by norm_num [abs_of_pos]) (by norm_num) (by norm_num) (by norm_num) (by norm_num)

/-- C96: pie. The height is exact; how far the piece reaches to the sides depends on the angles. -/
theorem C96_pie (d : PieDesc) (lo hi : ℝ) (hl : Fits lo hi ⟨|d.radius.x|, |d.height| / 2, |d.radius.y|⟩) (hH : max 3 d.segsX + 1 < 2 ^ 32)
    (hV : 2 * (max 1 d.segsY + 1) ≤ 2 ^ 32) (hC : 2 * d.cov ≤ 2 ^ 32) :
    ∃ m', genPie d ⟨[], []⟩ = .ok m' ∧
      let s : V3 ℝ := ⟨|d.radius.x|, |d.height| / 2, |d.radius.y|⟩
      Within (boundingBox lo hi m') (boxOf s) ∧ (boundingBox lo hi m').min 1 = -s.y ∧ (boundingBox lo hi m').max 1 = s.y := by
  have h3 : 3 ≤ max 3 d.segsX := le_max_left _ _
  have h1 : 1 ≤ max 1 d.segsY := le_max_left _ _
  obtain ⟨m', e, hg, hf⟩ := C45_pie d ⟨[], []⟩ hH (by omega) (by omega)
  refine ⟨m', e, ?_⟩
  replace hf := hf hV hC
  replace hg := grows_all hg
  dsimp only at hf hg
  generalize max 0 (min d.angle (Real.pi * 2)) = cut at *
  generalize max 3 d.segsX = H at *
  generalize max 1 d.segsY = V at *
  have hV' : (V : ℝ) ≠ 0 := by positivity
  have pos : ∀ {u v : ℕ}, u ≤ H → v ≤ V → AtPos m' (atAngle d.radius (d.height / 2 - d.height * (v / V)) (d.angleOffset + cut + (2 * Real.pi - cut) * (u / H))) := fun hu hv =>
    atPos_of hf (Hits.left (Hits.left (Hits.left (Hits.left
      (mantle_hits (by omega) h1 (fun u v => atAngle d.radius (d.height / 2 - d.height * (v / V)) (d.angleOffset + cut + (2 * Real.pi - cut) * (u / H))) hu hv)))))
  have p0 := pos (Nat.zero_le _) (Nat.zero_le _)
  have p1 := pos (Nat.zero_le _) (le_refl V)
  have hne : m'.vertices ≠ [] := by obtain ⟨v, hv, _⟩ := p0; exact List.ne_nil_of_mem hv
  obtain ⟨hw, hb⟩ := box_within (s := ⟨|d.radius.x|, |d.height| / 2, |d.radius.y|⟩) hl hne (by
    intro v hv
    rcases (hg v hv).1 with ⟨hy, phi, _, _, hp⟩ | ⟨hy, s, s0, s1, hp | hp⟩ | ⟨hy, s, phi, s0, s1, _, _, hp⟩
    · have := atAngle_le d.radius v.position.y phi
      rw [← hp] at this
      exact ⟨this.1, hy, this.2⟩
    · have := atAngle_le (scaled s d.radius) v.position.y d.angleOffset
      rw [← hp] at this
      have sl := scaled_le s0 s1 d.radius
      exact ⟨this.1.trans sl.1, hy, this.2.trans sl.2⟩
    · have := atAngle_le (scaled s d.radius) v.position.y (d.angleOffset + cut)
      rw [← hp] at this
      have sl := scaled_le s0 s1 d.radius
      exact ⟨this.1.trans sl.1, hy, this.2.trans sl.2⟩
    · have := atAngle_le (scaled s d.radius) v.position.y phi
      rw [← hp] at this
      have sl := scaled_le s0 s1 d.radius
      exact ⟨this.1.trans sl.1, hy.le, this.2.trans sl.2⟩)
  refine ⟨hw, tight (hw 1).1 (hw 1).2 (x := d.height / 2) (by simp [abs_div]) ?_ ?_⟩
  · simpa [atAngle] using (hb _ p0).2.1
  · have := (hb _ p1).2.1
    simp only [atAngle] at this
    rwa [div_self hV', show d.height / 2 - d.height * 1 = -(d.height / 2) by ring] at this

example := C96_pie ⟨⟨4, 2⟩, 3, 5, 2, 1, 2, 1 / 2, true⟩ (-100) 100 (by norm_num [Fits, abs_of_pos]) (by norm_num) (by norm_num)
  (by norm_num)

/-- C96: capsule with sizes that are not negative. -/
theorem C96_capsule (d : CapsuleDesc) (lo hi : ℝ) (hl : Fits lo hi ⟨|d.radius.x|, d.radius.y + d.height / 2, |d.radius.z|⟩) (hr : 0 ≤ d.radius.y) (hh : 0 ≤ d.height)
    (hV : 2 * (max 1 d.segsY + 1) ≤ 2 ^ 32) (hE : (max 2 d.ellipsoidSegs + 1) * (max 3 d.segsX + 1) ≤ 2 ^ 32) :
    ∃ m', genCapsule d ⟨[], []⟩ = .ok m' ∧
      let s : V3 ℝ := ⟨|d.radius.x|, d.radius.y + d.height / 2, |d.radius.z|⟩
      Within (boundingBox lo hi m') (boxOf s) ∧ ((boundingBox lo hi m').min 1 = -s.y ∧ (boundingBox lo hi m').max 1 = s.y) ∧
      (4 ∣ max 3 d.segsX → boundingBox lo hi m' = boxOf s) := by
  have h3 : 3 ≤ max 3 d.segsX := le_max_left _ _
  have h1 : 1 ≤ max 1 d.segsY := le_max_left _ _
  have h2 : 2 ≤ max 2 d.ellipsoidSegs := le_max_left _ _
  have hU : max 3 d.segsX + 1 < 2 ^ 32 := by
    have := Nat.mul_le_mul_right (max 3 d.segsX + 1) (show 3 ≤ max 2 d.ellipsoidSegs + 1 by omega); omega
  have hE' : max 2 d.ellipsoidSegs + 1 < 2 ^ 32 := by
    have := Nat.mul_le_mul_left (max 2 d.ellipsoidSegs + 1) (show 4 ≤ max 3 d.segsX + 1 by omega); omega
  obtain ⟨m', e, hg, hf⟩ := C45_capsule d ⟨[], []⟩ hU (by omega) hE'
  refine ⟨m', e, ?_⟩
  replace hf := hf hV hE
  replace hg := grows_all hg
  dsimp only at hf
  generalize max 3 d.segsX = H at *
  generalize max 1 d.segsY = V at *
  generalize max 2 d.ellipsoidSegs = E at *
  let S := fun (side : ℝ) (v u : ℕ) => (⟨-side * (d.radius.x * (Real.sin (Real.pi / 2 * ((v : ℝ) / E)) * Real.sin (2 * Real.pi * u / H))),
    side * (d.radius.y * Real.cos (Real.pi / 2 * ((v : ℝ) / E)) + d.height / 2),
    d.radius.z * (Real.sin (Real.pi / 2 * ((v : ℝ) / E)) * Real.cos (2 * Real.pi * u / H))⟩ : V3 ℝ)
  have cap : ∀ (alt : Bool) (D : ℕ → ℕ → V3 ℝ), Hits (grid E H fun v u => quad alt u v (D v u) (D v (u + 1)) (D (v + 1) (u + 1)) (D (v + 1) u)) (D 0 0) := by
    intro alt D
    refine grid_hits D (fun i j => ?_) (by omega) (by omega) (Nat.zero_le _) (Nat.zero_le _)
    obtain ⟨a, b, c, d⟩ := quad_hits alt j i (D i j) (D i (j + 1)) (D (i + 1) (j + 1)) (D (i + 1) j)
    exact ⟨a, d, b, c⟩
  have pt : AtPos m' (S 1 0 0) := atPos_of hf (Hits.left (Hits.right (cap d.alternateGrid (S 1))))
  have pb : AtPos m' (S (-1) 0 0) := atPos_of hf (Hits.right (cap d.alternateGrid (S (-1))))
  refine box_round hl H (by omega) ⟨d.radius.x, d.radius.z⟩ _ _ _ pt pb ?_ ?_ ?_
    (fun u hu => atPos_of hf (Hits.left (Hits.left (mantle_hits (by omega) h1
      (fun u v => atAngle ⟨d.radius.x, d.radius.z⟩ (d.height / 2 - d.height * (v / V)) (2 * Real.pi * u / H)) hu (Nat.zero_le _))))) rfl rfl
  · simp [S]
  · simp only [S]; simp; positivity
  · intro v hv
    rcases (hg v hv).1 with ⟨hy, phi, hp⟩ | ⟨a, b, c, h1, hb, hp⟩
    · have := atAngle_le ⟨d.radius.x, d.radius.z⟩ v.position.y phi
      rw [← hp] at this
      rw [abs_of_nonneg hh] at hy
      exact ⟨this.1, by dsimp only; linarith, this.2⟩
    · have a1 : |a| ≤ 1 := by rw [← sq_le_one_iff_abs_le_one]; nlinarith
      have c1 : |c| ≤ 1 := by rw [← sq_le_one_iff_abs_le_one]; nlinarith
      have b1 : b ≤ 1 := by nlinarith
      have hy : |d.radius.y * b + d.height / 2| ≤ d.radius.y + d.height / 2 := by
        rw [abs_of_nonneg (by positivity)]; nlinarith
      rcases hp with hp | hp <;> rw [hp]
      · exact ⟨abs_mul_le a1, hy, abs_mul_le c1⟩
      · exact ⟨abs_mul_le a1, by rw [abs_neg]; exact hy, abs_mul_le c1⟩

example := C96_capsule ⟨⟨4, 2, 3⟩, 1, 5, 2, 3, true⟩ (-100) 100 (by norm_num [Fits, abs_of_pos]) (by norm_num) (by norm_num) (by norm_num)
  (by norm_num)

/-- C96: ellipsoid. The height is exact; the box is exact if the equator is a row and has vertices at the axes. -/
theorem C96_ellipsoid (d : EllipsoidDesc) (lo hi : ℝ) (hl : Fits lo hi ⟨|d.radius.x|, |d.radius.y|, |d.radius.z|⟩)
    (hb : (max 2 d.segsY + 1) * (max 3 d.segsX + 1) ≤ 2 ^ 32) :
    ∃ m', genEllipsoid d ⟨[], []⟩ = .ok m' ∧
      let s : V3 ℝ := ⟨|d.radius.x|, |d.radius.y|, |d.radius.z|⟩
      Within (boundingBox lo hi m') (boxOf s) ∧ ((boundingBox lo hi m').min 1 = -s.y ∧ (boundingBox lo hi m').max 1 = s.y) ∧
      (4 ∣ max 3 d.segsX → 2 ∣ max 2 d.segsY → boundingBox lo hi m' = boxOf s) := by
  have h3 : 3 ≤ max 3 d.segsX := le_max_left _ _
  have h2 : 2 ≤ max 2 d.segsY := le_max_left _ _
  have hU : max 3 d.segsX + 1 < 2 ^ 32 := by
    have := Nat.mul_le_mul_right (max 3 d.segsX + 1) (show 3 ≤ max 2 d.segsY + 1 by omega); omega
  have hE' : max 2 d.segsY + 1 < 2 ^ 32 := by
    have := Nat.mul_le_mul_left (max 2 d.segsY + 1) (show 4 ≤ max 3 d.segsX + 1 by omega); omega
  obtain ⟨m', e, hf⟩ := C43_faces d ⟨[], []⟩ hb
  obtain ⟨m'', e', hg⟩ := C43_appends d ⟨[], []⟩ hU hE'
  obtain rfl : m'' = m' := by rw [e] at e'; cases e'; rfl
  refine ⟨_, e, ?_⟩
  replace hg := grows_all hg
  dsimp only at hf
  clear e e' hb
  generalize max 3 d.segsX = H at *
  generalize max 2 d.segsY = V at *
  have hV' : (V : ℝ) ≠ 0 := by positivity
  have pos : ∀ {v u}, v ≤ V → u ≤ H → AtPos m'' (ellipsoidPoint d.radius (Real.pi * v / V) (2 * Real.pi * u / H)) := fun hv hu =>
    atPos_of hf (grid_hits (fun v u => ellipsoidPoint d.radius (Real.pi * v / V) (2 * Real.pi * u / H)) (fun i j => by
      have := quad_hits d.alternateGrid j i (ellipsoidPoint d.radius (Real.pi * i / V) (2 * Real.pi * j / H)) (ellipsoidPoint d.radius (Real.pi * i / V) (2 * Real.pi * (j + 1 : ℕ) / H))
        (ellipsoidPoint d.radius (Real.pi * (i + 1 : ℕ) / V) (2 * Real.pi * (j + 1 : ℕ) / H)) (ellipsoidPoint d.radius (Real.pi * (i + 1 : ℕ) / V) (2 * Real.pi * j / H))
      exact ⟨this.1, this.2.2.2, this.2.1, this.2.2.1⟩) (by omega) (by omega) hv hu)
  have p0 := pos (Nat.zero_le _) (Nat.zero_le _)
  have p1 := pos (le_refl V) (Nat.zero_le _)
  have hne : m''.vertices ≠ [] := by obtain ⟨v, hv, _⟩ := p0; exact List.ne_nil_of_mem hv
  obtain ⟨hw, hb⟩ := box_within (s := ⟨|d.radius.x|, |d.radius.y|, |d.radius.z|⟩) hl hne (by
    intro v hv
    obtain ⟨a, b, c, h1, hp⟩ := (hg v hv).1
    have a1 : |a| ≤ 1 := by rw [← sq_le_one_iff_abs_le_one]; nlinarith
    have b1 : |b| ≤ 1 := by rw [← sq_le_one_iff_abs_le_one]; nlinarith
    have c1 : |c| ≤ 1 := by rw [← sq_le_one_iff_abs_le_one]; nlinarith
    rw [hp]
    exact ⟨abs_mul_le a1, abs_mul_le b1, abs_mul_le c1⟩)
  have ty := tight (hw 1).1 (hw 1).2 (x := d.radius.y) (by simp) (by simpa [ellipsoidPoint] using (hb _ p0).2.1) (by
    have := (hb _ p1).2.1
    simpa [ellipsoidPoint, mul_div_assoc, div_self hV'] using this)
  refine ⟨hw, ty, fun h4 hv2 => ?_⟩
  obtain ⟨k, hk, a1, a2, a3⟩ := quarters (by omega) h4
  obtain ⟨l, rfl⟩ := hv2
  have hl0 : (l : ℝ) ≠ 0 := by
    have : 0 < l := by omega
    positivity
  have el : Real.pi * (l : ℝ) / ((2 * l : ℕ) : ℝ) = Real.pi / 2 := by push_cast; field_simp
  have b0 := hb _ (pos (show l ≤ 2 * l by omega) (show 0 ≤ H by omega))
  have b1 := hb _ (pos (show l ≤ 2 * l by omega) (show k ≤ H by omega))
  have b2 := hb _ (pos (show l ≤ 2 * l by omega) (show 2 * k ≤ H by omega))
  have b3 := hb _ (pos (show l ≤ 2 * l by omega) (show 3 * k ≤ H by omega))
  rw [el] at b0 b1 b2 b3
  rw [a1] at b1
  rw [a2] at b2
  rw [a3] at b3
  simp only [ellipsoidPoint, Nat.cast_zero, mul_zero, zero_div, Real.sin_zero, Real.cos_zero, Real.sin_pi_div_two, Real.cos_pi_div_two, Real.sin_pi, Real.cos_pi,
    Real.sin_add_pi, Real.cos_add_pi, mul_one, mul_neg] at b0 b1 b2 b3
  exact box_eq (tight (hw 0).1 (hw 0).2 rfl b0.1 b2.1) ty (tight (hw 2).1 (hw 2).2 rfl b1.2.2 b3.2.2)

example := C96_ellipsoid ⟨⟨4, 2, 3⟩, 5, 4, true⟩ (-100) 100 (by norm_num [Fits, abs_of_pos]) (by norm_num)

/-- C96: torus with radii that are not negative. -/
theorem C96_torus (d : TorusDesc) (lo hi : ℝ) (hl : Fits lo hi ⟨d.ringRadius.x + d.tubeRadius.x, d.tubeRadius.y, d.ringRadius.y + d.tubeRadius.z⟩)
    (h0 : 0 ≤ d.ringRadius.x ∧ 0 ≤ d.ringRadius.y ∧ 0 ≤ d.tubeRadius.x ∧ 0 ≤ d.tubeRadius.y ∧ 0 ≤ d.tubeRadius.z)
    (hb : (max 3 d.segsY + 1) * (max 3 d.segsX + 1) ≤ 2 ^ 32) :
    ∃ m', genTorus d ⟨[], []⟩ = .ok m' ∧
      let s : V3 ℝ := ⟨d.ringRadius.x + d.tubeRadius.x, d.tubeRadius.y, d.ringRadius.y + d.tubeRadius.z⟩
      Within (boundingBox lo hi m') (boxOf s) ∧ (boundingBox lo hi m').max 1 = s.y ∧ (2 ∣ max 3 d.segsY → (boundingBox lo hi m').min 1 = -s.y) ∧
      (4 ∣ max 3 d.segsX → 4 ∣ max 3 d.segsY → boundingBox lo hi m' = boxOf s) := by
  obtain ⟨rx, rz, tx, ty, tz⟩ := h0
  have h3 : 3 ≤ max 3 d.segsX := le_max_left _ _
  have h2 : 3 ≤ max 3 d.segsY := le_max_left _ _
  have hU : max 3 d.segsX + 1 < 2 ^ 32 := by
    have := Nat.mul_le_mul_right (max 3 d.segsX + 1) (show 3 ≤ max 3 d.segsY + 1 by omega); omega
  have hE' : max 3 d.segsY + 1 < 2 ^ 32 := by
    have := Nat.mul_le_mul_left (max 3 d.segsY + 1) (show 4 ≤ max 3 d.segsX + 1 by omega); omega
  obtain ⟨m', e, hf⟩ := C46_faces d ⟨[], []⟩ hb
  obtain ⟨m'', e', hg⟩ := C46_appends d ⟨[], []⟩ hU hE'
  obtain rfl : m'' = m' := by rw [e] at e'; cases e'; rfl
  refine ⟨_, e, ?_⟩
  replace hg := grows_all hg
  dsimp only at hf
  clear e e' hb
  generalize max 3 d.segsX = H at *
  generalize max 3 d.segsY = V at *
  have hV' : (V : ℝ) ≠ 0 := by positivity
  have pos : ∀ {v u}, v ≤ V → u ≤ H → AtPos m'' (torusPoint d.ringRadius d.tubeRadius (2 * Real.pi * v / V) (2 * Real.pi * u / H)) := fun hv hu =>
    atPos_of hf (grid_hits (fun v u => torusPoint d.ringRadius d.tubeRadius (2 * Real.pi * v / V) (2 * Real.pi * u / H)) (fun i j => by
      have := quad_hits d.alternateGrid j i (torusPoint d.ringRadius d.tubeRadius (2 * Real.pi * i / V) (2 * Real.pi * (j + 1 : ℕ) / H))
        (torusPoint d.ringRadius d.tubeRadius (2 * Real.pi * i / V) (2 * Real.pi * j / H))
        (torusPoint d.ringRadius d.tubeRadius (2 * Real.pi * (i + 1 : ℕ) / V) (2 * Real.pi * j / H))
        (torusPoint d.ringRadius d.tubeRadius (2 * Real.pi * (i + 1 : ℕ) / V) (2 * Real.pi * (j + 1 : ℕ) / H))
      exact ⟨this.2.1, this.2.2.1, this.1, this.2.2.2⟩) (by omega) (by omega) hv hu)
  have p0 := pos (Nat.zero_le _) (Nat.zero_le _)
  have hne : m''.vertices ≠ [] := by obtain ⟨v, hv, _⟩ := p0; exact List.ne_nil_of_mem hv
  obtain ⟨hw, hb⟩ := box_within (s := ⟨d.ringRadius.x + d.tubeRadius.x, d.tubeRadius.y, d.ringRadius.y + d.tubeRadius.z⟩) hl hne (by
    intro v hv
    obtain ⟨theta, phi, hp⟩ := hg v hv
    rw [hp]
    have key : ∀ {R t a b : ℝ}, 0 ≤ R → 0 ≤ t → |a| ≤ 1 → |b| ≤ 1 → |a * (R + t * b)| ≤ R + t := by
      intro R t a b hR ht ha hb
      rw [abs_mul]
      have e1 : |R + t * b| ≤ R + t := by
        refine (abs_add_le _ _).trans ?_
        rw [abs_of_nonneg hR, abs_mul, abs_of_nonneg ht]
        nlinarith
      exact (mul_le_of_le_one_left (abs_nonneg _) ha).trans e1
    refine ⟨key rx tx (Real.abs_sin_le_one _) (Real.abs_sin_le_one _), ?_, key rz tz (Real.abs_cos_le_one _) (Real.abs_sin_le_one _)⟩
    have := abs_mul_le (r := d.tubeRadius.y) (Real.abs_cos_le_one theta)
    rwa [abs_of_nonneg ty] at this)
  have top : (boundingBox lo hi m'').max 1 = d.tubeRadius.y :=
    le_antisymm (hw 1).2 (by have := (hb _ p0).2.1.2; simpa [torusPoint] using this)
  have bottom : 2 ∣ V → (boundingBox lo hi m'').min 1 = -d.tubeRadius.y := by
    rintro ⟨l, rfl⟩
    have hl0 : (l : ℝ) ≠ 0 := by
      have : 0 < l := by omega
      positivity
    have el : 2 * Real.pi * (l : ℝ) / ((2 * l : ℕ) : ℝ) = Real.pi := by push_cast; field_simp
    have := (hb _ (pos (show l ≤ 2 * l by omega) (Nat.zero_le _))).2.1.1
    rw [el] at this
    refine le_antisymm (by simpa [torusPoint] using this) (hw 1).1
  refine ⟨hw, top, bottom, fun h4 hv4 => ?_⟩
  obtain ⟨k, hk, a1, a2, a3⟩ := quarters (by omega) h4
  obtain ⟨l, hl4, c1, _, _⟩ := quarters (by omega) hv4
  have b0 := hb _ (pos (show l ≤ V by omega) (show 0 ≤ H by omega))
  have b1 := hb _ (pos (show l ≤ V by omega) (show k ≤ H by omega))
  have b2 := hb _ (pos (show l ≤ V by omega) (show 2 * k ≤ H by omega))
  have b3 := hb _ (pos (show l ≤ V by omega) (show 3 * k ≤ H by omega))
  rw [c1] at b0 b1 b2 b3
  rw [a1] at b1
  rw [a2] at b2
  rw [a3] at b3
  simp only [torusPoint, Nat.cast_zero, mul_zero, zero_div, Real.sin_zero, Real.cos_zero, Real.sin_pi_div_two, Real.cos_pi_div_two, Real.sin_pi, Real.cos_pi,
    Real.sin_add_pi, Real.cos_add_pi, mul_one, one_mul, neg_mul] at b0 b1 b2 b3
  refine box_eq (tight (hw 0).1 (hw 0).2 (abs_of_nonneg (by positivity)) b1.1 b3.1) ⟨bottom ((by norm_num : 2 ∣ 4).trans hv4), top⟩
    (tight (hw 2).1 (hw 2).2 (abs_of_nonneg (by positivity)) b0.2.2 b2.2.2)

example := C96_torus ⟨⟨4, 2⟩, ⟨2, 3, 1⟩, 5, 4, true⟩ (-100) 100 (by norm_num [Fits, abs_of_pos]) (by norm_num) (by norm_num)

/-- C96: cuboid. -/
theorem C96_cuboid (sx sy : ℝ) (hx : sx = 1 ∨ sx = -1) (hy : sy = 1 ∨ sy = -1) (d : CuboidDesc) (lo hi : ℝ)
    (hl : Fits lo hi ⟨|d.size.x| / 2, |d.size.y| / 2, |d.size.z| / 2⟩)
    (h1 : (max 1 d.segsY + 1) * (max 1 d.segsX + 1) ≤ 2 ^ 32) (h2 : (max 1 d.segsY + 1) * (max 1 d.segsZ + 1) ≤ 2 ^ 32)
    (h3 : (max 1 d.segsZ + 1) * (max 1 d.segsX + 1) ≤ 2 ^ 32) :
    ∃ m', genCuboid sx sy d ⟨[], []⟩ = .ok m' ∧ boundingBox lo hi m' = boxOf ⟨|d.size.x| / 2, |d.size.y| / 2, |d.size.z| / 2⟩ := by
  have p1 : 1 ≤ max 1 d.segsX := le_max_left _ _
  have p2 : 1 ≤ max 1 d.segsY := le_max_left _ _
  have p3 : 1 ≤ max 1 d.segsZ := le_max_left _ _
  have q1 : max 1 d.segsX + 1 < 2 ^ 32 := by
    have := Nat.mul_le_mul_right (max 1 d.segsX + 1) (show 2 ≤ max 1 d.segsY + 1 by omega); omega
  have q2 : max 1 d.segsY + 1 < 2 ^ 32 := by
    have := Nat.mul_le_mul_left (max 1 d.segsY + 1) (show 2 ≤ max 1 d.segsX + 1 by omega); omega
  have q3 : max 1 d.segsZ + 1 < 2 ^ 32 := by
    have := Nat.mul_le_mul_left (max 1 d.segsZ + 1) (show 2 ≤ max 1 d.segsX + 1 by omega); omega
  obtain ⟨m', e, hf⟩ := C42_faces sx sy hx hy d ⟨[], []⟩ h1 h2 h3
  obtain ⟨m'', e', hg⟩ := C42_appends sx sy hx hy d ⟨[], []⟩ q1 q2 q3
  obtain rfl : m'' = m' := by rw [e] at e'; cases e'; rfl
  refine ⟨_, e, ?_⟩
  replace hg := grows_all hg
  dsimp only at hf
  clear e e' h1 h2 h3
  generalize max 1 d.segsX = X at *
  generalize max 1 d.segsY = Y at *
  generalize max 1 d.segsZ = Z at *
  have hY : (Y : ℝ) ≠ 0 := by positivity
  let at' := fun (s : ℝ) (k n : ℕ) => s * ((k : ℝ) / n) - s / 2
  have cells : ∀ (D : ℕ → ℕ → V3 ℝ) {i j}, i ≤ Y → j ≤ X →
      Hits (grid Y X fun v u => quad d.alternateGrid u v (D v u) (D (v + 1) u) (D (v + 1) (u + 1)) (D v (u + 1))) (D i j) := by
    intro D i j hi hj
    refine grid_hits D (fun i j => ?_) p2 p1 hi hj
    obtain ⟨a, b, c, d⟩ := quad_hits d.alternateGrid j i (D i j) (D (i + 1) j) (D (i + 1) (j + 1)) (D i (j + 1))
    exact ⟨a, b, d, c⟩
  have a0 := atPos_of hf (Hits.left (Hits.left (Hits.left (Hits.left (Hits.left
    (cells (fun i j => ⟨at' d.size.x j X, at' d.size.y i Y, -d.size.z / 2⟩) (Nat.zero_le _) (Nat.zero_le _)))))))
  have a1 := atPos_of hf (Hits.left (Hits.left (Hits.left (Hits.left (Hits.right
    (cells (fun i j => ⟨-at' d.size.x j X, at' d.size.y i Y, d.size.z / 2⟩) (le_refl Y) (Nat.zero_le _)))))))
  have hne : m''.vertices ≠ [] := by obtain ⟨v, hv, _⟩ := a0; exact List.ne_nil_of_mem hv
  obtain ⟨hw, hb⟩ := box_within (s := ⟨|d.size.x| / 2, |d.size.y| / 2, |d.size.z| / 2⟩) hl hne (fun v hv =>
    ⟨(hg v hv).1.1, (hg v hv).1.2.1, (hg v hv).1.2.2.1⟩)
  have b0 := hb _ a0
  have b1 := hb _ a1
  simp only [at', Nat.cast_zero, zero_div, mul_zero, zero_sub, neg_neg, div_self hY] at b0 b1
  have e1 : d.size.y * 1 - d.size.y / 2 = d.size.y / 2 := by ring
  have e2 : -d.size.z / 2 = -(d.size.z / 2) := by ring
  rw [e1] at b1
  rw [e2] at b0
  refine box_eq (tight (hw 0).1 (hw 0).2 ?_ b1.1 b0.1) (tight (hw 1).1 (hw 1).2 ?_ b1.2.1 b0.2.1) (tight (hw 2).1 (hw 2).2 ?_ b1.2.2 b0.2.2) <;>
    simp [abs_div]

/-! Descriptors that meet the hypotheses. -/

example : ∃ m', genCylinder ⟨⟨4, 1⟩, 3, 4, 1, 1, 2, true⟩ ⟨[], []⟩ = .ok m' ∧ boundingBox (-100) 100 m' = ⟨![-4, -(3 / 2), -1], ![4, 3 / 2, 1]⟩ := by
  obtain ⟨m', h, _, _, h3⟩ := C96_cylinder ⟨⟨4, 1⟩, 3, 4, 1, 1, 2, true⟩ (-100) 100 (by norm_num [Fits, abs_of_pos]) (by norm_num) (by norm_num) (by norm_num) (by norm_num)
  refine ⟨m', h, (h3 (by norm_num)).trans ?_⟩
  norm_num [boxOf, abs_of_pos]

example : ∃ m', genCuboid 1 1 ⟨⟨4, -1, 3⟩, 3, 1, 1, true⟩ ⟨[], []⟩ = .ok m' ∧ boundingBox (-100) 100 m' = ⟨![-2, -(1 / 2), -(3 / 2)], ![2, 1 / 2, 3 / 2]⟩ := by
  obtain ⟨m', h, h3⟩ := C96_cuboid 1 1 (by norm_num) (by norm_num) ⟨⟨4, -1, 3⟩, 3, 1, 1, true⟩ (-100) 100 (by norm_num [Fits, abs_of_pos]) (by norm_num) (by norm_num) (by norm_num)
  refine ⟨m', h, h3.trans ?_⟩
  norm_num [boxOf, abs_of_pos]

end Geom.Gen
