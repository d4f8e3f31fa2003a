import Verif.Spec.Solid
import Verif.Props.Volume
import Mathlib.Algebra.Polynomial.Roots
import Mathlib.Topology.Order.Compact

/-
  Facets of closed, convex surfaces: each point of the solid in the plane of a face is a point of a face.
-/
set_option autoImplicit false
set_option linter.unusedSectionVars false

namespace Geom.Gen.Solid
open Spec
open Triangle.Spec (InTri)

/-- Positive for points to the left of the edge from `p` to `q`, seen against the normal. -/
def lft (n p q x : V3 ℝ) : ℝ := V3.dot n (V3.cross (q - p) (x - p))

theorem dot_self_pos {n : V3 ℝ} (hn : n ≠ 0) : 0 < V3.dot n n := by
  have h0 : 0 ≤ V3.dot n n := by unfold V3.dot; nlinarith [mul_self_nonneg n.x, mul_self_nonneg n.y, mul_self_nonneg n.z]
  refine h0.lt_of_ne fun e => hn ?_
  unfold V3.dot at e
  have a := mul_self_nonneg n.x
  have b := mul_self_nonneg n.y
  have c := mul_self_nonneg n.z
  ext <;> simp <;> exact mul_self_eq_zero.1 (by linarith)

theorem cross_plane {n a b : V3 ℝ} (ha : V3.dot n a = 0) (hb : V3.dot n b = 0) : V3.dot n n • V3.cross a b = V3.dot n (V3.cross a b) • n := by
  unfold V3.dot at *
  ext <;> simp
  · linear_combination (n.y * b.z - n.z * b.y) * ha - (n.y * a.z - n.z * a.y) * hb
  · linear_combination (n.z * b.x - n.x * b.z) * ha - (n.z * a.x - n.x * a.z) * hb
  · linear_combination (n.x * b.y - n.y * b.x) * ha - (n.x * a.y - n.y * a.x) * hb

theorem dot_smul (n a : V3 ℝ) (k : ℝ) : V3.dot n (k • a) = k * V3.dot n a := by simp [V3.dot]; ring

theorem smul_dot (n a : V3 ℝ) (k : ℝ) : V3.dot (k • n) a = k * V3.dot n a := by simp [V3.dot]; ring

/-- A vector in the plane is zero if it is parallel to each side. -/
theorem eq_zero_of {n A B C d : V3 ℝ} (hn : n ≠ 0) (hS : lft n A B C ≠ 0) (hd : V3.dot n d = 0) (h1 : V3.dot n (V3.cross d (A - C)) = 0) (h2 : V3.dot n (V3.cross d (B - C)) = 0) :
    d = 0 := by
  have hp := dot_self_pos hn
  have hm : V3.cross n d = 0 := by
    have : lft n A B C • V3.cross n d = 0 := by
      unfold lft V3.dot at *
      simp at h1 h2 hd
      ext <;> simp only [V3.smul_x, V3.smul_y, V3.smul_z, V3.cross_x, V3.cross_y, V3.cross_z, V3.sub_x, V3.sub_y, V3.sub_z, V3.zero_x, V3.zero_y, V3.zero_z]
      · linear_combination ((B.y - C.y) * n.z - (B.z - C.z) * n.y) * h1 - ((A.y - C.y) * n.z - (A.z - C.z) * n.y) * h2
      · linear_combination ((B.z - C.z) * n.x - (B.x - C.x) * n.z) * h1 - ((A.z - C.z) * n.x - (A.x - C.x) * n.z) * h2
      · linear_combination ((B.x - C.x) * n.y - (B.y - C.y) * n.x) * h1 - ((A.x - C.x) * n.y - (A.y - C.y) * n.x) * h2
    exact (smul_eq_zero.1 this).resolve_left hS
  have e : V3.dot n n • d = 0 := by
    have hx := congrArg V3.x hm
    have hy := congrArg V3.y hm
    have hz := congrArg V3.z hm
    simp at hx hy hz
    unfold V3.dot at hd ⊢
    ext <;> simp only [V3.smul_x, V3.smul_y, V3.smul_z, V3.zero_x, V3.zero_y, V3.zero_z]
    · linear_combination n.x * hd + n.z * hy - n.y * hz
    · linear_combination n.y * hd + n.x * hz - n.z * hx
    · linear_combination n.z * hd + n.y * hx - n.x * hy
  exact (smul_eq_zero.1 e).resolve_left hp.ne'

theorem roots_finite {a b c : ℝ} (h : b ≠ 0 ∨ c ≠ 0) : {t : ℝ | a + b * t + c * t ^ 2 = 0}.Finite := by
  have hp : (Polynomial.C a + Polynomial.C b * Polynomial.X + Polynomial.C c * Polynomial.X ^ 2 : Polynomial ℝ) ≠ 0 := by
    intro e
    rcases h with h | h
    · have := congrArg (fun p => p.coeff 1) e
      simp [Polynomial.coeff_C] at this
      exact h this
    · have := congrArg (fun p => p.coeff 2) e
      simp at this
      exact h this
  refine (Polynomial.finite_setOfPred_isRoot hp).subset fun t ht => ?_
  simpa [Polynomial.IsRoot] using ht

/-- A point inside of the triangle that is not in line with the given point and one of finitely many points. -/
theorem exists_generic {n A B C : V3 ℝ} (y : V3 ℝ) (hn : n ≠ 0) (hS : lft n A B C ≠ 0) (vs : List (V3 ℝ)) :
    ∃ a b c : ℝ, 0 < a ∧ 0 < b ∧ 0 < c ∧ a + b + c = 1 ∧ ∀ v ∈ vs, v ≠ y → V3.dot n (v - y) = 0 →
      V3.dot n (V3.cross (v - y) (a • A + b • B + c • C - y)) ≠ 0 := by
  have key : ∀ v, v ≠ y → V3.dot n (v - y) = 0 → {t : ℝ | V3.dot n (V3.cross (v - y) (t • A + (t ^ 2) • B + (1 - t - t ^ 2) • C - y)) = 0}.Finite := by
    intro v hv hd
    refine (roots_finite (a := V3.dot n (V3.cross (v - y) (C - y))) (b := V3.dot n (V3.cross (v - y) (A - C))) (c := V3.dot n (V3.cross (v - y) (B - C))) ?_).subset fun t ht => ?_
    · by_contra hh
      push Not at hh
      exact hv (sub_eq_zero.1 (eq_zero_of hn hS hd hh.1 hh.2))
    · refine Eq.trans ?_ ht
      simp [V3.dot]; ring
  have fin : (⋃ v ∈ {v | v ∈ vs ∧ v ≠ y ∧ V3.dot n (v - y) = 0}, {t : ℝ | V3.dot n (V3.cross (v - y) (t • A + (t ^ 2) • B + (1 - t - t ^ 2) • C - y)) = 0}).Finite := by
    refine Set.Finite.biUnion (vs.finite_toSet.subset fun v hv => hv.1) fun v hv => key v hv.2.1 hv.2.2
  obtain ⟨t, ht, hnt⟩ := (Set.Ioo_infinite (show (0 : ℝ) < 1 / 2 by norm_num)).exists_notMem_finite fin
  refine ⟨t, t ^ 2, 1 - t - t ^ 2, ht.1, pow_pos ht.1 2, ?_, by ring, fun v hv hne hd h0 => hnt ?_⟩
  · have := ht.1; have := ht.2; nlinarith
  · exact Set.mem_biUnion (show v ∈ {v | v ∈ vs ∧ v ≠ y ∧ V3.dot n (v - y) = 0} from ⟨hv, hne, hd⟩) h0

/-- A face of the plane through `o` with the given front side. -/
def Coplanar (n o : V3 ℝ) (g : Face) : Prop := (∃ k : ℝ, 0 < k ∧ facet g.1 g.2.1 g.2.2 = k • n) ∧ V3.dot n (g.1 - o) = 0

/-- The point is to the left of each edge. -/
def Has (n : V3 ℝ) (g : Face) (x : V3 ℝ) : Prop := 0 ≤ lft n g.1 g.2.1 x ∧ 0 ≤ lft n g.2.1 g.2.2 x ∧ 0 ≤ lft n g.2.2 g.1 x

/-- The corners of the face, beginning with any of them. -/
def Rot (g : Face) (p q r : V3 ℝ) : Prop := g = (p, q, r) ∨ g = (r, p, q) ∨ g = (q, r, p)

theorem rot_self (g : Face) : Rot g g.1 g.2.1 g.2.2 := .inl rfl

theorem rot_next {g : Face} {p q r : V3 ℝ} (h : Rot g p q r) : Rot g q r p := by
  rcases h with h | h | h
  · exact .inr (.inl h)
  · exact .inr (.inr h)
  · exact .inl h

theorem rot_of_edge {g : Face} {p q : V3 ℝ} (h : (p, q) ∈ edges g) : ∃ r, Rot g p q r := by
  obtain ⟨a, b, c⟩ := g
  simp only [edges, List.mem_cons, Prod.mk.injEq, List.not_mem_nil, or_false] at h
  rcases h with ⟨rfl, rfl⟩ | ⟨rfl, rfl⟩ | ⟨rfl, rfl⟩
  · exact ⟨c, .inl rfl⟩
  · exact ⟨a, .inr (.inl rfl)⟩
  · exact ⟨b, .inr (.inr rfl)⟩

theorem edge_of_rot {g : Face} {p q r : V3 ℝ} (h : Rot g p q r) : (p, q) ∈ edges g := by
  rcases h with rfl | rfl | rfl <;> simp [edges]

theorem rot_facet {g : Face} {p q r : V3 ℝ} (h : Rot g p q r) : facet p q r = facet g.1 g.2.1 g.2.2 := by
  rcases h with rfl | rfl | rfl
  · rfl
  all_goals simp only [facet]; ext <;> simp <;> ring

theorem rot_side {g : Face} {p q r : V3 ℝ} (h : Rot g p q r) (x : V3 ℝ) : V3.dot (facet g.1 g.2.1 g.2.2) (x - g.1) = V3.dot (facet p q r) (x - p) := by
  rcases h with rfl | rfl | rfl
  · rfl
  all_goals simp [facet, V3.dot]; ring

theorem rot_has {n : V3 ℝ} {g : Face} {p q r x : V3 ℝ} (h : Rot g p q r) (h1 : 0 ≤ lft n p q x) (h2 : 0 ≤ lft n q r x) (h3 : 0 ≤ lft n r p x) : Has n g x := by
  rcases h with rfl | rfl | rfl
  · exact ⟨h1, h2, h3⟩
  · exact ⟨h3, h1, h2⟩
  · exact ⟨h2, h3, h1⟩

theorem rot_has' {n : V3 ℝ} {g : Face} {p q r x : V3 ℝ} (h : Rot g p q r) (hx : Has n g x) : 0 ≤ lft n p q x ∧ 0 ≤ lft n q r x ∧ 0 ≤ lft n r p x := by
  obtain ⟨h1, h2, h3⟩ := hx
  rcases h with rfl | rfl | rfl
  · exact ⟨h1, h2, h3⟩
  · exact ⟨h2, h3, h1⟩
  · exact ⟨h3, h1, h2⟩

theorem rot_corner {fs : List Face} {g : Face} {p q r : V3 ℝ} (hg : g ∈ fs) (h : Rot g p q r) : p ∈ corners fs := by
  refine ⟨g, hg, ?_⟩
  rcases h with rfl | rfl | rfl <;> simp

theorem coplanar_corner {n o : V3 ℝ} {g : Face} (hg : Coplanar n o g) {p q r : V3 ℝ} (h : Rot g p q r) : V3.dot n (p - o) = 0 := by
  obtain ⟨⟨k, hk, e⟩, h0⟩ := hg
  have e1 : V3.dot (facet g.1 g.2.1 g.2.2) (p - g.1) = 0 := by rw [rot_side h]; simp [V3.dot]
  rw [e, smul_dot] at e1
  have := (mul_eq_zero.1 e1).resolve_left hk.ne'
  unfold V3.dot at *
  simp at *
  linarith

theorem lft_cycle (n p q r : V3 ℝ) : lft n q r p = lft n p q r := by simp [lft, V3.dot]; ring

/-- The area of a face of the plane. -/
theorem area_pos {n o : V3 ℝ} (hn : n ≠ 0) {g : Face} (hg : Coplanar n o g) {p q r : V3 ℝ} (h : Rot g p q r) : 0 < lft n p q r := by
  obtain ⟨⟨k, hk, e⟩, _⟩ := hg
  have : lft n p q r = V3.dot n (facet p q r) := rfl
  rw [this, rot_facet h, e, dot_smul]
  exact mul_pos hk (dot_self_pos hn)

/-- The coordinates of a point of the plane. -/
theorem cramer {n o : V3 ℝ} {g : Face} (hg : Coplanar n o g) {p q r : V3 ℝ} (h : Rot g p q r) {x : V3 ℝ} (hx : V3.dot n (x - o) = 0) :
    lft n p q r • x = lft n q r x • p + lft n r p x • q + lft n p q x • r := by
  have hp := coplanar_corner hg h
  obtain ⟨⟨k, hk, e⟩, _⟩ := hg
  have hd : V3.dot (facet p q r) (x - p) = 0 := by
    rw [rot_facet h, e, smul_dot]
    have : V3.dot n (x - p) = 0 := by unfold V3.dot at *; simp at *; linarith
    rw [this, mul_zero]
  unfold lft V3.dot facet at *
  simp only [V3.cross_x, V3.cross_y, V3.cross_z, V3.sub_x, V3.sub_y, V3.sub_z] at hd
  ext <;> simp only [V3.smul_x, V3.smul_y, V3.smul_z, V3.cross_x, V3.cross_y, V3.cross_z, V3.sub_x, V3.sub_y, V3.sub_z, V3.add_x, V3.add_y, V3.add_z]
  · linear_combination n.x * hd
  · linear_combination n.y * hd
  · linear_combination n.z * hd

theorem lft_sum (n p q r x : V3 ℝ) : lft n q r x + lft n r p x + lft n p q x = lft n p q r := by simp [lft, V3.dot]; ring

theorem inTri_of {n o : V3 ℝ} (hn : n ≠ 0) {g : Face} (hg : Coplanar n o g) {x : V3 ℝ} (hx : V3.dot n (x - o) = 0) (h : Has n g x) : InTri g.tri x := by
  have hS := area_pos hn hg (rot_self g)
  have hc := cramer hg (rot_self g) hx
  have hs := lft_sum n g.1 g.2.1 g.2.2 x
  obtain ⟨h1, h2, h3⟩ := h
  refine ⟨lft n g.2.1 g.2.2 x / lft n g.1 g.2.1 g.2.2, lft n g.2.2 g.1 x / lft n g.1 g.2.1 g.2.2, lft n g.1 g.2.1 x / lft n g.1 g.2.1 g.2.2,
    by positivity, by positivity, by positivity, ?_, ?_⟩
  · rw [← add_div, ← add_div, hs, div_self hS.ne']
  · have e : x = (lft n g.1 g.2.1 g.2.2)⁻¹ • (lft n g.1 g.2.1 g.2.2 • x) := by rw [smul_smul, inv_mul_cancel₀ hS.ne', one_smul]
    refine e.trans ?_
    rw [hc]
    simp only [Face.tri, div_eq_inv_mul]
    ext <;> simp <;> ring

theorem lft_line (n p q y u : V3 ℝ) (s : ℝ) : lft n p q (y + s • u) = lft n p q y + s * V3.dot n (V3.cross (q - p) u) := by
  simp [lft, V3.dot]; ring

/-- An edge is used in the other direction by a face whose corners are different. -/
theorem partner {fs : List Face} (hw : Watertight fs) {g : Face} (hg : g ∈ fs) {p q : V3 ℝ} (he : (p, q) ∈ edges g) (hpq : p ≠ q)
    (hgn : ¬(g.1 = g.2.1 ∨ g.2.1 = g.2.2 ∨ g.2.2 = g.1)) :
    ∃ h ∈ fs, (q, p) ∈ edges h ∧ ¬(h.1 = h.2.1 ∨ h.2.1 = h.2.2 ∨ h.2.2 = h.1) := by
  classical
  by_contra hno
  push Not at hno
  let w : V3 ℝ → V3 ℝ → ℝ := fun x y => (if x = p ∧ y = q then (1 : ℝ) else 0) - if x = q ∧ y = p then (1 : ℝ) else 0
  have hwa : Anti w := by
    intro x y
    simp only [w]
    by_cases h1 : x = p <;> by_cases h2 : y = q <;> by_cases h3 : x = q <;> by_cases h4 : y = p <;> simp [h1, h2, h3, h4] <;> simp_all
  let bw : Face → ℝ := fun f => w f.1 f.2.1 + w f.2.1 f.2.2 + w f.2.2 f.1
  have hself : ∀ x, w x x = 0 := anti_self hwa
  have pos : ∀ x y, (x, y) ≠ (q, p) → 0 ≤ w x y := by
    intro x y h
    simp only [w]
    rw [if_neg (fun hh : x = q ∧ y = p => h (by rw [hh.1, hh.2]))]
    split_ifs <;> norm_num
  have one : w p q = 1 := by
    simp only [w]
    simp [hpq]
  have nn : ∀ h ∈ fs, 0 ≤ bw h := by
    intro h hh
    by_cases hd : (h.1 = h.2.1 ∨ h.2.1 = h.2.2 ∨ h.2.2 = h.1)
    · apply le_of_eq
      simp only [bw]
      rcases hd with e | e | e
      · rw [← e, hself, hwa h.1 h.2.2]; ring
      · rw [← e, hself, hwa h.1 h.2.1]; ring
      · rw [e, hself, hwa h.1 h.2.1]; ring
    · have hn : (q, p) ∉ edges h := fun hm => by
        have := hno h hh hm
        exact hd this
      simp only [edges, List.mem_cons, List.not_mem_nil, or_false, not_or] at hn
      exact add_nonneg (add_nonneg (pos _ _ (Ne.symm hn.1)) (pos _ _ (Ne.symm hn.2.1))) (pos _ _ (Ne.symm hn.2.2))
  have g1 : 1 ≤ bw g := by
    have hn : (q, p) ∉ edges g := fun hm => hgn (hno g hg hm)
    simp only [edges, List.mem_cons, List.not_mem_nil, or_false, not_or] at hn
    have p1 := pos _ _ (Ne.symm hn.1)
    have p2 := pos _ _ (Ne.symm hn.2.1)
    have p3 := pos _ _ (Ne.symm hn.2.2)
    simp only [edges, List.mem_cons, List.not_mem_nil, or_false, Prod.mk.injEq] at he
    simp only [bw]
    rcases he with ⟨e1, e2⟩ | ⟨e1, e2⟩ | ⟨e1, e2⟩
    · have : w g.1 g.2.1 = 1 := by rw [← e1, ← e2, one]
      linarith
    · have : w g.2.1 g.2.2 = 1 := by rw [← e1, ← e2, one]
      linarith
    · have : w g.2.2 g.1 = 1 := by rw [← e1, ← e2, one]
      linarith
  have tot : ∀ l : List Face, (∀ h ∈ l, 0 ≤ bw h) → 0 ≤ bsum w l ∧ (g ∈ l → 1 ≤ bsum w l) := by
    intro l
    induction l with
    | nil => intro _; exact ⟨le_of_eq bsum_nil.symm, fun h => absurd h (List.not_mem_nil)⟩
    | cons x l ih =>
      intro hl
      have i := ih fun h hh => hl h (List.mem_cons_of_mem _ hh)
      have x0 := hl x (List.mem_cons_self ..)
      have e : bsum w (x :: l) = bw x + bsum w l := bsum_cons _ _
      rw [e]
      refine ⟨add_nonneg x0 i.1, fun hm => ?_⟩
      rcases List.mem_cons.1 hm with rfl | hm
      · linarith [i.1]
      · linarith [i.2 hm]
  have := (tot fs nn).2 hg
  rw [watertight_bsum hwa hw] at this
  linarith

theorem step {a b : ℝ} (hb : 0 ≤ b) (h : 0 ≤ a ∨ 0 < b) : ∃ d, 0 < d ∧ d ≤ 1 ∧ ∀ e, 0 ≤ e → e ≤ d → 0 ≤ (1 - e) * b + e * a := by
  by_cases ha : 0 ≤ a
  · exact ⟨1, one_pos, le_refl _, fun e h0 h1 => add_nonneg (mul_nonneg (by linarith) hb) (mul_nonneg h0 ha)⟩
  · have hb' := h.resolve_left ha
    push Not at ha
    have hp : 0 < b - a := by linarith
    refine ⟨b / (b - a), by positivity, (div_le_one hp).2 (by linarith), fun e _ h1 => ?_⟩
    have := (le_div_iff₀ hp).1 h1
    linarith

/-- The part of the line from `y` that is in faces of the plane: closed. -/
theorem closed_hits (fs : List Face) (n o y u : V3 ℝ) : IsClosed {s : ℝ | ∃ g ∈ fs, Coplanar n o g ∧ Has n g (y + s • u)} := by
  have e : {s : ℝ | ∃ g ∈ fs, Coplanar n o g ∧ Has n g (y + s • u)} = ⋃ g ∈ {g | g ∈ fs ∧ Coplanar n o g}, {s : ℝ | Has n g (y + s • u)} := by
    ext s
    simp only [Set.mem_ofPred_eq, Set.mem_iUnion, exists_prop]
    constructor
    · rintro ⟨g, h1, h2, h3⟩; exact ⟨g, ⟨h1, h2⟩, h3⟩
    · rintro ⟨g, ⟨h1, h2⟩, h3⟩; exact ⟨g, h1, h2, h3⟩
  rw [e]
  refine Set.Finite.isClosed_biUnion (fs.finite_toSet.subset fun g hg => hg.1) fun g _ => ?_
  simp only [Has, lft_line]
  have c : ∀ a b : ℝ, IsClosed {s : ℝ | 0 ≤ a + s * b} := fun a b => isClosed_le continuous_const (by fun_prop)
  exact (c _ _).inter ((c _ _).inter (c _ _))

/-- Each point of the solid in the plane of a face is a point of a face in this plane. -/
theorem facet_cover {fs : List Face} (hw : Watertight fs) (hc : ConvexFaces fs) (hp : Proper fs) {f : Face} (hf : f ∈ fs)
    (hn : facet f.1 f.2.1 f.2.2 ≠ 0) (ht : ∃ p ∈ corners fs, V3.dot (facet f.1 f.2.1 f.2.2) (p - f.1) < 0) {y : V3 ℝ}
    (hy : ∀ g ∈ fs, V3.dot (facet g.1 g.2.1 g.2.2) (y - g.1) ≤ 0) (hy0 : V3.dot (facet f.1 f.2.1 f.2.2) (y - f.1) = 0) :
    ∃ g ∈ fs, Coplanar (facet f.1 f.2.1 f.2.2) f.1 g ∧ InTri g.tri y := by
  by_contra hno
  push Not at hno
  obtain ⟨w, hwc, hwn⟩ := ht
  have hcf := hc f hf
  generalize hfn : facet f.1 f.2.1 f.2.2 = n at *
  have hff : Coplanar n f.1 f := ⟨⟨1, one_pos, by rw [hfn, one_smul]⟩, by simp [V3.dot]⟩
  have hS := area_pos hn hff (rot_self f)
  have nn := dot_self_pos hn
  have hny : ∀ g ∈ fs, Coplanar n f.1 g → ¬ Has n g y := fun g hg h1 h2 => hno g hg h1 (inTri_of hn h1 hy0 h2)
  obtain ⟨a, b, c, ha, hb, hcc, hs1, hgen⟩ := exists_generic y hn hS.ne' (fs.flatMap fun g => [g.1, g.2.1, g.2.2])
  obtain rfl : a = 1 - b - c := by linarith
  generalize hu : (1 - b - c) • f.1 + b • f.2.1 + c • f.2.2 - y = u at *
  have hnu : V3.dot n u = 0 := by
    have h1 := coplanar_corner hff (rot_self f)
    have h2 := coplanar_corner hff (rot_next (rot_self f))
    have h3 := coplanar_corner hff (rot_next (rot_next (rot_self f)))
    rw [← hu]
    unfold V3.dot at *
    simp at *
    linear_combination b * h2 + c * h3 - hy0
  have line : ∀ s : ℝ, V3.dot n (y + s • u - f.1) = 0 := by
    intro s
    have : V3.dot n (y + s • u - f.1) = V3.dot n (y - f.1) + s * V3.dot n u := by simp [V3.dot]; ring
    rw [this, hy0, hnu]; ring
  -- the corners of faces in the plane are not on the line
  have off : ∀ g ∈ fs, Coplanar n f.1 g → ∀ p q r, Rot g p q r → ∀ s : ℝ, y + s • u ≠ p := by
    intro g hg hgc p q r hr s hs
    have hpy : p ≠ y := by
      rintro rfl
      refine hny g hg hgc (rot_has hr ?_ ?_ ?_)
      · simp [lft, V3.dot]
      · rw [lft_cycle]; exact (area_pos hn hgc hr).le
      · exact le_of_eq (by simp [lft, V3.dot]; ring)
    have hm : p ∈ fs.flatMap fun g => [g.1, g.2.1, g.2.2] := by
      refine List.mem_flatMap.2 ⟨g, hg, ?_⟩
      rcases hr with rfl | rfl | rfl <;> simp
    have h0 : V3.dot n (p - y) = 0 := by
      have := coplanar_corner hgc hr
      unfold V3.dot at *
      simp at *
      linarith
    refine hgen p hm hpy h0 ?_
    rw [← hs]
    simp [V3.dot]; ring
  -- the first point on a face
  obtain ⟨s0, ⟨⟨hs0, hs1'⟩, g, hg, hgc, hgz⟩, hmin⟩ := (isCompact_Icc.inter_right (closed_hits fs n f.1 y u)).exists_isLeast
    (s := Set.Icc (0 : ℝ) 1 ∩ {s : ℝ | ∃ g ∈ fs, Coplanar n f.1 g ∧ Has n g (y + s • u)}) ⟨1, ⟨zero_le_one, le_refl _⟩, f, hf, hff, by
      have e : y + (1 : ℝ) • u = (1 - b - c) • f.1 + b • f.2.1 + c • f.2.2 := by rw [← hu, one_smul]; abel
      rw [e]
      have e1 : lft n f.1 f.2.1 ((1 - b - c) • f.1 + b • f.2.1 + c • f.2.2) = c * lft n f.1 f.2.1 f.2.2 := by simp [lft, V3.dot]; ring
      have e2 : lft n f.2.1 f.2.2 ((1 - b - c) • f.1 + b • f.2.1 + c • f.2.2) = (1 - b - c) * lft n f.1 f.2.1 f.2.2 := by simp [lft, V3.dot]; ring
      have e3 : lft n f.2.2 f.1 ((1 - b - c) • f.1 + b • f.2.1 + c • f.2.2) = b * lft n f.1 f.2.1 f.2.2 := by simp [lft, V3.dot]; ring
      refine ⟨?_, ?_, ?_⟩
      · rw [e1]; positivity
      · rw [e2]; positivity
      · rw [e3]; positivity⟩
  have hs0' : 0 < s0 := by
    refine hs0.lt_of_ne fun e => ?_
    rw [← e, zero_smul, add_zero] at hgz
    exact hny g hg hgc hgz
  -- the line does not come from the inside of a face
  have back : ∀ t ∈ fs, Coplanar n f.1 t → ∀ p q r, Rot t p q r → 0 ≤ lft n p q (y + s0 • u) → 0 ≤ lft n q r (y + s0 • u) → 0 ≤ lft n r p (y + s0 • u) →
      (0 ≤ lft n p q y ∨ 0 < lft n p q (y + s0 • u)) → (0 ≤ lft n q r y ∨ 0 < lft n q r (y + s0 • u)) → (0 ≤ lft n r p y ∨ 0 < lft n r p (y + s0 • u)) → False := by
    intro t ht htc p q r hr z1 z2 z3 o1 o2 o3
    obtain ⟨d1, p1, l1, k1⟩ := step z1 o1
    obtain ⟨d2, p2, l2, k2⟩ := step z2 o2
    obtain ⟨d3, p3, l3, k3⟩ := step z3 o3
    let e := min d1 (min d2 d3)
    have e0 : 0 < e := lt_min p1 (lt_min p2 p3)
    have e1 : e ≤ d1 := min_le_left _ _
    have e2 : e ≤ d2 := (min_le_right _ _).trans (min_le_left _ _)
    have e3 : e ≤ d3 := (min_le_right _ _).trans (min_le_right _ _)
    have mid : ∀ p q, lft n p q (y + ((1 - e) * s0) • u) = (1 - e) * lft n p q (y + s0 • u) + e * lft n p q y := by
      intro p q; rw [lft_line, lft_line]; ring
    have := hmin (show (1 - e) * s0 ∈ _ from ⟨⟨mul_nonneg (by linarith) hs0, by nlinarith⟩, t, ht, htc,
      rot_has hr (by rw [mid]; exact k1 e e0.le e1) (by rw [mid]; exact k2 e e0.le e2) (by rw [mid]; exact k3 e e0.le e3)⟩)
    nlinarith
  -- an edge that is crossed into the face
  obtain ⟨p, q, r, hr, hpy, hpz⟩ : ∃ p q r, Rot g p q r ∧ lft n p q y < 0 ∧ lft n p q (y + s0 • u) = 0 := by
    by_contra hh
    push Not at hh
    have alt : ∀ p q r, Rot g p q r → 0 ≤ lft n p q (y + s0 • u) → (0 ≤ lft n p q y ∨ 0 < lft n p q (y + s0 • u)) := by
      intro p q r hr h0
      rcases le_or_gt 0 (lft n p q y) with h | h
      · exact .inl h
      · exact .inr (h0.lt_of_ne (Ne.symm (hh p q r hr h)))
    obtain ⟨z1, z2, z3⟩ := hgz
    exact back g hg hgc _ _ _ (rot_self g) z1 z2 z3 (alt _ _ _ (rot_self g) z1) (alt _ _ _ (rot_next (rot_self g)) z2) (alt _ _ _ (rot_next (rot_next (rot_self g))) z3)
  have hA := area_pos hn hgc hr
  have hz := cramer hgc hr (line s0)
  have hsum := lft_sum n p q r (y + s0 • u)
  obtain ⟨z1, z2, z3⟩ := rot_has' hr hgz
  rw [hpz, zero_smul, add_zero] at hz
  rw [hpz, add_zero] at hsum
  have cancel : ∀ x : V3 ℝ, lft n p q r • (y + s0 • u) = lft n p q r • x → y + s0 • u = x := by
    intro x h
    have : lft n p q r • (y + s0 • u - x) = 0 := by rw [smul_sub, h, sub_self]
    exact sub_eq_zero.1 ((smul_eq_zero.1 this).resolve_left hA.ne')
  have z2' : 0 < lft n q r (y + s0 • u) := by
    refine z2.lt_of_ne fun e => ?_
    rw [← e, zero_smul, zero_add] at hz
    rw [← e, zero_add] at hsum
    rw [hsum] at hz
    exact off g hg hgc _ _ _ (rot_next hr) s0 (cancel _ hz)
  have z3' : 0 < lft n r p (y + s0 • u) := by
    refine z3.lt_of_ne fun e => ?_
    rw [← e, zero_smul, add_zero] at hz
    rw [← e, add_zero] at hsum
    rw [hsum] at hz
    exact off g hg hgc _ _ _ hr s0 (cancel _ hz)
  have hne : ∀ {p q r : V3 ℝ}, Rot g p q r → p ≠ q := by
    rintro p q r hr rfl
    have := area_pos hn hgc hr
    simp [lft, V3.dot] at this
  -- the face on the other side of the edge
  obtain ⟨h, hh, heq, hnd⟩ := partner hw hg (edge_of_rot hr) (hne hr) (by
    rintro (e | e | e)
    · exact hne (rot_self g) e
    · exact hne (rot_next (rot_self g)) e
    · exact hne (rot_next (rot_next (rot_self g))) e)
  obtain ⟨r', hr'⟩ := rot_of_edge heq
  have hh0 := (hp h hh).resolve_left hnd
  rw [← rot_facet hr'] at hh0
  have hqo := coplanar_corner hgc (rot_next hr)
  have hpo := coplanar_corner hgc hr
  have hqp : V3.dot n (p - q) = 0 := by unfold V3.dot at *; simp at *; linarith
  have hR : V3.dot n (r' - q) = V3.dot n (r' - f.1) := by unfold V3.dot at *; simp at *; linarith
  rcases (hcf r' (rot_corner hh (rot_next (rot_next hr')))).lt_or_eq with hlt | heq0
  · -- another plane
    have hY : V3.dot n (y - q) = 0 := by unfold V3.dot at *; simp at *; linarith
    have hE : V3.dot n (q - p) = 0 := by unfold V3.dot at *; simp at *; linarith
    have hcp := cross_plane hE hY
    have hside := hy h hh
    rw [rot_side hr'] at hside
    have e1 : V3.dot (facet q p r') (y - q) = V3.dot (V3.cross (q - p) (y - q)) (r' - q) := by simp [facet, V3.dot]; ring
    have e2 : V3.dot n (V3.cross (q - p) (y - q)) = lft n p q y := by simp [lft, V3.dot]; ring
    have e3 : V3.dot n n * V3.dot (V3.cross (q - p) (y - q)) (r' - q) = lft n p q y * V3.dot n (r' - q) := by
      rw [← smul_dot, hcp, smul_dot, e2]
    rw [e1] at hside
    rw [← hR] at hlt
    have := mul_pos_of_neg_of_neg hpy hlt
    nlinarith
  · have hR0 : V3.dot n (r' - q) = 0 := by rw [hR, heq0]
    have hcp := cross_plane hqp hR0
    have hk : V3.dot n (V3.cross (p - q) (r' - q)) = lft n q p r' := rfl
    rw [hk] at hcp
    have hfac : facet q p r' = (lft n q p r' / V3.dot n n) • n := by
      have : V3.dot n n • facet q p r' = lft n q p r' • n := hcp
      rw [div_eq_inv_mul, mul_smul, ← this, smul_smul, inv_mul_cancel₀ nn.ne', one_smul]
    rcases lt_trichotomy (lft n q p r') 0 with hneg | h0 | hpos
    · -- the opposite side: the solid would be flat
      have hside := hc h hh w hwc
      rw [rot_side hr', hfac, smul_dot] at hside
      have : V3.dot n (w - q) < 0 := by unfold V3.dot at *; simp at *; linarith
      have := mul_pos_of_neg_of_neg (div_neg_of_neg_of_pos hneg nn) this
      linarith
    · rw [hfac, h0, zero_div, zero_smul] at hh0
      exact hh0 rfl
    · -- the same plane
      have hhc : Coplanar n f.1 h := by
        refine ⟨⟨_, div_pos hpos nn, by rw [← rot_facet hr', hfac]⟩, ?_⟩
        have : ∀ v, v = q ∨ v = p ∨ v = r' → V3.dot n (v - f.1) = 0 := by
          rintro v (rfl | rfl | rfl)
          · exact hqo
          · exact hpo
          · exact heq0
        apply this
        rcases hr' with rfl | rfl | rfl <;> simp
      have lin : ∀ a b, lft n p q r * lft n a b (y + s0 • u) = lft n q r (y + s0 • u) * lft n a b p + lft n r p (y + s0 • u) * lft n a b q := by
        intro a b
        have e : lft n p q r * lft n a b (y + s0 • u) = V3.dot n (V3.cross (b - a) (lft n p q r • (y + s0 • u) - lft n p q r • a)) := by
          generalize y + s0 • u = z
          simp [lft, V3.dot]; ring
        rw [e, hz, ← hsum]
        generalize lft n q r (y + s0 • u) = k1
        generalize lft n r p (y + s0 • u) = k2
        simp [lft, V3.dot]; ring
      have w1 : lft n q p (y + s0 • u) = 0 := by
        have : lft n q p (y + s0 • u) = -lft n p q (y + s0 • u) := by simp [lft, V3.dot]; ring
        rw [this, hpz, neg_zero]
      have w1' : 0 < lft n q p y := by
        have : lft n q p y = -lft n p q y := by simp [lft, V3.dot]; ring
        linarith
      have w2 : 0 < lft n p r' (y + s0 • u) := by
        have e := lin p r'
        have e0 : lft n p r' p = 0 := by simp [lft, V3.dot]
        rw [e0, lft_cycle n q p r', mul_zero, zero_add] at e
        have := mul_pos z3' hpos
        exact (pos_iff_pos_of_mul_pos (by rw [e]; exact this)).1 hA
      have w3 : 0 < lft n r' q (y + s0 • u) := by
        have e := lin r' q
        have e0 : lft n r' q q = 0 := by simp [lft, V3.dot]; ring
        have e1 : lft n r' q p = lft n q p r' := by rw [lft_cycle n p r' q, lft_cycle n q p r']
        rw [e0, e1, mul_zero, add_zero] at e
        have := mul_pos z2' hpos
        exact (pos_iff_pos_of_mul_pos (by rw [e]; exact this)).1 hA
      exact back h hh hhc q p r' hr' w1.ge w2.le w3.le (.inl w1'.le) (.inr w2) (.inr w3)

end Geom.Gen.Solid
