import Verif.Props.Cull
import Verif.Spec.ClipAgain

/-
  C112: clipping twice, and clipping by the flipped plane.
-/
set_option autoImplicit false
set_option linter.unusedSectionVars false

namespace Geom.Clip.Props
open Plane (Eqn Pl Relation)
open Triangle (Tri)

variable {K : Type} [Field K] [LinearOrder K] [IsStrictOrderedRing K]

/-- The relation to the flipped plane. -/
def other : Relation → Relation
  | .inFrontOf => .behind
  | .behind => .inFrontOf
  | r => r

theorem sgn_flip (eq : Eqn) (pl : Pl K) (x : V3 K) : Plane.sgnDistance eq (Plane.flip pl) x = -Plane.sgnDistance eq pl x := by
  cases eq <;> simp [Plane.sgnDistance, Plane.flip, V3.dot, Eqn.distanceSign] <;> ring

theorem relation_flip (eq : Eqn) (pl : Pl K) (x : V3 K) (eps : K) (heps : 0 ≤ eps) :
    Plane.relationPoint eq (Plane.flip pl) x eps = other (Plane.relationPoint eq pl x eps) := by
  simp only [Plane.relationPoint, sgn_flip]
  generalize Plane.sgnDistance eq pl x = d
  rcases lt_trichotomy d 0 with h | h | h
  · by_cases k : d < -eps
    · rw [if_pos (by linarith), if_neg (by linarith), if_pos k]; rfl
    · rw [if_neg (by linarith), if_neg (by linarith), if_neg (by linarith), if_neg k]; rfl
  · rw [if_neg (by linarith), if_neg (by linarith), if_neg (by linarith), if_neg (by linarith)]; rfl
  · by_cases k : d > eps
    · rw [if_neg (by linarith), if_pos (by linarith), if_pos k]; rfl
    · rw [if_neg (by linarith), if_neg (by linarith), if_neg k, if_neg (by linarith)]; rfl

theorem addVertex_swap (s : Poly K × Poly K) (v : V3 K) (r : Relation) :
    addVertex s.swap v (other r) = (addVertex s v r).map Prod.swap := by
  obtain ⟨f, b⟩ := s
  cases r
  case clipped => rfl
  all_goals simp only [addVertex, other, Poly.add, Prod.swap]
  all_goals split_ifs <;> rfl

theorem addCut_swap (nz nz' : Bool) (eq : Eqn) (pl : Pl K) (s : Poly K × Poly K) (i : ℕ) (r : Relation) (o d : V3 K) :
    addCut s.swap i (other r) (Plane.interp nz' eq (Plane.flip pl) o d) = (addCut s i r (Plane.interp nz eq pl o d)).map Prod.swap := by
  have hd : V3.dot (Plane.flip pl).normal d = -V3.dot pl.normal d := by simp [Plane.flip, V3.dot]; ring
  have hi : Plane.interp nz' eq (Plane.flip pl) o d = Plane.interp nz eq pl o d ∨
      ((Plane.interp nz' eq (Plane.flip pl) o d).ge 0 && (Plane.interp nz' eq (Plane.flip pl) o d).le 1) = false ∧
        ((Plane.interp nz eq pl o d).ge 0 && (Plane.interp nz eq pl o d).le 1) = false := by
    simp only [Plane.interp, sgn_flip, hd]
    by_cases h0 : V3.dot pl.normal d = 0
    · have no : ∀ (z : Bool) (a : K), ((Ext.div z a 0).ge 0 && (Ext.div z a 0).le 1) = false := by
        intro z a
        simp only [Ext.div, if_true]
        split_ifs <;> simp [Ext.ge, Ext.le]
      rw [h0, neg_zero]
      exact Or.inr ⟨no _ _, no _ _⟩
    · rw [Ext.div_ne h0, Ext.div_ne (neg_ne_zero.2 h0), neg_div_neg_eq]
      exact Or.inl rfl
  by_cases ho : r = .onto
  · subst ho; rfl
  have ho' : other r ≠ .onto := by revert ho; cases r <;> simp [other]
  simp only [addCut, ne_eq, ho, ho', not_false_eq_true, if_true]
  rcases hi with e | ⟨e, e'⟩
  · rw [e]
    by_cases h : ((Plane.interp nz eq pl o d).ge 0 && (Plane.interp nz eq pl o d).le 1) = true
    · rw [if_pos h, if_pos h]
      cases Plane.interp nz eq pl o d
      · exact addVertex_swap s _ .onto
      all_goals rfl
    · rw [if_neg h, if_neg h]; rfl
  · rw [if_neg (by simp [e]), if_neg (by simp [e'])]; rfl

theorem bind_swap {α β : Type} {g : α → α} {g' : β → β} (r : Res α) (k k' : α → Res β) (h : ∀ a, k' (g a) = (k a).map g') :
    (r.map g).bind k' = (r.bind k).map g' := by
  cases r
  · exact h _
  all_goals rfl

theorem edgeStep_swap (nz nz' : Bool) (eq : Eqn) (pl : Pl K) (t : Tri K) (rel : ℕ → Relation) (i : ℕ) (s : Poly K × Poly K) :
    edgeStep nz' eq (Plane.flip pl) t (fun j => other (rel j)) i s.swap = (edgeStep nz eq pl t rel i s).map Prod.swap := by
  simp only [edgeStep]
  rw [addCut_swap nz nz']
  refine bind_swap _ _ _ fun a => ?_
  split_ifs
  · exact addVertex_swap a _ _
  · rfl

/-- Clipping by the flipped plane: the polygons are swapped, if no corner is at the plane. -/
theorem clip_flip (nz nz' : ℕ → Bool) (eq : Eqn) (pl : Pl K) (t : Tri K) (eps : K) (heps : 0 ≤ eps)
    (h : ∀ x, (x = t.a ∨ x = t.b ∨ x = t.c) → Plane.relationPoint eq pl x eps ≠ .onto) :
    clipTriangle nz' eq (Plane.flip pl) t eps [] [] = (clipTriangle nz eq pl t eps [] []).map fun r => (other r.1, r.2.2, r.2.1) := by
  simp only [clipTriangle, relation_flip _ _ _ _ heps]
  have h0 := h (corner t 0) (Or.inl rfl)
  have h1 := h (corner t 1) (Or.inr (Or.inl rfl))
  have h2 := h (corner t 2) (Or.inr (Or.inr rfl))
  have hcl : ∀ x, Plane.relationPoint eq pl x eps ≠ .clipped := fun x => by
    simp only [Plane.relationPoint]; split_ifs <;> simp
  have ob : ∀ r : Relation, r ≠ .onto → r ≠ .clipped → (other r ≠ .behind ↔ ¬ r ≠ .behind) := by
    intro r; cases r <;> simp [other]
  have step : ∀ (i : ℕ) (s : Poly K × Poly K), edgeStep (nz' i) eq (Plane.flip pl) t (fun j => other (Plane.relationPoint eq pl (corner t j) eps)) i s.swap =
      (edgeStep (nz i) eq pl t (fun j => Plane.relationPoint eq pl (corner t j) eps) i s).map Prod.swap :=
    fun i s => edgeStep_swap _ _ _ _ _ _ _ _
  by_cases c1 : Plane.relationPoint eq pl (corner t 0) eps ≠ .behind ∧ Plane.relationPoint eq pl (corner t 1) eps ≠ .behind ∧
      Plane.relationPoint eq pl (corner t 2) eps ≠ .behind
  · rw [if_pos c1, if_neg (by rw [ob _ h0 (hcl _)]; exact fun h => h.1 c1.1), if_pos (by
      rw [ob _ h0 (hcl _), ob _ h1 (hcl _), ob _ h2 (hcl _)]; simpa using c1)]
    rfl
  by_cases c2 : ¬ Plane.relationPoint eq pl (corner t 0) eps ≠ .behind ∧ ¬ Plane.relationPoint eq pl (corner t 1) eps ≠ .behind ∧
      ¬ Plane.relationPoint eq pl (corner t 2) eps ≠ .behind
  · rw [if_neg c1, if_pos c2, if_pos (by rw [ob _ h0 (hcl _), ob _ h1 (hcl _), ob _ h2 (hcl _)]; exact c2)]
    rfl
  rw [if_neg c1, if_neg c2, if_neg (by rw [ob _ h0 (hcl _), ob _ h1 (hcl _), ob _ h2 (hcl _)]; exact c2), if_neg (by
    rw [ob _ h0 (hcl _), ob _ h1 (hcl _), ob _ h2 (hcl _)]; simpa using c1)]
  have e0 : addVertex ([], []) (bary 0) (other (Plane.relationPoint eq pl (corner t 0) eps)) =
      (addVertex (([], []) : Poly K × Poly K) (bary 0) (Plane.relationPoint eq pl (corner t 0) eps)).map Prod.swap :=
    addVertex_swap ([], []) _ _
  rw [e0]
  refine bind_swap _ _ _ fun s => ?_
  rw [step]
  refine bind_swap _ _ _ fun s => ?_
  rw [step]
  refine bind_swap _ _ _ fun s => ?_
  rw [step]
  refine bind_swap _ _ _ fun s => rfl

end Geom.Clip.Props

namespace Geom.TMesh
open Spec
open Plane (Eqn Pl Relation)
open Plane.Spec (side)
open Triangle (Tri)
open Triangle.Spec (InTri)

variable {K : Type} [Field K] [LinearOrder K] [IsStrictOrderedRing K]

/-- C112: the front part of a mesh is all in front of the plane: clipping it again changes only the sharing of vertices. -/
theorem C112_front (sz sz' : ℕ) (hsz : 0 < sz) (zero zero' : Vertex K) (nz nz' : ℕ → ℕ → Bool) (eq : Eqn) (pl : Pl K) (eps : K) (heps : 0 ≤ eps)
    (m front back front' back' f b : Mesh K) (hm : Valid m) (h : clipMesh sz zero nz eq pl eps m front back = .ok (f, b)) :
    ∃ f', clipMesh sz' zero' nz' eq pl eps f front' back' = .ok (f', Mesh.empty) ∧ Unshared f f' := by
  obtain ⟨f1, b1, parts, e, h1, -, h2, -⟩ := C27_partial sz hsz zero nz eq pl eps heps m front back hm
  rw [h] at e
  cases e
  refine ⟨_, ?_, soup_unshared f h1⟩
  unfold clipMesh
  rw [clipLoop_front sz' zero' nz' eq pl eps heps f (fun v hv => (h2 v hv).2) f.triangles h1]
  simp [clear, Mesh.empty]

/-- Values of `side` at a combination of points. -/
theorem side_combines (eq : Eqn) (pl : Pl K) (v a b c : Vertex K) (w : V3 K) (h : Combines v a b c w) (hw : w.x + w.y + w.z = 1) :
    side eq pl v.position = w.x * side eq pl a.position + w.y * side eq pl b.position + w.z * side eq pl c.position := by
  obtain ⟨h1, h2, h3, -⟩ := h
  cases eq
  · simp only [side, h1, h2, h3]; linear_combination pl.distance * hw
  · simp only [side, h1, h2, h3]; linear_combination -pl.distance * hw

/-- C112: clipping the back part again is defined; what then is given to the front is nearer to the plane than the tolerance.
What is missing from the property: that the front is empty, see `C112_back_refuted`. -/
theorem C112_back_partial (sz sz' : ℕ) (hsz : 0 < sz) (hsz' : 0 < sz') (zero zero' : Vertex K) (nz nz' : ℕ → ℕ → Bool) (eq : Eqn) (pl : Pl K)
    (eps : K) (heps : 0 ≤ eps) (m front back front' back' f b : Mesh K) (hm : Valid m)
    (h : clipMesh sz zero nz eq pl eps m front back = .ok (f, b)) :
    ∃ f' b', clipMesh sz' zero' nz' eq pl eps b front' back' = .ok (f', b') ∧ Valid f' ∧ Valid b' ∧
      ∀ v ∈ f'.vertices, |side eq pl v.position| ≤ eps := by
  obtain ⟨f1, b1, parts, e, -, h1, -, h2, -⟩ := C27_partial sz hsz zero nz eq pl eps heps m front back hm
  rw [h] at e
  cases e
  obtain ⟨f', b', parts', e, k1, k2, k3, -⟩ := C27_partial sz' hsz' zero' nz' eq pl eps heps b front' back' h1
  refine ⟨f', b', e, k1, k2, fun v hv => abs_le.2 ⟨(k3 v hv).2, ?_⟩⟩
  obtain ⟨t, -, x, y, z, w, hx, hy, hz, w0, w1, w2, hw, hc⟩ := (k3 v hv).1
  rw [side_combines eq pl v x y z w hc hw]
  have sx := (h2 x (List.mem_of_getElem? hx)).2
  have sy := (h2 y (List.mem_of_getElem? hy)).2
  have sz := (h2 z (List.mem_of_getElem? hz)).2
  have := add_le_add (add_le_add (mul_le_mul_of_nonneg_left sx w0) (mul_le_mul_of_nonneg_left sy w1)) (mul_le_mul_of_nonneg_left sz w2)
  rwa [← add_mul, ← add_mul, hw, one_mul] at this

theorem forall₂_mem {α β : Type} {R : α → β → Prop} {l : List α} {k : List β} (h : List.Forall₂ R l k) (b : β) (hb : b ∈ k) :
    ∃ a ∈ l, R a b := by
  induction h with
  | nil => simp at hb
  | cons h1 _ ih =>
    rcases List.mem_cons.1 hb with rfl | hb
    · exact ⟨_, List.mem_cons_self .., h1⟩
    · obtain ⟨a, ha, h⟩ := ih hb
      exact ⟨a, List.mem_cons_of_mem _ ha, h⟩

theorem side_inTri (eq : Eqn) (pl : Pl K) (t : Tri K) (x : V3 K) (k : K) (h : InTri t x) (ha : side eq pl t.a = k) (hb : side eq pl t.b = k)
    (hc : side eq pl t.c = k) : side eq pl x = k := by
  obtain ⟨u, v, w, hu, hv, hw, hs, rfl⟩ := h
  cases eq
  · simp only [side] at *; vec_simp; linear_combination u * ha + v * hb + w * hc + (k + pl.distance) * hs
  · simp only [side] at *; vec_simp; linear_combination u * ha + v * hb + w * hc + (k - pl.distance) * hs

theorem area_flat (eq : Eqn) (pl : Pl K) (a b c : V3 K) (ha : side eq pl a = 0) (hb : side eq pl b = 0) (hc : side eq pl c = 0) :
    V3.cross (Clip.Spec.area a b c) pl.normal = 0 := by
  have h1 : pl.normal.x * (b.x - a.x) + pl.normal.y * (b.y - a.y) + pl.normal.z * (b.z - a.z) = 0 := by
    cases eq <;> simp only [side] at * <;> linear_combination hb - ha
  have h2 : pl.normal.x * (c.x - a.x) + pl.normal.y * (c.y - a.y) + pl.normal.z * (c.z - a.z) = 0 := by
    cases eq <;> simp only [side] at * <;> linear_combination hc - ha
  apply V3.ext <;> simp only [Clip.Spec.area, V3.cross] <;> vec_simp
  · linear_combination (c.x - a.x) * h1 - (b.x - a.x) * h2
  · linear_combination (c.y - a.y) * h1 - (b.y - a.y) * h2
  · linear_combination (c.z - a.z) * h1 - (b.z - a.z) * h2

/-- If the area vector is parallel to the normal, and not zero, the corners have the same distance to the plane. -/
theorem flat_of_area (eq : Eqn) (pl : Pl K) (a b c : V3 K) (h0 : Clip.Spec.area a b c ≠ 0) (h : V3.cross (Clip.Spec.area a b c) pl.normal = 0) :
    side eq pl b = side eq pl a ∧ side eq pl c = side eq pl a := by
  have hb : V3.dot (Clip.Spec.area a b c) (b - a) = 0 := by simp only [Clip.Spec.area, V3.cross, V3.dot]; vec_simp; ring
  have hc : V3.dot (Clip.Spec.area a b c) (c - a) = 0 := by simp only [Clip.Spec.area, V3.cross, V3.dot]; vec_simp; ring
  have key : ∀ u : V3 K, V3.dot (Clip.Spec.area a b c) u = 0 → pl.normal.x * u.x + pl.normal.y * u.y + pl.normal.z * u.z = 0 := by
    generalize Clip.Spec.area a b c = w at h0 h
    intro u hu
    simp only [V3.cross, V3.ext_iff] at h
    obtain ⟨e1, e2, e3⟩ := h
    simp only [V3.dot] at hu
    simp only [V3.zero_x, V3.zero_y, V3.zero_z] at e1 e2 e3
    have hw : w.x * w.x + w.y * w.y + w.z * w.z ≠ 0 := by
      intro hw
      refine h0 (V3.ext ?_ ?_ ?_) <;> simp only [V3.zero_x, V3.zero_y, V3.zero_z] <;> nlinarith [mul_self_nonneg w.x, mul_self_nonneg w.y, mul_self_nonneg w.z]
    refine (mul_eq_zero.1 ?_).resolve_left hw
    linear_combination (w.x * pl.normal.x + w.y * pl.normal.y + w.z * pl.normal.z) * hu - (w.z * u.y - w.y * u.z) * e1 - (w.x * u.z - w.z * u.x) * e2 - (w.y * u.x - w.x * u.y) * e3
  have k1 := key _ hb
  have k2 := key _ hc
  simp only [V3.sub_x, V3.sub_y, V3.sub_z] at k1 k2
  cases eq <;> simp only [side] <;> exact ⟨by linear_combination k1, by linear_combination k2⟩

/-- The corners of a triangle of a mesh with valid indices are vertices. -/
theorem posAt_mem (m : Mesh K) (hm : Valid m) (t : Ix) (ht : t ∈ m.triangles) (i : Fin 3) : ∃ v ∈ m.vertices, posAt m (corner t i) = v.position := by
  obtain ⟨v, hv, -⟩ := getR_lt _ _ (hm t ht i)
  exact ⟨v, List.mem_of_getElem? hv, by simp [posAt, hv]⟩

/-- C112: without a tolerance the triangles which the second clipping gives to the front have no area, and those given to the back
have the areas of the triangles of the back part. -/
theorem C112_back_exact (sz sz' : ℕ) (hsz : 0 < sz) (hsz' : 0 < sz') (zero zero' : Vertex K) (nz nz' : ℕ → ℕ → Bool) (eq : Eqn) (pl : Pl K)
    (m front back front' back' f b : Mesh K) (hm : Valid m) (h : clipMesh sz zero nz eq pl 0 m front back = .ok (f, b)) :
    ∃ f' b' parts, clipMesh sz' zero' nz' eq pl 0 b front' back' = .ok (f', b') ∧ (∀ x ∈ f'.triangles, triArea f' x = 0) ∧
      b'.triangles = parts.flatten ∧
      List.Forall₂ (fun t p => (∀ x ∈ p, InsideOf b b' t x) ∧ (p.map (triArea b')).sum = triArea b t) b.triangles parts := by
  obtain ⟨f1, b1, parts, e, -, h1, -, h2, -, h3, h4⟩ := C27_partial sz hsz zero nz eq pl 0 le_rfl m front back hm
  rw [h] at e
  cases e
  obtain ⟨f', b', parts', e, k1, k2, k3, -, k4, k5, k6⟩ := C27_partial sz' hsz' zero' nz' eq pl 0 le_rfl b front' back' h1
  have flat : ∀ v ∈ f'.vertices, side eq pl v.position = 0 := by
    obtain ⟨f'', b'', e', -, -, hh⟩ := C112_back_partial sz sz' hsz hsz' zero zero' nz nz' eq pl 0 le_rfl m front back front' back' f b hm h
    rw [e] at e'
    cases e'
    exact fun v hv => abs_nonpos_iff.1 (hh v hv)
  have zero_area : ∀ x ∈ f'.triangles, triArea f' x = 0 := by
    intro x hx
    by_contra hx0
    have hp := fun i => posAt_mem f' k1 x hx i
    have hx' := hx
    rw [k4] at hx'
    obtain ⟨l, hl, hxl⟩ := List.mem_flatten.1 hx'
    obtain ⟨p, hp', rfl⟩ := List.mem_map.1 hl
    obtain ⟨t, ht, k, -, -, ⟨hr, -⟩, -⟩ := forall₂_mem k6 p hp'
    obtain ⟨hin, l1, -, hl1⟩ := hr x hxl
    have ht' := ht
    rw [h3] at ht'
    obtain ⟨q, hq, htq⟩ := List.mem_flatten.1 ht'
    obtain ⟨q, hq', rfl⟩ := List.mem_map.1 hq
    obtain ⟨t0, ht0, k', -, -, ⟨-, hr', -⟩, hs, -⟩ := forall₂_mem h4 q hq'
    obtain ⟨hin', l2, -, hl2⟩ := hr' t htq
    rw [hl2, smul_smul] at hl1
    have s0 : ∀ i, side eq pl (posAt f' (corner x i)) = 0 := fun i => by
      obtain ⟨v, hv, e⟩ := hp i
      rw [e]; exact flat v hv
    have hfl := area_flat eq pl _ _ _ (s0 0) (s0 1) (s0 2)
    have hfl' : V3.cross (triArea f' x) pl.normal = 0 := hfl
    rw [hl1] at hfl' hx0
    have hl0 : l1 * l2 ≠ 0 := by rintro e; rw [e] at hx0; exact hx0 (zero_smul _ _)
    have ha0 : triArea m t0 ≠ 0 := by rintro e; rw [e] at hx0; exact hx0 (smul_zero _)
    have hcr : V3.cross (triArea m t0) pl.normal = 0 := by
      have : V3.cross ((l1 * l2) • triArea m t0) pl.normal = (l1 * l2) • V3.cross (triArea m t0) pl.normal := by
        apply V3.ext <;> simp only [V3.cross] <;> vec_simp <;> ring
      rw [this] at hfl'
      exact (smul_eq_zero.1 hfl').resolve_left hl0
    obtain ⟨g1, g2⟩ := flat_of_area eq pl _ _ _ ha0 hcr
    have c1 : ∀ i, side eq pl (posAt b (corner t i)) = side eq pl (posAt m t0.a) := fun i => side_inTri eq pl _ _ _ (hin' i) rfl g1 g2
    have c2 : side eq pl (posAt f' (corner x 0)) = side eq pl (posAt m t0.a) := side_inTri eq pl _ _ _ (hin 0) (c1 0) (c1 1) (c1 2)
    rw [s0 0] at c2
    have : q.2 = [] := hs (by
      intro i
      fin_cases i
      · exact neg_zero.le.trans c2.le
      · exact neg_zero.le.trans (c2.le.trans g1.symm.le)
      · exact neg_zero.le.trans (c2.le.trans g2.symm.le))
    rw [this] at htq
    simp at htq
  refine ⟨f', b', parts'.map Prod.snd, e, zero_area, k5, ?_⟩
  have sub : ∀ p ∈ parts', ∀ x ∈ p.1, x ∈ f'.triangles := fun p hp x hx => by
    rw [k4]; exact List.mem_flatten.2 ⟨_, List.mem_map_of_mem hp, hx⟩
  clear k4 k5 h4
  revert sub
  generalize b.triangles = ts at k6
  induction k6 with
  | nil => exact fun _ => .nil
  | @cons t p ts parts' h h' ih =>
    intro sub
    refine .cons ?_ (ih fun p hp => sub p (List.mem_cons_of_mem _ hp))
    obtain ⟨k, -, hk, ⟨-, hr, hs⟩, -⟩ := h
    refine ⟨fun x hx => (hr x hx).1, ?_⟩
    rw [hk fun i h1 h2 => le_antisymm h2 (by simpa using h1), one_smul, List.map_eq_map_iff.2 fun x hx => zero_area x (sub p (List.mem_cons_self ..) x hx)] at hs
    simpa using hs

/-! Clipping by the flipped plane. -/

theorem clipOne_flip (sz : ℕ) (zero : Vertex K) (nz nz' : ℕ → Bool) (eq : Eqn) (pl : Pl K) (eps : K) (heps : 0 ≤ eps) (m : Mesh K) (k : ℕ) (t : Ix)
    (s r : Mesh K × Mesh K) (h : ∀ i, eps < |side eq pl (posAt m (corner t i))|) (e : clipOne sz zero nz eq pl eps m k t s = .ok r) :
    clipOne sz zero nz' eq (Plane.flip pl) eps m k t s.swap = .ok r.swap := by
  unfold clipOne at e ⊢
  obtain ⟨⟨a, b, c⟩, hc, e⟩ := Res.bind_eq_ok.1 e
  rw [hc, Res.bind_ok]
  simp only [corners] at hc
  obtain ⟨a', ha, hc⟩ := Res.bind_eq_ok.1 hc
  obtain ⟨b', hb, hc⟩ := Res.bind_eq_ok.1 hc
  obtain ⟨c', hc', hc⟩ := Res.bind_eq_ok.1 hc
  simp only [Res.ok.injEq, Prod.mk.injEq] at hc
  obtain ⟨rfl, rfl, rfl⟩ := hc
  have pa : posAt m (corner t 0) = a'.position := by simp [posAt, corner, (getR_ok _ _ _).1 ha]
  have pb : posAt m (corner t 1) = b'.position := by simp [posAt, corner, (getR_ok _ _ _).1 hb]
  have pc : posAt m (corner t 2) = c'.position := by simp [posAt, corner, (getR_ok _ _ _).1 hc']
  simp only at e ⊢
  rw [Clip.Props.clip_flip nz nz' eq pl _ eps heps]
  · obtain ⟨⟨rel, fp, bp⟩, hr, e⟩ := Res.bind_eq_ok.1 e
    rw [hr]
    simp only [Res.map, Res.bind_ok]
    cases rel
    case inFrontOf => simp only [Clip.Props.other, Res.ok.injEq] at e ⊢; rw [← e]; rfl
    case behind => simp only [Clip.Props.other, Res.ok.injEq] at e ⊢; rw [← e]; rfl
    case onto => simp only [Clip.Props.other, Res.ok.injEq] at e ⊢; rw [← e]
    case clipped =>
      simp only [Clip.Props.other] at e ⊢
      obtain ⟨f, hf, e⟩ := Res.bind_eq_ok.1 e
      obtain ⟨b, hb, e⟩ := Res.bind_eq_ok.1 e
      simp only [Prod.fst_swap, Prod.snd_swap, hb, hf, Res.bind_ok]
      simp only [Res.ok.injEq] at e ⊢; rw [← e]; rfl
  · have far : ∀ x, eps < |side eq pl x| → Plane.relationPoint eq pl x eps ≠ .onto := by
      intro x hx
      simp only [Plane.relationPoint, Plane.Props.sgnDistance_eq]
      rcases lt_abs.1 hx with h | h
      · rw [if_pos h]; simp
      · rw [if_neg (by linarith), if_pos (by linarith)]; simp
    rintro x (rfl | rfl | rfl)
    · exact far _ (pa ▸ h 0)
    · exact far _ (pb ▸ h 1)
    · exact far _ (pc ▸ h 2)

theorem clipLoop_flip (sz : ℕ) (zero : Vertex K) (nz nz' : ℕ → ℕ → Bool) (eq : Eqn) (pl : Pl K) (eps : K) (heps : 0 ≤ eps) (m : Mesh K)
    (l : List Ix) (h : ∀ t ∈ l, ∀ i, eps < |side eq pl (posAt m (corner t i))|) (k : ℕ) (s r : Mesh K × Mesh K)
    (e : clipLoop sz zero nz eq pl eps m k l s = .ok r) : clipLoop sz zero nz' eq (Plane.flip pl) eps m k l s.swap = .ok r.swap := by
  induction l generalizing k s with
  | nil => simp only [clipLoop, Res.ok.injEq] at e ⊢; rw [e]
  | cons t l ih =>
    simp only [clipLoop] at e ⊢
    obtain ⟨q, hq, e⟩ := Res.bind_eq_ok.1 e
    rw [clipOne_flip sz zero (nz k) (nz' k) eq pl eps heps m k t s q (h t (List.mem_cons_self ..)) hq, Res.bind_ok]
    exact ih (fun t ht => h t (List.mem_cons_of_mem _ ht)) _ _ e

/-- C112: if no corner is nearer to the plane than the tolerance, the flipped plane gives the same two meshes in the other order. -/
theorem C112_flip (sz : ℕ) (zero : Vertex K) (nz nz' : ℕ → ℕ → Bool) (eq : Eqn) (pl : Pl K) (eps : K) (heps : 0 ≤ eps)
    (m front back front' back' f b : Mesh K) (h : ∀ t ∈ m.triangles, ∀ i, eps < |side eq pl (posAt m (corner t i))|)
    (e : clipMesh sz zero nz eq pl eps m front back = .ok (f, b)) :
    clipMesh sz zero nz' eq (Plane.flip pl) eps m front' back' = .ok (b, f) :=
  clipLoop_flip sz zero nz nz' eq pl eps heps m m.triangles h 0 (clear front, clear back) (f, b) e

/-! Repeated clipping of the back part. -/

section growth
open Clip (clipTriangle)

theorem clip_touching (nz : ℕ → Bool) (eq : Eqn) (pl : Pl K) (t : Tri K) (eps : K) (heps : 0 ≤ eps) (ha : side eq pl t.a = 0)
    (hb : side eq pl t.b < -eps) (hc : side eq pl t.c < -eps) :
    clipTriangle nz eq pl t eps [] [] = .ok (.clipped, [⟨1, 0, 0⟩, ⟨1, 0, 0⟩], [⟨1, 0, 0⟩, ⟨1, 0, 0⟩, ⟨0, 1, 0⟩, ⟨0, 0, 1⟩]) := by
  have hd : ∀ x y : V3 K, V3.dot pl.normal (y - x) = side eq pl y - side eq pl x := fun x y => by
    cases eq <;> simp only [side, V3.dot] <;> vec_simp <;> ring
  have r0 : Plane.relationPoint eq pl t.a eps = .onto := by
    simp only [Plane.relationPoint, Plane.Props.sgnDistance_eq, ha]; rw [if_neg (by linarith), if_neg (by linarith)]
  have r1 : Plane.relationPoint eq pl t.b eps = .behind := by
    simp only [Plane.relationPoint, Plane.Props.sgnDistance_eq]; rw [if_neg (by linarith), if_pos hb]
  have r2 : Plane.relationPoint eq pl t.c eps = .behind := by
    simp only [Plane.relationPoint, Plane.Props.sgnDistance_eq]; rw [if_neg (by linarith), if_pos hc]
  have i0 : ∀ z, Plane.interp z eq pl t.a (t.b - t.a) = .fin 0 := fun z => by
    simp only [Plane.interp, Plane.Props.sgnDistance_eq, hd, ha]
    rw [Ext.div_ne (by linarith), neg_zero, zero_div]
  have i1 : ∀ z, ((Plane.interp z eq pl t.b (t.c - t.b)).ge 0 && (Plane.interp z eq pl t.b (t.c - t.b)).le 1) = false := fun z => by
    simp only [Plane.interp, Plane.Props.sgnDistance_eq, hd]
    rcases lt_trichotomy (side eq pl t.c - side eq pl t.b) 0 with h | h | h
    · rw [Ext.div_ne h.ne]
      have : -side eq pl t.b / (side eq pl t.c - side eq pl t.b) < 0 := div_neg_of_pos_of_neg (by linarith) h
      simp [Ext.ge, Ext.le, this.not_ge]
    · rw [h]
      simp only [Ext.div, if_true]
      split_ifs <;> simp [Ext.ge, Ext.le]
    · rw [Ext.div_ne h.ne']
      have : 1 < -side eq pl t.b / (side eq pl t.c - side eq pl t.b) := (one_lt_div h).2 (by linarith)
      simp [Ext.ge, Ext.le, this.not_ge]
  have g0 : (Ext.fin (0 : K)).ge 0 = true := by simp [Ext.ge]
  have g1 : (Ext.fin (0 : K)).le 1 = true := by simp [Ext.le]
  simp [-Bool.and_eq_true, clipTriangle, Clip.corner, r0, r1, r2, Clip.edgeStep, Clip.addCut, i0, i1, g0, g1, Clip.addVertex, Clip.Poly.add, Clip.bary,
    Clip.cutPoint]

theorem clip_edge (nz : ℕ → Bool) (eq : Eqn) (pl : Pl K) (t : Tri K) (eps : K) (heps : 0 ≤ eps) (ha : side eq pl t.a = 0)
    (hb : side eq pl t.b = 0) (hc : side eq pl t.c < -eps) :
    clipTriangle nz eq pl t eps [] [] =
      .ok (.clipped, [⟨1, 0, 0⟩, ⟨0, 1, 0⟩, ⟨0, 1, 0⟩], [⟨1, 0, 0⟩, ⟨0, 1, 0⟩, ⟨0, 1, 0⟩, ⟨0, 0, 1⟩]) := by
  have hd : ∀ x y : V3 K, V3.dot pl.normal (y - x) = side eq pl y - side eq pl x := fun x y => by
    cases eq <;> simp only [side, V3.dot] <;> vec_simp <;> ring
  have on : ∀ x, side eq pl x = 0 → Plane.relationPoint eq pl x eps = .onto := fun x hx => by
    simp only [Plane.relationPoint, Plane.Props.sgnDistance_eq, hx]; rw [if_neg (by linarith), if_neg (by linarith)]
  have r2 : Plane.relationPoint eq pl t.c eps = .behind := by
    simp only [Plane.relationPoint, Plane.Props.sgnDistance_eq]; rw [if_neg (by linarith), if_pos hc]
  have i1 : ∀ z, Plane.interp z eq pl t.b (t.c - t.b) = .fin 0 := fun z => by
    simp only [Plane.interp, Plane.Props.sgnDistance_eq, hd, hb]
    rw [Ext.div_ne (by linarith), neg_zero, zero_div]
  simp [clipTriangle, Clip.corner, on _ ha, on _ hb, r2, Clip.edgeStep, Clip.addCut, i1, Clip.addVertex, Clip.Poly.add, Clip.bary, Clip.cutPoint, Ext.ge, Ext.le]

/-- The triangles which come from a triangle that touches the plane from behind with its first corner. -/
inductive Kind
  | tri
  | edge
  | point

/-- Their corners. -/
def Kind.at (t : Tri K) : Kind → Tri K
  | .tri => t
  | .edge => ⟨t.a, t.a, t.b⟩
  | .point => ⟨t.a, t.a, t.a⟩

/-- What remains of them behind the plane. -/
def Kind.step : Kind → List Kind
  | .tri => [.edge, .tri]
  | .edge => [.point, .edge]
  | .point => []

/-- The positions of the corners of a triangle of a mesh. -/
def placeTri (m : Mesh K) (t : Ix) : Tri K := ⟨posAt m t.a, posAt m t.b, posAt m t.c⟩

theorem placeTri_append (vs ws : List (Vertex K)) (ts us : List Ix) (x : Ix) (h : x.a < vs.length ∧ x.b < vs.length ∧ x.c < vs.length) :
    placeTri ⟨vs ++ ws, us⟩ x = placeTri ⟨vs, ts⟩ x := by
  simp only [placeTri]
  rw [posAt_append vs ws ts us _ h.1, posAt_append vs ws ts us _ h.2.1, posAt_append vs ws ts us _ h.2.2]

theorem fan4_tris (vs : List (Vertex K)) (a b c d : Vertex K) (ts : List Ix) :
    (fanIx vs.length 4).map (placeTri ⟨vs ++ [a, b, c, d], ts⟩) =
      [⟨a.position, b.position, c.position⟩, ⟨a.position, c.position, d.position⟩] := by
  have p := fun i v h => posAt_right vs [a, b, c, d] ts i v h
  have p0 := p 0 a rfl
  have p1 := p 1 b rfl
  have p2 := p 2 c rfl
  have p3 := p 3 d rfl
  rw [Nat.add_zero] at p0
  simp [fanIx, placeTri, p0, p1, p2, p3, List.range_succ]

theorem clipOne_kind (sz : ℕ) (hsz : 0 < sz) (zero : Vertex K) (nz : ℕ → Bool) (eq : Eqn) (pl : Pl K) (eps : K) (heps : 0 ≤ eps) (T : Tri K)
    (ha : side eq pl T.a = 0) (hb : side eq pl T.b < -eps) (hc : side eq pl T.c < -eps)
    (m : Mesh K) (hm : Valid m) (i : ℕ) (t : Ix) (hi : m.triangles[i]? = some t) (k : Kind) (hk : placeTri m t = k.at T) (s : Mesh K × Mesh K) :
    ∃ f vb tb, clipOne sz zero nz eq pl eps m i t s = .ok (f, ⟨s.2.vertices ++ vb, s.2.triangles ++ tb⟩) ∧
      (∀ x ∈ tb, x.a < (s.2.vertices ++ vb).length ∧ x.b < (s.2.vertices ++ vb).length ∧ x.c < (s.2.vertices ++ vb).length) ∧
      tb.map (placeTri ⟨s.2.vertices ++ vb, s.2.triangles ++ tb⟩) = k.step.map fun k => k.at T := by
  obtain ⟨h0, h1, h2⟩ := (valid_iff m).1 hm t (List.mem_of_getElem? hi)
  obtain ⟨a, h0, h0'⟩ := getR_lt _ _ h0
  obtain ⟨b, h1, h1'⟩ := getR_lt _ _ h1
  obtain ⟨c, h2, h2'⟩ := getR_lt _ _ h2
  have hcor : corners m t = .ok (a, b, c) := by simp [corners, h0', h1', h2', Res.bind]
  have pt : (⟨a.position, b.position, c.position⟩ : Tri K) = k.at T := by
    rw [← hk]; simp [placeTri, posAt, h0, h1, h2]
  have hbc : ∀ w, ∃ v, barycentric sz zero m i w = .ok v ∧ Combines v a b c w :=
    fun w => C41_barycentric sz hsz zero m i t a b c w hi h0 h1 h2
  choose g hg1 hg2 using hbc
  have gp : ∀ w, (g w).position = (k.at T).toCartesian w := fun w => by rw [combines_pos _ _ _ _ _ (hg2 w), pt]
  have c0 : ∀ x : Tri K, x.toCartesian ⟨1, 0, 0⟩ = x.a := fun x => by apply V3.ext <;> simp [Tri.toCartesian]
  have c1 : ∀ x : Tri K, x.toCartesian ⟨0, 1, 0⟩ = x.b := fun x => by apply V3.ext <;> simp [Tri.toCartesian]
  have c2 : ∀ x : Tri K, x.toCartesian ⟨0, 0, 1⟩ = x.c := fun x => by apply V3.ext <;> simp [Tri.toCartesian]
  unfold clipOne
  rw [hcor, Res.bind_ok]
  simp only [pt]
  cases k
  · rw [Kind.at, clip_touching nz eq pl T eps heps ha hb hc]
    simp only [Res.bind_ok]
    rw [addFan_eq _ g s.1 _ (by simp) fun v _ => hg1 v, Res.bind_ok, addFan_eq _ g s.2 _ (by simp) fun v _ => hg1 v, Res.bind_ok]
    refine ⟨_, _, _, rfl, by simpa using fanIx_range s.2.vertices.length 4, ?_⟩
    simp only [List.map_cons, List.map_nil, List.length_cons, List.length_nil, Nat.zero_add, Nat.reduceAdd, fan4_tris, gp, c0, c1, c2]
    rfl
  · rw [Kind.at, clip_edge nz eq pl ⟨T.a, T.a, T.b⟩ eps heps ha ha hb]
    simp only [Res.bind_ok]
    rw [addFan_eq _ g s.1 _ (by simp) fun v _ => hg1 v, Res.bind_ok, addFan_eq _ g s.2 _ (by simp) fun v _ => hg1 v, Res.bind_ok]
    refine ⟨_, _, _, rfl, by simpa using fanIx_range s.2.vertices.length 4, ?_⟩
    simp only [List.map_cons, List.map_nil, List.length_cons, List.length_nil, Nat.zero_add, Nat.reduceAdd, fan4_tris, gp, c0, c1, c2]
    rfl
  · rcases Clip.Props.clip_cases nz eq pl (Kind.at T .point) eps heps with ⟨e, -⟩ | ⟨-, h⟩ | ⟨f, b, -, ⟨x, hx, h⟩, -⟩
    · rw [e]
      exact ⟨addTriCopy s.1 a b c, [], [], by simp [Res.bind], by simp, rfl⟩
    · have := h T.a (Or.inl rfl); linarith
    · have : x = T.a := by rcases hx with h | h | h <;> exact h
      rw [this] at h; linarith

theorem clipLoop_kind (sz : ℕ) (hsz : 0 < sz) (zero : Vertex K) (nz : ℕ → ℕ → Bool) (eq : Eqn) (pl : Pl K) (eps : K) (heps : 0 ≤ eps) (T : Tri K)
    (ha : side eq pl T.a = 0) (hb : side eq pl T.b < -eps) (hc : side eq pl T.c < -eps) (m : Mesh K) (hm : Valid m) (l : List Ix) (i : ℕ)
    (hl : ∀ j t, l[j]? = some t → m.triangles[i + j]? = some t) (ks : List Kind) (hk : l.map (placeTri m) = ks.map fun k => k.at T) (s : Mesh K × Mesh K) :
    ∃ f vb tb, clipLoop sz zero nz eq pl eps m i l s = .ok (f, ⟨s.2.vertices ++ vb, s.2.triangles ++ tb⟩) ∧
      (∀ x ∈ tb, x.a < (s.2.vertices ++ vb).length ∧ x.b < (s.2.vertices ++ vb).length ∧ x.c < (s.2.vertices ++ vb).length) ∧
      tb.map (placeTri ⟨s.2.vertices ++ vb, s.2.triangles ++ tb⟩) = (ks.flatMap Kind.step).map fun k => k.at T := by
  induction l generalizing i ks s with
  | nil =>
    have : ks = [] := by simpa using hk.symm
    subst this
    exact ⟨s.1, [], [], by simp [clipLoop], by simp, by simp⟩
  | cons t l ih =>
    cases ks with
    | nil => simp at hk
    | cons k ks =>
      simp only [List.map_cons, List.cons.injEq] at hk
      obtain ⟨f1, v1, t1, e1, r1, g1⟩ := clipOne_kind sz hsz zero (nz i) eq pl eps heps T ha hb hc m hm i t (hl 0 t rfl) k hk.1 s
      obtain ⟨f2, v2, t2, e2, r2, g2⟩ := ih (i + 1) (fun j u hj => by
        rw [show i + 1 + j = i + (j + 1) by omega]; exact hl (j + 1) u hj) ks hk.2 (f1, ⟨s.2.vertices ++ v1, s.2.triangles ++ t1⟩)
      dsimp only at e2 r2 g2
      refine ⟨f2, v1 ++ v2, t1 ++ t2, ?_, ?_, ?_⟩
      · rw [clipLoop, e1, Res.bind_ok, e2]; simp
      · intro x hx
        rcases List.mem_append.1 hx with h | h
        · have := r1 x h; simp only [List.length_append] at this ⊢; omega
        · have := r2 x h; simp only [List.length_append] at this ⊢; omega
      · rw [List.map_append, List.flatMap_cons, List.map_append, ← g2, ← g1]
        simp only [List.append_assoc]
        congr 1
        refine List.map_congr_left fun x hx => ?_
        rw [← List.append_assoc]
        exact placeTri_append _ _ _ _ x (r1 x hx)

/-- The kinds after `n` steps. -/
def kinds (n : ℕ) (ks : List Kind) : List Kind := (fun l => List.flatMap Kind.step l)^[n] ks

theorem clipBack_kinds (sz : ℕ) (hsz : 0 < sz) (zero : Vertex K) (nz : ℕ → ℕ → Bool) (eq : Eqn) (pl : Pl K) (eps : K) (heps : 0 ≤ eps) (T : Tri K)
    (ha : side eq pl T.a = 0) (hb : side eq pl T.b < -eps) (hc : side eq pl T.c < -eps) (n : ℕ) (m : Mesh K) (hm : Valid m) (ks : List Kind)
    (hk : m.triangles.map (placeTri m) = ks.map fun k => k.at T) :
    ∃ b, clipBack sz zero nz eq pl eps n m = .ok b ∧ b.triangles.map (placeTri b) = (kinds n ks).map fun k => k.at T := by
  induction n generalizing m ks with
  | zero => exact ⟨m, rfl, hk⟩
  | succ n ih =>
    obtain ⟨f, vb, tb, e, r, g⟩ := clipLoop_kind sz hsz zero nz eq pl eps heps T ha hb hc m hm m.triangles 0
      (fun j t h => by rw [Nat.zero_add]; exact h) ks hk (clear Mesh.empty, clear Mesh.empty)
    simp only [clear, List.nil_append] at e r g
    obtain ⟨b, e', h'⟩ := ih ⟨vb, tb⟩ ((valid_iff _).2 r) (ks.flatMap Kind.step) g
    refine ⟨b, ?_, h'⟩
    simp only [clipBack, iterRes, clipMesh, clear]
    rw [e]
    exact e'

/-- The number of triangles of a kind. -/
def Kind.isTri : Kind → Bool
  | .tri => true
  | _ => false

def Kind.isEdge : Kind → Bool
  | .edge => true
  | _ => false

theorem kinds_counts (l : List Kind) : (l.flatMap Kind.step).countP Kind.isTri = l.countP Kind.isTri ∧
    (l.flatMap Kind.step).countP Kind.isEdge = l.countP Kind.isTri + l.countP Kind.isEdge ∧
    (l.flatMap Kind.step).length = 2 * l.countP Kind.isTri + 2 * l.countP Kind.isEdge := by
  induction l with
  | nil => simp
  | cons k l ih =>
    obtain ⟨h1, h2, h3⟩ := ih
    cases k <;> simp [List.flatMap_cons, Kind.step, Kind.isTri, Kind.isEdge, List.countP_cons, h1, h2, h3] <;> omega

theorem kinds_length (n : ℕ) : (kinds (n + 1) [.tri]).length = 2 * (n + 1) ∧ (kinds n [.tri]).countP Kind.isTri = 1 ∧
    (kinds n [.tri]).countP Kind.isEdge = n := by
  have h : (kinds n [.tri]).countP Kind.isTri = 1 ∧ (kinds n [.tri]).countP Kind.isEdge = n := by
    induction n with
    | zero => decide
    | succ n ih =>
      have := kinds_counts (kinds n [.tri])
      rw [kinds, Function.iterate_succ_apply']
      exact ⟨this.1.trans ih.1, by rw [← kinds, this.2.1, ih.1, ih.2, Nat.add_comm]⟩
  refine ⟨?_, h⟩
  have := (kinds_counts (kinds n [.tri])).2.2
  rw [kinds, Function.iterate_succ_apply', ← kinds, this, h.1, h.2]
  ring

/-- C112: if a triangle touches the plane from behind with its first corner, clipping it and then its back part again and again adds
two triangles each time. -/
theorem C112_growth (sz : ℕ) (hsz : 0 < sz) (zero : Vertex K) (nz : ℕ → ℕ → Bool) (eq : Eqn) (pl : Pl K) (eps : K) (heps : 0 ≤ eps) (a b c : Vertex K)
    (ha : side eq pl a.position = 0) (hb : side eq pl b.position < -eps) (hc : side eq pl c.position < -eps) (n : ℕ) :
    ∃ r, clipBack sz zero nz eq pl eps (n + 1) ⟨[a, b, c], [⟨0, 1, 2⟩]⟩ = .ok r ∧ r.triangles.length = 2 * (n + 1) := by
  obtain ⟨r, e, h⟩ := clipBack_kinds sz hsz zero nz eq pl eps heps ⟨a.position, b.position, c.position⟩ ha hb hc (n + 1) ⟨[a, b, c], [⟨0, 1, 2⟩]⟩
    ((valid_iff _).2 (by simp)) [.tri] (by simp [placeTri, posAt, Kind.at])
  refine ⟨r, e, ?_⟩
  have := congrArg List.length h
  rw [List.length_map, List.length_map, (kinds_length n).1] at this
  exact this

end growth

/-! Examples. -/

/-- A triangle which touches the plane z = 0 from behind. -/
def touching : Mesh ℚ := ⟨[⟨⟨0, 0, 0⟩, 0, 0⟩, ⟨⟨1, 0, -1⟩, 0, 0⟩, ⟨⟨0, 1, -1⟩, 0, 0⟩], [⟨0, 1, 2⟩]⟩

/-- A triangle on both sides of the plane z = 0. -/
def crossing : Mesh ℚ := ⟨[⟨⟨0, 0, 1⟩, 0, 0⟩, ⟨⟨1, 0, -1⟩, 0, 0⟩, ⟨⟨0, 1, -1⟩, 0, 0⟩], [⟨0, 1, 2⟩]⟩

/-- `C112_front`, `C112_back_partial` and `C112_back_exact`: the front part of the crossing triangle is a triangle; its back part is a
quadrangle of two triangles, and the second clipping keeps the front part. -/
example : Valid crossing ∧
    (clipMesh 4 ⟨0, 0, 0⟩ (fun _ _ => false) .nxEqD ⟨⟨0, 0, 1⟩, 0⟩ 0 crossing Mesh.empty Mesh.empty).map
      (fun r => (r.1.triangles.length, r.2.triangles.length)) = .ok (1, 2) ∧
    ((clipMesh 4 ⟨0, 0, 0⟩ (fun _ _ => false) .nxEqD ⟨⟨0, 0, 1⟩, 0⟩ 0 crossing Mesh.empty Mesh.empty).bind fun r =>
      (clipMesh 4 ⟨0, 0, 0⟩ (fun _ _ => false) .nxEqD ⟨⟨0, 0, 1⟩, 0⟩ 0 r.1 Mesh.empty Mesh.empty).map
        fun r => (r.1.triangles.length, r.2.triangles.length)) = .ok (1, 0) :=
  ⟨(valid_iff _).2 (by decide +kernel), by decide +kernel, by decide +kernel⟩

/-- C112: the back part is not behind the plane for the next clipping: a second clipping gives triangles to the front, although nothing
of it is in front of the plane. -/
theorem C112_back_refuted : ¬ ∀ (pl : Pl ℚ) (eps : ℚ) (m f b f' b' : Mesh ℚ), 0 ≤ eps → Valid m →
    clipMesh 4 ⟨0, 0, 0⟩ (fun _ _ => false) .nxEqD pl eps m Mesh.empty Mesh.empty = .ok (f, b) →
    clipMesh 4 ⟨0, 0, 0⟩ (fun _ _ => false) .nxEqD pl eps b Mesh.empty Mesh.empty = .ok (f', b') → f'.triangles = [] := by
  intro h
  obtain ⟨f, b, parts, e, -⟩ := C27_partial 4 (by norm_num) (⟨0, 0, 0⟩ : Vertex ℚ) (fun _ _ => false) .nxEqD ⟨⟨0, 0, 1⟩, 0⟩ 0
    le_rfl touching Mesh.empty Mesh.empty ((valid_iff _).2 (by decide +kernel))
  obtain ⟨f', b', e', -⟩ := C112_back_partial 4 4 (by norm_num) (by norm_num) (⟨0, 0, 0⟩ : Vertex ℚ) ⟨0, 0, 0⟩ (fun _ _ => false)
    (fun _ _ => false) .nxEqD ⟨⟨0, 0, 1⟩, 0⟩ 0 le_rfl touching Mesh.empty Mesh.empty Mesh.empty Mesh.empty f b
    ((valid_iff _).2 (by decide +kernel)) e
  have e2 : ((clipMesh 4 ⟨0, 0, 0⟩ (fun _ _ => false) .nxEqD ⟨⟨0, 0, 1⟩, 0⟩ 0 touching Mesh.empty Mesh.empty).bind fun r =>
      (clipMesh 4 ⟨0, 0, 0⟩ (fun _ _ => false) .nxEqD ⟨⟨0, 0, 1⟩, 0⟩ 0 r.2 Mesh.empty Mesh.empty).map
        fun r => r.1.triangles.length) = .ok 1 := by decide +kernel
  rw [e, Res.bind_ok, e', Res.map, Res.bind_ok, h _ _ _ _ _ _ _ le_rfl ((valid_iff _).2 (by decide +kernel)) e e'] at e2
  simp at e2

/-- `C112_growth` applies to the touching triangle, with a tolerance of 1/2. -/
example (n : ℕ) : ∃ r, clipBack 4 (⟨0, 0, 0⟩ : Vertex ℚ) (fun _ _ => false) .nxEqD ⟨⟨0, 0, 1⟩, 0⟩ (1 / 2) (n + 1) touching = .ok r ∧
    r.triangles.length = 2 * (n + 1) :=
  C112_growth 4 (by norm_num) _ _ _ _ _ (by norm_num) _ _ _ (by norm_num [side]) (by norm_num [side]) (by norm_num [side]) n

/-- `C112_flip` applies to the crossing triangle, with a tolerance of 1/2. -/
example (f b : Mesh ℚ) (h : clipMesh 4 ⟨0, 0, 0⟩ (fun _ _ => false) .nxEqD ⟨⟨0, 0, 1⟩, 0⟩ (1 / 2) crossing Mesh.empty Mesh.empty = .ok (f, b)) :
    clipMesh 4 ⟨0, 0, 0⟩ (fun _ _ => false) .nxEqD ⟨⟨0, 0, -1⟩, 0⟩ (1 / 2) crossing Mesh.empty Mesh.empty = .ok (b, f) := by
  have := C112_flip 4 ⟨0, 0, 0⟩ (fun _ _ => false) (fun _ _ => false) .nxEqD ⟨⟨0, 0, 1⟩, 0⟩ (1 / 2) (by norm_num) crossing
    Mesh.empty Mesh.empty Mesh.empty Mesh.empty f b (by decide +kernel) h
  rwa [show Plane.flip (⟨⟨0, 0, 1⟩, 0⟩ : Pl ℚ) = ⟨⟨0, 0, -1⟩, 0⟩ by decide +kernel] at this

/-- C112: with a corner on the plane the flipped plane can give other meshes. -/
theorem C112_flip_needed : ¬ ∀ (pl : Pl ℚ) (m f b f' b' : Mesh ℚ), Valid m →
    clipMesh 4 ⟨0, 0, 0⟩ (fun _ _ => false) .nxEqD pl 0 m Mesh.empty Mesh.empty = .ok (f, b) →
    clipMesh 4 ⟨0, 0, 0⟩ (fun _ _ => false) .nxEqD (Plane.flip pl) 0 m Mesh.empty Mesh.empty = .ok (f', b') →
    f'.triangles.length = b.triangles.length := by
  intro h
  have hv : Valid touching := (valid_iff _).2 (by decide +kernel)
  obtain ⟨f, b, parts, e, -⟩ := C27_partial 4 (by norm_num) (⟨0, 0, 0⟩ : Vertex ℚ) (fun _ _ => false) .nxEqD ⟨⟨0, 0, 1⟩, 0⟩ 0
    le_rfl touching Mesh.empty Mesh.empty hv
  obtain ⟨f', b', parts', e', -⟩ := C27_partial 4 (by norm_num) (⟨0, 0, 0⟩ : Vertex ℚ) (fun _ _ => false) .nxEqD
    (Plane.flip ⟨⟨0, 0, 1⟩, 0⟩) 0 le_rfl touching Mesh.empty Mesh.empty hv
  have h1 : (clipMesh 4 ⟨0, 0, 0⟩ (fun _ _ => false) .nxEqD ⟨⟨0, 0, 1⟩, 0⟩ 0 touching Mesh.empty Mesh.empty).map
      (fun r => r.2.triangles.length) = .ok 2 := by decide +kernel
  have h2 : (clipMesh 4 ⟨0, 0, 0⟩ (fun _ _ => false) .nxEqD (Plane.flip ⟨⟨0, 0, 1⟩, 0⟩) 0 touching Mesh.empty Mesh.empty).map
      (fun r => r.1.triangles.length) = .ok 1 := by decide +kernel
  rw [e, Res.map, Res.bind_ok, Res.ok.injEq] at h1
  rw [e', Res.map, Res.bind_ok, Res.ok.injEq] at h2
  have := h _ _ _ _ _ _ hv e e'
  dsimp only at h1 h2
  omega

/-- The clipped parts of the crossing triangle, with a tolerance and without. -/
theorem crossing_clip : Valid crossing ∧
    (∃ f b, clipMesh 4 ⟨0, 0, 0⟩ (fun _ _ => false) .nxEqD ⟨⟨0, 0, 1⟩, 0⟩ (1 / 2) crossing Mesh.empty Mesh.empty = .ok (f, b)) ∧
    ∃ f b, clipMesh 4 ⟨0, 0, 0⟩ (fun _ _ => false) .nxEqD ⟨⟨0, 0, 1⟩, 0⟩ 0 crossing Mesh.empty Mesh.empty = .ok (f, b) := by
  have some_ok : ∀ r : Res (Mesh ℚ × Mesh ℚ), (match r with | .ok _ => true | _ => false) = true → ∃ f b, r = .ok (f, b) := by
    intro r h
    cases r with
    | ok x => exact ⟨x.1, x.2, rfl⟩
    | _ => simp at h
  exact ⟨(valid_iff _).2 (by decide +kernel), some_ok _ (by decide +kernel), some_ok _ (by decide +kernel)⟩

example : ∃ f f' : Mesh ℚ, clipMesh 4 ⟨0, 0, 0⟩ (fun _ _ => false) .nxEqD ⟨⟨0, 0, 1⟩, 0⟩ (1 / 2) f Mesh.empty Mesh.empty = .ok (f', Mesh.empty) ∧
    Unshared f f' := by
  obtain ⟨f, b, h⟩ := crossing_clip.2.1
  exact ⟨f, C112_front 4 4 (by norm_num) _ _ _ _ _ _ _ (by norm_num) _ _ _ _ _ _ _ crossing_clip.1 h⟩

example : ∃ b f' b' : Mesh ℚ, clipMesh 4 ⟨0, 0, 0⟩ (fun _ _ => false) .nxEqD ⟨⟨0, 0, 1⟩, 0⟩ (1 / 2) b Mesh.empty Mesh.empty = .ok (f', b') ∧
    Valid f' ∧ Valid b' := by
  obtain ⟨f, b, h⟩ := crossing_clip.2.1
  obtain ⟨f', b', h1, h2, h3, -⟩ := C112_back_partial 4 4 (by norm_num) (by norm_num) ⟨0, 0, 0⟩ ⟨0, 0, 0⟩ (fun _ _ => false) (fun _ _ => false) .nxEqD
    ⟨⟨0, 0, 1⟩, 0⟩ (1 / 2) (by norm_num) crossing Mesh.empty Mesh.empty Mesh.empty Mesh.empty f b crossing_clip.1 h
  exact ⟨b, f', b', h1, h2, h3⟩

example : ∃ b f' b' : Mesh ℚ, clipMesh 4 ⟨0, 0, 0⟩ (fun _ _ => false) .nxEqD ⟨⟨0, 0, 1⟩, 0⟩ 0 b Mesh.empty Mesh.empty = .ok (f', b') ∧
    ∀ x ∈ f'.triangles, triArea f' x = 0 := by
  obtain ⟨f, b, h⟩ := crossing_clip.2.2
  obtain ⟨f', b', _, h1, h2, -⟩ := C112_back_exact 4 4 (by norm_num) (by norm_num) ⟨0, 0, 0⟩ ⟨0, 0, 0⟩ (fun _ _ => false) (fun _ _ => false) .nxEqD
    ⟨⟨0, 0, 1⟩, 0⟩ crossing Mesh.empty Mesh.empty Mesh.empty Mesh.empty f b crossing_clip.1 h
  exact ⟨b, f', b', h1, h2⟩

end Geom.TMesh
