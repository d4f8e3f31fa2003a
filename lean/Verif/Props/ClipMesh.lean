import Verif.Props.MeshModifier
import Verif.Props.Clip

/-
  C27: clipping of meshes.
-/
set_option autoImplicit false
set_option linter.unusedSectionVars false

namespace Geom.TMesh
open Spec
open Plane (Eqn Pl Relation)
open Plane.Spec (side)
open Clip.Spec (area fan polyArea)
open Clip.Props (clip_cases)

variable {K : Type} [Field K] [LinearOrder K] [IsStrictOrderedRing K]

/-- The triangles of a fan of `n` vertices which start at `count`. -/
def fanIx (count n : ℕ) : List Ix := (List.range (n - 2)).map fun k => ⟨count, count + (k + 1), count + (k + 2)⟩

theorem addFan_eq (bc : V3 K → Res (Vertex K)) (g : V3 K → Vertex K) (m : Mesh K) (l : List (V3 K))
    (hl : l.length ≤ 4) (h : ∀ v ∈ l, bc v = .ok (g v)) :
    addFan bc m.vertices.length 0 l m = .ok ⟨m.vertices ++ l.map g, m.triangles ++ fanIx m.vertices.length l.length⟩ := by
  match l, hl with
  | [], _ => simp [addFan, fanIx]
  | [a], _ =>
    simp [addFan, fanIx, h a, Res.bind]
  | [a, b], _ =>
    simp [addFan, fanIx, h a, h b, Res.bind]
  | [a, b, c], _ =>
    simp [addFan, fanIx, h a, h b, h c, Res.bind, addTriangle]
  | [a, b, c, d], _ =>
    simp [addFan, fanIx, h a, h b, h c, h d, Res.bind, addTriangle, List.range_succ]

theorem posAt_append (vs ws : List (Vertex K)) (ts us : List Ix) (i : ℕ) (h : i < vs.length) :
    posAt ⟨vs ++ ws, us⟩ i = posAt ⟨vs, ts⟩ i := by
  simp only [posAt]
  rw [List.getElem?_append_left h]

theorem posAt_right (vs : List (Vertex K)) (ws : List (Vertex K)) (ts : List Ix) (i : ℕ) (v : Vertex K) (h : ws[i]? = some v) :
    posAt ⟨vs ++ ws, ts⟩ (vs.length + i) = v.position := by
  simp only [posAt]
  rw [List.getElem?_append_right (by omega), Nat.add_sub_cancel_left, h]
  rfl

/-- The triangles of an added fan are the triangles of the fan of its positions. -/
theorem fan_areas (vs : List (Vertex K)) (ws : List (Vertex K)) (ts : List Ix) (hl : ws.length ≤ 4) :
    (fanIx vs.length ws.length).map (triArea ⟨vs ++ ws, ts⟩) =
      (fan (ws.map fun v => v.position)).map fun e => area e.1 e.2.1 e.2.2 := by
  have p := fun i v h => posAt_right vs ws ts i v h
  match ws, hl with
  | [], _ => rfl
  | [a], _ => rfl
  | [a, b], _ => rfl
  | [a, b, c], _ =>
    have p0 := p 0 a rfl
    have p1 := p 1 b rfl
    have p2 := p 2 c rfl
    rw [Nat.add_zero] at p0
    simp [fanIx, fan, triArea, p0, p1, p2]
  | [a, b, c, d], _ =>
    have p0 := p 0 a rfl
    have p1 := p 1 b rfl
    have p2 := p 2 c rfl
    have p3 := p 3 d rfl
    rw [Nat.add_zero] at p0
    simp [fanIx, fan, triArea, p0, p1, p2, p3, List.range_succ]

/-- The corners of the triangles of an added fan are points of it. -/
theorem fan_corner (vs : List (Vertex K)) (ws : List (Vertex K)) (ts : List Ix) (x : Ix) (hx : x ∈ fanIx vs.length ws.length) (i : Fin 3) :
    ∃ v ∈ ws, posAt ⟨vs ++ ws, ts⟩ (corner x i) = v.position := by
  simp only [fanIx, List.mem_map, List.mem_range] at hx
  obtain ⟨k, hk, rfl⟩ := hx
  have p : ∀ j, j < ws.length → ∃ v ∈ ws, posAt ⟨vs ++ ws, ts⟩ (vs.length + j) = v.position := fun j hj =>
    ⟨ws[j], List.getElem_mem hj, posAt_right vs ws ts j _ (List.getElem?_eq_getElem hj)⟩
  fin_cases i
  · exact p 0 (by omega)
  · exact p (k + 1) (by omega)
  · exact p (k + 2) (by omega)

theorem fanIx_range (count n : ℕ) : ∀ t ∈ fanIx count n, t.a < count + n ∧ t.b < count + n ∧ t.c < count + n := by
  intro t ht
  simp only [fanIx, List.mem_map, List.mem_range] at ht
  obtain ⟨k, hk, rfl⟩ := ht
  dsimp only
  omega

/-- What one step of the loop adds to the two meshes. -/
structure Step (m : Mesh K) (eq : Eqn) (pl : Pl K) (eps : K) (t : Ix) (s : Mesh K × Mesh K) (vf vb : List (Vertex K))
    (tf tb : List Ix) : Prop where
  rangeF : ∀ x ∈ tf, x.a < s.1.vertices.length + vf.length ∧ x.b < s.1.vertices.length + vf.length ∧
    x.c < s.1.vertices.length + vf.length
  rangeB : ∀ x ∈ tb, x.a < s.2.vertices.length + vb.length ∧ x.b < s.2.vertices.length + vb.length ∧
    x.c < s.2.vertices.length + vb.length
  fromF : ∀ v ∈ vf, FromMesh m v ∧ -eps ≤ side eq pl v.position
  fromB : ∀ v ∈ vb, FromMesh m v ∧ side eq pl v.position ≤ eps
  area : ∃ k : K, 1 ≤ k ∧ (ExactAt eq pl eps m t → k = 1) ∧
    Replaces m ⟨s.1.vertices ++ vf, s.1.triangles ++ tf⟩ ⟨s.2.vertices ++ vb, s.2.triangles ++ tb⟩ t tf tb k ∧
    Sorted eq pl eps m t tf tb

theorem fromMesh_corner (m : Mesh K) (t : Ix) (ht : t ∈ m.triangles) (a b c : Vertex K) (ha : m.vertices[t.a]? = some a)
    (hb : m.vertices[t.b]? = some b) (hc : m.vertices[t.c]? = some c) : FromMesh m a ∧ FromMesh m b ∧ FromMesh m c := by
  refine ⟨⟨t, ht, a, b, c, ⟨1, 0, 0⟩, ha, hb, hc, ?_⟩, ⟨t, ht, a, b, c, ⟨0, 1, 0⟩, ha, hb, hc, ?_⟩,
    ⟨t, ht, a, b, c, ⟨0, 0, 1⟩, ha, hb, hc, ?_⟩⟩ <;> simp [Combines]

theorem combines_pos (v a b c : Vertex K) (w : V3 K) (h : Combines v a b c w) :
    v.position = (⟨a.position, b.position, c.position⟩ : Triangle.Tri K).toCartesian w := by
  obtain ⟨h1, h2, h3, _⟩ := h
  apply V3.ext
  · rw [h1]; simp only [Triangle.Tri.toCartesian]; vec_simp; ring
  · rw [h2]; simp only [Triangle.Tri.toCartesian]; vec_simp; ring
  · rw [h3]; simp only [Triangle.Tri.toCartesian]; vec_simp; ring

theorem clipOne_step (sz : ℕ) (hsz : 0 < sz) (zero : Vertex K) (nz : ℕ → Bool) (eq : Eqn) (pl : Pl K) (eps : K) (heps : 0 ≤ eps)
    (m : Mesh K) (hm : Valid m) (k : ℕ) (t : Ix) (hk : m.triangles[k]? = some t) (s : Mesh K × Mesh K) :
    ∃ vf vb tf tb, clipOne sz zero nz eq pl eps m k t s =
        .ok (⟨s.1.vertices ++ vf, s.1.triangles ++ tf⟩, ⟨s.2.vertices ++ vb, s.2.triangles ++ tb⟩) ∧
      Step m eq pl eps t s vf vb tf tb := by
  have ht := List.mem_of_getElem? hk
  obtain ⟨ha, hb, hc⟩ := (valid_iff m).1 hm t ht
  obtain ⟨a, ha, ha'⟩ := getR_lt _ _ ha
  obtain ⟨b, hb, hb'⟩ := getR_lt _ _ hb
  obtain ⟨c, hc, hc'⟩ := getR_lt _ _ hc
  have hcor : corners m t = .ok (a, b, c) := by simp [corners, ha', hb', hc', Res.bind]
  have pa : posAt m t.a = a.position := by simp [posAt, ha]
  have pb : posAt m t.b = b.position := by simp [posAt, hb]
  have pc : posAt m t.c = c.position := by simp [posAt, hc]
  have harea : triArea m t = area a.position b.position c.position := by simp only [triArea, pa, pb, pc]
  obtain ⟨fa, fb, fc⟩ := fromMesh_corner m t ht a b c ha hb hc
  have hcopy : ∀ x : Mesh K, triArea ⟨x.vertices ++ [a, b, c], x.triangles ++ [⟨x.vertices.length, x.vertices.length + 1, x.vertices.length + 2⟩]⟩
      ⟨x.vertices.length, x.vertices.length + 1, x.vertices.length + 2⟩ = triArea m t := by
    intro x
    have p := fun i v h => posAt_right x.vertices [a, b, c] (x.triangles ++ [⟨x.vertices.length, x.vertices.length + 1, x.vertices.length + 2⟩]) i v h
    have p0 := p 0 a rfl
    have p1 := p 1 b rfl
    have p2 := p 2 c rfl
    simp only [Nat.add_zero] at p0
    rw [harea]
    simp only [triArea, p0, p1, p2]
  have hins : ∀ x : Mesh K, InsideOf m ⟨x.vertices ++ [a, b, c], x.triangles ++ [⟨x.vertices.length, x.vertices.length + 1, x.vertices.length + 2⟩]⟩ t
      ⟨x.vertices.length, x.vertices.length + 1, x.vertices.length + 2⟩ := by
    intro x i
    have p := fun i v h => posAt_right x.vertices [a, b, c] (x.triangles ++ [⟨x.vertices.length, x.vertices.length + 1, x.vertices.length + 2⟩]) i v h
    rw [pa, pb, pc]
    fin_cases i
    · have h := p 0 a rfl
      simp only [Nat.add_zero] at h
      simp only [corner, Fin.zero_eta, Matrix.cons_val_zero, h]
      exact ⟨1, 0, 0, by simp, by simp, by simp, by simp, by simp⟩
    · have h := p 1 b rfl
      simp only [corner, Fin.mk_one, Matrix.cons_val_one, Matrix.cons_val_zero, h]
      exact ⟨0, 1, 0, by simp, by simp, by simp, by simp, by simp⟩
    · have h := p 2 c rfl
      simp only [corner, Fin.reduceFinMk, Matrix.cons_val, h]
      exact ⟨0, 0, 1, by simp, by simp, by simp, by simp, by simp⟩
  set T : Triangle.Tri K := ⟨a.position, b.position, c.position⟩ with hT
  have hi : ∀ x, (x = T.a ∨ x = T.b ∨ x = T.c) → ∃ i, posAt m (corner t i) = x := by
    rintro x (rfl | rfl | rfl)
    exacts [⟨0, pa⟩, ⟨1, pb⟩, ⟨2, pc⟩]
  rcases clip_cases nz eq pl T eps heps with ⟨e, h1⟩ | ⟨e, h1⟩ | ⟨f, bk, e, ⟨x, hx, kx⟩, ⟨y, hy, ky⟩, g, g'⟩
  · refine ⟨[a, b, c], [], [⟨s.1.vertices.length, s.1.vertices.length + 1, s.1.vertices.length + 2⟩], [], ?_, ?_⟩
    · simp only [clipOne, hcor, Res.bind, ← hT, e]
      simp [addTriCopy, addTriangle]
    · refine ⟨by simp, by simp, ?_, by simp, 1, le_rfl, fun _ => rfl, ⟨?_, by simp, ?_⟩, fun _ => rfl, fun h => ?_⟩
      · intro v hv
        simp only [List.mem_cons, List.not_mem_nil, or_false] at hv
        rcases hv with rfl | rfl | rfl
        · exact ⟨fa, h1 _ (.inl rfl)⟩
        · exact ⟨fb, h1 _ (.inr (.inl rfl))⟩
        · exact ⟨fc, h1 _ (.inr (.inr rfl))⟩
      · intro x hx
        rw [List.mem_singleton.1 hx]
        exact ⟨hins s.1, 1, zero_le_one, by rw [hcopy s.1, one_smul]⟩
      · simp only [List.map_cons, List.map_nil, List.sum_cons, List.sum_nil, hcopy s.1, one_smul]
        simp
      · have := h 0
        simp only [corner, Matrix.cons_val_zero, pa] at this
        exact absurd (h1 _ (.inl rfl)) (not_le.2 this)
  · refine ⟨[], [a, b, c], [], [⟨s.2.vertices.length, s.2.vertices.length + 1, s.2.vertices.length + 2⟩], ?_, ?_⟩
    · simp only [clipOne, hcor, Res.bind, ← hT, e]
      simp [addTriCopy, addTriangle]
    · refine ⟨by simp, by simp, by simp, ?_, 1, le_rfl, fun _ => rfl, ⟨by simp, ?_, ?_⟩, fun h => ?_, fun _ => rfl⟩
      · have h1' : ∀ x, (x = T.a ∨ x = T.b ∨ x = T.c) → side eq pl x ≤ eps := fun x hx => by linarith [h1 x hx]
        intro v hv
        simp only [List.mem_cons, List.not_mem_nil, or_false] at hv
        rcases hv with rfl | rfl | rfl
        · exact ⟨fa, h1' _ (.inl rfl)⟩
        · exact ⟨fb, h1' _ (.inr (.inl rfl))⟩
        · exact ⟨fc, h1' _ (.inr (.inr rfl))⟩
      · intro x hx
        rw [List.mem_singleton.1 hx]
        exact ⟨hins s.2, 1, zero_le_one, by rw [hcopy s.2, one_smul]⟩
      · simp only [List.map_cons, List.map_nil, List.sum_cons, List.sum_nil, hcopy s.2, one_smul]
        simp
      · have := h 0
        simp only [corner, Matrix.cons_val_zero, pa] at this
        exact absurd (h1 _ (.inl rfl)) (not_lt.2 this)
  · have hbc : ∀ w, ∃ v, barycentric sz zero m k w = .ok v ∧ Combines v a b c w :=
      fun w => C41_barycentric sz hsz zero m k t a b c w hk ha hb hc
    choose gv hg1 hg2 using hbc
    have hf4 : f.length ≤ 4 := g.frontMax
    have hb4 : bk.length ≤ 4 := by rcases g.backCount with h | h <;> omega
    have hposf : ∀ l : List (V3 K), (l.map gv).map (fun v => v.position) = l.map T.toCartesian := by
      intro l
      rw [List.map_map]
      exact List.map_congr_left fun w _ => combines_pos _ _ _ _ _ (hg2 w)
    refine ⟨f.map gv, bk.map gv, fanIx s.1.vertices.length f.length, fanIx s.2.vertices.length bk.length, ?_, ?_⟩
    · simp only [clipOne, hcor, Res.bind, ← hT, e]
      rw [addFan_eq _ gv s.1 f hf4 fun v _ => hg1 v]
      simp only
      rw [addFan_eq _ gv s.2 bk hb4 fun v _ => hg1 v]
    · have hfrom : ∀ w, Clip.Props.Convex w → FromMesh m (gv w) := fun w hw =>
        ⟨t, ht, a, b, c, w, ha, hb, hc, hw.1, hw.2.1, hw.2.2.1, hw.2.2.2, hg2 w⟩
      have ef := fan_areas s.1.vertices (f.map gv) (s.1.triangles ++ fanIx s.1.vertices.length f.length) (by simpa using hf4)
      have eb := fan_areas s.2.vertices (bk.map gv) (s.2.triangles ++ fanIx s.2.vertices.length bk.length) (by simpa using hb4)
      rw [hposf, List.length_map] at ef eb
      obtain ⟨hor, kk, hk1, hk2⟩ := Clip.Props.C25_area_covers nz eq pl T eps heps f bk e
      have hTa : area T.a T.b T.c = triArea m t := harea.symm
      rw [hTa] at hk2 hor
      refine ⟨?_, ?_, ?_, ?_, ?_⟩
      · simpa using fanIx_range s.1.vertices.length f.length
      · simpa using fanIx_range s.2.vertices.length bk.length
      · intro v hv
        obtain ⟨w, hw, rfl⟩ := List.mem_map.1 hv
        have := g'.1 w hw
        exact ⟨hfrom w this.1, by rw [combines_pos _ _ _ _ _ (hg2 w)]; exact this.2⟩
      · intro v hv
        obtain ⟨w, hw, rfl⟩ := List.mem_map.1 hv
        have := g'.2 w hw
        exact ⟨hfrom w this.1, by rw [combines_pos _ _ _ _ _ (hg2 w)]; exact this.2⟩
      · have horf : ∀ x ∈ fanIx s.1.vertices.length f.length,
            InsideOf m ⟨s.1.vertices ++ f.map gv, s.1.triangles ++ fanIx s.1.vertices.length f.length⟩ t x ∧ ∃ l : K, 0 ≤ l ∧
            triArea ⟨s.1.vertices ++ f.map gv, s.1.triangles ++ fanIx s.1.vertices.length f.length⟩ x = l • triArea m t := by
          intro x hx
          have := List.mem_map_of_mem (f := triArea ⟨s.1.vertices ++ f.map gv, s.1.triangles ++ fanIx s.1.vertices.length f.length⟩) hx
          rw [ef] at this
          obtain ⟨y, hy, hy'⟩ := List.mem_map.1 this
          obtain ⟨l, h0, h1⟩ := hor y (List.mem_append_left _ hy)
          refine ⟨fun i => ?_, l, h0, hy'.symm.trans h1⟩
          obtain ⟨v, hv, hv'⟩ := fan_corner s.1.vertices (f.map gv) (s.1.triangles ++ fanIx s.1.vertices.length f.length) x
            (by rw [List.length_map]; exact hx) i
          obtain ⟨w, hw, rfl⟩ := List.mem_map.1 hv
          rw [hv', combines_pos _ _ _ _ _ (hg2 w), pa, pb, pc]
          exact Clip.Props.convex_inTri _ (g'.1 w hw).1
        have horb : ∀ x ∈ fanIx s.2.vertices.length bk.length,
            InsideOf m ⟨s.2.vertices ++ bk.map gv, s.2.triangles ++ fanIx s.2.vertices.length bk.length⟩ t x ∧ ∃ l : K, 0 ≤ l ∧
            triArea ⟨s.2.vertices ++ bk.map gv, s.2.triangles ++ fanIx s.2.vertices.length bk.length⟩ x = l • triArea m t := by
          intro x hx
          have := List.mem_map_of_mem (f := triArea ⟨s.2.vertices ++ bk.map gv, s.2.triangles ++ fanIx s.2.vertices.length bk.length⟩) hx
          rw [eb] at this
          obtain ⟨y, hy, hy'⟩ := List.mem_map.1 this
          obtain ⟨l, h0, h1⟩ := hor y (List.mem_append_right _ hy)
          refine ⟨fun i => ?_, l, h0, hy'.symm.trans h1⟩
          obtain ⟨v, hv, hv'⟩ := fan_corner s.2.vertices (bk.map gv) (s.2.triangles ++ fanIx s.2.vertices.length bk.length) x
            (by rw [List.length_map]; exact hx) i
          obtain ⟨w, hw, rfl⟩ := List.mem_map.1 hv
          rw [hv', combines_pos _ _ _ _ _ (hg2 w), pa, pb, pc]
          exact Clip.Props.convex_inTri _ (g'.2 w hw).1
        have hsort : Sorted eq pl eps m t (fanIx s.1.vertices.length f.length) (fanIx s.2.vertices.length bk.length) := by
          refine ⟨fun h => ?_, fun h => ?_⟩
          · obtain ⟨i, hi⟩ := hi x hx
            have := h i
            rw [hi] at this
            exact absurd kx (not_lt.2 this)
          · obtain ⟨i, hi⟩ := hi y hy
            have := h i
            rw [hi] at this
            exact absurd ky (not_le.2 this)
        by_cases hex : ExactAt eq pl eps m t
        · refine ⟨1, le_rfl, fun _ => rfl, ⟨horf, horb, ?_⟩, hsort⟩
          rw [ef, eb]
          have := Clip.Props.C25_area_partial nz eq pl T eps heps f bk e (by
            rintro x (rfl | rfl | rfl) h1 h2
            · have := hex 0; simp only [corner] at this; rw [show (![t.a, t.b, t.c] 0) = t.a from rfl, pa] at this; exact this h1 h2
            · have := hex 1; simp only [corner] at this; rw [show (![t.a, t.b, t.c] 1) = t.b from rfl, pb] at this; exact this h1 h2
            · have := hex 2; simp only [corner] at this; rw [show (![t.a, t.b, t.c] 2) = t.c from rfl, pc] at this; exact this h1 h2)
          rw [hTa] at this
          rw [one_smul, ← this]
          rfl
        · refine ⟨kk, hk1, fun h => absurd h hex, ⟨horf, horb, ?_⟩, hsort⟩
          rw [ef, eb, ← hk2]
          rfl

/-- Triangles with valid indices keep their area if vertices are added. -/
theorem triArea_append (vs ws : List (Vertex K)) (ts us : List Ix) (x : Ix)
    (h : x.a < vs.length ∧ x.b < vs.length ∧ x.c < vs.length) : triArea ⟨vs ++ ws, us⟩ x = triArea ⟨vs, ts⟩ x := by
  simp only [triArea]
  rw [posAt_append vs ws ts us _ h.1, posAt_append vs ws ts us _ h.2.1, posAt_append vs ws ts us _ h.2.2]

theorem replaces_append (m : Mesh K) (f b : Mesh K) (vf vb : List (Vertex K)) (uf ub : List Ix) (t : Ix) (tf tb : List Ix) (k : K)
    (hf : ∀ x ∈ tf, x.a < f.vertices.length ∧ x.b < f.vertices.length ∧ x.c < f.vertices.length)
    (hb : ∀ x ∈ tb, x.a < b.vertices.length ∧ x.b < b.vertices.length ∧ x.c < b.vertices.length)
    (h : Replaces m f b t tf tb k) : Replaces m ⟨f.vertices ++ vf, uf⟩ ⟨b.vertices ++ vb, ub⟩ t tf tb k := by
  have ef : ∀ x ∈ tf, triArea ⟨f.vertices ++ vf, uf⟩ x = triArea f x := fun x hx => triArea_append _ _ _ _ x (hf x hx)
  have eb : ∀ x ∈ tb, triArea ⟨b.vertices ++ vb, ub⟩ x = triArea b x := fun x hx => triArea_append _ _ _ _ x (hb x hx)
  have inside : ∀ (f : Mesh K) (vf : List (Vertex K)) (uf : List Ix) (x : Ix),
      (x.a < f.vertices.length ∧ x.b < f.vertices.length ∧ x.c < f.vertices.length) → InsideOf m f t x →
      InsideOf m ⟨f.vertices ++ vf, uf⟩ t x := by
    intro f vf uf x hx h i
    have : posAt ⟨f.vertices ++ vf, uf⟩ (corner x i) = posAt f (corner x i) := by
      refine posAt_append f.vertices vf f.triangles uf _ ?_
      fin_cases i
      exacts [hx.1, hx.2.1, hx.2.2]
    rw [this]; exact h i
  refine ⟨fun x hx => ?_, fun x hx => ?_, ?_⟩
  · rw [ef x hx]; exact ⟨inside f vf uf x (hf x hx) (h.1 x hx).1, (h.1 x hx).2⟩
  · rw [eb x hx]; exact ⟨inside b vb ub x (hb x hx) (h.2.1 x hx).1, (h.2.1 x hx).2⟩
  · rw [List.map_congr_left ef, List.map_congr_left eb]; exact h.2.2

theorem clipLoop_ok (sz : ℕ) (hsz : 0 < sz) (zero : Vertex K) (nz : ℕ → ℕ → Bool) (eq : Eqn) (pl : Pl K) (eps : K) (heps : 0 ≤ eps)
    (m : Mesh K) (hm : Valid m) (l : List Ix) (i : ℕ) (hl : ∀ j t, l[j]? = some t → m.triangles[i + j]? = some t)
    (s : Mesh K × Mesh K) :
    ∃ vf vb parts, clipLoop sz zero nz eq pl eps m i l s =
        .ok (⟨s.1.vertices ++ vf, s.1.triangles ++ (parts.map Prod.fst).flatten⟩,
             ⟨s.2.vertices ++ vb, s.2.triangles ++ (parts.map Prod.snd).flatten⟩) ∧
      (∀ v ∈ vf, FromMesh m v ∧ -eps ≤ side eq pl v.position) ∧
      (∀ v ∈ vb, FromMesh m v ∧ side eq pl v.position ≤ eps) ∧
      (∀ x ∈ (parts.map Prod.fst).flatten, x.a < s.1.vertices.length + vf.length ∧ x.b < s.1.vertices.length + vf.length ∧
        x.c < s.1.vertices.length + vf.length) ∧
      (∀ x ∈ (parts.map Prod.snd).flatten, x.a < s.2.vertices.length + vb.length ∧ x.b < s.2.vertices.length + vb.length ∧
        x.c < s.2.vertices.length + vb.length) ∧
      List.Forall₂ (fun t p => ∃ k : K, 1 ≤ k ∧ (ExactAt eq pl eps m t → k = 1) ∧
        Replaces m ⟨s.1.vertices ++ vf, s.1.triangles ++ (parts.map Prod.fst).flatten⟩
          ⟨s.2.vertices ++ vb, s.2.triangles ++ (parts.map Prod.snd).flatten⟩ t p.1 p.2 k ∧ Sorted eq pl eps m t p.1 p.2) l parts := by
  induction l generalizing i s with
  | nil => exact ⟨[], [], [], by simp [clipLoop], by simp, by simp, by simp, by simp, .nil⟩
  | cons t l ih =>
    obtain ⟨vf, vb, tf, tb, e1, h1⟩ := clipOne_step sz hsz zero (nz i) eq pl eps heps m hm i t (hl 0 t rfl) s
    obtain ⟨vf', vb', parts, e2, a1, a2, a3, a4, a5⟩ := ih (i + 1) (fun j u hj => by
      rw [show i + 1 + j = i + (j + 1) by omega]; exact hl (j + 1) u hj)
      (⟨s.1.vertices ++ vf, s.1.triangles ++ tf⟩, ⟨s.2.vertices ++ vb, s.2.triangles ++ tb⟩)
    dsimp only at e2 a3 a4 a5
    simp only [List.append_assoc, List.length_append] at e2 a3 a4 a5
    refine ⟨vf ++ vf', vb ++ vb', (tf, tb) :: parts, ?_, ?_, ?_, ?_, ?_, ?_⟩
    · rw [clipLoop, e1]; exact e2
    · intro v hv
      exact (List.mem_append.1 hv).elim (h1.fromF v) (a1 v)
    · intro v hv
      exact (List.mem_append.1 hv).elim (h1.fromB v) (a2 v)
    · intro x hx
      rw [List.length_append]
      rw [List.map_cons, List.flatten_cons] at hx
      rcases List.mem_append.1 hx with hx | hx
      · have := h1.rangeF x hx; omega
      · have := a3 x hx; omega
    · intro x hx
      rw [List.length_append]
      rw [List.map_cons, List.flatten_cons] at hx
      rcases List.mem_append.1 hx with hx | hx
      · have := h1.rangeB x hx; omega
      · have := a4 x hx; omega
    · refine .cons ?_ a5
      obtain ⟨k, hk1, hk2, hk3, hk4⟩ := h1.area
      refine ⟨k, hk1, hk2, ?_, hk4⟩
      have := replaces_append m _ _ vf' vb' (s.1.triangles ++ ((((tf, tb) :: parts).map Prod.fst).flatten))
        (s.2.triangles ++ ((((tf, tb) :: parts).map Prod.snd).flatten)) t tf tb k ?_ ?_ hk3
      · simp only [List.append_assoc] at this
        exact this
      · intro x hx
        dsimp only
        rw [List.length_append]
        exact h1.rangeF x hx
      · intro x hx
        dsimp only
        rw [List.length_append]
        exact h1.rangeB x hx

/-- C27: for a mesh with valid indices `ClipMesh` is defined and gives two meshes with valid indices. Each
vertex of them is a point of a triangle of the mesh with interpolated attributes, and on the right side up to the
tolerance. The triangles of the two meshes are grouped by the triangles of the input, and each group is oriented like
its triangle and has at least the area of it; exactly the area if no corner of the triangle is nearer to the plane than the
tolerance without being on it. Triangles with no corner behind the plane give no parts of the back mesh, and those with all corners
behind it no parts of the front mesh. What is missing from the property: the exact area in general (see `C25_area_refuted`). -/
theorem C27_partial (sz : ℕ) (hsz : 0 < sz) (zero : Vertex K) (nz : ℕ → ℕ → Bool) (eq : Eqn) (pl : Pl K) (eps : K) (heps : 0 ≤ eps)
    (m front back : Mesh K) (hm : Valid m) :
    ∃ f b parts, clipMesh sz zero nz eq pl eps m front back = .ok (f, b) ∧ Valid f ∧ Valid b ∧
      (∀ v ∈ f.vertices, FromMesh m v ∧ -eps ≤ side eq pl v.position) ∧
      (∀ v ∈ b.vertices, FromMesh m v ∧ side eq pl v.position ≤ eps) ∧
      f.triangles = (parts.map Prod.fst).flatten ∧ b.triangles = (parts.map Prod.snd).flatten ∧
      List.Forall₂ (fun t p => ∃ k : K, 1 ≤ k ∧ (ExactAt eq pl eps m t → k = 1) ∧ Replaces m f b t p.1 p.2 k ∧ Sorted eq pl eps m t p.1 p.2)
        m.triangles parts := by
  obtain ⟨vf, vb, parts, e, h1, h2, h3, h4, h5⟩ := clipLoop_ok sz hsz zero nz eq pl eps heps m hm m.triangles 0
    (fun j t h => by rw [Nat.zero_add]; exact h) (clear front, clear back)
  simp only [clear, List.nil_append, List.length_nil, Nat.zero_add] at e h3 h4 h5
  exact ⟨_, _, parts, e, (valid_iff _).2 h3, (valid_iff _).2 h4, h1, h2, rfl, rfl, h5⟩

/-- The example mesh is cut by the plane x = 1/2. -/
example : (clipMesh 4 ⟨0, 0, 0⟩ (fun _ _ => false) .nxEqD ⟨⟨1, 0, 0⟩, 1 / 2⟩ 0 exMesh Mesh.empty Mesh.empty).map
    (fun r => (r.1.triangles, r.2.triangles, r.1.vertices.map fun v => v.position)) =
    .ok ([⟨0, 1, 2⟩], [⟨0, 1, 2⟩, ⟨0, 2, 3⟩], [⟨1 / 2, 0, 0⟩, ⟨1, 0, 0⟩, ⟨1 / 2, 1 / 2, 0⟩]) := by decide +kernel
example : Valid exMesh ∧ ExactAt .nxEqD ⟨⟨1, 0, 0⟩, 1 / 2⟩ 0 exMesh ⟨0, 1, 2⟩ := by
  refine ⟨exMesh_valid, ?_⟩
  unfold ExactAt
  decide +kernel

/-- A triangle with one corner behind the plane, but nearer to it than 1/10. -/
def bandMesh : Mesh ℚ :=
  ⟨[⟨⟨-1 / 10, 0, 0⟩, 0, 0⟩, ⟨⟨1, 0, 0⟩, 0, 0⟩, ⟨⟨-1, 1, 0⟩, 0, 0⟩], [⟨0, 1, 2⟩]⟩

/-- With a positive tolerance the areas of the two meshes need not add up to the area of the mesh. -/
theorem C27_area_refuted :
    ¬ ∀ (pl : Pl ℚ) (eps : ℚ) (m f b : Mesh ℚ), 0 ≤ eps → Plane.Spec.UnitN pl → Valid m →
      clipMesh 4 ⟨0, 0, 0⟩ (fun _ _ => false) .nxEqD pl eps m Mesh.empty Mesh.empty = .ok (f, b) →
      (f.triangles.map (triArea f)).sum + (b.triangles.map (triArea b)).sum = (m.triangles.map (triArea m)).sum := by
  intro h
  have h' := h ⟨⟨1, 0, 0⟩, 0⟩ (1 / 10) bandMesh
  cases e : clipMesh 4 ⟨0, 0, 0⟩ (fun _ _ => false) .nxEqD ⟨⟨1, 0, 0⟩, 0⟩ (1 / 10) bandMesh Mesh.empty Mesh.empty with
  | ok r =>
    have := h' r.1 r.2 (by norm_num) (by norm_num [Plane.Spec.UnitN]) (by
      rw [valid_iff]; decide +kernel) e
    have e2 : (clipMesh 4 ⟨0, 0, 0⟩ (fun _ _ => false) .nxEqD ⟨⟨1, 0, 0⟩, 0⟩ (1 / 10) bandMesh Mesh.empty Mesh.empty).map
      (fun r => decide ((r.1.triangles.map (triArea r.1)).sum + (r.2.triangles.map (triArea r.2)).sum =
        (bandMesh.triangles.map (triArea bandMesh)).sum)) = .ok false := by decide +kernel
    rw [e] at e2
    simp only [Res.map, Res.bind, Res.ok.injEq, decide_eq_false_iff_not] at e2
    exact e2 this
  | throw =>
    have : (clipMesh 4 ⟨0, 0, 0⟩ (fun _ _ => false) .nxEqD ⟨⟨1, 0, 0⟩, 0⟩ (1 / 10) bandMesh Mesh.empty Mesh.empty).map
      (fun _ => ()) = .ok () := by decide +kernel
    rw [e] at this; cases this
  | ub =>
    have : (clipMesh 4 ⟨0, 0, 0⟩ (fun _ _ => false) .nxEqD ⟨⟨1, 0, 0⟩, 0⟩ (1 / 10) bandMesh Mesh.empty Mesh.empty).map
      (fun _ => ()) = .ok () := by decide +kernel
    rw [e] at this; cases this
  | fuel =>
    have : (clipMesh 4 ⟨0, 0, 0⟩ (fun _ _ => false) .nxEqD ⟨⟨1, 0, 0⟩, 0⟩ (1 / 10) bandMesh Mesh.empty Mesh.empty).map
      (fun _ => ()) = .ok () := by decide +kernel
    rw [e] at this; cases this

end Geom.TMesh
