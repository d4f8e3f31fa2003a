import Verif.Spec.TriangleMesh
import Verif.Props.AABB
import Verif.Base.VecTac

/-
  C32, C33, C34, C37, C38, C39.
-/
set_option autoImplicit false
set_option linter.unusedSectionVars false

namespace Geom.TMesh
open Spec
open AABB.Props (C01_hull C01_set)

variable {K : Type}

/-! ### Edges -/

theorem edgeLt_iff (l r : Edge) : edgeLt l r = true ↔ l.a < r.a ∨ (l.a = r.a ∧ l.b < r.b) := by
  unfold edgeLt
  split_ifs with h1 h2
  · simp [h1]
  · simp only [false_iff]; omega
  · simp only [decide_eq_true_eq]; omega

theorem mem_insertEdge (e f : Edge) (l : List Edge) : f ∈ insertEdge e l ↔ f = e ∨ f ∈ l := by
  induction l with
  | nil => simp [insertEdge]
  | cons x l ih =>
    unfold insertEdge
    split
    · simp only [List.mem_cons, ih]; tauto
    · simp only [List.mem_cons]

theorem mem_sortEdges (f : Edge) (l : List Edge) : f ∈ sortEdges l ↔ f ∈ l := by
  induction l with
  | nil => simp [sortEdges]
  | cons x l ih => simp [sortEdges, mem_insertEdge, ih]

/-- Not greater in the order of the comparator. -/
def Le (l r : Edge) : Prop := l.a < r.a ∨ (l.a = r.a ∧ l.b ≤ r.b)

theorem sorted_insertEdge (e : Edge) (l : List Edge) (h : l.Pairwise Le) : (insertEdge e l).Pairwise Le := by
  induction l with
  | nil => simp [insertEdge]
  | cons x l ih =>
    rw [List.pairwise_cons] at h
    unfold insertEdge
    split
    · rename_i hx
      rw [edgeLt_iff] at hx
      rw [List.pairwise_cons]
      refine ⟨fun f hf => ?_, ih h.2⟩
      rcases (mem_insertEdge e f l).1 hf with rfl | hf
      · unfold Le; omega
      · exact h.1 f hf
    · rename_i hx
      have hx : ¬ (x.a < e.a ∨ (x.a = e.a ∧ x.b < e.b)) := fun hc => hx ((edgeLt_iff x e).2 hc)
      rw [List.pairwise_cons]
      refine ⟨fun f hf => ?_, List.pairwise_cons.2 h⟩
      rcases List.mem_cons.1 hf with rfl | hf
      · unfold Le; omega
      · have := h.1 f hf
        unfold Le at *; omega

theorem sorted_sortEdges (l : List Edge) : (sortEdges l).Pairwise Le := by
  induction l with
  | nil => simp [sortEdges]
  | cons x l ih => exact sorted_insertEdge x _ ih

/-- Less in the order of the comparator. -/
def Lt (l r : Edge) : Prop := l.a < r.a ∨ (l.a = r.a ∧ l.b < r.b)

theorem mem_uniqueFrom (p f : Edge) (l : List Edge) : (f = p ∨ f ∈ uniqueFrom p l) ↔ (f = p ∨ f ∈ l) := by
  induction l generalizing p with
  | nil => simp [uniqueFrom]
  | cons x l ih =>
    unfold uniqueFrom
    split
    · rename_i hx
      have hx : p = x := Edge.ext hx.1 hx.2
      rw [ih]; subst hx; simp
    · have := ih x
      simp only [List.mem_cons]; tauto

theorem sorted_uniqueFrom (p : Edge) (l : List Edge) (h : (p :: l).Pairwise Le) :
    (p :: uniqueFrom p l).Pairwise Lt := by
  induction l generalizing p with
  | nil => simp [uniqueFrom]
  | cons x l ih =>
    unfold uniqueFrom
    rw [List.pairwise_cons, List.pairwise_cons] at h
    obtain ⟨h1, h2, h3⟩ := h
    split
    · exact ih p (List.pairwise_cons.2 ⟨fun f hf => h1 f (List.mem_cons_of_mem _ hf), h3⟩)
    · rename_i hx
      have h4 := ih x (List.pairwise_cons.2 ⟨h2, h3⟩)
      have hpx : Lt p x := by
        have := h1 x List.mem_cons_self
        unfold Le at this; unfold Lt; omega
      refine List.pairwise_cons.2 ⟨fun f hf => ?_, h4⟩
      rcases List.mem_cons.1 hf with rfl | hf
      · exact hpx
      · have := (List.pairwise_cons.1 h4).1 f hf
        unfold Lt at *; omega

theorem adj_iff (t : Ix) (u v : ℕ) :
    Adj t u v ↔ ((t.a = u ∧ t.b = v) ∨ (t.a = v ∧ t.b = u)) ∨ ((t.b = u ∧ t.c = v) ∨ (t.b = v ∧ t.c = u)) ∨
      ((t.c = u ∧ t.a = v) ∨ (t.c = v ∧ t.a = u)) := by
  unfold Adj
  rw [show (∃ i : Fin 3, (corner t i = u ∧ corner t (i + 1) = v) ∨ (corner t i = v ∧ corner t (i + 1) = u)) ↔ _ from
    Fin.exists_fin_succ]
  rw [Fin.exists_fin_succ, Fin.exists_fin_succ]
  simp [corner]

theorem mem_orderedEdge (e : Edge) (a b : ℕ) :
    e = orderedEdge a b ↔ e.a ≤ e.b ∧ ((a = e.a ∧ b = e.b) ∨ (a = e.b ∧ b = e.a)) := by
  unfold orderedEdge
  rw [Edge.ext_iff]
  split_ifs <;> dsimp only <;> omega

theorem mem_allEdges (e : Edge) (ts : List Ix) : e ∈ allEdges ts ↔ e.a ≤ e.b ∧ ∃ t ∈ ts, Adj t e.a e.b := by
  unfold allEdges
  simp only [List.mem_flatMap, List.mem_cons, List.not_mem_nil, or_false, mem_orderedEdge, adj_iff]
  constructor
  · rintro ⟨t, ht, h⟩
    exact ⟨by tauto, t, ht, by tauto⟩
  · rintro ⟨h1, t, ht, h⟩
    exact ⟨t, ht, by tauto⟩

/-- C32: an edge is in the result of `Edges` exactly if its indices are ordered and some triangle has an
edge between its end points. -/
theorem C32_edges (m : Mesh K) (e : Edge) :
    e ∈ edges m ↔ e.a ≤ e.b ∧ ∃ t ∈ m.triangles, Adj t e.a e.b := by
  have : e ∈ edges m ↔ e ∈ sortEdges (allEdges m.triangles) := by
    unfold edges
    cases sortEdges (allEdges m.triangles) with
    | nil => simp [unique]
    | cons x l => rw [unique, List.mem_cons, List.mem_cons]; exact mem_uniqueFrom x e l
  rw [this, mem_sortEdges, mem_allEdges]

/-- C32: the result is strictly sorted, hence free of duplicates. -/
theorem C32_sorted (m : Mesh K) :
    (edges m).Pairwise fun e f => e.a < f.a ∨ (e.a = f.a ∧ e.b < f.b) := by
  have h := sorted_sortEdges (allEdges m.triangles)
  unfold edges
  cases hl : sortEdges (allEdges m.triangles) with
  | nil => exact List.Pairwise.nil
  | cons x l => rw [hl] at h; exact sorted_uniqueFrom x l h

/-- C32: each edge of a triangle, in whatever direction, is counted once. -/
theorem C32_once (m : Mesh K) (t : Ix) (ht : t ∈ m.triangles) (u v : ℕ) (h : Adj t u v) :
    (edges m).countP (fun e => decide ((e.a = u ∧ e.b = v) ∨ (e.a = v ∧ e.b = u))) = 1 := by
  have key : ∀ x y : ℕ, x ≤ y → ((x = u ∧ y = v) ∨ (x = v ∧ y = u)) →
      (edges m).countP (fun e => decide ((e.a = u ∧ e.b = v) ∨ (e.a = v ∧ e.b = u))) = 1 := by
    intro x y hxy hx
    have hm : (⟨x, y⟩ : Edge) ∈ edges m := by
      rw [C32_edges]
      refine ⟨hxy, t, ht, ?_⟩
      rw [adj_iff] at h ⊢
      dsimp only
      omega
    have hnd : (edges m).Nodup := by
      refine List.Pairwise.imp ?_ (C32_sorted m)
      rintro e f hef rfl
      omega
    rw [← List.count_eq_one_of_mem hnd hm, List.count]
    refine List.countP_congr fun e he => ?_
    have h1 := ((C32_edges m e).1 he).1
    simp only [decide_eq_true_eq, beq_iff_eq, Edge.ext_iff]
    omega
  rcases Nat.le_total u v with h' | h'
  · exact key u v h' (.inl ⟨rfl, rfl⟩)
  · exact key v u h' (.inr ⟨rfl, rfl⟩)

/-- Two triangles which share an edge have five edges. -/
example : edges (⟨[], [⟨0, 1, 2⟩, ⟨2, 1, 3⟩]⟩ : Mesh ℚ) = [⟨0, 1⟩, ⟨0, 2⟩, ⟨1, 2⟩, ⟨1, 3⟩, ⟨2, 3⟩] := by decide
example : Adj ⟨2, 1, 3⟩ 1 2 := ⟨0, .inr ⟨rfl, rfl⟩⟩

/-! ### Incident triangles -/

theorem mem_findFrom (p : Ix → Bool) (i k : ℕ) (l : List Ix) :
    k ∈ findFrom p i l ↔ ∃ t, i ≤ k ∧ l[k - i]? = some t ∧ p t = true := by
  induction l generalizing i with
  | nil => simp [findFrom]
  | cons t l ih =>
    have h1 : (∃ u, i ≤ k ∧ (t :: l)[k - i]? = some u ∧ p u = true) ↔
        (k = i ∧ p t = true) ∨ ∃ u, i + 1 ≤ k ∧ l[k - (i + 1)]? = some u ∧ p u = true := by
      constructor
      · rintro ⟨u, h1, h2, h3⟩
        rcases Nat.eq_or_lt_of_le h1 with rfl | h1
        · rw [Nat.sub_self, List.getElem?_cons_zero] at h2
          cases h2
          exact .inl ⟨rfl, h3⟩
        · rw [show k - i = (k - (i + 1)) + 1 by omega, List.getElem?_cons_succ] at h2
          exact .inr ⟨u, h1, h2, h3⟩
      · rintro (⟨rfl, h⟩ | ⟨u, h1, h2, h3⟩)
        · exact ⟨t, le_rfl, by rw [Nat.sub_self]; rfl, h⟩
        · refine ⟨u, by omega, ?_, h3⟩
          rw [show k - i = (k - (i + 1)) + 1 by omega, List.getElem?_cons_succ]
          exact h2
    rw [h1, findFrom]
    split
    · rename_i hp
      rw [List.mem_cons, ih]; simp [hp]
    · rename_i hp
      rw [ih]; simp [hp]

theorem sorted_findFrom (p : Ix → Bool) (i : ℕ) (l : List Ix) : (findFrom p i l).Pairwise (· < ·) := by
  induction l generalizing i with
  | nil => simp [findFrom]
  | cons t l ih =>
    unfold findFrom
    split
    · refine List.pairwise_cons.2 ⟨fun k hk => ?_, ih (i + 1)⟩
      obtain ⟨_, h, _⟩ := (mem_findFrom p (i + 1) k l).1 hk
      omega
    · exact ih (i + 1)

theorem lists_findFrom (m : Mesh K) (p : Ix → Bool) (P : Ix → Prop) (h : ∀ t, p t = true ↔ P t) :
    Lists m P (findFrom p 0 m.triangles) := by
  refine ⟨sorted_findFrom p 0 _, fun k => ?_⟩
  rw [mem_findFrom]
  simp [Has, h]

/-- C33: `FindTriangles(vertex)` returns the triangles with the vertex as a corner. -/
theorem C33_vertex (m : Mesh K) (v : ℕ) : Lists m (fun t => ∃ i, corner t i = v) (findVertex m v) := by
  refine lists_findFrom m _ _ fun t => ?_
  rw [Fin.exists_fin_succ, Fin.exists_fin_succ, Fin.exists_fin_succ]
  simp [corner, or_assoc]

theorem lists_findEdge (m : Mesh K) (e : Edge) : Lists m (fun t => Adj t e.a e.b) (findEdge m e) := by
  refine lists_findFrom m _ _ fun t => ?_
  rw [adj_iff]
  simp only [hasEdge, Bool.or_eq_true, Bool.and_eq_true, decide_eq_true_eq]
  tauto

/-- C33: `FindTriangles(edge)` returns the triangles which have the edge, in either direction. -/
theorem C33_edge (m : Mesh K) (e : Edge) : Lists m (fun t => Adj t e.a e.b) (findEdge m e) := lists_findEdge m e

/-- The two triangles of a pair of edge-connected triangles, and one which has only a corner in common. -/
example : findEdge (⟨[], [⟨0, 1, 2⟩, ⟨2, 1, 3⟩, ⟨1, 4, 5⟩]⟩ : Mesh ℚ) ⟨1, 2⟩ = [0, 1] ∧
    findVertex (⟨[], [⟨0, 1, 2⟩, ⟨2, 1, 3⟩, ⟨1, 4, 5⟩]⟩ : Mesh ℚ) 1 = [0, 1, 2] := by decide

/-! ### Neighbours -/

theorem getR_ok {α : Type} (l : List α) (i : ℕ) (a : α) : getR l i = .ok a ↔ l[i]? = some a := by
  unfold getR
  cases l[i]? <;> simp

theorem getR_lt {α : Type} (l : List α) (i : ℕ) (h : i < l.length) : ∃ a, l[i]? = some a ∧ getR l i = .ok a :=
  ⟨l[i], List.getElem?_eq_getElem h, (getR_ok _ _ _).2 (List.getElem?_eq_getElem h)⟩

theorem getR_ge {α : Type} (l : List α) (i : ℕ) (h : l.length ≤ i) : getR l i = .ub := by
  unfold getR
  rw [List.getElem?_eq_none h]

section nb
variable (equals : V3 K → V3 K → Bool) (m : Mesh K)

open Classical in
theorem matchVertex_ok (a b : ℕ) (ha : a < m.vertices.length) (hb : b < m.vertices.length) :
    matchVertex equals m a b = .ok (decide (SamePos equals m a b)) := by
  obtain ⟨va, h1, h1'⟩ := getR_lt m.vertices a ha
  obtain ⟨vb, h2, h2'⟩ := getR_lt m.vertices b hb
  simp only [matchVertex, h1', h2', Res.bind, SamePos, h1, h2]
  congr 1
  rw [Bool.eq_iff_iff]
  simp

theorem orRes_ok (x y : Bool) : orRes (.ok x) (.ok y) = .ok (x || y) := by
  cases x <;> rfl

/-- The relation between vertices of the search. -/
def same (viaPosition : Bool) : ℕ → ℕ → Prop := if viaPosition then SamePos equals m else (· = ·)

/-- The indices of the triangle are valid, as far as the search needs it. -/
def okIx (viaPosition : Bool) (t : Ix) : Prop :=
  viaPosition = true → ∀ i, corner t i < m.vertices.length

open Classical in
theorem hasVertex_ok (viaPosition : Bool) (u : Ix) (v : ℕ) (hu : okIx m viaPosition u)
    (hv : viaPosition = true → v < m.vertices.length) :
    hasVertex equals m viaPosition u v = .ok (decide (∃ q, same equals m viaPosition v (corner u q))) := by
  have hex : (∃ q, same equals m viaPosition v (corner u q)) ↔ same equals m viaPosition v u.a ∨
      same equals m viaPosition v u.b ∨ same equals m viaPosition v u.c := by
    rw [Fin.exists_fin_succ, Fin.exists_fin_succ, Fin.exists_fin_succ]
    simp [corner]
  simp only [hex]
  cases viaPosition with
  | true =>
    have h0 := hu rfl 0
    have h1 := hu rfl 1
    have h2 := hu rfl 2
    have hv := hv rfl
    unfold hasVertex
    rw [if_pos rfl, matchVertex_ok equals m v u.a hv h0, matchVertex_ok equals m v u.b hv h1,
      matchVertex_ok equals m v u.c hv h2, orRes_ok, orRes_ok]
    simp [same]
  | false =>
    unfold hasVertex
    simp [same, Bool.or_assoc]

theorem bonded_ok (edgeBond viaPosition : Bool) (t u : Ix) (ht : okIx m viaPosition t) (hu : okIx m viaPosition u) :
    ∃ b, bonded equals m edgeBond viaPosition t u = .ok b ∧ (b = true ↔ Bond equals m edgeBond viaPosition t u) := by
  have key : ∀ v, (viaPosition = true → v < m.vertices.length) → ∃ b,
      hasVertex equals m viaPosition u v = .ok b ∧ (b = true ↔ ∃ q, same equals m viaPosition v (corner u q)) :=
    fun v hv => ⟨_, hasVertex_ok equals m viaPosition u v hu hv, by simp⟩
  obtain ⟨x, ha, hx⟩ := key (corner t 0) (fun h => ht h 0)
  obtain ⟨y, hb, hy⟩ := key (corner t 1) (fun h => ht h 1)
  obtain ⟨z, hc, hz⟩ := key (corner t 2) (fun h => ht h 2)
  change hasVertex equals m viaPosition u t.a = _ at ha
  change hasVertex equals m viaPosition u t.b = _ at hb
  change hasVertex equals m viaPosition u t.c = _ at hc
  have hB : Bond equals m edgeBond viaPosition t u ↔ if edgeBond = true then
      ∃ p p', p ≠ p' ∧ (∃ q, same equals m viaPosition (corner t p) (corner u q)) ∧
        ∃ q, same equals m viaPosition (corner t p') (corner u q) else
      ∃ p, ∃ q, same equals m viaPosition (corner t p) (corner u q) := by rfl
  rw [hB]
  clear hB key
  generalize hP : (fun p => ∃ q, same equals m viaPosition (corner t p) (corner u q)) = P
  have hP' : ∀ p, (∃ q, same equals m viaPosition (corner t p) (corner u q)) = P p := fun p => by rw [← hP]
  simp only [hP'] at hx hy hz ⊢
  unfold bonded
  rw [ha, hb, hc, orRes_ok, orRes_ok]
  cases edgeBond with
  | false =>
    refine ⟨_, if_pos rfl, ?_⟩
    rw [if_neg (by simp), Fin.exists_fin_succ, Fin.exists_fin_succ, Fin.exists_fin_succ, Bool.or_eq_true,
      Bool.or_eq_true, hx, hy, hz]
    simp
  | true =>
    refine ⟨decide (x.toNat + y.toNat + z.toNat ≥ 2), if_neg (by simp), ?_⟩
    rw [if_pos rfl]
    cases x <;> cases y <;> cases z <;> simp at hx hy hz <;>
      simp [hx, hy, hz, Fin.exists_fin_succ]

open Classical in
theorem anyBond_ok (edgeBond viaPosition : Bool) (t : Ix) (l : List ℕ) (ht : okIx m viaPosition t)
    (hok : ∀ u ∈ m.triangles, okIx m viaPosition u) (hl : ∀ j ∈ l, j < m.triangles.length) :
    anyBond equals m edgeBond viaPosition t l =
      .ok (decide (∃ j ∈ l, ∃ u, m.triangles[j]? = some u ∧ Bond equals m edgeBond viaPosition t u)) := by
  induction l with
  | nil => simp [anyBond]
  | cons j l ih =>
    obtain ⟨u, h1, h2⟩ := getR_lt m.triangles j (hl j List.mem_cons_self)
    rw [anyBond, h2, ih fun k hk => hl k (List.mem_cons_of_mem _ hk)]
    obtain ⟨b, h3, h4⟩ := bonded_ok equals m edgeBond viaPosition t u ht (hok u (List.mem_of_getElem? h1))
    simp only [Res.bind, h3]
    congr 1
    rw [Bool.eq_iff_iff, Bool.or_eq_true, h4]
    simp [h1]

theorem newNeighbors_ok (edgeBond viaPosition : Bool) (s : Finset ℕ) (i : ℕ) (l : List Ix)
    (hl : ∀ t ∈ l, okIx m viaPosition t)
    (hok : ∀ u ∈ m.triangles, okIx m viaPosition u) (hs : ∀ j ∈ s, j < m.triangles.length) :
    ∃ n, newNeighbors equals m edgeBond viaPosition s i l = .ok n ∧
      ∀ k, k ∈ n ↔ k ∉ s ∧ i ≤ k ∧ ∃ t, l[k - i]? = some t ∧
        ∃ j ∈ s, ∃ u, m.triangles[j]? = some u ∧ Bond equals m edgeBond viaPosition t u := by
  classical
  induction l generalizing i with
  | nil => exact ⟨∅, rfl, by simp⟩
  | cons t l ih =>
    obtain ⟨n, h1, h2⟩ := ih (i + 1) fun u hu => hl u (List.mem_cons_of_mem _ hu)
    have h3 : (if i ∈ s then Res.ok false else anyBond equals m edgeBond viaPosition t (s.sort (· ≤ ·))) =
        .ok (decide (i ∉ s ∧ ∃ j ∈ s, ∃ u, m.triangles[j]? = some u ∧ Bond equals m edgeBond viaPosition t u)) := by
      split_ifs with h
      · simp [h]
      · rw [anyBond_ok equals m edgeBond viaPosition t _ (hl t List.mem_cons_self) hok (by simpa using hs)]
        simp [h]
    unfold newNeighbors
    rw [h3, h1]
    simp only [Res.bind]
    refine ⟨_, rfl, fun k => ?_⟩
    have h4 : (k ∉ s ∧ i ≤ k ∧ ∃ u, (t :: l)[k - i]? = some u ∧
        ∃ j ∈ s, ∃ w, m.triangles[j]? = some w ∧ Bond equals m edgeBond viaPosition u w) ↔
        (k = i ∧ i ∉ s ∧ ∃ j ∈ s, ∃ w, m.triangles[j]? = some w ∧ Bond equals m edgeBond viaPosition t w) ∨ k ∈ n := by
      rw [h2]
      constructor
      · rintro ⟨hk, hik, u, hu, hx⟩
        rcases Nat.eq_or_lt_of_le hik with rfl | hik
        · rw [Nat.sub_self, List.getElem?_cons_zero] at hu
          cases hu
          exact .inl ⟨rfl, hk, hx⟩
        · rw [show k - i = (k - (i + 1)) + 1 by omega, List.getElem?_cons_succ] at hu
          exact .inr ⟨hk, hik, u, hu, hx⟩
      · rintro (⟨rfl, hk, hx⟩ | ⟨hk, hik, u, hu, hx⟩)
        · exact ⟨hk, le_rfl, t, by rw [Nat.sub_self]; rfl, hx⟩
        · refine ⟨hk, by omega, u, ?_, hx⟩
          rw [show k - i = (k - (i + 1)) + 1 by omega, List.getElem?_cons_succ]
          exact hu
    rw [h4]
    by_cases hx : i ∉ s ∧ ∃ j ∈ s, ∃ w, m.triangles[j]? = some w ∧ Bond equals m edgeBond viaPosition t w
    · rw [if_pos (by simpa using hx)]
      simp [hx]
    · rw [if_neg (by simpa using hx)]
      simp [hx]

/-- The walks from a set that has been extended by its neighbours. -/
theorem walk_extend (N : ℕ → ℕ → Prop) (s n : Finset ℕ) (hn : ∀ k, k ∈ n ↔ k ∉ s ∧ ∃ j ∈ s, N k j) (depth i : ℕ) :
    (∃ d ≤ depth, Walk N (s ∪ n) d i) ↔ ∃ d ≤ depth + 1, Walk N s d i := by
  constructor
  · rintro ⟨d, hd, hw⟩
    have : Walk N s d i ∨ Walk N s (d + 1) i := by
      clear hd
      induction hw with
      | @start i h =>
        rcases Finset.mem_union.1 h with h | h
        · exact .inl (.start h)
        · obtain ⟨_, j, hj, hN⟩ := (hn i).1 h
          exact .inr (.step (.start hj) hN)
      | step _ hN ih => exact ih.imp (fun h => .step h hN) (fun h => .step h hN)
    rcases this with h | h
    · exact ⟨d, by omega, h⟩
    · exact ⟨d + 1, by omega, h⟩
  · rintro ⟨d, hd, hw⟩
    have key : ∀ d i, Walk N s (d + 1) i → Walk N (s ∪ n) d i := by
      intro d
      induction d with
      | zero =>
        intro i h
        cases h with
        | @step _ _ j hj hN =>
          cases hj with
          | start hj =>
            refine .start ?_
            by_cases hi : i ∈ s
            · exact Finset.mem_union_left _ hi
            · exact Finset.mem_union_right _ ((hn i).2 ⟨hi, j, hj, hN⟩)
      | succ d ih =>
        intro i h
        cases h with
        | step hj hN => exact .step (ih _ hj) hN
    cases d with
    | zero =>
      cases hw with
      | start h => exact ⟨0, by omega, .start (Finset.mem_union_left _ h)⟩
    | succ d => exact ⟨d, by omega, key d i hw⟩

theorem okIx_of (viaPosition : Bool) (hv : viaPosition = true → Valid m) :
    ∀ u ∈ m.triangles, okIx m viaPosition u := fun u hu h => hv h u hu

/-- C34: the result of `TriangleNeighbors` is the set of the triangles which a walk of at most `depth` steps
from a searched triangle reaches. For a search via positions the mesh must have valid indices. -/
theorem C34_result (edgeBond viaPosition : Bool) (hv : viaPosition = true → Valid m) (depth : ℕ) (s : Finset ℕ)
    (hs : ∀ j ∈ s, j < m.triangles.length) :
    ∃ r, neighbors equals m edgeBond viaPosition depth s = .ok r ∧
      ∀ i, i ∈ r ↔ ∃ d ≤ depth, Walk (Nb m (Bond equals m edgeBond viaPosition)) s d i := by
  induction depth generalizing s with
  | zero =>
    refine ⟨s, rfl, fun i => ⟨fun h => ⟨0, le_rfl, .start h⟩, ?_⟩⟩
    rintro ⟨d, hd, h⟩
    obtain rfl : d = 0 := by omega
    cases h with
    | start h => exact h
  | succ depth ih =>
    obtain ⟨n, h1, h2⟩ := newNeighbors_ok equals m edgeBond viaPosition s 0 m.triangles
      (okIx_of m viaPosition hv) (okIx_of m viaPosition hv) hs
    have hn : ∀ k, k ∈ n ↔ k ∉ s ∧ ∃ j ∈ s, Nb m (Bond equals m edgeBond viaPosition) k j := by
      intro k
      rw [h2]
      simp only [Nat.zero_le, true_and, Nat.sub_zero, Nb]
      constructor
      · rintro ⟨h, t, ht, j, hj, u, hu, hb⟩; exact ⟨h, j, hj, t, u, ht, hu, hb⟩
      · rintro ⟨h, j, hj, t, u, ht, hu, hb⟩; exact ⟨h, t, ht, j, hj, u, hu, hb⟩
    have hs' : ∀ j ∈ s ∪ n, j < m.triangles.length := by
      intro j hj
      rcases Finset.mem_union.1 hj with hj | hj
      · exact hs j hj
      · obtain ⟨_, _, _, t, _, ht, _⟩ := (hn j).1 hj
        exact (List.getElem?_eq_some_iff.1 ht).1
    obtain ⟨r, h3, h4⟩ := ih (s ∪ n) hs'
    refine ⟨r, ?_, fun i => ?_⟩
    · rw [neighbors, h1]; exact h3
    · rw [h4, walk_extend _ s n hn]

/-- C34: a larger depth gives a superset. -/
theorem C34_mono (edgeBond viaPosition : Bool) (hv : viaPosition = true → Valid m) (depth depth' : ℕ)
    (hd : depth ≤ depth') (s : Finset ℕ) (hs : ∀ j ∈ s, j < m.triangles.length) :
    ∃ r r', neighbors equals m edgeBond viaPosition depth s = .ok r ∧
      neighbors equals m edgeBond viaPosition depth' s = .ok r' ∧ s ⊆ r ∧ r ⊆ r' := by
  obtain ⟨r, h1, h2⟩ := C34_result equals m edgeBond viaPosition hv depth s hs
  obtain ⟨r', h3, h4⟩ := C34_result equals m edgeBond viaPosition hv depth' s hs
  refine ⟨r, r', h1, h3, fun i hi => (h2 i).2 ⟨0, Nat.zero_le _, .start hi⟩, fun i hi => ?_⟩
  obtain ⟨d, hd', h⟩ := (h2 i).1 hi
  exact (h4 i).2 ⟨d, hd'.trans hd, h⟩

theorem anyBond_ub (edgeBond viaPosition : Bool) (hv : viaPosition = true → Valid m) (t : Ix) (ht : t ∈ m.triangles)
    (l : List ℕ) (hl : ∃ j ∈ l, m.triangles.length ≤ j) :
    anyBond equals m edgeBond viaPosition t l = .ub := by
  induction l with
  | nil => obtain ⟨j, hj, _⟩ := hl; cases hj
  | cons k l ih =>
    rw [anyBond]
    rcases Nat.lt_or_ge k m.triangles.length with hk | hk
    · obtain ⟨u, h1, h2⟩ := getR_lt m.triangles k hk
      obtain ⟨b, h3, _⟩ := bonded_ok equals m edgeBond viaPosition t u (okIx_of m viaPosition hv t ht)
        (okIx_of m viaPosition hv u (List.mem_of_getElem? h1))
      rw [h2]
      simp only [Res.bind, h3]
      rw [ih]
      obtain ⟨j, hj, hj'⟩ := hl
      rcases List.mem_cons.1 hj with rfl | hj
      · omega
      · exact ⟨j, hj, hj'⟩
    · rw [getR_ge _ _ hk]; rfl

theorem newNeighbors_ub (edgeBond viaPosition : Bool) (hv : viaPosition = true → Valid m) (s : Finset ℕ)
    (hs : ∃ j ∈ s, m.triangles.length ≤ j) (i : ℕ) (l : List Ix) (hl : ∀ t ∈ l, t ∈ m.triangles) :
    newNeighbors equals m edgeBond viaPosition s i l =
      if ∀ k < l.length, i + k ∈ s then .ok ∅ else .ub := by
  induction l generalizing i with
  | nil => simp [newNeighbors]
  | cons t l ih =>
    rw [newNeighbors, ih (i + 1) fun u hu => hl u (List.mem_cons_of_mem _ hu)]
    by_cases h : i ∈ s
    · have : (∀ k < (t :: l).length, i + k ∈ s) ↔ ∀ k < l.length, i + 1 + k ∈ s := by
        constructor
        · intro h' k hk
          have := h' (k + 1) (by simpa using hk)
          rwa [show i + (k + 1) = i + 1 + k by omega] at this
        · intro h' k hk
          cases k with
          | zero => exact h
          | succ k =>
            rw [show i + (k + 1) = i + 1 + k by omega]
            exact h' k (by simpa using hk)
      simp only [this]
      rw [if_pos h]
      split_ifs
      · rfl
      · rfl
    · rw [if_neg h, anyBond_ub equals m edgeBond viaPosition hv t (hl t List.mem_cons_self) _ (by simpa using hs)]
      symm
      exact if_neg (fun h' => h (h' 0 (by simp)))

/-- C34: out-of-range accesses happen exactly if a search index is invalid and the search makes at least one
comparison with it. -/
theorem C34_undefined (edgeBond viaPosition : Bool) (hv : viaPosition = true → Valid m) (depth : ℕ) (s : Finset ℕ) :
    neighbors equals m edgeBond viaPosition depth s = .ub ↔
      0 < depth ∧ (∃ j ∈ s, m.triangles.length ≤ j) ∧ ∃ i < m.triangles.length, i ∉ s := by
  by_cases hs : ∃ j ∈ s, m.triangles.length ≤ j
  · by_cases hi : ∃ i < m.triangles.length, i ∉ s
    · cases depth with
      | zero => simp [neighbors]
      | succ d =>
        rw [neighbors, newNeighbors_ub equals m edgeBond viaPosition hv s hs 0 _ (fun t ht => ht), if_neg]
        · simp [Res.bind, hs, hi]
        · push Not
          obtain ⟨i, h1, h2⟩ := hi
          exact ⟨i, h1, by simpa using h2⟩
    · have : neighbors equals m edgeBond viaPosition depth s = .ok s := by
        induction depth with
        | zero => rfl
        | succ d ih =>
          rw [neighbors, newNeighbors_ub equals m edgeBond viaPosition hv s hs 0 _ (fun t ht => ht), if_pos]
          · simp only [Res.bind, Finset.union_empty]; exact ih
          · push Not at hi
            intro k hk
            rw [Nat.zero_add]
            exact hi k hk
      rw [this]
      simp [hi]
  · have hs' : ∀ j ∈ s, j < m.triangles.length := by simpa using hs
    obtain ⟨r, h, _⟩ := C34_result equals m edgeBond viaPosition hv depth s hs'
    rw [h]
    simp only [hs, false_and, and_false, iff_false]
    intro h
    cases h

end nb

/-- C34: for two triangles which have three different corners each, the edge bond by index is a common edge. -/
theorem C34_edge_partial (equals : V3 K → V3 K → Bool) (m : Mesh K) (t u : Ix) (ht : Function.Injective (corner t)) :
    Bond equals m true false t u ↔ ∃ v w, v ≠ w ∧ Adj t v w ∧ Adj u v w := by
  have key : ∀ (x : Ix) (p q : Fin 3), p ≠ q → Adj x (corner x p) (corner x q) := by
    intro x p q h
    rw [adj_iff]
    fin_cases p <;> fin_cases q <;> simp [corner] at h ⊢
  constructor
  · rintro ⟨p, p', hp, ⟨q, hq⟩, q', hq'⟩
    change corner t p = corner u q at hq
    change corner t p' = corner u q' at hq'
    have hne : corner t p ≠ corner t p' := fun h => hp (ht h)
    refine ⟨corner t p, corner t p', hne, key t p p' hp, ?_⟩
    rw [hq, hq'] at hne ⊢
    exact key u q q' fun h => hne (by rw [h])
  · rintro ⟨v, w, hvw, ⟨i, hi⟩, ⟨j, hj⟩⟩
    refine ⟨i, i + 1, by fin_cases i <;> decide, ?_, ?_⟩ <;>
      change ∃ q, _ = _ <;>
      rcases hi with ⟨h1, h2⟩ | ⟨h1, h2⟩ <;> rcases hj with ⟨h3, h4⟩ | ⟨h3, h4⟩ <;>
      first
      | exact ⟨j, by omega⟩
      | exact ⟨j + 1, by omega⟩

/-- C34: this fails for a triangle which repeats a corner. -/
theorem C34_edge_degenerate_refuted (equals : V3 K → V3 K → Bool) (m : Mesh K) :
    Bond equals m true false ⟨0, 0, 1⟩ ⟨0, 2, 3⟩ ∧ ¬ ∃ v w, v ≠ w ∧ Adj ⟨0, 0, 1⟩ v w ∧ Adj ⟨0, 2, 3⟩ v w := by
  constructor
  · exact ⟨0, 1, by decide, ⟨0, rfl⟩, 0, rfl⟩
  · rintro ⟨v, w, h, h1, h2⟩
    rw [adj_iff] at h1 h2
    dsimp only at h1 h2
    omega

/-- A strip of triangles. -/
def strip : Mesh ℚ := ⟨[], [⟨0, 1, 2⟩, ⟨2, 1, 3⟩, ⟨2, 3, 4⟩, ⟨0, 5, 6⟩]⟩

example : ∀ j ∈ ({0, 2} : Finset ℕ), j < strip.triangles.length := by decide
/-- Two steps over edges lead from the first to the third triangle. -/
example : Walk (Nb strip (Bond (fun _ _ => false) strip true false)) {0} 2 2 :=
  .step (j := 1) (.step (j := 0) (.start (by decide)) ⟨⟨2, 1, 3⟩, ⟨0, 1, 2⟩, rfl, rfl, 0, 1, by decide, ⟨2, rfl⟩, 1, rfl⟩)
    ⟨⟨2, 3, 4⟩, ⟨2, 1, 3⟩, rfl, rfl, 0, 1, by decide, ⟨0, rfl⟩, 2, rfl⟩
example : Function.Injective (corner ⟨2, 1, 3⟩) := by decide
example : (∃ j ∈ ({0, 7} : Finset ℕ), strip.triangles.length ≤ j) ∧ ∃ i < strip.triangles.length, i ∉ ({0, 7} : Finset ℕ) := by
  decide

/-! ### Append -/

theorem stdCopy_tail {α : Type} (a src : List α) (z : α) :
    stdCopy src (a ++ List.replicate src.length z) a.length = .ok (a ++ src) := by
  unfold stdCopy
  rw [if_pos (by simp)]
  simp

/-- The indices of an appended triangle. -/
def shift (n : ℕ) (t : Ix) : Ix := ⟨t.a + n, t.b + n, t.c + n⟩

theorem append_eq (zero : Vertex K) (m o : Mesh K) :
    append zero m (some o) = .ok ⟨m.vertices ++ o.vertices, m.triangles ++ o.triangles.map (shift m.vertices.length)⟩ := by
  unfold append
  simp only [Option.getD_some, stdCopy_tail, Res.bind, List.take_left, List.drop_left]
  rfl

theorem valid_iff (m : Mesh K) : Valid m ↔ ∀ t ∈ m.triangles, t.a < m.vertices.length ∧ t.b < m.vertices.length ∧
    t.c < m.vertices.length := by
  constructor
  · intro h t ht
    exact ⟨h t ht 0, h t ht 1, h t ht 2⟩
  · intro h t ht i
    obtain ⟨h0, h1, h2⟩ := h t ht
    fin_cases i
    · exact h0
    · exact h1
    · exact h2

/-- C37: appending another mesh keeps the vertices and triangles as prefixes, adds the vertices and the
geometry of the other mesh, and keeps indices valid. -/
theorem C37_append (zero : Vertex K) (m o : Mesh K) (hm : Valid m) (ho : Valid o) :
    ∃ r, append zero m (some o) = .ok r ∧ r.vertices = m.vertices ++ o.vertices ∧
      m.triangles <+: r.triangles ∧ geometry r = geometry m ++ geometry o ∧ Valid r := by
  refine ⟨_, append_eq zero m o, rfl, List.prefix_append _ _, ?_, ?_⟩
  · unfold geometry
    rw [List.map_append, List.map_map]
    congr 1
    · refine List.map_congr_left fun t ht => ?_
      obtain ⟨h1, h2, h3⟩ := (valid_iff m).1 hm t ht
      simp only [List.getElem?_append_left h1, List.getElem?_append_left h2, List.getElem?_append_left h3]
    · refine List.map_congr_left fun t ht => ?_
      have key : ∀ k, (m.vertices ++ o.vertices)[k + m.vertices.length]? = o.vertices[k]? := fun k => by
        rw [List.getElem?_append_right (by omega), Nat.add_sub_cancel]
      simp only [Function.comp, shift, key]
  · rw [valid_iff] at *
    intro t ht
    rw [List.length_append]
    rcases List.mem_append.1 ht with ht | ht
    · obtain ⟨h1, h2, h3⟩ := hm t ht
      omega
    · obtain ⟨u, hu, rfl⟩ := List.mem_map.1 ht
      obtain ⟨h1, h2, h3⟩ := ho u hu
      simp only [shift]
      omega

theorem mapRes_ok {α β : Type} (f : α → Res β) (g : α → β) (l : List α) (h : ∀ a ∈ l, f a = .ok (g a)) :
    mapRes f l = .ok (l.map g) := by
  induction l with
  | nil => rfl
  | cons a l ih =>
    rw [mapRes, h a List.mem_cons_self, ih fun b hb => h b (List.mem_cons_of_mem _ hb)]
    rfl

/-- C37: for valid indices, `TriangleList` is the list of the corner vertices, and reads nothing out of range. -/
theorem C37_triangleList (m : Mesh K) (hm : Valid m) :
    ∃ l, triangleList m = .ok l ∧ l.map (fun x => (some x.1, some x.2.1, some x.2.2)) = geometry m := by
  cases hv : m.vertices with
  | nil =>
    have : m.triangles = [] := by
      rw [List.eq_nil_iff_forall_not_mem]
      intro t ht
      have := hm t ht 0
      rw [hv] at this
      exact absurd this (by simp)
    exact ⟨[], by rw [triangleList, this]; rfl, by rw [geometry, this]; rfl⟩
  | cons v0 _ =>
    refine ⟨m.triangles.map fun t => ((m.vertices[t.a]?).getD v0, (m.vertices[t.b]?).getD v0, (m.vertices[t.c]?).getD v0),
      mapRes_ok _ _ _ fun t ht => ?_, ?_⟩
    · obtain ⟨h1, h2, h3⟩ := (valid_iff m).1 hm t ht
      obtain ⟨x, hx, hx'⟩ := getR_lt _ _ h1
      obtain ⟨y, hy, hy'⟩ := getR_lt _ _ h2
      obtain ⟨z, hz, hz'⟩ := getR_lt _ _ h3
      simp [corners, hx', hy', hz', Res.bind, hx, hy, hz]
    · rw [List.map_map]
      refine List.map_congr_left fun t ht => ?_
      obtain ⟨h1, h2, h3⟩ := (valid_iff m).1 hm t ht
      obtain ⟨x, hx, _⟩ := getR_lt _ _ h1
      obtain ⟨y, hy, _⟩ := getR_lt _ _ h2
      obtain ⟨z, hz, _⟩ := getR_lt _ _ h3
      simp [hx, hy, hz]

/-- A mesh of one triangle. -/
def exMesh : Mesh ℚ :=
  ⟨[⟨⟨0, 0, 0⟩, ⟨0, 0, 1⟩, ⟨0, 0⟩⟩, ⟨⟨1, 0, 0⟩, ⟨0, 0, 1⟩, ⟨1, 0⟩⟩, ⟨⟨0, 1, 0⟩, ⟨0, 0, 1⟩, ⟨0, 1⟩⟩], [⟨0, 1, 2⟩]⟩

theorem exMesh_valid : Valid exMesh := by
  rw [valid_iff]
  decide

example : Valid exMesh := exMesh_valid
example : (append ⟨0, 0, 0⟩ exMesh (some exMesh)).map (fun r => r.triangles) = .ok [⟨0, 1, 2⟩, ⟨3, 4, 5⟩] := by
  decide +kernel

/-- C38 is violated: appending a mesh with a vertex or a triangle to itself writes out of range. The
resized arrays are the source of the copy, so twice the number of elements is copied. -/
theorem C38_refuted (zero : Vertex K) (m : Mesh K) (h : m ≠ Mesh.empty) : append zero m none = .ub := by
  unfold append stdCopy
  simp only [Option.getD_none]
  by_cases hv : m.vertices = []
  · have ht : m.triangles ≠ [] := by
      intro ht
      exact h (Mesh.ext hv ht)
    have ht' := List.length_pos_iff.2 ht
    rw [if_pos (by simp [hv])]
    simp only [Res.bind]
    rw [if_neg (by simp only [List.length_append, List.length_replicate]; omega)]
  · have hv' := List.length_pos_iff.2 hv
    rw [if_neg (by simp only [List.length_append, List.length_replicate]; omega)]
    rfl

/-- C38: only the empty mesh survives, so exactly there `Append` of the mesh itself acts as `Append` of a copy. -/
theorem C38_partial (zero : Vertex K) (m : Mesh K) :
    append zero m none = append zero m (some m) ↔ m = Mesh.empty := by
  constructor
  · intro h
    by_contra hm
    rw [C38_refuted zero m hm, append_eq] at h
    cases h
  · rintro rfl
    rfl

example : exMesh ≠ Mesh.empty := by decide

/-! ### Bounding box -/

section box
variable [LinearOrder K]

/-- The positions of the vertices, as points of the box. -/
def positions (m : Mesh K) : List (Fin 3 → K) := m.vertices.map fun v => ![v.position.x, v.position.y, v.position.z]

theorem boundingBox_eq (lo hi : K) (m : Mesh K) :
    boundingBox lo hi m = AABB.insertAll (AABB.reset lo hi) (positions m) := by
  unfold boundingBox AABB.insertAll positions
  rw [List.foldl_map]
  rfl

/-- C39: the box of a mesh with a vertex is the tightest box around the positions of its vertices. -/
theorem C39_hull (lo hi : K) (m : Mesh K) (hne : m.vertices ≠ [])
    (hl : ∀ p ∈ positions m, AABB.InLimits lo hi p) :
    AABB.IsHull {p | p ∈ positions m} (boundingBox lo hi m) := by
  rw [boundingBox_eq]
  exact C01_hull lo hi _ (by simpa [positions] using hne) hl

/-- C39: the box of the transformed mesh is the tightest box around the transformed positions. -/
theorem C39_transformed (lo hi : K) (f : V3 K → V3 K) (m : Mesh K) (hne : m.vertices ≠ [])
    (hl : ∀ v ∈ m.vertices, AABB.InLimits lo hi ![(f v.position).x, (f v.position).y, (f v.position).z]) :
    AABB.IsHull {p | ∃ v ∈ m.vertices, p = ![(f v.position).x, (f v.position).y, (f v.position).z]}
      (boundingBoxM lo hi f m) := by
  have h : boundingBoxM lo hi f m = AABB.insertAll (AABB.reset lo hi)
      (m.vertices.map fun v => ![(f v.position).x, (f v.position).y, (f v.position).z]) := by
    unfold boundingBoxM AABB.insertAll
    rw [List.foldl_map]
    rfl
  have := C01_hull lo hi (m.vertices.map fun v => ![(f v.position).x, (f v.position).y, (f v.position).z])
    (by simpa using hne) (by simpa using hl)
  rw [h]
  convert this using 2
  ext p
  simp [eq_comm]

/-- C39: the box depends only on the set of the positions. -/
theorem C39_set (lo hi : K) (m m' : Mesh K) (h : ∀ p, p ∈ positions m ↔ p ∈ positions m') :
    boundingBox lo hi m = boundingBox lo hi m' := by
  rw [boundingBox_eq, boundingBox_eq]
  exact C01_set _ _ _ h

/-- C39: the box of the transformed mesh depends only on the set of the positions, too. -/
theorem C39_set_transformed (lo hi : K) (f : V3 K → V3 K) (m m' : Mesh K)
    (h : ∀ p, (∃ v ∈ m.vertices, v.position = p) ↔ ∃ v ∈ m'.vertices, v.position = p) :
    boundingBoxM lo hi f m = boundingBoxM lo hi f m' := by
  have e : ∀ m : Mesh K, boundingBoxM lo hi f m = AABB.insertAll (AABB.reset lo hi)
      (m.vertices.map fun v => ![(f v.position).x, (f v.position).y, (f v.position).z]) := by
    intro m
    unfold boundingBoxM AABB.insertAll
    rw [List.foldl_map]
    rfl
  rw [e, e]
  refine C01_set _ _ _ fun p => ?_
  simp only [List.mem_map]
  constructor
  · rintro ⟨v, hv, rfl⟩
    obtain ⟨w, hw, hp⟩ := (h v.position).1 ⟨v, hv, rfl⟩
    exact ⟨w, hw, by rw [hp]⟩
  · rintro ⟨v, hv, rfl⟩
    obtain ⟨w, hw, hp⟩ := (h v.position).2 ⟨v, hv, rfl⟩
    exact ⟨w, hw, by rw [hp]⟩

theorem exMesh_limits : exMesh.vertices ≠ [] ∧ ∀ p ∈ positions exMesh, AABB.InLimits (-100) 100 p := by
  refine ⟨by decide, ?_⟩
  unfold AABB.InLimits
  decide +kernel

end box

/-! The theorems for these meshes. -/

example := C34_result (fun _ _ => false) strip true false (by simp) 2 {0, 2} (by decide)
example := C34_mono (fun _ _ => false) strip true false (by simp) 1 2 (by norm_num) {0, 2} (by decide)
example := C34_undefined (fun _ _ => false) strip true false (by simp) 1 {0, 7}
example := C34_result (fun p q => p.x == q.x) exMesh false true (fun _ => exMesh_valid) 2 {0} (by decide)
example := C34_edge_partial (fun _ _ => false) strip ⟨2, 1, 3⟩ ⟨2, 3, 4⟩ (by decide)
example := C37_append ⟨0, 0, 0⟩ exMesh exMesh exMesh_valid exMesh_valid
example := C38_refuted ⟨0, 0, 0⟩ exMesh (by decide)
example := C39_set_transformed (-100) 100 (fun v => v + ⟨1, 2, 3⟩) exMesh { exMesh with vertices := exMesh.vertices.reverse } (by simp)
example := C39_hull (-100) 100 exMesh exMesh_limits.1 exMesh_limits.2
example := C39_transformed (-100) 100 (fun v => v + ⟨1, 2, 3⟩) exMesh exMesh_limits.1 (by
  unfold AABB.InLimits
  decide +kernel)

end Geom.TMesh
