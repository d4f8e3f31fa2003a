import Verif.Proof.GridEdges
import Verif.Props.GenGrid

/-
  Meshes that consist of flat rectangular grids with vertices of their own: which edges are flat.
-/
set_option autoImplicit false

namespace Geom.Gen
open TMesh (Mesh Vertex Ix Edge)
open TMesh.Spec (Adj Has Flat Near NormalOf unitNormal corner)

/-- A flat grid: the number of columns and rows, the number of the first vertex, a corner and the two sides. -/
structure GSide where
  H : ℕ
  V : ℕ
  off : ℕ
  o : V3 ℝ
  a : V3 ℝ
  b : V3 ℝ

def splitAt (alt : Bool) (v u : ℕ) : Bool := decide (alt = true ∧ (u + v) % 2 = 1)

def GSide.tris (alt : Bool) (g : GSide) : List Ix := gridT g.V g.H fun v u =>
  [cellTri (splitAt alt v u) false (gridP g.off g.H) v u, cellTri (splitAt alt v u) true (gridP g.off g.H) v u]

noncomputable def GSide.at (g : GSide) (v u : ℕ) : V3 ℝ := g.o + ((v : ℝ) / g.V) • g.a + ((u : ℝ) / g.H) • g.b

theorem faceTrisIx_tris (alt : Bool) (H V off : ℕ) (o a b : V3 ℝ) (hb : (V + 1) * (H + 1) ≤ 2 ^ 32) :
    faceTrisIx false alt H V off = GSide.tris alt ⟨H, V, off, o, a, b⟩ := by
  unfold faceTrisIx GSide.tris gridT
  apply tab_congr
  intro v hv
  apply tab_congr
  intro u hu
  have key : ∀ r c, r < V + 1 → c < H + 1 → off + w32 (r * (H + 1) + c) = gridP off H r c := by
    intro r c hr hc
    have := grid_lt hr hc
    rw [w32_of_lt (by omega), gridP]
  have e0 := key (0 + v) (0 + u) (by omega) (by omega)
  have e1 := key (0 + v + 1) (0 + u) (by omega) (by omega)
  have e2 := key (0 + v + 1) (0 + u + 1) (by omega) (by omega)
  have e3 := key (0 + v) (0 + u + 1) (by omega) (by omega)
  rw [← Nat.add_assoc] at e2 e3
  dsimp only
  rw [e0, e1, e2, e3]
  unfold cellIx quadIx splitAt
  simp only [Bool.false_eq_true, if_false]
  split_ifs with h
  · rw [decide_eq_true h]; rfl
  · rw [decide_eq_false h]; rfl

variable {alt : Bool}

theorem mem_tris {g : GSide} {t : Ix} : t ∈ g.tris alt ↔ ∃ v u w, v < g.V ∧ u < g.H ∧ t = cellTri (splitAt alt v u) w (gridP g.off g.H) v u := by
  unfold GSide.tris
  rw [gridT_mem]
  constructor
  · rintro ⟨v, u, hv, hu, h⟩
    rcases List.mem_cons.1 h with h | h
    · exact ⟨v, u, false, hv, hu, h⟩
    · exact ⟨v, u, true, hv, hu, List.mem_singleton.1 h⟩
  · rintro ⟨v, u, w, hv, hu, rfl⟩
    refine ⟨v, u, hv, hu, ?_⟩
    cases w <;> simp

theorem tab_nodup {α : Type} (lo n : ℕ) (f : ℕ → List α) (h1 : ∀ i < n, (f (lo + i)).Nodup)
    (h2 : ∀ i < n, ∀ j < n, ∀ x, x ∈ f (lo + i) → x ∈ f (lo + j) → i = j) : (tab lo n f).Nodup := by
  unfold tab
  rw [List.nodup_flatMap]
  refine ⟨fun i hi => h1 i (List.mem_range.1 hi), ?_⟩
  refine List.Pairwise.imp_of_mem ?_ (List.nodup_range (n := n))
  intro i j hi hj hne x hx hy
  exact hne (h2 i (List.mem_range.1 hi) j (List.mem_range.1 hj) x hx hy)

theorem nodup_tris (alt : Bool) (g : GSide) : (g.tris alt).Nodup := by
  unfold GSide.tris gridT
  have inj : ∀ v u v' u' w w', u < g.H → u' < g.H → cellTri (splitAt alt v u) w (gridP g.off g.H) v u = cellTri (splitAt alt v' u') w' (gridP g.off g.H) v' u' →
      v = v' ∧ u = u' ∧ w = w' := fun v u v' u' w w' h h' e => cellTri_inj (S := splitAt alt) h h' e
  have mem : ∀ v u (x : Ix), x ∈ [cellTri (splitAt alt v u) false (gridP g.off g.H) v u, cellTri (splitAt alt v u) true (gridP g.off g.H) v u] →
      ∃ w, x = cellTri (splitAt alt v u) w (gridP g.off g.H) v u := by
    intro v u x hx
    rcases List.mem_cons.1 hx with h | h
    · exact ⟨_, h⟩
    · exact ⟨_, List.mem_singleton.1 h⟩
  apply tab_nodup
  · intro v hv
    apply tab_nodup
    · intro u hu
      simp only [List.nodup_cons, List.mem_singleton, List.not_mem_nil, not_false_eq_true, List.nodup_nil, and_true]
      intro e
      have := (inj _ _ _ _ _ _ (by omega) (by omega) e).2.2
      cases this
    · intro u hu u' hu' x hx hx'
      obtain ⟨w, rfl⟩ := mem _ _ _ hx
      obtain ⟨w', e⟩ := mem _ _ _ hx'
      have := (inj _ _ _ _ _ _ (by omega) (by omega) e).2.1
      omega
  · intro v hv v' hv' x hx hx'
    obtain ⟨u, hu, hx⟩ := mem_tab.1 hx
    obtain ⟨u', hu', hx'⟩ := mem_tab.1 hx'
    obtain ⟨w, rfl⟩ := mem _ _ _ hx
    obtain ⟨w', e⟩ := mem _ _ _ hx'
    have := (inj _ _ _ _ _ _ (by omega) (by omega) e).1
    omega

/-- Number of vertices. -/
def GSide.size (g : GSide) : ℕ := (g.V + 1) * (g.H + 1)

theorem tris_coords {g : GSide} {t : Ix} (ht : t ∈ g.tris alt) {i j : ℕ} (h : Adj t i j) :
    ∃ v u w x y x' y', v < g.V ∧ u < g.H ∧ t = cellTri (splitAt alt v u) w (gridP g.off g.H) v u ∧ x ≤ g.V ∧ y ≤ g.H ∧ x' ≤ g.V ∧ y' ≤ g.H ∧
      i = gridP g.off g.H x y ∧ j = gridP g.off g.H x' y' ∧ EdgeE (splitAt alt v u) w v u x y x' y' := by
  obtain ⟨v, u, w, hv, hu, rfl⟩ := mem_tris.1 ht
  obtain ⟨x, y, x', y', rfl, rfl, he⟩ := adj_edge h
  have hr : x ≤ v + 1 ∧ y ≤ u + 1 ∧ x' ≤ v + 1 ∧ y' ≤ u + 1 := by
    generalize splitAt alt v u = s at *
    cases s <;> cases w <;> simp only [EdgeE, DirE] at he <;>
      rcases he with (he | he | he) | (he | he | he) <;> omega
  exact ⟨v, u, w, x, y, x', y', hv, hu, rfl, by omega, by omega, by omega, by omega, rfl, rfl, he⟩

theorem gridP_range {g : GSide} {x y : ℕ} (hx : x ≤ g.V) (hy : y ≤ g.H) : g.off ≤ gridP g.off g.H x y ∧ gridP g.off g.H x y < g.off + g.size := by
  have := grid_lt (R := g.V + 1) (C := g.H + 1) (r := x) (c := y) (by omega) (by omega)
  unfold gridP GSide.size
  omega

/-- The mesh consists of the grids. -/
structure Sided (alt : Bool) (m : Mesh ℝ) (L : List GSide) : Prop where
  tri : m.triangles = L.flatMap (GSide.tris alt)
  fit : ∀ g ∈ L, g.off + g.size ≤ m.vertices.length
  pos : ∀ g ∈ L, ∀ v u, v ≤ g.V → u ≤ g.H → ∃ x, m.vertices[gridP g.off g.H v u]? = some x ∧ x.position = g.at v u
  dis : L.Pairwise fun g h => g.off + g.size ≤ h.off

variable {m : Mesh ℝ} {L : List GSide}

theorem same_side {g g' : GSide} {i : ℕ} (h1 : g.off ≤ i ∧ i < g.off + g.size) (h2 : g'.off ≤ i ∧ i < g'.off + g'.size) :
    ∀ L : List GSide, L.Pairwise (fun g h => g.off + g.size ≤ h.off) → g ∈ L → g' ∈ L → g = g'
  | [], _, hg, _ => nomatch hg
  | x :: L, hp, hg, hg' => by
    obtain ⟨hx, hp⟩ := List.pairwise_cons.1 hp
    rcases List.mem_cons.1 hg with e | k <;> rcases List.mem_cons.1 hg' with e' | k'
    · rw [e, e']
    · have := hx _ k'; rw [← e] at this; omega
    · have := hx _ k; rw [← e'] at this; omega
    · exact same_side h1 h2 L hp k k'

theorem tri_range {g : GSide} {t : Ix} (ht : t ∈ g.tris alt) : g.off ≤ t.a ∧ t.a < g.off + g.size := by
  obtain ⟨v, u, w, x, y, x', y', hv, hu, -, hx, hy, hx', hy', e, -⟩ := tris_coords ht (i := t.a) (j := t.b) ⟨0, .inl ⟨rfl, rfl⟩⟩
  rw [e]
  exact gridP_range hx hy

theorem Sided.nodup (h : Sided alt m L) : m.triangles.Nodup := by
  rw [h.tri, List.nodup_flatMap]
  refine ⟨fun g _ => nodup_tris alt g, h.dis.imp ?_⟩
  intro g g' hlt t ht ht'
  have := tri_range ht
  have := tri_range ht'
  omega

theorem Sided.mem (h : Sided alt m L) {t : Ix} : t ∈ m.triangles ↔ ∃ g ∈ L, t ∈ g.tris alt := by
  rw [h.tri, List.mem_flatMap]

/-- The triangles with an edge of a grid. -/
theorem Sided.has (h : Sided alt m L) {g : GSide} (hg : g ∈ L) {x y x' y' : ℕ} (hx : x ≤ g.V) (hy : y ≤ g.H) (hy' : y' ≤ g.H) {t : Ix} :
    t ∈ m.triangles ∧ Adj t (gridP g.off g.H x y) (gridP g.off g.H x' y') ↔
      ∃ v u w, v < g.V ∧ u < g.H ∧ t = cellTri (splitAt alt v u) w (gridP g.off g.H) v u ∧ EdgeE (splitAt alt v u) w v u x y x' y' := by
  constructor
  · rintro ⟨ht, ha⟩
    obtain ⟨g', hg', ht⟩ := h.mem.1 ht
    obtain ⟨v, u, w, a, b, a', b', hv, hu, rfl, ha1, hb1, ha2, hb2, e1, e2, he⟩ := tris_coords ht ha
    obtain rfl : g = g' := same_side (gridP_range hx hy) (by rw [e1]; exact gridP_range ha1 hb1) L h.dis hg hg'
    obtain ⟨rfl, rfl⟩ := gridP_inj hy hb1 e1
    obtain ⟨rfl, rfl⟩ := gridP_inj hy' hb2 e2
    exact ⟨v, u, w, hv, hu, rfl, he⟩
  · rintro ⟨v, u, w, hv, hu, rfl, he⟩
    exact ⟨h.mem.2 ⟨g, hg, mem_tris.2 ⟨v, u, w, hv, hu, rfl⟩⟩, edge_adj he⟩

theorem has_iff {P : Ix → Prop} {k : ℕ} (h : Has m P k) : ∃ t ∈ m.triangles, P t ∧ m.triangles[k]? = some t := by
  obtain ⟨t, ht, hp⟩ := h
  exact ⟨t, List.mem_of_getElem? ht, hp, ht⟩

/-- An edge on the border of a grid has one triangle. -/
theorem Sided.border (h : Sided alt m L) {g : GSide} (hg : g ∈ L) {x y x' y' : ℕ} (hx : x ≤ g.V) (hy : y ≤ g.H) (hy' : y' ≤ g.H)
    (hb : BorderE g.V g.H x y x' y') (delta : ℝ) (e : Edge) (ea : e.a = gridP g.off g.H x y) (eb : e.b = gridP g.off g.H x' y') : ¬ Flat m delta e := by
  rintro ⟨k, hk, ⟨l, hne, hl⟩, -⟩
  rw [ea, eb] at hk hl
  obtain ⟨t, ht, htp, hk⟩ := has_iff hk
  obtain ⟨t', ht', htp', hl⟩ := has_iff hl
  obtain ⟨v, u, w, hv, hu, rfl, he⟩ := (h.has hg hx hy hy').1 ⟨ht, htp⟩
  obtain ⟨v', u', w', hv', hu', rfl, he'⟩ := (h.has hg hx hy hy').1 ⟨ht', htp'⟩
  obtain ⟨rfl, rfl, hw⟩ := border_unique he he' hv hu hv' hu' hb
  obtain rfl := hw rfl
  obtain ⟨hlt, hk⟩ := List.getElem?_eq_some_iff.1 hk
  obtain ⟨hlt', hl⟩ := List.getElem?_eq_some_iff.1 hl
  exact hne ((h.nodup.getElem_inj_iff).1 (hl.trans hk.symm))

/-- The normal of all triangles of a grid. -/
theorem Sided.normal (h : Sided alt m L) {g : GSide} (hg : g ∈ L) {v u : ℕ} {w : Bool} (hv : v < g.V) (hu : u < g.H) {k : ℕ}
    (hk : m.triangles[k]? = some (cellTri (splitAt alt v u) w (gridP g.off g.H) v u)) :
    NormalOf m k ((1 / √(V3.dot (((1 : ℝ) / (g.V * g.H)) • V3.cross g.a g.b) (((1 : ℝ) / (g.V * g.H)) • V3.cross g.a g.b))) •
      (((1 : ℝ) / (g.V * g.H)) • V3.cross g.a g.b)) := by
  have hV : (g.V : ℝ) ≠ 0 := by have : 0 < g.V := by omega
                                positivity
  have hH : (g.H : ℝ) ≠ 0 := by have : 0 < g.H := by omega
                                positivity
  obtain ⟨p0, q0, r0⟩ := h.pos g hg v u (by omega) (by omega)
  obtain ⟨p1, q1, r1⟩ := h.pos g hg (v + 1) u (by omega) (by omega)
  obtain ⟨p2, q2, r2⟩ := h.pos g hg (v + 1) (u + 1) (by omega) (by omega)
  obtain ⟨p3, q3, r3⟩ := h.pos g hg v (u + 1) (by omega) (by omega)
  have key : ∀ p q r : V3 ℝ, V3.cross (q - p) (r - p) = ((1 : ℝ) / (g.V * g.H)) • V3.cross g.a g.b →
      (1 / √(V3.dot (((1 : ℝ) / (g.V * g.H)) • V3.cross g.a g.b) (((1 : ℝ) / (g.V * g.H)) • V3.cross g.a g.b))) •
      (((1 : ℝ) / (g.V * g.H)) • V3.cross g.a g.b) = unitNormal p q r := by
    intro p q r e
    unfold unitNormal
    rw [e]
  generalize splitAt alt v u = s at hk
  cases s <;> cases w
  · refine ⟨_, p0, p1, p2, hk, q0, q1, q2, key _ _ _ ?_⟩
    rw [r0, r1, r2]; unfold GSide.at; push_cast; apply V3.ext <;> simp <;> field_simp <;> ring
  · refine ⟨_, p0, p2, p3, hk, q0, q2, q3, key _ _ _ ?_⟩
    rw [r0, r2, r3]; unfold GSide.at; push_cast; apply V3.ext <;> simp <;> field_simp <;> ring
  · refine ⟨_, p0, p1, p3, hk, q0, q1, q3, key _ _ _ ?_⟩
    rw [r0, r1, r3]; unfold GSide.at; push_cast; apply V3.ext <;> simp <;> field_simp <;> ring
  · refine ⟨_, p1, p2, p3, hk, q1, q2, q3, key _ _ _ ?_⟩
    rw [r1, r2, r3]; unfold GSide.at; push_cast; apply V3.ext <;> simp <;> field_simp <;> ring

/-- An edge inside of a grid is flat. -/
theorem Sided.inner (h : Sided alt m L) {g : GSide} (hg : g ∈ L) (hc : V3.cross g.a g.b ≠ 0) {x y x' y' v u : ℕ} {w : Bool} (hv : v < g.V) (hu : u < g.H)
    (he : EdgeE (splitAt alt v u) w v u x y x' y') (hx : x ≤ g.V) (hy : y ≤ g.H) (hy' : y' ≤ g.H)
    (hb : ¬ BorderE g.V g.H x y x' y') (delta : ℝ) (hd : 0 < delta) (e : Edge) (ea : e.a = gridP g.off g.H x y) (eb : e.b = gridP g.off g.H x' y') :
    Flat m delta e := by
  classical
  obtain ⟨v', u', w', hv', hu', hne, he'⟩ := interior_other (splitAt alt) he hv hu hb
  have has := fun t => h.has hg hx hy (x' := x') hy' (t := t)
  obtain ⟨m1, a1⟩ := (has _).2 ⟨v, u, w, hv, hu, rfl, he⟩
  obtain ⟨m2, a2⟩ := (has _).2 ⟨v', u', w', hv', hu', rfl, he'⟩
  obtain ⟨k1, hk1⟩ := List.mem_iff_getElem?.1 m1
  obtain ⟨k2, hk2⟩ := List.mem_iff_getElem?.1 m2
  have hkne : k1 ≠ k2 := by
    rintro rfl
    rw [hk1] at hk2
    obtain ⟨r1, r2, r3⟩ := cellTri_inj (S := splitAt alt) hu hu' (Option.some.inj hk2)
    exact hne ⟨r1.symm, r2.symm, r3.symm⟩
  unfold Flat
  rw [ea, eb]
  have ex : ∃ k, Has m (fun t => Adj t (gridP g.off g.H x y) (gridP g.off g.H x' y')) k := ⟨k1, _, hk1, a1⟩
  refine ⟨Nat.find ex, Nat.find_spec ex, ?_, ?_⟩
  · by_cases hk : k1 = Nat.find ex
    · exact ⟨k2, fun h => hkne (hk.trans h.symm), _, hk2, a2⟩
    · exact ⟨k1, hk, _, hk1, a1⟩
  · intro l hl
    refine ⟨Nat.find_min' ex hl, fun _ => ?_⟩
    have norm : ∀ k, Has m (fun t => Adj t (gridP g.off g.H x y) (gridP g.off g.H x' y')) k → NormalOf m k
        ((1 / √(V3.dot (((1 : ℝ) / (g.V * g.H)) • V3.cross g.a g.b) (((1 : ℝ) / (g.V * g.H)) • V3.cross g.a g.b))) •
          (((1 : ℝ) / (g.V * g.H)) • V3.cross g.a g.b)) := by
      intro k hk
      obtain ⟨t, ht, htp, hk⟩ := has_iff hk
      obtain ⟨a, b, c, ha, hb, rfl, -⟩ := (has _).1 ⟨ht, htp⟩
      exact h.normal hg ha hb hk
    refine ⟨_, _, norm l hl, norm _ (Nat.find_spec ex), ?_⟩
    have hV : (0 : ℝ) < g.V := by exact_mod_cast (by omega : 0 < g.V)
    have hH : (0 : ℝ) < g.H := by exact_mod_cast (by omega : 0 < g.H)
    set n := ((1 : ℝ) / (g.V * g.H)) • V3.cross g.a g.b with hn
    have n0 : n ≠ 0 := by
      intro e0
      apply hc
      have hvh : (0 : ℝ) < 1 / (g.V * g.H) := by positivity
      have ex := congrArg V3.x e0
      have ey := congrArg V3.y e0
      have ez := congrArg V3.z e0
      simp only [hn, V3.smul_x, V3.smul_y, V3.smul_z] at ex ey ez
      apply V3.ext
      · exact (mul_eq_zero.1 ex).resolve_left hvh.ne'
      · exact (mul_eq_zero.1 ey).resolve_left hvh.ne'
      · exact (mul_eq_zero.1 ez).resolve_left hvh.ne'
    have np : 0 < V3.dot n n := by
      by_contra hle
      apply n0
      simp only [V3.dot] at hle
      have h1 := mul_self_nonneg n.x
      have h2 := mul_self_nonneg n.y
      have h3 := mul_self_nonneg n.z
      apply V3.ext
      · exact mul_self_eq_zero.1 (by linarith)
      · exact mul_self_eq_zero.1 (by linarith)
      · exact mul_self_eq_zero.1 (by linarith)
    have e1 : V3.dot ((1 / √(V3.dot n n)) • n) ((1 / √(V3.dot n n)) • n) = 1 := by
      have hs := Real.sq_sqrt np.le
      have hs0 := Real.sqrt_pos.2 np
      rw [show V3.dot ((1 / √(V3.dot n n)) • n) ((1 / √(V3.dot n n)) • n) = (1 / √(V3.dot n n)) ^ 2 * V3.dot n n by
        simp only [V3.dot, V3.smul_x, V3.smul_y, V3.smul_z]; ring, div_pow, hs]
      field_simp
    rw [e1]
    simpa using hd

/-- The edges of the mesh and which of them are flat. -/
theorem Sided.flat (h : Sided alt m L) (hc : ∀ g ∈ L, V3.cross g.a g.b ≠ 0) (delta : ℝ) (hd : 0 < delta) (e : Edge) {t : Ix} (ht : t ∈ m.triangles)
    (ha : Adj t e.a e.b) : ∃ g ∈ L, ∃ x y x' y', x ≤ g.V ∧ y ≤ g.H ∧ x' ≤ g.V ∧ y' ≤ g.H ∧ 1 ≤ g.V ∧ 1 ≤ g.H ∧
      (∃ p, m.vertices[e.a]? = some p ∧ p.position = g.at x y) ∧ (∃ q, m.vertices[e.b]? = some q ∧ q.position = g.at x' y') ∧
      (Flat m delta e ↔ ¬ BorderE g.V g.H x y x' y') := by
  obtain ⟨g, hg, htg⟩ := h.mem.1 ht
  obtain ⟨v, u, w, x, y, x', y', hv, hu, rfl, hx, hy, hx', hy', e1, e2, he⟩ := tris_coords htg ha
  refine ⟨g, hg, x, y, x', y', hx, hy, hx', hy', by omega, by omega, ?_, ?_, ?_⟩
  · rw [e1]; exact h.pos g hg x y hx hy
  · rw [e2]; exact h.pos g hg x' y' hx' hy'
  · constructor
    · intro hf hb
      exact h.border hg hx hy hy' hb delta e e1 e2 hf
    · intro hb
      exact h.inner hg (hc g hg) hv hu he hx hy hy' hb delta hd e e1 e2

theorem sided_nil (alt : Bool) : Sided alt Mesh.empty [] := ⟨rfl, by simp, by simp, by simp⟩

/-- One more grid. -/
theorem Sided.face (h : Sided alt m L) (rotation : V3 ℝ → V3 ℝ) (sh sv oz : ℝ) (H V : ℕ) (hH : 1 ≤ H) (hV : 1 ≤ V)
    (hb : (V + 1) * (H + 1) ≤ 2 ^ 32) (o a b : V3 ℝ)
    (hF : ∀ i j : ℕ, rotation ⟨sh * (j / H) - sh / 2, sv * (i / V) - sv / 2, oz / 2⟩ = o + ((i : ℝ) / V) • a + ((j : ℝ) / H) • b) :
    ∃ m' off, buildFace m rotation sh sv oz H V alt = .ok m' ∧ Sided alt m' (L ++ [⟨H, V, off, o, a, b⟩]) := by
  have hU' : H + 1 < 2 ^ 32 := by have := Nat.mul_le_mul_right (H + 1) (show 2 ≤ V + 1 by omega); omega
  have hV' : V + 1 < 2 ^ 32 := by have := Nat.mul_le_mul_left (V + 1) (show 2 ≤ H + 1 by omega); omega
  rw [buildFace_ok _ _ _ _ _ _ _ _ hU' hV']
  refine ⟨_, m.vertices.length, rfl, ?_, ?_, ?_, ?_⟩
  · rw [faceTrisIx_tris alt H V _ o a b hb]
    simp [ext, h.tri]
  · intro g hg
    simp only [ext, List.length_append, gridV_length]
    rcases List.mem_append.1 hg with hg | hg
    · have := h.fit g hg; omega
    · obtain rfl := List.mem_singleton.1 hg
      simp [GSide.size]
  · intro g hg v u hv hu
    rcases List.mem_append.1 hg with hg' | hg'
    · obtain ⟨p, hp, e⟩ := h.pos g hg' v u hv hu
      refine ⟨p, ?_, e⟩
      simp only [ext]
      rw [List.getElem?_append_left, hp]
      exact (List.getElem?_eq_some_iff.1 hp).1
    · obtain rfl := List.mem_singleton.1 hg'
      dsimp only at hv hu
      refine ⟨faceV rotation sh sv oz H V v u, ?_, hF v u⟩
      have hs := stored_append m.vertices (gridV (V + 1) (H + 1) (faceV rotation sh sv oz H V)) []
        (m.triangles ++ faceTrisIx false alt H V m.vertices.length)
      rw [List.append_nil] at hs
      exact stored_grid hs (by omega) (by omega)
  · rw [List.pairwise_append]
    refine ⟨h.dis, List.pairwise_singleton .., fun g hg g' hg' => ?_⟩
    obtain rfl := List.mem_singleton.1 hg'
    exact h.fit g hg

end Geom.Gen
