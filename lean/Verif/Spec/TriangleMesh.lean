import Verif.Model.TriangleMesh

/-
  Specification of meshes: a mesh is a list of vertices and a list of index triples.
-/
set_option autoImplicit false

namespace Geom.TMesh.Spec

variable {K : Type}

/-- The corners of a triangle, in their cyclic order. -/
def corner (t : Ix) : Fin 3 → ℕ := ![t.a, t.b, t.c]

/-- Each index of each triangle refers to a vertex. -/
def Valid (m : Mesh K) : Prop := ∀ t ∈ m.triangles, ∀ i, corner t i < m.vertices.length

/-- The triangle has an edge between vertices `u` and `v`, in any direction. -/
def Adj (t : Ix) (u v : ℕ) : Prop :=
  ∃ i : Fin 3, (corner t i = u ∧ corner t (i + 1) = v) ∨ (corner t i = v ∧ corner t (i + 1) = u)

/-- Triangle number `k` of the mesh has the property. -/
def Has (m : Mesh K) (P : Ix → Prop) (k : ℕ) : Prop := ∃ t, m.triangles[k]? = some t ∧ P t

/-- The list is strictly ascending and has exactly the numbers of the triangles with the property. -/
def Lists (m : Mesh K) (P : Ix → Prop) (l : List ℕ) : Prop :=
  l.Pairwise (· < ·) ∧ ∀ k, k ∈ l ↔ Has m P k

/-- The triangles share a corner; `same u v` tells whether two vertices are taken for the same. -/
def CornerBond (same : ℕ → ℕ → Prop) (t u : Ix) : Prop := ∃ p q, same (corner t p) (corner u q)

/-- Two corners of triangle `t` are corners of triangle `u`. -/
def EdgeBond (same : ℕ → ℕ → Prop) (t u : Ix) : Prop :=
  ∃ p p', p ≠ p' ∧ (∃ q, same (corner t p) (corner u q)) ∧ ∃ q, same (corner t p') (corner u q)

/-- The vertices are the same if their positions are equal. -/
def SamePos (equals : V3 K → V3 K → Bool) (m : Mesh K) (u v : ℕ) : Prop :=
  ∃ a b, m.vertices[u]? = some a ∧ m.vertices[v]? = some b ∧ equals a.position b.position = true

/-- The neighbour relation of the search. -/
def Bond (equals : V3 K → V3 K → Bool) (m : Mesh K) (edgeBond viaPosition : Bool) (t u : Ix) : Prop :=
  let same := if viaPosition then SamePos equals m else (· = ·)
  if edgeBond then EdgeBond same t u else CornerBond same t u

/-- Triangle number `i` is a neighbour of triangle number `j`. -/
def Nb (m : Mesh K) (B : Ix → Ix → Prop) (i j : ℕ) : Prop :=
  ∃ t u, m.triangles[i]? = some t ∧ m.triangles[j]? = some u ∧ B t u

/-- `Walk N S d i`: a walk of `d` steps to a neighbour leads from an element of `S` to `i`. -/
inductive Walk (N : ℕ → ℕ → Prop) (S : Finset ℕ) : ℕ → ℕ → Prop
  | start {i} (h : i ∈ S) : Walk N S 0 i
  | step {d i j} (h : Walk N S d j) (hn : N i j) : Walk N S (d + 1) i

/-- The unit normal of a triangle with the corners `a`, `b`, `c` (zero for a degenerate triangle). -/
noncomputable def unitNormal (a b c : V3 ℝ) : V3 ℝ :=
  (1 / √(V3.dot (V3.cross (b - a) (c - a)) (V3.cross (b - a) (c - a)))) • V3.cross (b - a) (c - a)

/-- `n` is the unit normal of triangle number `k` of the mesh. -/
def NormalOf (m : Mesh ℝ) (k : ℕ) (n : V3 ℝ) : Prop :=
  ∃ t a b c, m.triangles[k]? = some t ∧ m.vertices[t.a]? = some a ∧ m.vertices[t.b]? = some b ∧
    m.vertices[t.c]? = some c ∧ n = unitNormal a.position b.position c.position

/-- The cosine of the angle between the normals of two triangles is within `delta` of one. -/
def Near (m : Mesh ℝ) (delta : ℝ) (k l : ℕ) : Prop :=
  ∃ n n', NormalOf m k n ∧ NormalOf m l n' ∧ |V3.dot n n' - 1| < delta

/-- The edge is inside of a surface: at least two triangles have it, and the normals of all of them are
near the one of the first triangle which has it. -/
def Flat (m : Mesh ℝ) (delta : ℝ) (e : Edge) : Prop :=
  ∃ k, Has m (fun t => Adj t e.a e.b) k ∧ (∃ l, l ≠ k ∧ Has m (fun t => Adj t e.a e.b) l) ∧
    ∀ l, Has m (fun t => Adj t e.a e.b) l → k ≤ l ∧ (l ≠ k → Near m delta l k)

/-- The corner vertices of all triangles, in order (`none` if an index is invalid). -/
def geometry (m : Mesh K) : List (Option (Vertex K) × Option (Vertex K) × Option (Vertex K)) :=
  m.triangles.map fun t => (m.vertices[t.a]?, m.vertices[t.b]?, m.vertices[t.c]?)

end Geom.TMesh.Spec
