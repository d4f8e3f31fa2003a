import Verif.Model.VertexOps
import Verif.Props.MeshModifier
import Mathlib.Tactic.Ring

/-
  C41: the operators of vertices.
-/
set_option autoImplicit false
set_option linter.unusedSectionVars false

namespace Geom.TMesh
open Spec

variable {K : Type}

/-- C41: `Barycentric` returns what the operators of `Vertex` compute from the corners, in any arithmetic: also with rounding both results are equal. -/
theorem C41_operators [Add K] [Mul K] (sz : ℕ) (hsz : 0 < sz) (zero : Vertex K) (m : Mesh K) (k : ℕ) (t : Ix) (a b c : Vertex K) (w : V3 K)
    (ht : m.triangles[k]? = some t) (ha : m.vertices[t.a]? = some a) (hb : m.vertices[t.b]? = some b) (hc : m.vertices[t.c]? = some c) :
    barycentric sz zero m k w = .ok (((a.mulAssign w.x).addAssign (b.mulAssign w.y)).addAssign (c.mulAssign w.z)) := by
  obtain ⟨v, h, h1, h2, h3, h4, h5, h6, h7, h8⟩ := C41_barycentric sz hsz zero m k t a b c w ht ha hb hc
  rw [h]
  congr 1
  ext <;> assumption

/-- C41: the operators of vertices obey the laws of a vector space. -/
theorem C41_vector_space [CommRing K] (u v w : Vertex K) (r s : K) :
    u.addAssign v = v.addAssign u ∧ (u.addAssign v).addAssign w = u.addAssign (v.addAssign w) ∧
      (u.addAssign v).mulAssign r = (u.mulAssign r).addAssign (v.mulAssign r) ∧ u.mulAssign (r + s) = (u.mulAssign r).addAssign (u.mulAssign s) ∧
      (u.mulAssign r).mulAssign s = u.mulAssign (r * s) ∧ u.mulAssign 1 = u ∧ u.addAssign (v.mulAssign 0) = u := by
  refine ⟨?_, ?_, ?_, ?_, ?_, ?_, ?_⟩ <;> ext <;> simp only [Vertex.addAssign, Vertex.mulAssign] <;> ring

example : (⟨⟨1, 2, 3⟩, ⟨0, 1, 0⟩, ⟨0, 1⟩⟩ : Vertex ℤ).addAssign ((⟨⟨1, 0, 1⟩, ⟨0, 1, 1⟩, ⟨1, 1⟩⟩ : Vertex ℤ).mulAssign 2) = ⟨⟨3, 2, 5⟩, ⟨0, 3, 2⟩, ⟨2, 3⟩⟩ := by
  decide

example : barycentric 4 ⟨⟨0, 0, 0⟩, ⟨0, 0, 0⟩, ⟨0, 0⟩⟩
    (⟨[⟨⟨1, 0, 0⟩, ⟨0, 0, 1⟩, ⟨0, 0⟩⟩, ⟨⟨0, 2, 0⟩, ⟨0, 0, 1⟩, ⟨1, 0⟩⟩, ⟨⟨0, 0, 3⟩, ⟨0, 0, 1⟩, ⟨0, 1⟩⟩], [⟨0, 1, 2⟩]⟩ : Mesh ℤ) 0 ⟨2, -2, 1⟩ =
    .ok ⟨⟨2, -4, 3⟩, ⟨0, 0, 1⟩, ⟨-2, 1⟩⟩ := by
  rw [C41_operators 4 (by norm_num) _ _ 0 ⟨0, 1, 2⟩ _ _ _ _ rfl rfl rfl rfl]
  rfl

end Geom.TMesh
