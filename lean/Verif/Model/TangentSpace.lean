import Verif.Model.Triangle
import Verif.Model.Plane

/-
  Model of include/Geom/TangentSpace.h.
-/
set_option autoImplicit false

namespace Geom.TangentSpace

open Plane (normalizeVec)
open Geom.Triangle (Tri Tri2)

/-- include/Geom/TangentSpace.h 36-66, `ComputeTangentSpace`: tangent, bitangent and normal. `eps` is `Gs::Epsilon`. -/
noncomputable def compute (eps : ℝ) (coords : Tri ℝ) (tex : Tri2 ℝ) : V3 ℝ × V3 ℝ × V3 ℝ :=
  let v1 := coords.b - coords.a
  let v2 := coords.c - coords.a
  let st1 := tex.b - tex.a
  let st2 := tex.c - tex.a
  let tangent := normalizeVec (st2.y • v1 - st1.y • v2)
  let bitangent := normalizeVec (st2.x • v1 - st1.x • v2)
  let normal := normalizeVec (V3.cross v1 v2)
  if eps < V3.dot (V3.cross tangent bitangent) normal then (-tangent, -bitangent, normal)
  else (tangent, bitangent, normal)

end Geom.TangentSpace
