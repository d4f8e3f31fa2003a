import Verif.Base.Vec
import Verif.Model.Triangle
import Mathlib.Analysis.SpecialFunctions.Pow.Real

/-
  Specification of a tangent space.
-/
set_option autoImplicit false

namespace Geom.TangentSpace.Spec
open Geom.Triangle (Tri Tri2)

/-- The surface changes by `U` per unit of the first texture coordinate and by `W` per unit of the second one. -/
def Gradients (coords : Tri ℝ) (tex : Tri2 ℝ) (U W : V3 ℝ) : Prop :=
  coords.b - coords.a = (tex.b - tex.a).x • U + (tex.b - tex.a).y • W ∧
  coords.c - coords.a = (tex.c - tex.a).x • U + (tex.c - tex.a).y • W

/-- Twice the signed area of the triangle of texture coordinates. -/
def det (tex : Tri2 ℝ) : ℝ := (tex.b - tex.a).x * (tex.c - tex.a).y - (tex.c - tex.a).x * (tex.b - tex.a).y

/-- `d` has unit length and the direction of `U`. -/
def Direction (d U : V3 ℝ) : Prop := d.lenSq = 1 ∧ ∃ k : ℝ, 0 < k ∧ U = k • d

end Geom.TangentSpace.Spec
