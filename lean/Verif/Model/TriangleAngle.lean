import Verif.Model.Triangle
import Verif.Base.Res
import Mathlib.Analysis.SpecialFunctions.Trigonometric.Inverse

/-
  Model of the remaining functions of include/Geom/Triangle.h: corners by index, angles and unit normals. `Area` of a 3D triangle is not modelled:
  it returns a vector as a number, so that a program which calls it does not compile; `Area` of a 2D triangle needs a product of 2D vectors of
  GaussianLib whose meaning is not known.
-/
set_option autoImplicit false

namespace Geom.Triangle

variable {K : Type}

/-- include/Geom/Triangle.h 231-235, `operator []`: a corner. The memory after the third corner is not part of the triangle. -/
def Tri.corner (t : Tri K) (vertex : ℕ) : Res (V3 K) :=
  match vertex with
  | 0 => .ok t.a
  | 1 => .ok t.b
  | 2 => .ok t.c
  | _ => .ub

/-- include/Geom/Triangle.h 109-113, `operator []` of a 2D triangle. -/
def Tri2.corner (t : Tri2 K) (vertex : ℕ) : Res (V2 K) :=
  match vertex with
  | 0 => .ok t.a
  | 1 => .ok t.b
  | 2 => .ok t.c
  | _ => .ub

/-- include/Geom/Triangle.h 336: `Gs::Angle` of GaussianLib (assumed: the arc cosine of the product divided by the lengths); `none` is not a number. -/
noncomputable def vecAngle (u v : V3 ℝ) : Option ℝ :=
  if √u.lenSq * √v.lenSq = 0 then none else some (Real.arccos (V3.dot u v / (√u.lenSq * √v.lenSq)))

/-- include/Geom/Triangle.h 190: `Gs::Angle` of 2D vectors. -/
noncomputable def vecAngle2 (u v : V2 ℝ) : Option ℝ :=
  if √u.lenSq * √v.lenSq = 0 then none else some (Real.arccos (V2.dot u v / (√u.lenSq * √v.lenSq)))

/-- include/Geom/Triangle.h 333-340, `Angle`. -/
noncomputable def Tri.angle (t : Tri ℝ) (vertex : ℕ) : Res (Option ℝ) :=
  (t.corner ((vertex + 1) % 3)).bind fun p => (t.corner vertex).bind fun o => (t.corner ((vertex + 2) % 3)).bind fun q => .ok (vecAngle (p - o) (q - o))

/-- include/Geom/Triangle.h 187-194, `Angle` of a 2D triangle. -/
noncomputable def Tri2.angle (t : Tri2 ℝ) (vertex : ℕ) : Res (Option ℝ) :=
  (t.corner ((vertex + 1) % 3)).bind fun p => (t.corner vertex).bind fun o => (t.corner ((vertex + 2) % 3)).bind fun q => .ok (vecAngle2 (p - o) (q - o))

/-- include/Geom/Triangle.h 253-257, `UnitNormal`. -/
noncomputable def Tri.unitNormal (t : Tri ℝ) : V3 ℝ := Plane.normalizeVec t.normal

/-- include/Geom/Triangle.h 134-138, `UnitNormal` of a 2D triangle. -/
noncomputable def Tri2.unitNormal (t : Tri2 ℝ) : V3 ℝ := Plane.normalizeVec t.normal

end Geom.Triangle
