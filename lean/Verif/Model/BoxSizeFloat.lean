import Verif.Model.AABB
import Verif.Base.Float
import Verif.Base.Ext

/-
  Model of the size and the center of boxes in floating-point arithmetic, for `AABB` and for `VectorizedAABB3f`. The components of the boxes
  are finite numbers; each operation is the exact one followed by a rounding `fl`, and results beyond the largest number `big` are
  infinities (rounding to the nearest; other rounding modes may return the largest number instead).
-/
set_option autoImplicit false

namespace Geom.AABB

variable {n : ℕ}

/-- The result of an operation of include/Geom/AABB.h 103, 113 and include/Geom/VectorizedAABB.h 107-137 with the exact value `x`. -/
def roundE (fl : ℚ → ℚ) (big x : ℚ) : Ext ℚ := if big < fl x then .posInf else if fl x < -big then .negInf else .fin (fl x)

/-- include/Geom/AABB.h 103: `std::abs`. -/
def absE : Ext ℚ → Ext ℚ
  | .fin x => .fin |x|
  | .posInf => .posInf
  | .negInf => .posInf
  | .nan => .nan

/-- include/Geom/AABB.h 98-106, `Size`. -/
def sizeFl (fl : ℚ → ℚ) (big : ℚ) (b : Box n ℚ) : Fin n → Ext ℚ := fun i => absE (roundE fl big (b.max i - b.min i))

/-- include/Geom/AABB.h 113: `x / T(2)`. -/
def divTwo (fl : ℚ → ℚ) (big : ℚ) : Ext ℚ → Ext ℚ
  | .fin x => roundE fl big (x / 2)
  | .posInf => .posInf
  | .negInf => .negInf
  | .nan => .nan

/-- include/Geom/AABB.h 108-116, `Center`. -/
def centerFl (fl : ℚ → ℚ) (big : ℚ) (b : Box n ℚ) : Fin n → Ext ℚ := fun i => divTwo fl big (roundE fl big (b.min i + b.max i))

/-- include/Geom/AABB.h 144-152, `Contains(point)`, for points that may have infinite components. -/
def containsE (b : Box n ℚ) (p : Fin n → Ext ℚ) : Bool :=
  (List.finRange n).all fun i => !((p i).lt (b.min i) || (p i).gt (b.max i))

end Geom.AABB

namespace Geom.VAABB
open Geom.AABB (roundE)

/-- include/Geom/VectorizedAABB.h 107-137: a register `__m128`, as four numbers. -/
abbrev Reg (T : Type) := Fin 4 → T

/-- include/Geom/VectorizedAABB.h 40-45: `_mm_set_ps(e3, e2, e1, e0)`: `e0` goes to lane 0. -/
def setPs {T : Type} (e3 e2 e1 e0 : T) : Reg T := ![e0, e1, e2, e3]

/-- include/Geom/VectorizedAABB.h 178-183: the members, as numbers. -/
structure NBox where
  xMin : Reg ℚ
  yMin : Reg ℚ
  zMin : Reg ℚ
  xMax : Reg ℚ
  yMax : Reg ℚ
  zMax : Reg ℚ

/-- include/Geom/VectorizedAABB.h 39-47: the constructor from two arrays of four points. -/
def makeN (min max : Fin 4 → Fin 3 → ℚ) : NBox where
  xMin := setPs (min 3 0) (min 2 0) (min 1 0) (min 0 0)
  yMin := setPs (min 3 1) (min 2 1) (min 1 1) (min 0 1)
  zMin := setPs (min 3 2) (min 2 2) (min 1 2) (min 0 2)
  xMax := setPs (max 3 0) (max 2 0) (max 1 0) (max 0 0)
  yMax := setPs (max 3 1) (max 2 1) (max 1 1) (max 0 1)
  zMax := setPs (max 3 2) (max 2 2) (max 1 2) (max 0 2)

/-- include/Geom/VectorizedAABB.h 50-54, `Reset()`, also the default constructor, lines 33-36. -/
def resetN (big : ℚ) : NBox := ⟨fun _ => big, fun _ => big, fun _ => big, fun _ => -big, fun _ => -big, fun _ => -big⟩

section
variable (fl : ℚ → ℚ) (big : ℚ)

/-- include/Geom/VectorizedAABB.h 107, 113, 119: `_mm_sub_ps`. -/
def subPs (a b : Reg ℚ) : Reg (Ext ℚ) := fun k => roundE fl big (a k - b k)

/-- include/Geom/VectorizedAABB.h 125, 131, 137: `_mm_add_ps`. -/
def addPs (a b : Reg ℚ) : Reg (Ext ℚ) := fun k => roundE fl big (a k + b k)

/-- include/Geom/VectorizedAABB.h 125, 131, 137: `_mm_mul_ps(_, _mm_set_ps1(0.5f))`. -/
def mulHalfPs (a : Reg (Ext ℚ)) : Reg (Ext ℚ) := fun k =>
  match a k with
  | .fin x => roundE fl big (x * (1 / 2))
  | .posInf => .posInf
  | .negInf => .negInf
  | .nan => .nan

/-- include/Geom/VectorizedAABB.h 105-108, `Widths`. -/
def widths (b : NBox) : Reg (Ext ℚ) := subPs fl big b.xMax b.xMin

/-- include/Geom/VectorizedAABB.h 111-114, `Heights`. -/
def heights (b : NBox) : Reg (Ext ℚ) := subPs fl big b.yMax b.yMin

/-- include/Geom/VectorizedAABB.h 117-120, `Depths`. -/
def depths (b : NBox) : Reg (Ext ℚ) := subPs fl big b.zMax b.zMin

/-- include/Geom/VectorizedAABB.h 123-126, `CentersX`. -/
def centersX (b : NBox) : Reg (Ext ℚ) := mulHalfPs fl big (addPs fl big b.xMin b.xMax)

/-- include/Geom/VectorizedAABB.h 129-132, `CentersY`. -/
def centersY (b : NBox) : Reg (Ext ℚ) := mulHalfPs fl big (addPs fl big b.yMin b.yMax)

/-- include/Geom/VectorizedAABB.h 135-138, `CentersZ`. -/
def centersZ (b : NBox) : Reg (Ext ℚ) := mulHalfPs fl big (addPs fl big b.zMin b.zMax)

end

end Geom.VAABB
