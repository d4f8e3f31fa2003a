import Verif.Model.AABB

/-
  Model of include/Geom/VectorizedAABB.h (SSE).

  A register `__m128` is four lanes of 32 bits. The bit operations are modelled on
  bits. The order of the numbers represented by the bits is given by a parameter
  `val : BitVec 32 → Flt T` (the number a bit pattern stands for, or NaN), so that the
  results hold for IEEE binary32 in particular, with -0 and +0 being two patterns of
  the same number.
-/
set_option autoImplicit false

namespace Geom.VAABB

open Geom.AABB

/-- `__m128`. -/
abbrev M128 := Fin 4 → BitVec 32

/-- include/Geom/VectorizedAABB.h 40-45: `_mm_set_ps(e3, e2, e1, e0)`: `e0` goes to lane 0. -/
def set_ps (e3 e2 e1 e0 : BitVec 32) : M128 := ![e0, e1, e2, e3]

/-- include/Geom/VectorizedAABB.h 52-53: `_mm_set_ps1(a)`. -/
def set_ps1 (a : BitVec 32) : M128 := fun _ => a

/-- include/Geom/VectorizedAABB.h 95, 147-150: `_mm_and_ps`. -/
def and_ps (a b : M128) : M128 := fun k => a k &&& b k
/-- include/Geom/VectorizedAABB.h 95: `_mm_or_ps`. -/
def or_ps (a b : M128) : M128 := fun k => a k ||| b k
/-- include/Geom/VectorizedAABB.h 95: `_mm_andnot_ps(a, b)`: `~a & b`. -/
def andnot_ps (a b : M128) : M128 := fun k => ~~~(a k) &&& b k

/-- include/Geom/VectorizedAABB.h 94, 147: Result of a comparison in one lane: all bits set or clear. -/
def mask (c : Bool) : BitVec 32 := if c then BitVec.allOnes 32 else 0

variable {T : Type} [LinearOrder T] (val : BitVec 32 → Flt T)

/-- include/Geom/VectorizedAABB.h 147: IEEE `a <= b`: false if one is NaN. -/
def fle : Flt T → Flt T → Bool
  | .num a, .num b => decide (a ≤ b)
  | _, _ => false

/-- include/Geom/VectorizedAABB.h 94, 147: `_mm_cmpgt_ps`, `_mm_cmpge_ps`, `_mm_cmple_ps`. -/
def cmpgt_ps (a b : M128) : M128 := fun k => mask (CLt.lt (val (b k)) (val (a k)))
/-- include/Geom/VectorizedAABB.h 147. -/
def cmpge_ps (a b : M128) : M128 := fun k => mask (fle (val (b k)) (val (a k)))
/-- include/Geom/VectorizedAABB.h 147. -/
def cmple_ps (a b : M128) : M128 := fun k => mask (fle (val (a k)) (val (b k)))

/-- include/Geom/VectorizedAABB.h 68: `_mm_min_ps(a, b)`: `a` if `a < b`, else `b` (so `b` if one of them is NaN). -/
def min_ps (a b : M128) : M128 := fun k => if CLt.lt (val (a k)) (val (b k)) then a k else b k
/-- include/Geom/VectorizedAABB.h 69: `_mm_max_ps(a, b)`: `a` if `a > b`, else `b`. -/
def max_ps (a b : M128) : M128 := fun k => if CLt.lt (val (b k)) (val (a k)) then a k else b k

/-- include/Geom/VectorizedAABB.h 178-183: the members. -/
@[ext] structure VBox where
  xMin : M128
  yMin : M128
  zMin : M128
  xMax : M128
  yMax : M128
  zMax : M128

/-- include/Geom/VectorizedAABB.h 39, 57, 65: `Gs::Vector3f`, as bits. -/
structure V3 where
  x : BitVec 32
  y : BitVec 32
  z : BitVec 32

/-- include/Geom/VectorizedAABB.h 39-47: the constructor from two arrays of four points. -/
def make (min max : Fin 4 → V3) : VBox where
  xMin := set_ps (min 3).x (min 2).x (min 1).x (min 0).x
  yMin := set_ps (min 3).y (min 2).y (min 1).y (min 0).y
  zMin := set_ps (min 3).z (min 2).z (min 1).z (min 0).z
  xMax := set_ps (max 3).x (max 2).x (max 1).x (max 0).x
  yMax := set_ps (max 3).y (max 2).y (max 1).y (max 0).y
  zMax := set_ps (max 3).z (max 2).z (max 1).z (max 0).z

/-- include/Geom/VectorizedAABB.h 50-54, `Reset()`. -/
def reset (lowest highest : BitVec 32) : VBox where
  xMin := set_ps1 highest
  yMin := set_ps1 highest
  zMin := set_ps1 highest
  xMax := set_ps1 lowest
  yMax := set_ps1 lowest
  zMax := set_ps1 lowest

/-- include/Geom/VectorizedAABB.h 57-62, `Reset(points)`. -/
def resetTo (p : Fin 4 → V3) : VBox := make p p

/-- include/Geom/VectorizedAABB.h 65-78, `Insert(points)`. -/
def insert (b : VBox) (p : Fin 4 → V3) : VBox :=
  let xVec := set_ps (p 3).x (p 2).x (p 1).x (p 0).x
  let yVec := set_ps (p 3).y (p 2).y (p 1).y (p 0).y
  let zVec := set_ps (p 3).z (p 2).z (p 1).z (p 0).z
  { xMin := min_ps val b.xMin xVec
    xMax := max_ps val b.xMax xVec
    yMin := min_ps val b.yMin yVec
    yMax := max_ps val b.yMax yVec
    zMin := min_ps val b.zMin zVec
    zMax := max_ps val b.zMax zVec }

/-- include/Geom/VectorizedAABB.h 81-89, `Insert(other)`. -/
def insertBox (b o : VBox) : VBox where
  xMin := min_ps val b.xMin o.xMin
  yMin := min_ps val b.yMin o.yMin
  zMin := min_ps val b.zMin o.zMin
  xMax := max_ps val b.xMax o.xMax
  yMax := max_ps val b.yMax o.yMax
  zMax := max_ps val b.zMax o.zMax

/-- include/Geom/VectorizedAABB.h 92-102, `Repair`. The maxima are not written. -/
def repair (b : VBox) : VBox :=
  let xCmp := cmpgt_ps val b.xMin b.xMax
  let yCmp := cmpgt_ps val b.yMin b.yMax
  let zCmp := cmpgt_ps val b.zMin b.zMax
  { b with
    xMin := or_ps (and_ps xCmp b.xMin) (andnot_ps xCmp b.xMax)
    yMin := or_ps (and_ps yCmp b.yMin) (andnot_ps yCmp b.yMax)
    zMin := or_ps (and_ps zCmp b.zMin) (andnot_ps zCmp b.zMax) }

/-- include/Geom/VectorizedAABB.h 145-151, `InsideOf(outerBox)`. -/
def insideOf (b outer : VBox) : M128 :=
  let xCmp := and_ps (cmpge_ps val b.xMin outer.xMin) (cmple_ps val b.xMax outer.xMax)
  let yCmp := and_ps (cmpge_ps val b.yMin outer.yMin) (cmple_ps val b.yMax outer.yMax)
  let zCmp := and_ps (cmpge_ps val b.zMin outer.zMin) (cmple_ps val b.zMax outer.zMax)
  and_ps xCmp (and_ps yCmp zCmp)

/-- include/Geom/VectorizedAABB.h 158-161, `Contains(innerBox)`. -/
def containsBox (b inner : VBox) : M128 := insideOf val inner b

/-- include/Geom/VectorizedAABB.h 164-176, `Contains(points)`. -/
def contains (b : VBox) (p : Fin 4 → V3) : M128 :=
  let xVec := set_ps (p 3).x (p 2).x (p 1).x (p 0).x
  let xCmp := and_ps (cmpge_ps val b.xMin xVec) (cmple_ps val b.xMax xVec)
  let yVec := set_ps (p 3).y (p 2).y (p 1).y (p 0).y
  let yCmp := and_ps (cmpge_ps val b.yMin yVec) (cmple_ps val b.yMax yVec)
  let zVec := set_ps (p 3).z (p 2).z (p 1).z (p 0).z
  let zCmp := and_ps (cmpge_ps val b.zMin zVec) (cmple_ps val b.zMax zVec)
  and_ps xCmp (and_ps yCmp zCmp)

/-- include/Geom/VectorizedAABB.h 195-201, `Overlap(a, b)`. -/
def overlap (a b : VBox) : M128 :=
  let xCmp := and_ps (cmple_ps val b.xMin a.xMax) (cmpge_ps val b.xMax a.xMin)
  let yCmp := and_ps (cmple_ps val b.yMin a.yMax) (cmpge_ps val b.yMax a.yMin)
  let zCmp := and_ps (cmple_ps val b.zMin a.zMax) (cmpge_ps val b.zMax a.zMin)
  and_ps xCmp (and_ps yCmp zCmp)

end Geom.VAABB
