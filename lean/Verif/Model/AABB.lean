import Verif.Base.Cmp
import Mathlib.Algebra.Order.Field.Basic
import Mathlib.Data.Fin.VecNotation

/-
  Model of include/Geom/AABB.h.

  `Vec<T>` with `Vec<T>::components = n` is `Fin n → T`; the library instantiates n = 2
  and n = 3. The loops over the components treat each component on its own, so they
  are written as functions of the component, and a loop with early `return false` as a
  conjunction over the components.
-/
set_option autoImplicit false

namespace Geom.AABB

/-- include/Geom/AABB.h 167 (`Vec<T> min, max`). -/
@[ext] structure Box (n : Nat) (T : Type) where
  min : Fin n → T
  max : Fin n → T

variable {n : Nat} {T : Type}

section Order
variable [CLt T]

/-- include/Geom/AABB.h 52-59, `Reset()`; `lowest` and `highest` stand for
`numeric_limits<T>::lowest()` and `max()`. Also the default constructor, lines 37-43. -/
def reset (lowest highest : T) : Box n T where
  min := fun _ => highest
  max := fun _ => lowest

/-- include/Geom/AABB.h 62-65, `Reset(point)`. -/
def resetTo (p : Fin n → T) : Box n T where
  min := p
  max := p

/-- include/Geom/AABB.h 67-76, `Insert(point)`. -/
def insert (b : Box n T) (p : Fin n → T) : Box n T where
  min := fun i => if CLt.lt (p i) (b.min i) then p i else b.min i
  max := fun i => if CLt.lt (b.max i) (p i) then p i else b.max i

/-- include/Geom/AABB.h 78-87, `Insert(aabb)`. -/
def insertBox (b c : Box n T) : Box n T where
  min := fun i => if CLt.lt (c.min i) (b.min i) then c.min i else b.min i
  max := fun i => if CLt.lt (b.max i) (c.max i) then c.max i else b.max i

/-- include/Geom/AABB.h 89-96, `Repair`. -/
def repair (b : Box n T) : Box n T where
  min := fun i => if CLt.lt (b.max i) (b.min i) then b.max i else b.min i
  max := fun i => if CLt.lt (b.max i) (b.min i) then b.min i else b.max i

/-- include/Geom/AABB.h 123-131, `InsideOf(outerBox)`. -/
def insideOf (b outer : Box n T) : Bool :=
  (List.finRange n).all fun i =>
    !(CLt.lt (b.min i) (outer.min i) || CLt.lt (outer.max i) (b.max i))

/-- include/Geom/AABB.h 138-141, `Contains(innerBox)`. -/
def containsBox (b inner : Box n T) : Bool := insideOf inner b

/-- include/Geom/AABB.h 144-152, `Contains(point)`. -/
def contains (b : Box n T) (p : Fin n → T) : Bool :=
  (List.finRange n).all fun i => !(CLt.lt (p i) (b.min i) || CLt.lt (b.max i) (p i))

/-- include/Geom/AABB.h 195-204, `Overlap(a, b)`. -/
def overlap (a b : Box n T) : Bool :=
  (List.finRange n).all fun i =>
    !(CLt.lt (a.max i) (b.min i) || CLt.lt (b.max i) (a.min i))

/-- include/Geom/AABB.h 67-76: A sequence of `Insert(point)` calls. -/
def insertAll (b : Box n T) (ps : List (Fin n → T)) : Box n T := ps.foldl insert b

end Order

section Field
variable {K : Type} [Field K] [LinearOrder K]

/-- include/Geom/AABB.h 98-106, `Size`. -/
def size (b : Box n K) : Fin n → K := fun i => |b.max i - b.min i|

/-- include/Geom/AABB.h 108-116, `Center` (component type with exact division; the
integer instances: Model/BoxInt). -/
def center (b : Box n K) : Fin n → K := fun i => (b.min i + b.max i) / 2

end Field

/-- A line segment, include/Geom/Line.h 20-45 (`a`, `b`). -/
structure Seg (n : Nat) (T : Type) where
  a : Fin n → T
  b : Fin n → T

/-- include/Geom/AABB.h 207-221, `AABBEdges` for two components. -/
def edges2 (box : Box 2 T) : List (Seg 2 T) :=
  let ax := box.min 0; let ay := box.min 1
  let bx := box.max 0; let by' := box.max 1
  [⟨![ax, ay], ![ax, by']⟩,
   ⟨![ax, by'], ![bx, by']⟩,
   ⟨![bx, by'], ![bx, ay]⟩,
   ⟨![bx, ay], ![ax, ay]⟩]

/-- include/Geom/AABB.h 224-250, `AABBEdges` for three components. -/
def edges3 (box : Box 3 T) : List (Seg 3 T) :=
  let ax := box.min 0; let ay := box.min 1; let az := box.min 2
  let bx := box.max 0; let by' := box.max 1; let bz := box.max 2
  [⟨![ax, ay, az], ![ax, by', az]⟩,
   ⟨![ax, by', az], ![bx, by', az]⟩,
   ⟨![bx, by', az], ![bx, ay, az]⟩,
   ⟨![bx, ay, az], ![ax, ay, az]⟩,
   ⟨![ax, ay, bz], ![ax, by', bz]⟩,
   ⟨![ax, by', bz], ![bx, by', bz]⟩,
   ⟨![bx, by', bz], ![bx, ay, bz]⟩,
   ⟨![bx, ay, bz], ![ax, ay, bz]⟩,
   ⟨![ax, ay, az], ![ax, ay, bz]⟩,
   ⟨![ax, by', az], ![ax, by', bz]⟩,
   ⟨![bx, by', az], ![bx, by', bz]⟩,
   ⟨![bx, ay, az], ![bx, ay, bz]⟩]

end Geom.AABB
