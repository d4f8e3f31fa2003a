import Verif.Model.AABB
import Verif.Base.Res
import Verif.Base.Float

/-
  Model of the parts of include/Geom/AABB.h that depend on the number type: `Size` and `Center` of the boxes of integers (`AABB2i`, `AABB3i`),
  where an overflow is undefined behaviour, and `Cast` between number types.
-/
set_option autoImplicit false

namespace Geom.AABB

variable {n : ℕ} {T : Type}

/-- include/Geom/AABB.h 102, 112: a loop that assigns the components of a vector, in order; `f i` is the right hand side for component `i`. -/
def assign (f : Fin n → Res T) : List (Fin n) → (Fin n → T) → Res (Fin n → T)
  | [], v => .ok v
  | i :: is, v => (f i).bind fun x => assign f is (Function.update v i x)

/-- include/Geom/AABB.h 103, 113: the result of an operation of `std::int32_t` (line 182) with the exact value `x`; undefined if it overflows. -/
def int32 (x : ℤ) : Res ℤ := if -2 ^ 31 ≤ x ∧ x < 2 ^ 31 then .ok x else .ub

/-- include/Geom/AABB.h 98-106, `Size`, for `std::int32_t`. `std::abs` is undefined if the result overflows. The uninitialized vector
is zero here; each component is assigned. -/
def sizeInt (b : Box n ℤ) : Res (Fin n → ℤ) :=
  assign (fun i => (int32 (b.max i - b.min i)).bind fun d => int32 |d|) (List.finRange n) 0

/-- include/Geom/AABB.h 108-116, `Center`, for `std::int32_t`. The division truncates towards zero. -/
def centerInt (b : Box n ℤ) : Res (Fin n → ℤ) :=
  assign (fun i => (int32 (b.min i + b.max i)).bind fun s => int32 (s.tdiv 2)) (List.finRange n) 0

/-- The target of a conversion of include/Geom/AABB.h 164 (`static_cast<C>` for each component of a vector): a type of floating-point numbers, with its
rounding and its largest number, or a type of integers with its limits. Numbers of all types are rationals here. -/
inductive Target where
  | float (fl : ℚ → ℚ) (big : ℚ)
  | int (lo hi : ℤ)

/-- include/Geom/AABB.h 164: rounding towards zero. -/
def trunc (x : ℚ) : ℤ := if 0 ≤ x then ⌊x⌋ else ⌈x⌉

/-- include/Geom/AABB.h 164: `static_cast<C>(x)`. Numbers that are out of the range of the type are undefined behaviour ([conv.double], [conv.fpint]). -/
def convert : Target → ℚ → Res ℚ
  | .float fl big, x => if |x| ≤ big then .ok (fl x) else .ub
  | .int lo hi, x => if lo ≤ trunc x ∧ trunc x ≤ hi then .ok (trunc x) else .ub

/-- include/Geom/AABB.h 164: `Cast<C>` of a vector (of GaussianLib). -/
def castPoint (t : Target) (p : Fin n → ℚ) : Res (Fin n → ℚ) := assign (fun i => convert t (p i)) (List.finRange n) 0

/-- include/Geom/AABB.h 160-165, `Cast`. -/
def castBox (t : Target) (b : Box n ℚ) : Res (Box n ℚ) :=
  (castPoint t b.min).bind fun lo => (castPoint t b.max).bind fun hi => .ok ⟨lo, hi⟩

end Geom.AABB
