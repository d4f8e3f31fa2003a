import Verif.Spec.Lines
import Verif.Spec.PlaneFloat

/-
  Specification of points near a segment, for floating-point arithmetic.
-/
set_option autoImplicit false

namespace Geom.Lines.Spec
open Geom.Float Plane.Spec

/-- The error bound for a coordinate of a point of the segment from `a` to `b`. -/
def segErr (p : ℕ) (emin : ℤ) (a b : ℚ) : ℚ := ulp p * (|a| + 5 * |b - a|) + 2 ^ emin

/-- The point is a point of the segment up to rounding of its coordinates. -/
def NearSeg (p : ℕ) (emin : ℤ) (l : Seg (V3 ℚ)) (x : V3 ℚ) : Prop :=
  ∃ y : V3 ℚ, InSeg (K := ℚ) l y ∧ |x.x - y.x| ≤ segErr p emin l.a.x l.b.x ∧ |x.y - y.y| ≤ segErr p emin l.a.y l.b.y ∧
    |x.z - y.z| ≤ segErr p emin l.a.z l.b.z

/-- The end points have floats as coordinates. -/
def FloatSeg (p : ℕ) (emin : ℤ) (l : Seg (V3 ℚ)) : Prop := FloatV p emin l.a ∧ FloatV p emin l.b

/-- No coordinate of the ends is larger than `n`. -/
def Within (n : ℚ) (l : Seg (V3 ℚ)) : Prop :=
  (|l.a.x| ≤ n ∧ |l.a.y| ≤ n ∧ |l.a.z| ≤ n) ∧ |l.b.x| ≤ n ∧ |l.b.y| ≤ n ∧ |l.b.z| ≤ n

/-- The ends have integers of at most `n` as coordinates. -/
def IntSeg (n : ℕ) (l : Seg (V3 ℚ)) : Prop :=
  ∃ a b c a' b' c' : ℤ, l = ⟨⟨a, b, c⟩, ⟨a', b', c'⟩⟩ ∧ (|a| ≤ n ∧ |b| ≤ n ∧ |c| ≤ n) ∧ |a'| ≤ n ∧ |b'| ≤ n ∧ |c'| ≤ n

/-- The distance of `x` and `y` is at most the distance of the segments plus `err`. -/
def NearlyNearest (err : ℚ) (A B : Seg (V3 ℚ)) (x y : V3 ℚ) : Prop :=
  ∀ x' y', InSeg (K := ℚ) A x' → InSeg (K := ℚ) B y' → ∀ d : ℚ, 0 ≤ d → distSq (K := ℚ) x' y' ≤ d ^ 2 → distSq (K := ℚ) x y ≤ (d + err) ^ 2

end Geom.Lines.Spec
