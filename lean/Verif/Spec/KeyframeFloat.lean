import Verif.Spec.Keyframe
import Verif.Base.Float

/-! Keyframe channels of floats. -/
set_option autoImplicit false

namespace Geom.Keyframe.Spec
open Geom.Float

variable {ι : Type}

/-- The mixture in exact arithmetic. -/
def mixExact (a b : ι → ℚ) (t : ℚ) : ι → ℚ := fun i => (1 - t) * a i + t * b i

/-- The keys consist of floats, and the keyframes are at most `2 ^ p` frames apart. -/
structure FloatKeys (p : ℕ) (emin : ℤ) (kfs : List (KF (ι → ℚ))) : Prop where
  float : ∀ a ∈ kfs, ∀ i, a.key i ∈ Floats p emin
  apart : ∀ a ∈ kfs, ∀ b ∈ kfs, b.frame - a.frame ≤ 2 ^ p

/-- All keyframes have the component `i` between `lo` and `hi`. -/
def Within (kfs : List (KF (ι → ℚ))) (i : ι) (lo hi : ℚ) : Prop := ∀ a ∈ kfs, lo ≤ a.key i ∧ a.key i ≤ hi

/-- The component `i` does not decrease in time. -/
def Rising (kfs : List (KF (ι → ℚ))) (i : ι) : Prop := ∀ a ∈ kfs, ∀ b ∈ kfs, a.frame ≤ b.frame → a.key i ≤ b.key i

end Geom.Keyframe.Spec
