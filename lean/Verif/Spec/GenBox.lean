import Verif.Spec.Gen
import Verif.Spec.AABB

/-
  Specification of the boxes of generated meshes.
-/
set_option autoImplicit false

namespace Geom.Gen.Spec

/-- The box with the given half sizes and the origin as center. -/
def boxOf (s : V3 ℝ) : AABB.Box 3 ℝ := ⟨![-s.x, -s.y, -s.z], ![s.x, s.y, s.z]⟩

/-- A box is in another one on each axis. -/
def Within (b c : AABB.Box 3 ℝ) : Prop := ∀ i, c.min i ≤ b.min i ∧ b.max i ≤ c.max i

/-- The half sizes are between the limits of the number type. -/
def Fits (lo hi : ℝ) (s : V3 ℝ) : Prop := lo ≤ -s.x ∧ s.x ≤ hi ∧ lo ≤ -s.y ∧ s.y ≤ hi ∧ lo ≤ -s.z ∧ s.z ≤ hi

end Geom.Gen.Spec
