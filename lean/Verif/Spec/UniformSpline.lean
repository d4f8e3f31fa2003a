import Mathlib.Analysis.Calculus.Deriv.Pi
import Mathlib.Analysis.Convex.Segment

/-
  Specification of uniform splines: smoothness of a curve with parameters in [0, 1].
-/
set_option autoImplicit false

namespace Geom.UniformSpline.Spec
open Set Topology Filter

/-- The curve is continuous, and between its ends it has a continuous derivative. -/
def C1 {E : Type} [NormedAddCommGroup E] [NormedSpace ℝ E] (f : ℝ → E) : Prop :=
  Continuous f ∧ ∃ f1 : ℝ → E, ∀ t ∈ Ioo (0 : ℝ) 1, HasDerivAt f (f1 t) t ∧ ContinuousAt f1 t

/-- The curve is continuous, between its ends it has two continuous derivatives, and the second one tends to zero at both ends. -/
def Natural {E : Type} [NormedAddCommGroup E] [NormedSpace ℝ E] (f : ℝ → E) : Prop :=
  Continuous f ∧ ∃ f1 f2 : ℝ → E, (∀ t ∈ Ioo (0 : ℝ) 1, HasDerivAt f (f1 t) t ∧ HasDerivAt f1 (f2 t) t ∧ ContinuousAt f2 t) ∧
    Tendsto f2 (𝓝[>] 0) (𝓝 0) ∧ Tendsto f2 (𝓝[<] 1) (𝓝 0)

end Geom.UniformSpline.Spec
