import Mathlib.Analysis.Convex.Hull

/-
  Specification of Bezier curves and patches, independent of the model: the construction of de Casteljau.
-/
set_option autoImplicit false

namespace Geom.Bezier.Spec

variable {K V : Type} [Field K] [AddCommGroup V] [Module K V]

/-- The construction of de Casteljau: `r` times, each point is replaced by the point at the parameter `t` between it and the next one. -/
def casteljau (t : K) (p : ℕ → V) : ℕ → ℕ → V
  | 0, i => p i
  | r + 1, i => (1 - t) • casteljau t p r i + t • casteljau t p r (i + 1)

/-- The point of the curve with the control points `ps`. -/
def curve (ps : List V) (t : K) : V := casteljau t (fun i => ps.getD i 0) (ps.length - 1) 0

/-- The point of the patch with the control points `p i j`, first index in direction of u. -/
def patch (order : ℕ) (p : ℕ → ℕ → V) (u v : K) : V := casteljau u (fun i => casteljau v (p i) order 0) order 0

/-- Independent cells: the content of each cell after a history of assignments; cells are zero at first. -/
def cells (hist : List (ℕ × ℕ × V)) (i j : ℕ) : V := hist.foldl (fun x h => if h.1 = i ∧ h.2.1 = j then h.2.2 else x) 0

end Geom.Bezier.Spec
