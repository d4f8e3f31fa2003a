import Verif.Model.Clip
import Verif.Base.Float

/-
  Model of the clipping of triangles in floating-point arithmetic: each operation of the code is the exact operation followed by a rounding
  `fl`. The numbers are rationals; overflow to infinity is not modelled, the division by zero is (as in the exact model).
-/
set_option autoImplicit false

namespace Geom.Clip

open Plane (Eqn Pl Relation)
open Triangle (Tri)

/-- include/Geom/PlaneCollision.h 32 and 98: `Gs::Dot` of three components, summed from the first to the last (assumed order). -/
def dotFl (fl : ℚ → ℚ) (a b : V3 ℚ) : ℚ := fl (fl (fl (a.x * b.x) + fl (a.y * b.y)) + fl (a.z * b.z))

/-- include/Geom/TriangleCollision.h 498-502: The difference of two vectors. -/
def subFl (fl : ℚ → ℚ) (a b : V3 ℚ) : V3 ℚ := ⟨fl (a.x - b.x), fl (a.y - b.y), fl (a.z - b.z)⟩

/-- include/Geom/PlaneCollision.h 29-33, `SgnDistanceToPlane`. -/
def sgnDistanceFl (fl : ℚ → ℚ) (eq : Eqn) (p : Pl ℚ) (x : V3 ℚ) : ℚ := fl (dotFl fl p.normal x - eq.distanceSign p.distance)

/-- include/Geom/PlaneCollision.h 214-225, `RelationToPlane(plane, point, epsilon)`. -/
def relationPointFl (fl : ℚ → ℚ) (eq : Eqn) (p : Pl ℚ) (x : V3 ℚ) (epsilon : ℚ) : Relation :=
  let d := sgnDistanceFl fl eq p x
  if d > epsilon then .inFrontOf
  else if d < -epsilon then .behind
  else .onto

/-- include/Geom/PlaneCollision.h 98: The rounding of a quotient. -/
def roundExt (fl : ℚ → ℚ) : Ext ℚ → Ext ℚ
  | .fin k => .fin (fl k)
  | t => t

/-- include/Geom/PlaneCollision.h 95-99, `IntersectionWithPlaneInterp`. -/
def interpFl (fl : ℚ → ℚ) (nz : Bool) (eq : Eqn) (p : Pl ℚ) (origin direction : V3 ℚ) : Ext ℚ :=
  roundExt fl (Ext.div nz (-sgnDistanceFl fl eq p origin) (dotFl fl p.normal direction))

/-- include/Geom/TriangleCollision.h 504-515, the `switch (i)`. -/
def cutPointFl (fl : ℚ → ℚ) (i : ℕ) (t : ℚ) : V3 ℚ :=
  match i with
  | 0 => ⟨fl (1 - t), t, 0⟩
  | 1 => ⟨0, fl (1 - t), t⟩
  | _ => ⟨t, 0, fl (1 - t)⟩

/-- include/Geom/TriangleCollision.h 496-517, the intersection of an edge. -/
def addCutFl (fl : ℚ → ℚ) (s : Poly ℚ × Poly ℚ) (i : ℕ) (relJ : Relation) (t : Ext ℚ) : Res (Poly ℚ × Poly ℚ) :=
  if relJ ≠ .onto then
    (if t.ge 0 && t.le 1 then
      (match t with
      | .fin k => addVertex s (cutPointFl fl i k) .onto
      | _ => .ok s)
    else .ok s)
  else .ok s

/-- include/Geom/TriangleCollision.h 489-524: the body of the loop for `i`. -/
def edgeStepFl (fl : ℚ → ℚ) (nz : Bool) (eq : Eqn) (pl : Pl ℚ) (t : Tri ℚ) (rel : ℕ → Relation) (i : ℕ) (s : Poly ℚ × Poly ℚ) :
    Res (Poly ℚ × Poly ℚ) :=
  let j := (i + 1) % 3
  (addCutFl fl s i (rel j) (interpFl fl nz eq pl (corner t i) (subFl fl (corner t j) (corner t i)))).bind fun s =>
    if j > 0 then addVertex s (bary j) (rel j) else .ok s

/-- include/Geom/TriangleCollision.h 440-527, `ClipTriangle`. -/
def clipTriangleFl (fl : ℚ → ℚ) (nz : ℕ → Bool) (eq : Eqn) (pl : Pl ℚ) (t : Tri ℚ) (eps : ℚ) (front back : Poly ℚ) :
    Res (Relation × Poly ℚ × Poly ℚ) :=
  let rel := fun i => relationPointFl fl eq pl (corner t i) eps
  if rel 0 ≠ .behind ∧ rel 1 ≠ .behind ∧ rel 2 ≠ .behind then .ok (.inFrontOf, front, back)
  else if ¬ rel 0 ≠ .behind ∧ ¬ rel 1 ≠ .behind ∧ ¬ rel 2 ≠ .behind then .ok (.behind, front, back)
  else
    (addVertex (front, back) (bary 0) (rel 0)).bind fun s =>
    (edgeStepFl fl (nz 0) eq pl t rel 0 s).bind fun s =>
    (edgeStepFl fl (nz 1) eq pl t rel 1 s).bind fun s =>
    (edgeStepFl fl (nz 2) eq pl t rel 2 s).bind fun s =>
    .ok (.clipped, s.1, s.2)

end Geom.Clip
