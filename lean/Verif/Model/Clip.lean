import Verif.Model.Triangle
import Verif.Base.Res

/-
  Model of the clipping of triangles, include/Geom/TriangleCollision.h 412-527.
-/
set_option autoImplicit false

namespace Geom.Clip

open Plane (Eqn Pl Relation)
open Triangle (Tri)

variable {K : Type}

/-- include/Geom/TriangleCollision.h 413-425, `ClippedPolygon`: the first `count` entries of
`vertices`. -/
abbrev Poly (K : Type) := List (V3 K)

/-- include/Geom/TriangleCollision.h 416-420, `ClippedPolygon::AddVertex`: there are four places (with
assertions disabled the access is out of bounds). -/
def Poly.add (p : Poly K) (v : V3 K) : Res (Poly K) :=
  if p.length < 4 then .ok (p ++ [v]) else .ub

variable [Field K] [LinearOrder K]

/-- include/Geom/TriangleCollision.h 447, `barycentrics`. -/
def bary : ℕ → V3 K
  | 0 => ⟨1, 0, 0⟩
  | 1 => ⟨0, 1, 0⟩
  | _ => ⟨0, 0, 1⟩

/-- `triangle[i]`, include/Geom/Triangle.h 225-235. -/
def corner (t : Tri K) : ℕ → V3 K
  | 0 => t.a
  | 1 => t.b
  | _ => t.c

/-- include/Geom/TriangleCollision.h 457-474, the lambda `AddVertex`; the state is (front, back). -/
def addVertex (s : Poly K × Poly K) (coord : V3 K) (relation : Relation) : Res (Poly K × Poly K) :=
  match relation with
  | .onto => (s.1.add coord).bind fun f => (s.2.add coord).bind fun b => .ok (f, b)
  | .inFrontOf => (s.1.add coord).bind fun f => .ok (f, s.2)
  | .behind => (s.2.add coord).bind fun b => .ok (s.1, b)
  | .clipped => .ok s

/-- include/Geom/TriangleCollision.h 504-515, the `switch (i)`. -/
def cutPoint (i : ℕ) (t : K) : V3 K :=
  match i with
  | 0 => ⟨1 - t, t, 0⟩
  | 1 => ⟨0, 1 - t, t⟩
  | _ => ⟨t, 0, 1 - t⟩

/-- include/Geom/TriangleCollision.h 496-517: the intersection of an edge, for the interpolation factor
`t`, which may be infinite or NaN for an edge parallel to the plane. -/
def addCut (s : Poly K × Poly K) (i : ℕ) (relJ : Relation) (t : Ext K) : Res (Poly K × Poly K) :=
  if relJ ≠ .onto then
    (if t.ge 0 && t.le 1 then
      (match t with
      | .fin k => addVertex s (cutPoint i k) .onto
      | _ => .ok s)
    else .ok s)
  else .ok s

/-- include/Geom/TriangleCollision.h 489-524: the body of the loop for `i`. In iteration `i` the local
variable `a` is `triangle[i]`. `nz` is the sign of a zero divisor. -/
def edgeStep (nz : Bool) (eq : Eqn) (pl : Pl K) (t : Tri K) (rel : ℕ → Relation) (i : ℕ) (s : Poly K × Poly K) :
    Res (Poly K × Poly K) :=
  let j := (i + 1) % 3
  (addCut s i (rel j) (Plane.interp nz eq pl (corner t i) (corner t j - corner t i))).bind fun s =>
    if j > 0 then addVertex s (bary j) (rel j) else .ok s

/-- include/Geom/TriangleCollision.h 440-527, `ClipTriangle`. The polygons `front` and `back` are not
cleared by the code, so their old content is an argument; the result is the relation and the new
polygons. -/
def clipTriangle (nz : ℕ → Bool) (eq : Eqn) (pl : Pl K) (t : Tri K) (eps : K) (front back : Poly K) :
    Res (Relation × Poly K × Poly K) :=
  let rel := fun i => Plane.relationPoint eq pl (corner t i) eps
  if rel 0 ≠ .behind ∧ rel 1 ≠ .behind ∧ rel 2 ≠ .behind then .ok (.inFrontOf, front, back)
  else if ¬ rel 0 ≠ .behind ∧ ¬ rel 1 ≠ .behind ∧ ¬ rel 2 ≠ .behind then .ok (.behind, front, back)
  else
    (addVertex (front, back) (bary 0) (rel 0)).bind fun s =>
    (edgeStep (nz 0) eq pl t rel 0 s).bind fun s =>
    (edgeStep (nz 1) eq pl t rel 1 s).bind fun s =>
    (edgeStep (nz 2) eq pl t rel 2 s).bind fun s =>
    .ok (.clipped, s.1, s.2)

end Geom.Clip
