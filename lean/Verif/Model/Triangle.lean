import Verif.Model.Plane
import Verif.Model.Lines

/-
  Model of include/Geom/Triangle.h and include/Geom/TriangleCollision.h (the clipping functions are in
  Model/Clip).

  Scalars are an ordered field; the planes which the code builds from a triangle are over the reals.
  `none` stands for a result which is not a number (division by zero); the theorems say when it
  happens.
-/
set_option autoImplicit false

namespace Geom.Triangle

open Plane (Eqn Pl Ray Line Hit)

/-- include/Geom/Triangle.h 196-344, `Triangle3T`: the corners. -/
@[ext] structure Tri (K : Type) where
  a : V3 K
  b : V3 K
  c : V3 K
  deriving DecidableEq

/-- include/Geom/Triangle.h 76-194, `Triangle2T`: the corners. -/
@[ext] structure Tri2 (K : Type) where
  a : V2 K
  b : V2 K
  c : V2 K
  deriving DecidableEq

section field
variable {K : Type} [Field K]

/-- include/Geom/Triangle.h 25-29, `Details::TriangleArea2D`. -/
def area2D (x1 y1 x2 y2 x3 y3 : K) : K := (x1 - x2) * (y2 - y3) - (x2 - x3) * (y1 - y2)

/-- include/Geom/Triangle.h 126-132, `Normal` of a 2D triangle. -/
def Tri2.normal (t : Tri2 K) : V3 K :=
  V3.cross ⟨t.b.x - t.a.x, t.b.y - t.a.y, 0⟩ ⟨t.c.x - t.a.x, t.c.y - t.a.y, 0⟩

/-- include/Geom/Triangle.h 145-148, `BarycentricToCartesian` of a 2D triangle. -/
def Tri2.toCartesian (t : Tri2 K) (q : V3 K) : V2 K := q.x • t.a + q.y • t.b + q.z • t.c

/-- include/Geom/Triangle.h 248-251, `Normal`. -/
def Tri.normal (t : Tri K) : V3 K := V3.cross (t.b - t.a) (t.c - t.a)

/-- include/Geom/Triangle.h 264-267, `BarycentricToCartesian`. -/
def Tri.toCartesian (t : Tri K) (q : V3 K) : V3 K := q.x • t.a + q.y • t.b + q.z • t.c

end field

section order
variable {K : Type} [Field K] [LinearOrder K]

/-- include/Geom/Triangle.h 171-185, `CartesianToBarycentric` of a 2D triangle. -/
def Tri2.toBarycentric (t : Tri2 K) (p : V2 K) : Option (V3 K) :=
  let n := t.normal
  let nu := area2D p.x p.y t.b.x t.b.y t.c.x t.c.y
  let nv := area2D p.x p.y t.c.x t.c.y t.a.x t.a.y
  if n.z = 0 then none
  else
    let ood := 1 / n.z
    let u := nu * ood
    let v := nv * ood
    some ⟨u, v, 1 - u - v⟩

/-- include/Geom/Triangle.h 290-331, `CartesianToBarycentric`. -/
def Tri.toBarycentric (t : Tri K) (p : V3 K) : Option (V3 K) :=
  let n := t.normal
  let x := |n.x|
  let y := |n.y|
  let z := |n.z|
  let (nu, nv, den) :=
    if x ≥ y ∧ x ≥ z then
      (area2D p.y p.z t.b.y t.b.z t.c.y t.c.z, area2D p.y p.z t.c.y t.c.z t.a.y t.a.z, n.x)
    else if y ≥ x ∧ y ≥ z then
      (area2D p.x p.z t.b.x t.b.z t.c.x t.c.z, area2D p.x p.z t.c.x t.c.z t.a.x t.a.z, -n.y)
    else
      (area2D p.x p.y t.b.x t.b.y t.c.x t.c.y, area2D p.x p.y t.c.x t.c.y t.a.x t.a.y, n.z)
  if den = 0 then none
  else
    let ood := 1 / den
    let u := nu * ood
    let v := nv * ood
    some ⟨u, v, 1 - u - v⟩

/-- include/Geom/TriangleCollision.h 34-40, the lambda `IsOnSameSide`. -/
def isOnSameSide (p q a b : V3 K) : Bool :=
  let diff := b - a
  let v0 := V3.cross diff (p - a)
  let v1 := V3.cross diff (q - a)
  decide (V3.dot v0 v1 ≥ 0)

/-- include/Geom/TriangleCollision.h 30-47, `IsInsideTriangle`. -/
def isInside (t : Tri K) (p : V3 K) : Bool :=
  isOnSameSide p t.a t.b t.c && isOnSameSide p t.b t.a t.c && isOnSameSide p t.c t.a t.b

/-- include/Geom/TriangleCollision.h 52-110, `ClosestPointOnTriangle`. The divisor of the last case may
be zero as far as the code can tell; the other two divisors are positive by the conditions before. -/
def closestPoint (t : Tri K) (p : V3 K) : Option (V3 K) :=
  let ab := t.b - t.a
  let ac := t.c - t.a
  let ap := p - t.a
  let d1 := V3.dot ab ap
  let d2 := V3.dot ac ap
  if d1 ≤ 0 ∧ d2 ≤ 0 then some t.a
  else
    let bp := p - t.b
    let d3 := V3.dot ab bp
    let d4 := V3.dot ac bp
    if d3 ≥ 0 ∧ d4 ≤ d3 then some t.b
    else
      let vc := d1 * d4 - d3 * d2
      if vc ≤ 0 ∧ d1 > 0 ∧ d3 ≤ 0 then
        let v := d1 / (d1 - d3)
        some (t.a + v • ab)
      else
        let cp := p - t.c
        let d5 := V3.dot ab cp
        let d6 := V3.dot ac cp
        if d6 ≥ 0 ∧ d5 ≤ d6 then some t.c
        else
          let vb := d5 * d2 - d1 * d6
          if vb ≤ 0 ∧ d2 > 0 ∧ d6 ≤ 0 then
            let w := d2 / (d2 - d6)
            some (t.a + w • ac)
          else
            let va := d3 * d6 - d5 * d4
            if va ≤ 0 ∧ d4 - d3 > 0 ∧ d5 - d6 ≥ 0 then
              let w := (d4 - d3) / ((d4 - d3) + (d5 - d6))
              some (t.b + w • (t.c - t.b))
            else if va + vb + vc = 0 then none
            else
              let denom := 1 / (va + vb + vc)
              let v := vb * denom
              let w := vc * denom
              some (t.a + v • ab + w • ac)

/-- include/Geom/TriangleCollision.h 148-171: the pattern `if (d < dist) { ...; dist = d; }`. The running
minimum `dist` starts as the largest number; in exact arithmetic each squared distance is below it, so the
start is `none` here. -/
def takeCloser (best : Option (Lines.Seg (V3 K) × K)) (l : Lines.Seg (V3 K)) (d : K) : Option (Lines.Seg (V3 K) × K) :=
  match best with
  | none => some (l, d)
  | some (l', d') => if d < d' then some (l, d) else some (l', d')

/-- include/Geom/TriangleCollision.h 117-178, `ClosestSegmentToTriangle(triangle, plane, line)`.
`eps` is `Gs::Epsilon<T>()` of the segment queries. -/
def closestSegment [IsStrictOrderedRing K] (eps : K) (eq : Eqn) (t : Tri K) (pl : Pl K)
    (line : Lines.Seg (V3 K)) : Lines.Seg (V3 K) :=
  let segmentToAB := Lines.closestSegment eps ⟨t.a, t.b⟩ line
  let segmentToBC := Lines.closestSegment eps ⟨t.b, t.c⟩ line
  let segmentToCA := Lines.closestSegment eps ⟨t.c, t.a⟩ line
  let lengthSq := fun l : Lines.Seg (V3 K) => V3.lenSq (l.b - l.a)
  let planePointA := Plane.closestPoint eq pl line.a
  let planePointB := Plane.closestPoint eq pl line.b
  let best : Option (Lines.Seg (V3 K) × K) :=
    if isInside t planePointA then some (⟨planePointA, line.a⟩, V3.lenSq (line.a - planePointA)) else none
  let best := if isInside t planePointB then
    takeCloser best ⟨planePointB, line.b⟩ (V3.lenSq (line.b - planePointB)) else best
  let best := takeCloser best segmentToAB (lengthSq segmentToAB)
  let best := takeCloser best segmentToBC (lengthSq segmentToBC)
  let best := takeCloser best segmentToCA (lengthSq segmentToCA)
  match best with
  | some (l, _) => l
  | none => ⟨0, 0⟩

/-- include/Geom/TriangleCollision.h 191-209, `PrecomputedIntersectionTriangle` after `Update`. -/
structure PreTri (K : Type) where
  triangle : Tri K
  normal : V3 K
  crossCB : V3 K
  crossAC : V3 K
  crossBA : V3 K
  planeDistance : K

/-- include/Geom/TriangleCollision.h 194-201, `Update`. -/
def preTri (t : Tri K) : PreTri K :=
  let normal := V3.cross (t.b - t.a) (t.c - t.a)
  ⟨t, normal, V3.cross t.c t.b, V3.cross t.a t.c, V3.cross t.b t.a, V3.dot normal t.a⟩

/-- include/Geom/TriangleCollision.h 211-221, `PrecomputedIntersectionRay`. -/
structure PreRay (K : Type) where
  ray : Ray K
  crossDirOrigin : V3 K

/-- include/Geom/TriangleCollision.h 214-217, `Update`. -/
def preRay (r : Ray K) : PreRay K := ⟨r, V3.cross r.direction r.origin⟩

/-- include/Geom/TriangleCollision.h 223-255, `IntersectionWithPrecomputedTriangleBarycentric`; `none` is
`false`. At the division the two products are positive, so the sum is not zero. -/
def preBarycentric (p : PreTri K) (r : PreRay K) : Option (V3 K) :=
  let s := V3.dot r.crossDirOrigin (p.triangle.c - p.triangle.b)
  let t := V3.dot r.crossDirOrigin (p.triangle.a - p.triangle.c)
  let x := V3.dot r.ray.direction p.crossCB + s
  let y := V3.dot r.ray.direction p.crossAC + t
  if x * y ≤ 0 then none
  else
    let z := V3.dot r.ray.direction p.crossBA - s - t
    if x * z ≤ 0 then none
    else if V3.dot p.normal r.ray.direction ≥ 0 then none
    else if V3.dot p.normal r.ray.origin ≤ p.planeDistance then none
    else
      let denom := 1 / (x + y + z)
      some (denom • ⟨x, y, z⟩)

/-- include/Geom/TriangleCollision.h 257-295, `IntersectionWithTriangleBarycentric`; `none` is `false`.
At the division the normal opposes the direction, so the sum is not zero (`sum_eq`). -/
def barycentric (t : Tri K) (r : Ray K) : Option (V3 K) :=
  let pa := t.a - r.origin
  let pb := t.b - r.origin
  let pc := t.c - r.origin
  let m := V3.cross r.direction pc
  let x := V3.dot pb m
  if x < 0 then none
  else
    let y := -V3.dot pa m
    if y < 0 then none
    else
      let z := V3.dot pa (V3.cross r.direction pb)
      if z < 0 then none
      else
        let normal := V3.cross (t.b - t.a) (t.c - t.a)
        if V3.dot normal r.direction ≥ 0 then none
        else if V3.dot normal r.origin ≤ V3.dot normal t.a then none
        else
          let denom := 1 / (x + y + z)
          some (denom • ⟨x, y, z⟩)

/-- include/Geom/TriangleCollision.h 297-318, `IntersectionWithTriangleInterp`; `none` is `false`. -/
def interp (nz : Bool) (eq : Eqn) (t : Tri K) (pl : Pl K) (origin direction : V3 K) : Option (Ext K) :=
  let pa := t.a - origin
  let pb := t.b - origin
  let pc := t.c - origin
  if V3.dot pb (V3.cross direction pc) < 0 then none
  else if V3.dot pc (V3.cross direction pa) < 0 then none
  else if V3.dot pa (V3.cross direction pb) < 0 then none
  else some (Plane.interp nz eq pl origin direction)

/-- include/Geom/TriangleCollision.h 320-334, `IntersectionWithTriangle(triangle, plane, ray, point)`. -/
def intersectRay (nz : Bool) (eq : Eqn) (t : Tri K) (pl : Pl K) (r : Ray K) : Hit (V3 K) :=
  match interp nz eq t pl r.origin r.direction with
  | none => .none
  | some e =>
    if e.ge 0 then
      (match e with
      | .fin k => .point (r.lerp k)
      | _ => .infinite)
    else .none

/-- include/Geom/TriangleCollision.h 343-357, `IntersectionWithTriangle(triangle, plane, line, point)`. -/
def intersectLine (nz : Bool) (eq : Eqn) (t : Tri K) (pl : Pl K) (l : Line K) : Hit (V3 K) :=
  match interp nz eq t pl l.a l.direction with
  | none => .none
  | some e =>
    if e.ge 0 && e.le 1 then
      (match e with
      | .fin k => .point (l.lerp k)
      | _ => .infinite)
    else .none

end order

/-- include/Geom/TriangleCollision.h 336-341: the plane is built from the triangle. -/
noncomputable def intersectRayDefault (nz : Bool) (eq : Eqn) (t : Tri ℝ) (r : Ray ℝ) : Hit (V3 ℝ) :=
  intersectRay nz eq t (Plane.build eq t.a t.b t.c) r

/-- include/Geom/TriangleCollision.h 359-364: the plane is built from the triangle. -/
noncomputable def intersectLineDefault (nz : Bool) (eq : Eqn) (t : Tri ℝ) (l : Line ℝ) : Hit (V3 ℝ) :=
  intersectLine nz eq t (Plane.build eq t.a t.b t.c) l

/-- include/Geom/TriangleCollision.h 391-392: the edge, and if there is no hit the reversed edge. -/
noncomputable def edgeHit (nz : Line ℝ → Bool) (eq : Eqn) (t : Tri ℝ) (edge : Line ℝ) : Hit (V3 ℝ) :=
  match intersectLineDefault (nz edge) eq t edge with
  | .none => intersectLineDefault (nz ⟨edge.b, edge.a⟩) eq t ⟨edge.b, edge.a⟩
  | h => h

/-- include/Geom/TriangleCollision.h 378-403: the loops, over the list of (triangle, edge of the
other triangle); `found` is the point stored before. `nz` gives the sign of a zero divisor for each
call. -/
noncomputable def scanEdges (nz : Line ℝ → Bool) (eq : Eqn) :
    List (Tri ℝ × Line ℝ) → Option (Hit (V3 ℝ)) → Option (Hit (V3 ℝ) × Hit (V3 ℝ))
  | [], _ => none
  | (t, edge) :: rest, found =>
    match edgeHit nz eq t edge with
    | .none => scanEdges nz eq rest found
    | h =>
      match found with
      | none => scanEdges nz eq rest (some h)
      | some g => some (g, h)

/-- include/Geom/TriangleCollision.h 388-389: the edges of a triangle, `j` and `(j + 1) % 3`. -/
def edges {K : Type} (t : Tri K) : List (Line K) := [⟨t.a, t.b⟩, ⟨t.b, t.c⟩, ⟨t.c, t.a⟩]

/-- include/Geom/TriangleCollision.h 366-408, `IntersectionWithTriangle(triangleA, triangleB, line)`. -/
noncomputable def intersectTri (nz : Line ℝ → Bool) (eq : Eqn) (ta tb : Tri ℝ) : Option (Hit (V3 ℝ) × Hit (V3 ℝ)) :=
  scanEdges nz eq ((edges tb).map (fun e => (ta, e)) ++ (edges ta).map (fun e => (tb, e))) none

end Geom.Triangle
