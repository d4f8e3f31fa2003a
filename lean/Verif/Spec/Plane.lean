import Verif.Model.Plane

/-
  Planes, boxes, rays and cones as sets of points. Nothing here refers to the functions of the model,
  only to its data.
-/
set_option autoImplicit false

namespace Geom.Plane.Spec

section
variable {K : Type} [CommRing K]

/-- The left hand side of the plane equation, solved for zero. -/
def side (eq : Eqn) (p : Pl K) (x : V3 K) : K :=
  match eq with
  | .nxEqD => p.normal.x * x.x + p.normal.y * x.y + p.normal.z * x.z - p.distance
  | .nxdEqZero => p.normal.x * x.x + p.normal.y * x.y + p.normal.z * x.z + p.distance

/-- The point lies on the plane. -/
def On (eq : Eqn) (p : Pl K) (x : V3 K) : Prop :=
  match eq with
  | .nxEqD => p.normal.x * x.x + p.normal.y * x.y + p.normal.z * x.z = p.distance
  | .nxdEqZero => p.normal.x * x.x + p.normal.y * x.y + p.normal.z * x.z + p.distance = 0

/-- The normal has length one. -/
def UnitN (p : Pl K) : Prop :=
  p.normal.x * p.normal.x + p.normal.y * p.normal.y + p.normal.z * p.normal.z = 1

/-- Squared distance of two points. -/
def distSq (a b : V3 K) : K :=
  (a.x - b.x) * (a.x - b.x) + (a.y - b.y) * (a.y - b.y) + (a.z - b.z) * (a.z - b.z)

/-- The point of a ray or line at the parameter `t`. -/
def at_ (o d : V3 K) (t : K) : V3 K := ⟨o.x + t * d.x, o.y + t * d.y, o.z + t * d.z⟩

/-- The determinant of three vectors. -/
def det (a b c : V3 K) : K :=
  a.x * (b.y * c.z - b.z * c.y) - a.y * (b.x * c.z - b.z * c.x) + a.z * (b.x * c.y - b.y * c.x)

/-- The matrix keeps lengths: its 3x3 part is orthogonal. -/
def Orthogonal (m : Transform.Mat K) : Prop :=
  (m 0 0 * m 0 0 + m 1 0 * m 1 0 + m 2 0 * m 2 0 = 1 ∧ m 0 1 * m 0 1 + m 1 1 * m 1 1 + m 2 1 * m 2 1 = 1 ∧
    m 0 2 * m 0 2 + m 1 2 * m 1 2 + m 2 2 * m 2 2 = 1) ∧
  m 0 0 * m 0 1 + m 1 0 * m 1 1 + m 2 0 * m 2 1 = 0 ∧ m 0 0 * m 0 2 + m 1 0 * m 1 2 + m 2 0 * m 2 2 = 0 ∧
    m 0 1 * m 0 2 + m 1 1 * m 1 2 + m 2 1 * m 2 2 = 0

end

section
variable {K : Type} [Field K] [LinearOrder K]

/-- The points of an axis-aligned box. -/
def InBox (b : Box K) (x : V3 K) : Prop :=
  (b.min.x ≤ x.x ∧ x.x ≤ b.max.x) ∧ (b.min.y ≤ x.y ∧ x.y ≤ b.max.y) ∧ (b.min.z ≤ x.z ∧ x.z ≤ b.max.z)

/-- A box which is not inside out. -/
def Valid (b : Box K) : Prop := b.min.x ≤ b.max.x ∧ b.min.y ≤ b.max.y ∧ b.min.z ≤ b.max.z

/-- The points of an oriented box. -/
def InOBox (b : OBox K) (x : V3 K) : Prop :=
  ∃ s t u : K, |s| ≤ b.halfSize.x ∧ |t| ≤ b.halfSize.y ∧ |u| ≤ b.halfSize.z ∧
    x = b.center + (s • b.axisX + (t • b.axisY + u • b.axisZ))

end

/-- The points of a solid cone with tip `point`: the parameter `t` runs from the tip to the bottom,
the offset from the axis is perpendicular to it and at most `t * radius` long. -/
def InCone (c : Cone) (x : V3 ℝ) : Prop :=
  ∃ (t : ℝ) (v : V3 ℝ), 0 ≤ t ∧ t ≤ 1 ∧
    v.x * c.direction.x + v.y * c.direction.y + v.z * c.direction.z = 0 ∧
    v.x * v.x + v.y * v.y + v.z * v.z ≤ (t * c.radius) * (t * c.radius) ∧
    x = c.point + ((t * c.height) • c.direction + v)

end Geom.Plane.Spec
