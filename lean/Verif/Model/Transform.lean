import Verif.Base.Vec
import Mathlib.Analysis.SpecialFunctions.Trigonometric.Basic

/-
  Model of include/Geom/Transform3.h, include/Geom/Transform2.h and include/Geom/Projection.h:
  objects with a cached matrix and a flag `hasChanged_`.

  GaussianLib is not part of /repo. Assumed meanings: `AffineMatrix4T` is a 3x4 matrix,
  `SetPosition` writes its last column, `QuaternionToMatrix` writes the other entries by the usual
  formula, `Gs::Scale` multiplies the first three columns by the components of the vector;
  `quaternion * vector` rotates by the formula below. Whether `q *= r` is the Hamilton product
  `q r` or `r q` is not known, so it is a parameter.
-/
set_option autoImplicit false

namespace Geom.Transform

variable {K : Type} [CommRing K]

/-- include/Geom/Transform3.h 128: `Gs::QuaternionT<T>`. -/
@[ext] structure Quat (K : Type) where
  x : K
  y : K
  z : K
  w : K
  deriving DecidableEq

/-- include/Geom/Transform3.h 128 (assumed default): The identity quaternion. -/
def Quat.one : Quat K := ⟨0, 0, 0, 1⟩

/-- include/Geom/Transform3.h 128: The vector part. -/
def Quat.vec (q : Quat K) : V3 K := ⟨q.x, q.y, q.z⟩

/-- include/Geom/Transform3.h 108, 116 (assumed meaning): `q * v`: rotation of a vector, `v + 2w (u × v) + 2 u × (u × v)` with the vector part `u`. -/
def Quat.rot (q : Quat K) (v : V3 K) : V3 K :=
  v + ((2 * q.w) • V3.cross q.vec v + (2 : K) • V3.cross q.vec (V3.cross q.vec v))

/-- include/Geom/Transform3.h 120 (assumed meaning): The Hamilton product. -/
def Quat.mul (q r : Quat K) : Quat K :=
  ⟨q.w * r.x + q.x * r.w + q.y * r.z - q.z * r.y,
   q.w * r.y - q.x * r.z + q.y * r.w + q.z * r.x,
   q.w * r.z + q.x * r.y - q.y * r.x + q.z * r.w,
   q.w * r.w - q.x * r.x - q.y * r.y - q.z * r.z⟩

/-- `Gs::AffineMatrix4T<T>`: three rows, four columns. -/
abbrev Mat (K : Type) := Fin 3 → Fin 4 → K

/-- include/Geom/Transform3.h 90: `SetPosition`. -/
def setPosition (m : Mat K) (p : V3 K) : Mat K := fun i j =>
  if j = 3 then (match i with | 0 => p.x | 1 => p.y | 2 => p.z) else m i j

/-- include/Geom/Transform3.h 91 (assumed meaning): `Gs::QuaternionToMatrix`: entries of the first three columns. -/
def quaternionToMatrix (m : Mat K) (q : Quat K) : Mat K := fun i j =>
  match i, j with
  | 0, 0 => 1 - 2 * (q.y * q.y + q.z * q.z)
  | 0, 1 => 2 * (q.x * q.y - q.w * q.z)
  | 0, 2 => 2 * (q.x * q.z + q.w * q.y)
  | 1, 0 => 2 * (q.x * q.y + q.w * q.z)
  | 1, 1 => 1 - 2 * (q.x * q.x + q.z * q.z)
  | 1, 2 => 2 * (q.y * q.z - q.w * q.x)
  | 2, 0 => 2 * (q.x * q.z - q.w * q.y)
  | 2, 1 => 2 * (q.y * q.z + q.w * q.x)
  | 2, 2 => 1 - 2 * (q.x * q.x + q.y * q.y)
  | 0, 3 => m 0 3
  | 1, 3 => m 1 3
  | 2, 3 => m 2 3

/-- include/Geom/Transform3.h 92 (assumed meaning): `Gs::Scale`. -/
def scaleMatrix (m : Mat K) (s : V3 K) : Mat K := fun i j =>
  match j with
  | 0 => m i 0 * s.x
  | 1 => m i 1 * s.y
  | 2 => m i 2 * s.z
  | 3 => m i 3

/-- include/Geom/Transform3.h 86-96: how clients use the matrix: The matrix applied to a point (with 1 as fourth component). -/
def apply (m : Mat K) (v : V3 K) : V3 K :=
  ⟨m 0 0 * v.x + m 0 1 * v.y + m 0 2 * v.z + m 0 3,
   m 1 0 * v.x + m 1 1 * v.y + m 1 2 * v.z + m 1 3,
   m 2 0 * v.x + m 2 1 * v.y + m 2 2 * v.z + m 2 3⟩

/-- include/Geom/Transform3.h 127-132: the members. -/
structure T3 (K : Type) where
  position : V3 K
  rotation : Quat K
  scale : V3 K
  matrix : Mat K
  hasChanged : Bool

/-- include/Geom/Transform3.h 39-43, default constructor; the matrix is whatever its default
constructor leaves in it. -/
def T3.new (m : Mat K) : T3 K := ⟨0, .one, ⟨1, 1, 1⟩, m, true⟩

/-- include/Geom/Transform3.h 45-51, constructor from a matrix; the decomposition of the matrix is
done by GaussianLib and gives some position, rotation and scale. -/
def T3.ofParts (m : Mat K) (p : V3 K) (q : Quat K) (s : V3 K) : T3 K := ⟨p, q, s, m, true⟩

/-- include/Geom/Transform3.h 53-57. -/
def T3.setPosition (t : T3 K) (p : V3 K) : T3 K := { t with position := p, hasChanged := true }
/-- include/Geom/Transform3.h 64-68. -/
def T3.setRotation (t : T3 K) (q : Quat K) : T3 K := { t with rotation := q, hasChanged := true }
/-- include/Geom/Transform3.h 75-79. -/
def T3.setScale (t : T3 K) (s : V3 K) : T3 K := { t with scale := s, hasChanged := true }

/-- include/Geom/Transform3.h 86-96, `GetMatrix`: the object afterwards; the result is its matrix. -/
def T3.getMatrix (t : T3 K) : T3 K :=
  if t.hasChanged then
    { t with
      matrix := scaleMatrix (quaternionToMatrix (Transform.setPosition t.matrix t.position) t.rotation) t.scale
      hasChanged := false }
  else t

/-- include/Geom/Transform3.h 99-103. -/
def T3.moveGlobal (t : T3 K) (d : V3 K) : T3 K := { t with position := t.position + d, hasChanged := true }
/-- include/Geom/Transform3.h 106-109. -/
def T3.moveLocal (t : T3 K) (d : V3 K) : T3 K := t.moveGlobal (t.rotation.rot d)

/-- include/Geom/Transform3.h 112-123, `Turn`; `mulAssign` is the quaternion `*=`. -/
def T3.turn (mulAssign : Quat K → Quat K → Quat K) (t : T3 K) (r : Quat K) (pivot : V3 K) : T3 K :=
  let pivotOffset := t.position - pivot
  let moveOffset := r.rot pivotOffset - pivotOffset
  { t with position := t.position + moveOffset, rotation := mulAssign t.rotation r, hasChanged := true }

/-- include/Geom/Transform3.h 53-123: A call of a client. -/
inductive Op3 (K : Type) where
  | setPosition (p : V3 K)
  | setRotation (q : Quat K)
  | setScale (s : V3 K)
  | getMatrix
  | moveGlobal (d : V3 K)
  | moveLocal (d : V3 K)
  | turn (r : Quat K) (pivot : V3 K)

/-- include/Geom/Transform3.h 53-123. -/
def T3.step (mulAssign : Quat K → Quat K → Quat K) (t : T3 K) : Op3 K → T3 K
  | .setPosition p => t.setPosition p
  | .setRotation q => t.setRotation q
  | .setScale s => t.setScale s
  | .getMatrix => t.getMatrix
  | .moveGlobal d => t.moveGlobal d
  | .moveLocal d => t.moveLocal d
  | .turn r p => t.turn mulAssign r p

/-- include/Geom/Transform3.h 53-123. -/
def T3.run (mulAssign : Quat K → Quat K → Quat K) (t : T3 K) (ops : List (Op3 K)) : T3 K :=
  ops.foldl (T3.step mulAssign) t

/-! ## Transform2 -/

/-- `Gs::AffineMatrix3T<T>`: two rows, three columns. -/
abbrev Mat2 := Fin 2 → Fin 3 → ℝ

/-- include/Geom/Transform2.h 81: `SetPosition`. -/
def setPosition2 (m : Mat2) (p : V2 ℝ) : Mat2 := fun i j =>
  if j = 2 then (match i with | 0 => p.x | 1 => p.y) else m i j

/-- include/Geom/Transform2.h 82: `SetRotationAndScale`: writes the first two columns with values `rs rotation scale`, which are
not fixed here. -/
def setRotationAndScale (rs : ℝ → V2 ℝ → Fin 2 → Fin 3 → ℝ) (m : Mat2) (r : ℝ) (s : V2 ℝ) : Mat2 :=
  fun i j => if j = 2 then m i j else rs r s i j

/-- include/Geom/Transform2.h 106-111: the members. -/
structure T2 where
  position : V2 ℝ
  rotation : ℝ
  scale : V2 ℝ
  matrix : Mat2
  hasChanged : Bool

/-- include/Geom/Transform2.h 37-42, default constructor. -/
def T2.new (m : Mat2) : T2 := ⟨0, 0, ⟨1, 1⟩, m, true⟩

/-- include/Geom/Transform2.h 44-48. -/
def T2.setPosition (t : T2) (p : V2 ℝ) : T2 := { t with position := p, hasChanged := true }
/-- include/Geom/Transform2.h 55-59. -/
def T2.setRotation (t : T2) (r : ℝ) : T2 := { t with rotation := r, hasChanged := true }
/-- include/Geom/Transform2.h 66-70. -/
def T2.setScale (t : T2) (s : V2 ℝ) : T2 := { t with scale := s, hasChanged := true }

/-- include/Geom/Transform2.h 77-86, `GetMatrix`: the object afterwards. -/
def T2.getMatrix (rs : ℝ → V2 ℝ → Fin 2 → Fin 3 → ℝ) (t : T2) : T2 :=
  if t.hasChanged then
    { t with
      matrix := setRotationAndScale rs (setPosition2 t.matrix t.position) t.rotation t.scale
      hasChanged := false }
  else t

/-- include/Geom/Transform2.h 88-102, `Turn`. -/
noncomputable def T2.turn (t : T2) (r : ℝ) (pivot : V2 ℝ) : T2 :=
  let pivotOffset := t.position - pivot
  let moveOffset : V2 ℝ :=
    ⟨Real.sin r * pivotOffset.x - pivotOffset.x, Real.cos r * pivotOffset.y - pivotOffset.y⟩
  { t with position := t.position + moveOffset, rotation := t.rotation + r, hasChanged := true }

/-- include/Geom/Transform2.h 44-102. -/
inductive Op2 where
  | setPosition (p : V2 ℝ)
  | setRotation (r : ℝ)
  | setScale (s : V2 ℝ)
  | getMatrix
  | turn (r : ℝ) (pivot : V2 ℝ)

/-- include/Geom/Transform2.h 44-102. -/
noncomputable def T2.step (rs : ℝ → V2 ℝ → Fin 2 → Fin 3 → ℝ) (t : T2) : Op2 → T2
  | .setPosition p => t.setPosition p
  | .setRotation q => t.setRotation q
  | .setScale s => t.setScale s
  | .getMatrix => t.getMatrix rs
  | .turn r p => t.turn r p

/-- include/Geom/Transform2.h 44-102. -/
noncomputable def T2.run (rs : ℝ → V2 ℝ → Fin 2 → Fin 3 → ℝ) (t : T2) (ops : List Op2) : T2 :=
  ops.foldl (T2.step rs) t

/-! ## Projection -/

/-- include/Geom/Projection.h 161, 163: `Gs::ProjectionMatrix4T<T>::Orthogonal` and `Perspective`: they write the whole matrix; the
values are not fixed here. -/
structure ProjEnv (T M : Type) where
  orthogonal : T → T → T → T → Int → M
  perspective : T → T → T → T → Int → M

/-- include/Geom/Projection.h 168-177: the members. -/
structure Proj (T M : Type) where
  near : T
  far : T
  fov : T
  aspect : T
  flags : Int
  isOrtho : Bool
  orthoSize : V2 T
  matrix : M
  hasChanged : Bool

variable {T M : Type} [DecidableEq T]

/-- include/Geom/Projection.h 168-177: a new object (the defaults are passed as arguments). -/
def Proj.new (near far fov aspect : T) (size : V2 T) (m : M) : Proj T M :=
  ⟨near, far, fov, aspect, 0, false, size, m, true⟩

/-- include/Geom/Projection.h 37-41. -/
def Proj.setNear (p : Proj T M) (v : T) : Proj T M := { p with near := v, hasChanged := true }
/-- include/Geom/Projection.h 50-54. -/
def Proj.setFar (p : Proj T M) (v : T) : Proj T M := { p with far := v, hasChanged := true }
/-- include/Geom/Projection.h 63-67. -/
def Proj.setFOV (p : Proj T M) (v : T) : Proj T M := { p with fov := v, hasChanged := true }
/-- include/Geom/Projection.h 76-80. -/
def Proj.setAspect (p : Proj T M) (v : T) : Proj T M := { p with aspect := v, hasChanged := true }
/-- include/Geom/Projection.h 89-96. -/
def Proj.setOrtho (p : Proj T M) (b : Bool) : Proj T M :=
  if p.isOrtho ≠ b then { p with hasChanged := true, isOrtho := b } else p
/-- include/Geom/Projection.h 105-113. -/
def Proj.setOrthoSize (p : Proj T M) (s : V2 T) : Proj T M :=
  if p.orthoSize.x ≠ s.x ∨ p.orthoSize.y ≠ s.y then
    { p with orthoSize := s, hasChanged := if p.isOrtho then true else p.hasChanged }
  else p
/-- include/Geom/Projection.h 125-132. -/
def Proj.setFlags (p : Proj T M) (f : Int) : Proj T M :=
  if p.flags ≠ f then { p with flags := f, hasChanged := true } else p

/-- include/Geom/Projection.h 158-164, `GetMatrix(matrix, flags)`: the value written to `matrix`. -/
def Proj.compute (e : ProjEnv T M) (p : Proj T M) (flags : Int) : M :=
  if p.isOrtho then e.orthogonal p.orthoSize.x p.orthoSize.y p.near p.far flags
  else e.perspective p.aspect p.near p.far p.fov flags

/-- include/Geom/Projection.h 144-152, `GetMatrix`: the object afterwards. -/
def Proj.getMatrix (e : ProjEnv T M) (p : Proj T M) : Proj T M :=
  if p.hasChanged then { p with matrix := p.compute e p.flags, hasChanged := false } else p

/-- include/Geom/Projection.h 37-152. -/
inductive OpP (T : Type) where
  | setNear (v : T)
  | setFar (v : T)
  | setFOV (v : T)
  | setAspect (v : T)
  | setOrtho (b : Bool)
  | setOrthoSize (s : V2 T)
  | setFlags (f : Int)
  | getMatrix

/-- include/Geom/Projection.h 37-152. -/
def Proj.step (e : ProjEnv T M) (p : Proj T M) : OpP T → Proj T M
  | .setNear v => p.setNear v
  | .setFar v => p.setFar v
  | .setFOV v => p.setFOV v
  | .setAspect v => p.setAspect v
  | .setOrtho b => p.setOrtho b
  | .setOrthoSize s => p.setOrthoSize s
  | .setFlags f => p.setFlags f
  | .getMatrix => p.getMatrix e

/-- include/Geom/Projection.h 37-152. -/
def Proj.run (e : ProjEnv T M) (p : Proj T M) (ops : List (OpP T)) : Proj T M := ops.foldl (Proj.step e) p

end Geom.Transform
