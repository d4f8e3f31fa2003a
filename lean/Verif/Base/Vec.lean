import Mathlib.Algebra.Field.Basic
import Mathlib.Algebra.Order.Field.Basic
import Mathlib.Tactic.Ring
import Mathlib.Tactic.LinearCombination

/-
  Vectors of GaussianLib (`Gs::Vector2T`, `Gs::Vector3T`): componentwise operations, `Gs::Dot`,
  `Gs::Cross`. The library is not part of /repo; these are its documented meanings.
-/
set_option autoImplicit false

namespace Geom

/-- `Gs::Vector3T<T>`. -/
@[ext] structure V3 (K : Type) where
  x : K
  y : K
  z : K
  deriving DecidableEq

/-- `Gs::Vector2T<T>`. -/
@[ext] structure V2 (K : Type) where
  x : K
  y : K
  deriving DecidableEq

namespace V3
variable {K : Type} [CommRing K]

instance : Zero (V3 K) := ⟨⟨0, 0, 0⟩⟩
instance : Add (V3 K) := ⟨fun a b => ⟨a.x + b.x, a.y + b.y, a.z + b.z⟩⟩
instance : Sub (V3 K) := ⟨fun a b => ⟨a.x - b.x, a.y - b.y, a.z - b.z⟩⟩
instance : Neg (V3 K) := ⟨fun a => ⟨-a.x, -a.y, -a.z⟩⟩
/-- Multiplication by a scalar (`v * s`). -/
instance : SMul K (V3 K) := ⟨fun s a => ⟨s * a.x, s * a.y, s * a.z⟩⟩

@[simp] theorem zero_x : (0 : V3 K).x = 0 := rfl
@[simp] theorem zero_y : (0 : V3 K).y = 0 := rfl
@[simp] theorem zero_z : (0 : V3 K).z = 0 := rfl
@[simp] theorem add_x (a b : V3 K) : (a + b).x = a.x + b.x := rfl
@[simp] theorem add_y (a b : V3 K) : (a + b).y = a.y + b.y := rfl
@[simp] theorem add_z (a b : V3 K) : (a + b).z = a.z + b.z := rfl
@[simp] theorem sub_x (a b : V3 K) : (a - b).x = a.x - b.x := rfl
@[simp] theorem sub_y (a b : V3 K) : (a - b).y = a.y - b.y := rfl
@[simp] theorem sub_z (a b : V3 K) : (a - b).z = a.z - b.z := rfl
@[simp] theorem neg_x (a : V3 K) : (-a).x = -a.x := rfl
@[simp] theorem neg_y (a : V3 K) : (-a).y = -a.y := rfl
@[simp] theorem neg_z (a : V3 K) : (-a).z = -a.z := rfl
@[simp] theorem smul_x (s : K) (a : V3 K) : (s • a).x = s * a.x := rfl
@[simp] theorem smul_y (s : K) (a : V3 K) : (s • a).y = s * a.y := rfl
@[simp] theorem smul_z (s : K) (a : V3 K) : (s • a).z = s * a.z := rfl

/-- `Gs::Dot`. -/
def dot (a b : V3 K) : K := a.x * b.x + a.y * b.y + a.z * b.z

/-- `Gs::Cross`. -/
def cross (a b : V3 K) : V3 K :=
  ⟨a.y * b.z - a.z * b.y, a.z * b.x - a.x * b.z, a.x * b.y - a.y * b.x⟩

/-- `Gs::LengthSq`. -/
def lenSq (a : V3 K) : K := dot a a

theorem lenSq_smul (s : K) (a : V3 K) : (s • a).lenSq = s * s * a.lenSq := by
  simp only [lenSq, dot, smul_x, smul_y, smul_z]; ring

@[simp] theorem cross_x (a b : V3 K) : (cross a b).x = a.y * b.z - a.z * b.y := rfl
@[simp] theorem cross_y (a b : V3 K) : (cross a b).y = a.z * b.x - a.x * b.z := rfl
@[simp] theorem cross_z (a b : V3 K) : (cross a b).z = a.x * b.y - a.y * b.x := rfl

/-- Componentwise product (`v * w`). -/
def mulC (a b : V3 K) : V3 K := ⟨a.x * b.x, a.y * b.y, a.z * b.z⟩

@[simp] theorem mulC_x (a b : V3 K) : (mulC a b).x = a.x * b.x := rfl
@[simp] theorem mulC_y (a b : V3 K) : (mulC a b).y = a.y * b.y := rfl
@[simp] theorem mulC_z (a b : V3 K) : (mulC a b).z = a.z * b.z := rfl

end V3

namespace V2
variable {K : Type} [CommRing K]

instance : Zero (V2 K) := ⟨⟨0, 0⟩⟩
instance : Add (V2 K) := ⟨fun a b => ⟨a.x + b.x, a.y + b.y⟩⟩
instance : Sub (V2 K) := ⟨fun a b => ⟨a.x - b.x, a.y - b.y⟩⟩
instance : Neg (V2 K) := ⟨fun a => ⟨-a.x, -a.y⟩⟩
instance : SMul K (V2 K) := ⟨fun s a => ⟨s * a.x, s * a.y⟩⟩

@[simp] theorem zero_x : (0 : V2 K).x = 0 := rfl
@[simp] theorem zero_y : (0 : V2 K).y = 0 := rfl
@[simp] theorem add_x (a b : V2 K) : (a + b).x = a.x + b.x := rfl
@[simp] theorem add_y (a b : V2 K) : (a + b).y = a.y + b.y := rfl
@[simp] theorem sub_x (a b : V2 K) : (a - b).x = a.x - b.x := rfl
@[simp] theorem sub_y (a b : V2 K) : (a - b).y = a.y - b.y := rfl
@[simp] theorem neg_x (a : V2 K) : (-a).x = -a.x := rfl
@[simp] theorem neg_y (a : V2 K) : (-a).y = -a.y := rfl
@[simp] theorem smul_x (s : K) (a : V2 K) : (s • a).x = s * a.x := rfl
@[simp] theorem smul_y (s : K) (a : V2 K) : (s • a).y = s * a.y := rfl

def dot (a b : V2 K) : K := a.x * b.x + a.y * b.y
def lenSq (a : V2 K) : K := dot a a

end V2

end Geom
