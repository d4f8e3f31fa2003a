import Verif.Base.Vec
import Mathlib.Algebra.Module.Defs
import Mathlib.Algebra.Order.Field.Basic
import Mathlib.Tactic.Linarith
import Mathlib.Tactic.Module
import Mathlib.Tactic.Positivity

/-
  Functions of /repo which are templates over the vector type (`Gs::Vector2T`, `Gs::Vector3T`,
  `Gs::Vector4T`) are modelled over any vector space with a dot product; `V2` and `V3` are instances.
-/
set_option autoImplicit false

namespace Geom

namespace V3
variable {K : Type} [CommRing K]

instance : AddCommGroup (V3 K) where
  add_assoc a b c := by ext <;> simp <;> ring
  zero_add a := by ext <;> simp
  add_zero a := by ext <;> simp
  add_comm a b := by ext <;> simp <;> ring
  neg_add_cancel a := by ext <;> simp
  sub_eq_add_neg a b := by ext <;> simp <;> ring
  nsmul := nsmulRec
  zsmul := zsmulRec

instance : Module K (V3 K) where
  one_smul a := by ext <;> simp
  mul_smul r s a := by ext <;> simp <;> ring
  smul_zero r := by ext <;> simp
  smul_add r a b := by ext <;> simp <;> ring
  add_smul r s a := by ext <;> simp <;> ring
  zero_smul a := by ext <;> simp

end V3

namespace V2
variable {K : Type} [CommRing K]

instance : AddCommGroup (V2 K) where
  add_assoc a b c := by ext <;> simp <;> ring
  zero_add a := by ext <;> simp
  add_zero a := by ext <;> simp
  add_comm a b := by ext <;> simp <;> ring
  neg_add_cancel a := by ext <;> simp
  sub_eq_add_neg a b := by ext <;> simp <;> ring
  nsmul := nsmulRec
  zsmul := zsmulRec

instance : Module K (V2 K) where
  one_smul a := by ext <;> simp
  mul_smul r s a := by ext <;> simp <;> ring
  smul_zero r := by ext <;> simp
  smul_add r a b := by ext <;> simp <;> ring
  add_smul r s a := by ext <;> simp <;> ring
  zero_smul a := by ext <;> simp

end V2

/-- A vector space with a dot product (`Gs::Dot`), which is bilinear, symmetric and positive. -/
class DotSpace (K : outParam Type) (V : Type) [Field K] [LinearOrder K] [AddCommGroup V] [Module K V] where
  dot : V → V → K
  dot_comm : ∀ a b, dot a b = dot b a
  add_dot : ∀ a b c, dot (a + b) c = dot a c + dot b c
  smul_dot : ∀ (s : K) a b, dot (s • a) b = s * dot a b
  dot_self_nonneg : ∀ a, 0 ≤ dot a a
  eq_zero_of_dot : ∀ a, dot a a = 0 → a = 0

namespace DotSpace
variable {K V : Type} [Field K] [LinearOrder K] [AddCommGroup V] [Module K V] [DotSpace K V]

theorem dot_add (a b c : V) : dot a (b + c) = dot a b + dot a c := by
  rw [dot_comm, add_dot, dot_comm b, dot_comm c]

theorem dot_smul (s : K) (a b : V) : dot a (s • b) = s * dot a b := by
  rw [dot_comm, smul_dot, dot_comm b]

theorem neg_dot (a b : V) : dot (-a) b = -dot a b := by
  rw [← neg_one_smul K a, smul_dot, neg_one_mul]

theorem dot_neg (a b : V) : dot a (-b) = -dot a b := by rw [dot_comm, neg_dot, dot_comm]

theorem sub_dot (a b c : V) : dot (a - b) c = dot a c - dot b c := by
  rw [sub_eq_add_neg, add_dot, neg_dot, ← sub_eq_add_neg]

theorem dot_sub (a b c : V) : dot a (b - c) = dot a b - dot a c := by
  rw [sub_eq_add_neg, dot_add, dot_neg, ← sub_eq_add_neg]

theorem zero_dot (a : V) : dot (0 : V) a = 0 := by rw [← zero_smul K (0 : V), smul_dot, zero_mul]

theorem dot_zero (a : V) : dot a (0 : V) = 0 := by rw [dot_comm, zero_dot]

theorem dot_pos {a : V} (h : a ≠ 0) : 0 < dot a a :=
  lt_of_le_of_ne (dot_self_nonneg a) fun h0 => h (eq_zero_of_dot a h0.symm)

end DotSpace

section
variable {K : Type} [Field K] [LinearOrder K] [IsStrictOrderedRing K]

instance : DotSpace K (V3 K) where
  dot := V3.dot
  dot_comm a b := by simp only [V3.dot]; ring
  add_dot a b c := by simp only [V3.dot, V3.add_x, V3.add_y, V3.add_z]; ring
  smul_dot s a b := by simp only [V3.dot, V3.smul_x, V3.smul_y, V3.smul_z]; ring
  dot_self_nonneg a :=
    add_nonneg (add_nonneg (mul_self_nonneg a.x) (mul_self_nonneg a.y)) (mul_self_nonneg a.z)
  eq_zero_of_dot a h := by
    simp only [V3.dot] at h
    have hx := mul_self_nonneg a.x
    have hy := mul_self_nonneg a.y
    have hz := mul_self_nonneg a.z
    ext <;> simp <;> apply mul_self_eq_zero.1 <;> linarith

instance : DotSpace K (V2 K) where
  dot := V2.dot
  dot_comm a b := by simp only [V2.dot]; ring
  add_dot a b c := by simp only [V2.dot, V2.add_x, V2.add_y]; ring
  smul_dot s a b := by simp only [V2.dot, V2.smul_x, V2.smul_y]; ring
  dot_self_nonneg a := add_nonneg (mul_self_nonneg a.x) (mul_self_nonneg a.y)
  eq_zero_of_dot a h := by
    simp only [V2.dot] at h
    have hx := mul_self_nonneg a.x
    have hy := mul_self_nonneg a.y
    ext <;> simp <;> apply mul_self_eq_zero.1 <;> linarith

end
end Geom
