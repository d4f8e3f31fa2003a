import Verif.Base.Dot

/-
  A tactic which writes vector expressions out in components.
-/
set_option autoImplicit false

namespace Geom

open Lean.Parser.Tactic in
/-- Write the components of vector expressions out. -/
syntax "vec_simp" (" [" simpLemma,* "]")? (location)? : tactic

macro_rules
  | `(tactic| vec_simp $[$l]?) => `(tactic| simp only [V3.add_x, V3.add_y, V3.add_z, V3.sub_x, V3.sub_y,
      V3.sub_z, V3.smul_x, V3.smul_y, V3.smul_z, V3.cross_x, V3.cross_y, V3.cross_z, V3.neg_x, V3.neg_y, V3.neg_z,
      V3.zero_x, V3.zero_y, V3.zero_z, V3.dot, V3.lenSq] $[$l]?)
  | `(tactic| vec_simp [$ls,*] $[$l]?) => `(tactic| simp only [V3.add_x, V3.add_y, V3.add_z, V3.sub_x, V3.sub_y,
      V3.sub_z, V3.smul_x, V3.smul_y, V3.smul_z, V3.cross_x, V3.cross_y, V3.cross_z, V3.neg_x, V3.neg_y, V3.neg_z,
      V3.zero_x, V3.zero_y, V3.zero_z, V3.dot, V3.lenSq, $ls,*] $[$l]?)

end Geom
