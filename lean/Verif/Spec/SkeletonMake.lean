import Verif.Model.SkeletonMake

/-
  Specification of the calls of `makeSkeletonJoint` which end `CopyFrom` with an exception.
-/
set_option autoImplicit false

namespace Geom.Skeleton

variable {M X : Type}

/-- The call fails before it changes the forest: it throws, or returns a joint which has a parent. -/
def Made.Stops : Made M X → Prop
  | .throws => True
  | .joint (.own _ _ _) true => True
  | _ => False

end Geom.Skeleton
