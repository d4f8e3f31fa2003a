import Verif.Model.Skeleton

/-
  Model of `Skeleton::CopyFrom` (sources/Skeleton.cpp 158-172, 246-261) with a function `makeSkeletonJoint` of
  the client.

  The function is given by what its calls do, one after another. It does not change the two skeletons, and it
  returns joints which nobody else owns. An exception leaves the skeleton as it is at this moment, so that the
  result is the list of root joints together with the number of calls and whether an exception was thrown.
-/
set_option autoImplicit false

namespace Geom.Skeleton

/-- include/Geom/Skeleton.h 24: what a call of `MakeSkeletonJointFunction` does: throw, or return a pointer. `parent` tells
whether `GetParent()` of the joint is not null (as it is for a joint which `RemoveSubJoint` has returned). -/
inductive Made (M X : Type) where
  | throws
  | joint (j : Joint M X) (parent : Bool)

/-- sources/Skeleton.cpp 158-172: the state when the call is over or an exception leaves it: the list, the number of calls of
`makeSkeletonJoint`, and whether there was an exception. -/
structure Copied (α : Type) where
  val : α
  calls : Nat
  threw : Bool
  deriving DecidableEq

variable {M X : Type}

mutual
/-- sources/Skeleton.cpp 246-261, `CopyJoint(lhs, rhs, makeSkeletonJoint)` with `lhs` having the address `a` and the sub joints
`subs`; its data are overwritten. -/
def copyInto (mk : Nat → Made M X) (a : Nat) (subs : List (Joint M X)) : Joint M X → Nat → Res (Copied (Joint M X))
  | .null, _ => .ub
  | .own _ d model, calls => (copySubs mk subs model calls).bind fun r => .ok ⟨.own a d r.val, r.calls, r.threw⟩

/-- sources/Skeleton.cpp 256-260 and 165-169: the loops over the joints of the model. `AddSubJoint` (sources/SkeletonJoint.cpp 23-34)
and `AddRootJoint` (17-27) use the pointer, throw if the joint has a parent, and append it. -/
def copySubs (mk : Nat → Made M X) (subs : List (Joint M X)) : List (Joint M X) → Nat → Res (Copied (List (Joint M X)))
  | [], calls => .ok ⟨subs, calls, false⟩
  | model :: rest, calls =>
    match mk calls with
    | .throws => .ok ⟨subs, calls + 1, true⟩
    | .joint .null _ => .ub
    | .joint (.own _ _ _) true => .ok ⟨subs, calls + 1, true⟩
    | .joint (.own a _ own) false =>
      (copyInto mk a own model (calls + 1)).bind fun r =>
        if r.threw then .ok ⟨subs ++ [r.val], r.calls, true⟩ else copySubs mk (subs ++ [r.val]) rest r.calls
end

/-- sources/Skeleton.cpp 158-172, `CopyFrom` with another skeleton and with `makeSkeletonJoint`. -/
def copyFromBy (mk : Nat → Made M X) (roots model : List (Joint M X)) : Res (Copied (List (Joint M X))) := copySubs mk roots model 0

end Geom.Skeleton
