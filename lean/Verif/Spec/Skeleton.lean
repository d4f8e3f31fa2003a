import Verif.Model.Skeleton
import Mathlib.Algebra.BigOperators.Group.List.Basic
import Mathlib.Data.List.Lex

/-
  Specification of traversals, buffers and copies of joint forests. A joint of a forest is named by
  its path: the index of its root joint, then the index of the sub joint, and so on.
-/
set_option autoImplicit false

namespace Geom.Skeleton

variable {M X : Type}

/-- The pointer at a path. -/
def at? : List (Joint M X) → List Nat → Option (Joint M X)
  | _, [] => none
  | f, i :: p => match p with
    | [] => f[i]?
    | _ :: _ => f[i]?.bind fun j => at? j.subs p

/-- No pointer of the forest is null. -/
def NoNull (f : List (Joint M X)) : Prop := ∀ p, at? f p ≠ some .null

/-- `ps` lists the paths of all joints of the forest, each once, in depth-first order. In the
lexicographic order `<` on paths a joint comes before the joints below it, and these come before its
next sibling. -/
def DepthFirst (f : List (Joint M X)) (ps : List (List Nat)) : Prop :=
  ps.Pairwise (· < ·) ∧ ∀ p, p ∈ ps ↔ ∃ j, at? f p = some j

/-- The data of the joints on the way from the root joint to the joint at a path (inclusive). -/
def chain : List (Joint M X) → List Nat → List (Data M X)
  | _, [] => []
  | f, i :: p => match f[i]? with
    | some (.own _ d subs) => d :: chain subs p
    | _ => []

/-- Global transformation of the joint at a path: the product of the transformations from the root. -/
def globalAt [Monoid M] (f : List (Joint M X)) (p : List Nat) : M :=
  ((chain f p).map Data.transform).prod

/-- Global pose transformation of the joint at a path. -/
def globalPoseAt [Monoid M] (f : List (Joint M X)) (p : List Nat) : M :=
  ((chain f p).map Data.poseTransform).prod

/-- Address and data of the joint at a path. -/
def addrAt (f : List (Joint M X)) (p : List Nat) : Option Nat := (at? f p).bind Joint.addr?
def dataAt (f : List (Joint M X)) (p : List Nat) : Option (Data M X) := (at? f p).bind Joint.data?

end Geom.Skeleton
