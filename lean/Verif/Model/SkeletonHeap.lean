import Verif.Base.Res
import Mathlib.Algebra.Group.Basic

/-
  Model of the parent links and the ownership of skeleton joints (include/Geom/Skeleton.h,
  sources/Skeleton.cpp, include/Geom/SkeletonJoint.h, sources/SkeletonJoint.cpp) on the level of
  pointers: joints have addresses, `std::unique_ptr`s are held by clients, by skeletons (root joints)
  and by joints (sub joints).

  Simplification: addresses are never used again after a joint was destroyed.
-/
set_option autoImplicit false

namespace Geom.SkeletonHeap

/-- include/Geom/SkeletonJoint.h 105-152: the members of a joint which matter here. Entries of
`subs` are unique pointers, `none` is null. -/
structure Node (M : Type) where
  parent : Option Nat
  subs : List (Option Nat)
  transform : M

/-- include/Geom/Skeleton.h 147, include/Geom/SkeletonJoint.h 151-152: All joints and owners: `node` gives the live joints, `roots s` is `rootJoints_` of the skeleton
`s`, `client a` means that a unique pointer of the client owns the joint `a`, `next` is the address
of the next new joint. -/
structure World (M : Type) where
  node : Nat → Option (Node M)
  roots : Nat → List (Option Nat)
  client : Nat → Prop
  next : Nat

variable {M : Type}

/-- include/Geom/Skeleton.h 34: No joints. -/
def empty : World M := ⟨fun _ => none, fun _ => [], fun _ => False, 0⟩

/-- `b` is `a` or is owned, directly or not, by `a`: what the destructor of `a` destroys
(`subJoints_`, include/Geom/SkeletonJoint.h 152). -/
inductive Reach (w : World M) : Nat → Nat → Prop
  | refl (a : Nat) : Reach w a a
  | step {a b c : Nat} (h : Reach w a b) (n : Node M) (hn : w.node b = some n) (hc : some c ∈ n.subs) :
      Reach w a c

open Classical in
/-- include/Geom/SkeletonJoint.h 27, 152: Destruction of the joint `a`. -/
noncomputable def destroy (w : World M) (a : Nat) : World M :=
  { w with node := fun x => if Reach w a x then none else w.node x }

/-- include/Geom/SkeletonJoint.h 105-152: assignment to a joint. -/
def setNode (w : World M) (a : Nat) (n : Node M) : World M :=
  { w with node := fun x => if x = a then some n else w.node x }

/-- include/Geom/Skeleton.h 147: assignment to the list. -/
def setRoots (w : World M) (s : Nat) (l : List (Option Nat)) : World M :=
  { w with roots := fun x => if x = s then l else w.roots x }

/-- include/Geom/SkeletonJoint.h 27: the client takes or gives away a pointer. -/
def setClient (w : World M) (a : Nat) (b : Prop) : World M :=
  { w with client := fun x => if x = a then b else w.client x }

/-- include/Geom/SkeletonJoint.h 59: `new SkeletonJoint()`, owned by a unique pointer of the client, with the given transformation. -/
def make (w : World M) (t : M) : World M :=
  { node := fun x => if x = w.next then some ⟨none, [], t⟩ else w.node x
    roots := w.roots
    client := fun x => if x = w.next then True else w.client x
    next := w.next + 1 }

open Classical in
/-- sources/Skeleton.cpp 17-27, `AddRootJoint`. The argument is a unique pointer of the client; if the
client owns no such joint, the pointer is null and `joint->GetParent()` is undefined. -/
noncomputable def addRootJoint (w : World M) (s a : Nat) : Res (World M) :=
  if w.client a then
    match w.node a with
    | none => .ub
    | some n => if n.parent.isSome then .throw
      else .ok (setClient (setRoots w s (w.roots s ++ [some a])) a False)
  else .ub

open Classical in
/-- sources/SkeletonJoint.cpp 23-34, `AddSubJoint` of the joint `q` (which must be alive). -/
noncomputable def addSubJoint (w : World M) (q a : Nat) : Res (World M) :=
  if w.client a then
    match w.node a with
    | none => .ub
    | some n => if n.parent.isSome then .throw
      else
        let w := setNode w a { n with parent := some q }
        match w.node q with
        | none => .ub
        | some m => .ok (setClient (setNode w q { m with subs := m.subs ++ [some a] }) a False)
  else .ub

/-- sources/Skeleton.cpp 42, sources/SkeletonJoint.cpp 49: The pointer moved to the client by `return std::move(*it)`. -/
def give (w : World M) : Option Nat → World M
  | none => w
  | some p => setClient w p True

/-- sources/Skeleton.cpp 29-46, `RemoveRootJoint`: see `Geom.Skeleton.removeJoint`. -/
noncomputable def removeRootJoint (w : World M) (s a : Nat) : Res (World M) :=
  let l := w.roots s
  let i := l.idxOf (some a)
  if i < l.length then
    match (l.eraseIdx i)[i]? with
    | none => .ub
    | some p => .ok (give (setRoots (destroy w a) s ((l.eraseIdx i).set i none)) p)
  else .ok w

open Classical in
/-- sources/SkeletonJoint.cpp 36-53, `RemoveSubJoint` of the joint `q`. The call is undefined if `q`
is not alive, or is destroyed during the call. -/
noncomputable def removeSubJoint (w : World M) (q a : Nat) : Res (World M) :=
  match w.node q with
  | none => .ub
  | some m =>
    let i := m.subs.idxOf (some a)
    if i < m.subs.length then
      if Reach w a q then .ub
      else match (m.subs.eraseIdx i)[i]? with
        | none => .ub
        | some p => .ok (give (setNode (destroy w a) q { m with subs := (m.subs.eraseIdx i).set i none }) p)
    else .ok w

open Classical in
/-- include/Geom/SkeletonJoint.h 27: The client destroys a joint it owns. -/
noncomputable def drop (w : World M) (a : Nat) : Res (World M) :=
  if w.client a then .ok (setClient (destroy w a) a False) else .ub

/-- include/Geom/SkeletonJoint.h 109: The client writes the public member `transform` of a live joint. -/
def setTransform (w : World M) (a : Nat) (t : M) : Res (World M) :=
  match w.node a with
  | none => .ub
  | some n => .ok (setNode w a { n with transform := t })

/-- sources/SkeletonJoint.cpp 55-67, `GlobalTransform(matrix)`: recursion along the parent links, with
a budget of `fuel` calls. -/
def globalTransform [Monoid M] (w : World M) : Nat → M → Nat → Res M
  | 0, _, _ => .fuel
  | fuel + 1, m, a =>
    match w.node a with
    | none => .ub
    | some n => match n.parent with
      | none => .ok (m * n.transform)
      | some p => (globalTransform w fuel m p).bind fun m => .ok (m * n.transform)

/-- include/Geom/Skeleton.h 45-51, include/Geom/SkeletonJoint.h 71-77: A call of a client. -/
inductive Op (M : Type) where
  | make (t : M)
  | addRoot (s a : Nat)
  | addSub (q a : Nat)
  | removeRoot (s a : Nat)
  | removeSub (q a : Nat)
  | drop (a : Nat)
  | setTransform (a : Nat) (t : M)

/-- include/Geom/Skeleton.h 45-51, include/Geom/SkeletonJoint.h 71-77. -/
noncomputable def step (w : World M) : Op M → Res (World M)
  | .make t => .ok (make w t)
  | .addRoot s a => addRootJoint w s a
  | .addSub q a => addSubJoint w q a
  | .removeRoot s a => removeRootJoint w s a
  | .removeSub q a => removeSubJoint w q a
  | .drop a => drop w a
  | .setTransform a t => setTransform w a t

/-- sources/Skeleton.cpp 18-44, sources/SkeletonJoint.cpp 22-51: A call which throws leaves everything as it was (the exceptions are thrown before any change), and
the client goes on. -/
noncomputable def next (w : World M) (op : Op M) : Res (World M) :=
  match step w op with
  | .throw => .ok w
  | r => r

/-- include/Geom/Skeleton.h 45-51, include/Geom/SkeletonJoint.h 71-77. -/
noncomputable def run (w : World M) : List (Op M) → Res (World M)
  | [] => .ok w
  | op :: ops => (next w op).bind fun w => run w ops

end Geom.SkeletonHeap
