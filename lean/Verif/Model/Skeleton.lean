import Verif.Base.Res
import Mathlib.Algebra.Group.Basic

/-
  Model of include/Geom/Skeleton.h, sources/Skeleton.cpp, include/Geom/SkeletonJoint.h and
  sources/SkeletonJoint.cpp: the ownership tree of joints.

  Ownership by `std::unique_ptr` is a tree, so joints are modelled by an inductive type. The
  address of a joint is its identity. The parent links are modelled in `Model/SkeletonHeap.lean`.
  Matrices are elements of an arbitrary monoid (`Gs::AffineMatrix4` and `Gs::Matrix4f` are
  identified, `ToMatrix4` and `Cast<float>` keep products), default matrices are the identity.
-/
set_option autoImplicit false

namespace Geom.Skeleton

/-- include/Geom/SkeletonJoint.h 105-147, the public members of `SkeletonJoint`. `X` stands for the
vertex weights and the keyframe sequence, which are only copied. -/
structure Data (M X : Type) where
  transform : M
  poseTransform : M
  jointSpaceTransform : M
  extra : X

/-- include/Geom/SkeletonJoint.h 22-24, `SkeletonJointPtr`: null or the owner of a joint with its
address, its data and its `subJoints_` (170). -/
inductive Joint (M X : Type) where
  | null
  | own (addr : Nat) (d : Data M X) (subs : List (Joint M X))

namespace Joint
variable {M X : Type}

/-- `GetSubJoints` (include/Geom/SkeletonJoint.h 78-81), for the specification: no sub joints for
a null pointer. -/
def subs : Joint M X → List (Joint M X)
  | null => []
  | own _ _ s => s

/-- include/Geom/SkeletonJoint.h 27: the pointer. -/
def addr? : Joint M X → Option Nat
  | null => none
  | own a _ _ => some a

/-- include/Geom/SkeletonJoint.h 27: the members of the joint. -/
def data? : Joint M X → Option (Data M X)
  | null => none
  | own _ d _ => some d
end Joint

variable {M X : Type}

/-! ## Traversals -/

mutual
/-- sources/Skeleton.cpp 239-244, `ListJoints`: the addresses are appended to `acc`. Using a null
pointer is undefined behaviour. -/
def listJoints : Joint M X → List Nat → Res (List Nat)
  | .null, _ => .ub
  | .own a _ subs, acc => listJointsAll subs (acc ++ [a])

/-- sources/Skeleton.cpp 242-243 and 51-52: the loops that call `ListJoints`. -/
def listJointsAll : List (Joint M X) → List Nat → Res (List Nat)
  | [], acc => .ok acc
  | j :: js, acc => (listJoints j acc).bind fun acc => listJointsAll js acc
end

/-- sources/Skeleton.cpp 48-54, `JointList`. -/
def jointList (roots : List (Joint M X)) : Res (List Nat) := listJointsAll roots []

mutual
/-- sources/Skeleton.cpp 59-63: the body of the loop of `IterateOverJointList`. The callback is a
function `f` which changes a state `σ` of the client (and not the skeleton). -/
def iterateJoint {σ : Type} (f : σ → Nat → Nat → σ) : Joint M X → σ → Nat → Res (σ × Nat)
  | .null, _, _ => .ub
  | .own a _ subs, s, index => iterateJoints f subs (f s a index) (index + 1)

/-- sources/Skeleton.cpp 56-64, `IterateOverJointList`. -/
def iterateJoints {σ : Type} (f : σ → Nat → Nat → σ) : List (Joint M X) → σ → Nat → Res (σ × Nat)
  | [], s, index => .ok (s, index)
  | j :: js, s, index => (iterateJoint f j s index).bind fun r => iterateJoints f js r.1 r.2
end

/-- sources/Skeleton.cpp 66-76, both overloads of `ForEachJoint`: the final state of the client. -/
def forEachJoint {σ : Type} (f : σ → Nat → Nat → σ) (roots : List (Joint M X)) (s : σ) : Res σ :=
  (iterateJoints f roots s 0).bind fun r => .ok r.1

mutual
/-- sources/Skeleton.cpp 179-187, `NumSubJoints`. -/
def numSubJoints : Joint M X → Res Nat
  | .null => .ub
  | .own _ _ subs => numSubJointsAll subs subs.length

/-- sources/Skeleton.cpp 183-184 and 98-99: the loops adding `NumSubJoints(*sub)` to `n`. -/
def numSubJointsAll : List (Joint M X) → Nat → Res Nat
  | [], n => .ok n
  | j :: js, n => (numSubJoints j).bind fun m => numSubJointsAll js (n + m)
end

/-- sources/Skeleton.cpp 94-102, `NumJoints`. -/
def numJoints (roots : List (Joint M X)) : Res Nat := numSubJointsAll roots roots.length

/-! ## Transform buffers -/

section Buffer
variable [Monoid M]

/-- sources/Skeleton.cpp 200-207: Writing one matrix to the buffer: `w` is the list of the matrices written so far (its length is
`writtenMatrices`, and `buffer` points to the entry of this index). The buffer has room for `cap`
matrices; writing behind it is undefined behaviour. -/
def put (cap : Nat) (w : List M) (m : M) : Res (List M) :=
  if w.length < cap then .ok (w ++ [m]) else .ub

mutual
/-- sources/Skeleton.cpp 189-217, `FillGlobalTransformBuffer` for one joint. -/
def fillGlobal (cap max : Nat) (rel : Bool) : Joint M X → M → List M → Res (List M)
  | .null, _, _ => .ub
  | .own _ d subs, parent, w =>
    (put cap w (if rel then parent * d.transform * d.jointSpaceTransform else parent * d.transform)).bind
      fun w => fillGlobalAll cap max rel subs (parent * d.transform) w

/-- sources/Skeleton.cpp 210-216 and 121-127: the loops over sub joints and root joints. -/
def fillGlobalAll (cap max : Nat) (rel : Bool) : List (Joint M X) → M → List M → Res (List M)
  | [], _, w => .ok w
  | j :: js, parent, w =>
    if w.length < max then
      (fillGlobal cap max rel j parent w).bind fun w => fillGlobalAll cap max rel js parent w
    else .ok w
end

/-- sources/Skeleton.cpp 104-130, `FillGlobalTransformBuffer`. `buffer` is null or has room for
`room` floats. The result is the list of written matrices and the return value. -/
def fillGlobalTransformBuffer (roots : List (Joint M X)) (buffer : Option Nat) (bufferSize : Nat)
    (rel : Bool) : Res (List M × Nat) :=
  match buffer with
  | none => .throw
  | some room =>
    if bufferSize % 16 ≠ 0 then .throw
    else (fillGlobalAll (room / 16) (bufferSize / 16) rel roots 1 []).bind
      fun w => .ok (w, w.length * 16)

mutual
/-- sources/Skeleton.cpp 219-237, `FillLocalTransformBuffer` for one joint. -/
def fillLocal (cap max : Nat) : Joint M X → List M → Res (List M)
  | .null, _ => .ub
  | .own _ d subs, w => (put cap w d.transform).bind fun w => fillLocalAll cap max subs w

/-- sources/Skeleton.cpp 230-236 and 147-153: the loops over sub joints and root joints. -/
def fillLocalAll (cap max : Nat) : List (Joint M X) → List M → Res (List M)
  | [], w => .ok w
  | j :: js, w =>
    if w.length < max then
      (fillLocal cap max j w).bind fun w => fillLocalAll cap max js w
    else .ok w
end

/-- sources/Skeleton.cpp 132-156, `FillLocalTransformBuffer`. -/
def fillLocalTransformBuffer (roots : List (Joint M X)) (buffer : Option Nat) (bufferSize : Nat) :
    Res (List M × Nat) :=
  match buffer with
  | none => .throw
  | some room =>
    if bufferSize % 16 ≠ 0 then .throw
    else (fillLocalAll (room / 16) (bufferSize / 16) roots []).bind fun w => .ok (w, w.length * 16)

/-! ## Joint space -/

variable (inv : M → M)

mutual
/-- sources/SkeletonJoint.cpp 74-83, `BuildJointSpace`; `inv` is `Gs::AffineMatrix4::Inverse`. -/
def buildJoint : Joint M X → M → Res (Joint M X)
  | .null, _ => .ub
  | .own a d subs, parent =>
    (buildJoints subs (parent * d.poseTransform)).bind fun subs =>
      .ok (.own a { d with jointSpaceTransform := inv (parent * d.poseTransform) } subs)

/-- sources/SkeletonJoint.cpp 81-82 and sources/Skeleton.cpp 82-83: the loops. -/
def buildJoints : List (Joint M X) → M → Res (List (Joint M X))
  | [], _ => .ok []
  | j :: js, parent =>
    (buildJoint j parent).bind fun j => (buildJoints js parent).bind fun js => .ok (j :: js)
end

/-- sources/Skeleton.cpp 78-84, `BuildJointSpace`. -/
def buildJointSpace (roots : List (Joint M X)) : Res (List (Joint M X)) := buildJoints inv roots 1

mutual
/-- sources/SkeletonJoint.cpp 85-94, `RebuildPoseTransforms`. -/
def rebuildJoint : Joint M X → M → Res (Joint M X)
  | .null, _ => .ub
  | .own a d subs, parent =>
    (rebuildJoints subs (parent * (inv parent * inv d.jointSpaceTransform))).bind fun subs =>
      .ok (.own a { d with poseTransform := inv parent * inv d.jointSpaceTransform } subs)

/-- sources/SkeletonJoint.cpp 92-93 and sources/Skeleton.cpp 90-91: the loops. -/
def rebuildJoints : List (Joint M X) → M → Res (List (Joint M X))
  | [], _ => .ok []
  | j :: js, parent =>
    (rebuildJoint j parent).bind fun j => (rebuildJoints js parent).bind fun js => .ok (j :: js)
end

/-- sources/Skeleton.cpp 86-92, `RebuildPoseTransforms`. -/
def rebuildPoseTransforms (roots : List (Joint M X)) : Res (List (Joint M X)) :=
  rebuildJoints inv roots 1

end Buffer

/-! ## Copy -/

mutual
/-- sources/Skeleton.cpp 246-261, `CopyJoint` into a joint that was just made by the default
`makeSkeletonJoint` (162): `new SkeletonJoint()` returns the address `next`, which is not used yet.
The result is the filled joint and the next unused address. A client's own function
`makeSkeletonJoint` is not modelled. -/
def copyJoint : Nat → Joint M X → Res (Joint M X × Nat)
  | _, .null => .ub
  | next, .own _ d subs =>
    (copyJoints (next + 1) subs).bind fun r => .ok (.own next d r.1, r.2)

/-- sources/Skeleton.cpp 256-260 and 165-169: the loops adding a new joint for each model joint. -/
def copyJoints : Nat → List (Joint M X) → Res (List (Joint M X) × Nat)
  | next, [] => .ok ([], next)
  | next, j :: js =>
    (copyJoint next j).bind fun r => (copyJoints r.2 js).bind fun rs => .ok (r.1 :: rs.1, rs.2)
end

/-- sources/Skeleton.cpp 158-172, `CopyFrom` with another skeleton and without `makeSkeletonJoint`:
the new root joints of this skeleton. -/
def copyFrom (next : Nat) (roots model : List (Joint M X)) : Res (List (Joint M X)) :=
  (copyJoints next model).bind fun r => .ok (roots ++ r.1)

/-- sources/Skeleton.cpp 165-169 with `skeletonModel` being this skeleton: `push_back` on the vector
over which the range-based loop runs invalidates its end iterator, so the loop is undefined unless
there is no root joint. -/
def copyFromSelf (roots : List (Joint M X)) : Res (List (Joint M X)) :=
  match roots with
  | [] => .ok []
  | _ :: _ => .ub

/-! ## Remove -/

/-- sources/Skeleton.cpp 31-37 and sources/SkeletonJoint.cpp 38-44: `std::find_if`, the index of the
pointer to the joint, or the length if there is none. -/
def findJoint (l : List (Joint M X)) (a : Nat) : Nat := l.findIdx fun j => j.addr? == some a

/-- sources/Skeleton.cpp 29-44, sources/SkeletonJoint.cpp 36-51: What a call of a remove function has done: the returned pointer, the list, and the pointer whose
joint was destroyed. -/
structure Removed (M X : Type) where
  ret : Joint M X
  list : List (Joint M X)
  destroyed : Joint M X

/-- sources/Skeleton.cpp 29-46, `RemoveRootJoint`, and sources/SkeletonJoint.cpp 36-53,
`RemoveSubJoint` (the same code on `rootJoints_` and `subJoints_`): `erase(it)` destroys the joint and
moves the following pointers one place to the front, then `*it`, the pointer that has moved to this
place, is moved to the caller. `*it` is undefined if `it` is now the end. -/
def removeJoint (l : List (Joint M X)) (a : Nat) : Res (Removed M X) :=
  let i := findJoint l a
  if i < l.length then
    let erased := l.eraseIdx i
    match erased[i]? with
    | none => .ub
    | some j => .ok ⟨j, erased.set i .null, l[i]?.getD .null⟩
  else .ok ⟨.null, l, .null⟩

end Geom.Skeleton
