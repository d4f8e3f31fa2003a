import Verif.Model.SkeletonHeap
import Mathlib.Algebra.BigOperators.Group.List.Basic
import Mathlib.Data.List.ReduceOption

/-
  Specification of ownership and parent links of joints.
-/
set_option autoImplicit false

namespace Geom.SkeletonHeap

variable {M : Type}

/-- What can own a joint. -/
inductive Owner where
  | client
  | skeleton (s : Nat)
  | joint (q : Nat)

/-- The owner `o` has a unique pointer to `a`. -/
def Owns (w : World M) : Owner → Nat → Prop
  | .client, a => w.client a
  | .skeleton s, a => some a ∈ w.roots s
  | .joint q, a => ∃ n, w.node q = some n ∧ some a ∈ n.subs

/-- Ownership is consistent: only live joints are owned, each live joint has exactly one owner, and
no list of pointers contains a joint twice. -/
structure Consistent (w : World M) : Prop where
  live : ∀ o a, Owns w o a → ∃ n, w.node a = some n
  owner : ∀ a n, w.node a = some n → ∃! o, Owns w o a
  roots : ∀ s, (w.roots s).reduceOption.Nodup
  subs : ∀ q n, w.node q = some n → n.subs.reduceOption.Nodup

/-- The parent link of each sub joint is its owner. -/
def Mirrors (w : World M) : Prop :=
  ∀ q c n, Owns w (.joint q) c → w.node c = some n → n.parent = some q

/-- `c` is reached from `r` by ownership, and `ts` are the transformations on the way (inclusive). -/
inductive Descends (w : World M) (r : Nat) : Nat → List M → Prop
  | root (n : Node M) (hn : w.node r = some n) : Descends w r r [n.transform]
  | sub {q c : Nat} {ts : List M} (h : Descends w r q ts) (ho : Owns w (.joint q) c) (n : Node M)
      (hn : w.node c = some n) : Descends w r c (ts ++ [n.transform])

/-- The operation is not one of the two remove functions. -/
def Op.NoRemove : Op M → Prop
  | .removeRoot _ _ => False
  | .removeSub _ _ => False
  | _ => True

end Geom.SkeletonHeap
