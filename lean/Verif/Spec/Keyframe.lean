import Verif.Model.Keyframe
import Mathlib.Data.List.Pairwise

/-
  Specification of a keyframe channel: its value at a frame, from the set of keyframes
  alone.
-/
set_option autoImplicit false

namespace Geom.Keyframe

variable {V K : Type} [Field K]

/-- `v` is the value of the channel with the keyframes `kfs` at `frame`; `mix` mixes two keys. -/
inductive Value (mix : V → V → K → V) (kfs : List (KF V)) (frame : Nat) : V → Prop where
  /-- there is a keyframe at this frame -/
  | key (a) (ha : a ∈ kfs) (h : a.frame = frame) : Value mix kfs frame a.key
  /-- the frame is between two neighbouring keyframes -/
  | between (a b) (ha : a ∈ kfs) (hb : b ∈ kfs) (h1 : a.frame < frame) (h2 : frame < b.frame)
      (hn : ∀ k ∈ kfs, k.frame ≤ a.frame ∨ b.frame ≤ k.frame) :
      Value mix kfs frame
        (mix a.key b.key (((frame - a.frame : Nat) : K) / ((b.frame - a.frame : Nat) : K)))
  /-- the frame is before all keyframes -/
  | before (a) (ha : a ∈ kfs) (h : frame < a.frame) (hn : ∀ k ∈ kfs, a.frame ≤ k.frame) :
      Value mix kfs frame a.key
  /-- the frame is after all keyframes -/
  | after (a) (ha : a ∈ kfs) (h : a.frame < frame) (hn : ∀ k ∈ kfs, k.frame ≤ a.frame) :
      Value mix kfs frame a.key

/-- No two keyframes have the same frame. -/
def Distinct (kfs : List (KF V)) : Prop := kfs.Pairwise fun a b => a.frame ≠ b.frame

/-- The specification determines the value. -/
theorem Value.unique {mix : V → V → K → V} {kfs : List (KF V)} (hd : Distinct kfs) {frame : Nat}
    {v w : V} (hv : Value mix kfs frame v) (hw : Value mix kfs frame w) : v = w := by
  have inj : ∀ a ∈ kfs, ∀ b ∈ kfs, a.frame = b.frame → a = b := by
    intro a ha b hb h
    by_contra hne
    have : Std.Symm (fun a b : KF V => a.frame ≠ b.frame) := ⟨fun _ _ h => h.symm⟩
    exact (List.Pairwise.forall hd ha hb hne) h
  cases hv with
  | key a ha h =>
    cases hw with
    | key b hb h' => rw [inj a ha b hb (h.trans h'.symm)]
    | between b c hb hc h1 h2 hn => have := hn a ha; omega
    | before b hb h' hn => have := hn a ha; omega
    | after b hb h' hn => have := hn a ha; omega
  | between a b ha hb h1 h2 hn =>
    cases hw with
    | key c hc h' => have := hn c hc; omega
    | between c d hc hd' g1 g2 gn =>
      have ea : a.frame = c.frame := by have := hn c hc; have := gn a ha; omega
      have eb : b.frame = d.frame := by have := hn d hd'; have := gn b hb; omega
      rw [inj a ha c hc ea, inj b hb d hd' eb]
    | before c hc h' gn => have := gn a ha; omega
    | after c hc h' gn => have := gn b hb; omega
  | before a ha h hn =>
    cases hw with
    | key c hc h' => have := hn c hc; omega
    | between c d hc hd' g1 g2 gn => have := hn c hc; omega
    | before c hc h' gn => rw [inj a ha c hc (by have := hn c hc; have := gn a ha; omega)]
    | after c hc h' gn => have := hn c hc; omega
  | after a ha h hn =>
    cases hw with
    | key c hc h' => have := hn c hc; omega
    | between c d hc hd' g1 g2 gn => have := hn d hd'; omega
    | before c hc h' gn => have := hn c hc; omega
    | after c hc h' gn => rw [inj a ha c hc (by have := hn c hc; have := gn a ha; omega)]

/-- The value of a channel which may be without keyframes; then it is the default value `dflt`. -/
def ChanValue (mix : V → V → K → V) (dflt : V) (kfs : List (KF V)) (frame : Nat) (v : V) : Prop :=
  (kfs = [] ∧ v = dflt) ∨ Value mix kfs frame v

/-- There is a keyframe at frame `f` in one of the three lists. -/
def HasFrame {P R S : Type} (pk : List (KF P)) (rk : List (KF R)) (sk : List (KF S)) (f : Nat) : Prop :=
  (∃ k ∈ pk, k.frame = f) ∨ (∃ k ∈ rk, k.frame = f) ∨ (∃ k ∈ sk, k.frame = f)

/-- The keyframe lists of the property: distinct frames in each channel, and no frame is so large
that the following frame is not a `std::size_t`. -/
structure Proper {P R S : Type} (pk : List (KF P)) (rk : List (KF R)) (sk : List (KF S)) : Prop where
  dp : Distinct pk
  dr : Distinct rk
  ds : Distinct sk
  bound : ∀ f, HasFrame pk rk sk f → f + 1 < W

/-- A call sequence in which nothing is interpolated between `ClearKeys` and the next `BuildKeys`.
The flag tells whether the keys were cleared since the last `BuildKeys`. -/
def NoUseAfterClear {P R S : Type} : Bool → List (Op P R S K) → Prop
  | _, [] => True
  | _, .build _ _ _ :: ops => NoUseAfterClear false ops
  | _, .clear :: ops => NoUseAfterClear true ops
  | c, .interpolate _ _ _ _ :: ops => c = false ∧ NoUseAfterClear c ops

end Geom.Keyframe
