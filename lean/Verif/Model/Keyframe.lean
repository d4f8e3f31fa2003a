import Verif.Base.Res
import Mathlib.Algebra.Field.Basic
import Mathlib.Data.List.Sort

/-
  Model of include/Geom/KeyframeSequence.h and sources/KeyframeSequence.cpp.

  The key types (position, rotation, scale) are arbitrary; how two keys are mixed
  (`Gs::Lerp`, `Gs::Slerp`) is a parameter of the model, scalars are exact.
  Frames are `std::size_t`, i.e. numbers below 2^64.
-/
set_option autoImplicit false

namespace Geom.Keyframe

/-- include/Geom/KeyframeSequence.h 39: Number of `std::size_t` values. -/
def W : Nat := 2 ^ 64

/-- include/Geom/KeyframeSequence.h 28-41, `Keyframe<T>`. -/
structure KF (V : Type) where
  key : V
  frame : Nat
  deriving DecidableEq

/-- What the model does not fix about one channel (`T` in the C++ templates):
`mix from to t` is `InterpolateKeys` (KeyframeSequence.cpp 39-50), `nofinite from to` is the
result of `InterpolateKeys` with a quotient by zero (only reached if two keyframes have the
same frame), `sort` is `std::sort` with `CompareKeyframeSWO` (18-22), and `init` is the value
passed by `BuildKeys` (119-121). -/
structure Chan (V K : Type) where
  mix : V → V → K → V
  nofinite : V → V → V
  sort : List (KF V) → List (KF V)
  init : V

/-- sources/KeyframeSequence.cpp 103-105: The contract of `std::sort`: a sorted permutation. -/
def IsSort {V : Type} (sort : List (KF V) → List (KF V)) : Prop :=
  ∀ l, (sort l).Perm l ∧ (sort l).Pairwise (fun a b => a.frame ≤ b.frame)

variable {V K : Type} [Field K]

/-- sources/KeyframeSequence.cpp 34-37, `FrameInterpolator`, and 39-50, `InterpolateKeys`. The
differences are taken on `std::size_t`; they do not wrap at the only place of use, where
`from.frame <= frame` and `from.frame <= to.frame`. -/
def mixKeys (c : Chan V K) (a b : KF V) (frame : Nat) : V :=
  if b.frame - a.frame = 0 then c.nofinite a.key b.key
  else c.mix a.key b.key (((frame - a.frame : Nat) : K) / ((b.frame - a.frame : Nat) : K))

/-- sources/KeyframeSequence.cpp 68: `to != keyframes.end() && frame == to->frame`. Iterators are
positions in the list, the position `kfs.length` is `end()`. -/
def reaches (kfs : List (KF V)) (til frame : Nat) : Bool :=
  match kfs[til]? with
  | some k => decide (frame = k.frame)
  | none => false

/-- sources/KeyframeSequence.cpp 75-85: the value assigned to the key of `frame`. Dereferencing
`end()` is undefined behaviour. -/
def keyAt (c : Chan V K) (kfs : List (KF V)) (frame frm til : Nat) : Res V :=
  match kfs[frm]? with
  | none => .ub
  | some f =>
    if frame = f.frame ∨ frm = til ∨ til = kfs.length then .ok f.key
    else match kfs[til]? with
      | none => .ub
      | some t => .ok (mixKeys c f t frame)

/-- sources/KeyframeSequence.cpp 62-86: the loop of `BuildInterpolatedKeys`, beginning with
`frame`, for `n` more frames, with the iterators `from` and `to`. The result is the list of the
values assigned to `outputKeys[frame], outputKeys[frame + 1], ...`. -/
def buildLoop (c : Chan V K) (kfs : List (KF V)) : Nat → Nat → Nat → Nat → Res (List V)
  | 0, _, _, _ => .ok []
  | n + 1, frame, frm, til =>
    let next := reaches kfs til frame
    let frm := if next then til else frm
    let til := if next then til + 1 else til
    (keyAt c kfs frame frm til).bind fun k =>
      (buildLoop c kfs n (frame + 1) frm til).bind fun ks => .ok (k :: ks)

/-- sources/KeyframeSequence.cpp 55: `std::vector::resize(n, value)`. -/
def resize (l : List V) (n : Nat) (v : V) : List V := l.take n ++ List.replicate (n - l.length) v

/-- sources/KeyframeSequence.cpp 52-88, `BuildInterpolatedKeys`. With at least one keyframe each
of the `numKeys` elements is assigned by the loop. -/
def buildInterpolatedKeys (c : Chan V K) (old : List V) (kfs : List (KF V)) (numKeys : Nat) :
    Res (List V) :=
  if kfs.isEmpty then .ok (resize old numKeys c.init)
  else buildLoop c kfs numKeys 0 0 0

/-- sources/KeyframeSequence.cpp 24-32, `GetFrameBounds`; `frame + 1` on `std::size_t`. -/
def frameBounds (b : Nat × Nat) (kfs : List (KF V)) : Nat × Nat :=
  match kfs.head?, kfs.getLast? with
  | some f, some l => (min b.1 f.frame, max b.2 ((l.frame + 1) % W))
  | _, _ => b

variable {P R S : Type}

/-- include/Geom/KeyframeSequence.h 132-138: the members. -/
structure Seq (P R S : Type) where
  positionKeys : List P
  rotationKeys : List R
  scaleKeys : List S
  frameBegin : Nat
  frameEnd : Nat

/-- include/Geom/KeyframeSequence.h 132-138: a new object. -/
def init : Seq P R S := ⟨[], [], [], 0, 0⟩

/-- sources/KeyframeSequence.cpp 103-151: The three channels. -/
structure Env (P R S K : Type) where
  p : Chan P K
  r : Chan R K
  s : Chan S K

/-- sources/KeyframeSequence.cpp 90-95, `ClearKeys`. -/
def clearKeys (q : Seq P R S) : Seq P R S :=
  { q with positionKeys := [], rotationKeys := [], scaleKeys := [] }

/-- sources/KeyframeSequence.cpp 97-124, `BuildKeys`. -/
def buildKeys (e : Env P R S K) (q : Seq P R S) (pk : List (KF P)) (rk : List (KF R))
    (sk : List (KF S)) : Res (Seq P R S) :=
  let pk := e.p.sort pk
  let rk := e.r.sort rk
  let sk := e.s.sort sk
  let b := frameBounds (frameBounds (frameBounds (W - 1, 0) pk) rk) sk
  let q := { q with frameBegin := b.1, frameEnd := b.2 }
  if q.frameBegin < q.frameEnd then
    let numKeys := q.frameEnd - q.frameBegin
    (buildInterpolatedKeys e.p q.positionKeys pk numKeys).bind fun ps =>
    (buildInterpolatedKeys e.r q.rotationKeys rk numKeys).bind fun rs =>
    (buildInterpolatedKeys e.s q.scaleKeys sk numKeys).bind fun ss =>
    .ok { q with positionKeys := ps, rotationKeys := rs, scaleKeys := ss }
  else .ok q

/-- sources/KeyframeSequence.cpp 182-188, `ClampFrame`. -/
def clampFrame (q : Seq P R S) (frame : Nat) : Nat :=
  let frame := if frame < q.frameBegin then q.frameBegin else frame
  if frame ≥ q.frameEnd then q.frameEnd - 1 else frame

/-- sources/KeyframeSequence.cpp 141-151: `keys[i]` with `i >= size()` is undefined behaviour. -/
def at' {V : Type} (l : List V) (i : Nat) : Res V :=
  match l[i]? with
  | some v => .ok v
  | none => .ub

/-- sources/KeyframeSequence.cpp 126-153, `Interpolate(position, rotation, scale, ...)`: the new
values of the three output parameters. `Gs::Lerp(x, a, b, t)` assigns the mixture to `x`. -/
def interpolate (e : Env P R S K) (q : Seq P R S) (out : P × R × S) (frm til : Nat) (t : K) :
    Res (P × R × S) :=
  if q.frameBegin < q.frameEnd then
    let frm := clampFrame q frm - q.frameBegin
    let til := clampFrame q til - q.frameBegin
    (at' q.positionKeys frm).bind fun p0 =>
    (at' q.rotationKeys frm).bind fun r0 =>
    (at' q.scaleKeys frm).bind fun s0 =>
    (at' q.positionKeys til).bind fun p1 =>
    (at' q.rotationKeys til).bind fun r1 =>
    (at' q.scaleKeys til).bind fun s1 =>
    .ok (e.p.mix p0 p1 t, e.r.mix r0 r1 t, e.s.mix s0 s1 t)
  else .ok out

/-- sources/KeyframeSequence.cpp 155-170, `Interpolate(matrix, ...)`. `compose m p r s` stands for
`SetPosition`, `QuaternionToMatrix`, `Scale` applied to the matrix `m`; the local variables
start with the values `out0`. -/
def interpolateMatrix {M : Type} (e : Env P R S K) (compose : M → P → R → S → M) (out0 : P × R × S)
    (q : Seq P R S) (m : M) (frm til : Nat) (t : K) : Res M :=
  if q.frameBegin < q.frameEnd then
    (interpolate e q out0 frm til t).bind fun o => .ok (compose m o.1 o.2.1 o.2.2)
  else .ok m

/-- include/Geom/KeyframeSequence.h 60-98: A call of a client. -/
inductive Op (P R S K : Type) where
  | build (pk : List (KF P)) (rk : List (KF R)) (sk : List (KF S))
  | clear
  | interpolate (out : P × R × S) (frm til : Nat) (t : K)

/-- include/Geom/KeyframeSequence.h 60-98. -/
def step (e : Env P R S K) (q : Seq P R S) : Op P R S K → Res (Seq P R S)
  | .build pk rk sk => buildKeys e q pk rk sk
  | .clear => .ok (clearKeys q)
  | .interpolate out frm til t => (interpolate e q out frm til t).bind fun _ => .ok q

/-- include/Geom/KeyframeSequence.h 60-98. -/
def run (e : Env P R S K) (q : Seq P R S) : List (Op P R S K) → Res (Seq P R S)
  | [] => .ok q
  | op :: ops => (step e q op).bind fun q => run e q ops

end Geom.Keyframe
