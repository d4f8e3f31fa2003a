import Verif.Model.Transform

/-
  What the transforms and the projection mean, without cached matrices and flags: plain values, each
  setter an assignment. The spec uses the operations of the model only as a list of calls, and the
  meaning of a matrix only through its action on points.
-/
set_option autoImplicit false

namespace Geom.Transform.Spec

variable {K : Type} [CommRing K]

/-- Position, rotation and scale as a client of `Transform3` has set them. -/
structure A3 (K : Type) where
  pos : V3 K
  rot : Quat K
  scl : V3 K

/-- The effect of one call; a matrix read has none. -/
def A3.step (mulAssign : Quat K → Quat K → Quat K) (a : A3 K) : Op3 K → A3 K
  | .setPosition p => ⟨p, a.rot, a.scl⟩
  | .setRotation q => ⟨a.pos, q, a.scl⟩
  | .setScale s => ⟨a.pos, a.rot, s⟩
  | .getMatrix => a
  | .moveGlobal d => ⟨a.pos + d, a.rot, a.scl⟩
  | .moveLocal d => ⟨a.pos + a.rot.rot d, a.rot, a.scl⟩
  | .turn r c => ⟨c + r.rot (a.pos - c), mulAssign a.rot r, a.scl⟩

/-- The matrix scales, then rotates, then moves. -/
def Moves (m : Mat K) (a : A3 K) : Prop :=
  ∀ v : V3 K, apply m v = a.pos + a.rot.rot ⟨a.scl.x * v.x, a.scl.y * v.y, a.scl.z * v.z⟩

/-- Position, rotation and scale as a client of `Transform2` has set them. -/
structure A2 where
  pos : V2 ℝ
  rot : ℝ
  scl : V2 ℝ

/-- The effect of one call; `turn` says where a turn moves the position. -/
def A2.step (turn : V2 ℝ → ℝ → V2 ℝ → V2 ℝ) (a : A2) : Op2 → A2
  | .setPosition p => ⟨p, a.rot, a.scl⟩
  | .setRotation r => ⟨a.pos, r, a.scl⟩
  | .setScale s => ⟨a.pos, a.rot, s⟩
  | .getMatrix => a
  | .turn r c => ⟨turn a.pos r c, a.rot + r, a.scl⟩

/-- The parameters of a projection. -/
structure AP (T : Type) where
  near : T
  far : T
  fov : T
  aspect : T
  flags : Int
  ortho : Bool
  size : V2 T

/-- The effect of one call: setters assign. -/
def AP.step {T : Type} (a : AP T) : OpP T → AP T
  | .setNear v => { a with near := v }
  | .setFar v => { a with far := v }
  | .setFOV v => { a with fov := v }
  | .setAspect v => { a with aspect := v }
  | .setOrtho b => { a with ortho := b }
  | .setOrthoSize s => { a with size := s }
  | .setFlags f => { a with flags := f }
  | .getMatrix => a

/-- The matrix of the parameters: the one of the mode which is switched on. -/
def AP.matrix {T M : Type} (e : ProjEnv T M) (a : AP T) (flags : Int) : M :=
  match a.ortho with
  | true => e.orthogonal a.size.x a.size.y a.near a.far flags
  | false => e.perspective a.aspect a.near a.far a.fov flags

/-- The rotation of the plane about `c` by the angle `θ`. -/
noncomputable def rotateAbout (p : V2 ℝ) (θ : ℝ) (c : V2 ℝ) : V2 ℝ :=
  ⟨c.x + (Real.cos θ * (p.x - c.x) - Real.sin θ * (p.y - c.y)),
   c.y + (Real.sin θ * (p.x - c.x) + Real.cos θ * (p.y - c.y))⟩

end Geom.Transform.Spec
