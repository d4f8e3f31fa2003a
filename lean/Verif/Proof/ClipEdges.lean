import Verif.Proof.ClipRun
import Mathlib.Algebra.BigOperators.Group.List.Basic

/-
  The edges of the polygons of `ClipTriangle`, as sums of functions that change their sign with the direction of the edge.
-/
set_option linter.unusedSectionVars false
set_option autoImplicit false

namespace Geom.Clip.Proof

open Plane (Relation)
open Spec

variable {K : Type} [Field K] [LinearOrder K] [IsStrictOrderedRing K]

/-- The sum around a triangle. -/
def around (w : V3 K → V3 K → ℤ) (t : V3 K × V3 K × V3 K) : ℤ := w t.1 t.2.1 + w t.2.1 t.2.2 + w t.2.2 t.1

/-- The sum around all triangles of a fan. -/
def fanSum (w : V3 K → V3 K → ℤ) (l : List (V3 K)) : ℤ := ((fan l).map (around w)).sum

/-- The part of an edge in front of the plane, for the relations of its ends and the cut. -/
def frontPart (w : V3 K → V3 K → ℤ) (r s : Relation) (a b x : V3 K) : ℤ :=
  match r, s with
  | .behind, .inFrontOf => w x b
  | .inFrontOf, .behind => w a x
  | .behind, _ => 0
  | _, .behind => 0
  | _, _ => w a b

/-- The part of an edge behind the plane. -/
def backPart (w : V3 K → V3 K → ℤ) (r s : Relation) (a b x : V3 K) : ℤ :=
  match r, s with
  | .behind, .inFrontOf => w a x
  | .inFrontOf, .behind => w x b
  | .inFrontOf, _ => 0
  | _, .inFrontOf => 0
  | _, _ => w a b

/-- The edge with its cut. -/
def cutEdge (w : V3 K → V3 K → ℤ) (r s : Relation) (a b x : V3 K) : ℤ :=
  match r, s with
  | .behind, .inFrontOf => w a x + w x b
  | .inFrontOf, .behind => w a x + w x b
  | _, _ => w a b

/-- What is known of the cut of the edge `i`, whose ends have the relations `r` and `s`, for corners exactly on the plane. -/
def ExactCut (P : V3 K → V3 K) (i : ℕ) (r s : Relation) (a x : V3 K) (c : Option K) : Prop :=
  match r, s with
  | .inFrontOf, .inFrontOf => c = none
  | .behind, .behind => c = none
  | .inFrontOf, .behind => ∃ t, c = some t ∧ P (cutPoint i t) = x
  | .behind, .inFrontOf => ∃ t, c = some t ∧ P (cutPoint i t) = x
  | .onto, .inFrontOf => ∃ t, c = some t ∧ P (cutPoint i t) = a
  | .onto, .behind => ∃ t, c = some t ∧ P (cutPoint i t) = a
  | _, _ => True

/-- The cut is on the plane. -/
def CutOn (on : V3 K → Prop) (r s : Relation) (x : V3 K) : Prop :=
  match r, s with
  | .inFrontOf, .behind => on x
  | .behind, .inFrontOf => on x
  | _, _ => True

/-- The corner is on the plane. -/
def CornerOn (on : V3 K → Prop) (r : Relation) (x : V3 K) : Prop :=
  match r with
  | .onto => on x
  | _ => True

set_option maxHeartbeats 4000000 in
theorem run_edges (P : V3 K → V3 K) (r0 r1 r2 : Relation) (c0 c1 c2 : Option K) (a b c x0 x1 x2 : V3 K) (n0 : r0 ≠ .clipped)
    (n1 : r1 ≠ .clipped) (n2 : r2 ≠ .clipped) (pa : P (bary 0) = a) (pb : P (bary 1) = b) (pc : P (bary 2) = c)
    (h0 : ExactCut P 0 r0 r1 a x0 c0) (h1 : ExactCut P 1 r1 r2 b x1 c1) (h2 : ExactCut P 2 r2 r0 c x2 c2)
    (nf : r0 = .behind ∨ r1 = .behind ∨ r2 = .behind) (nb : r0 ≠ .behind ∨ r1 ≠ .behind ∨ r2 ≠ .behind)
    (f k : Poly K) (e : run ([], []) r0 r1 r2 c0 c1 c2 = .ok (f, k)) (w : V3 K → V3 K → ℤ) (hw : ∀ x y, w y x = -w x y) :
    (∀ on : V3 K → Prop, (∀ x y, on x → on y → w x y = 0) → CornerOn on r0 a → CornerOn on r1 b → CornerOn on r2 c →
      CutOn on r0 r1 x0 → CutOn on r1 r2 x1 → CutOn on r2 r0 x2 →
      fanSum w (f.map P) = frontPart w r0 r1 a b x0 + frontPart w r1 r2 b c x1 + frontPart w r2 r0 c a x2 ∧
      fanSum w (k.map P) = backPart w r0 r1 a b x0 + backPart w r1 r2 b c x1 + backPart w r2 r0 c a x2) ∧
    fanSum w (f.map P) + fanSum w (k.map P) =
      cutEdge w r0 r1 a b x0 + cutEdge w r1 r2 b c x1 + cutEdge w r2 r0 c a x2 := by
  have hz : ∀ x, w x x = 0 := fun x => by have := hw x x; omega
  cases r0 <;> cases r1 <;> cases r2 <;> first
    | exact absurd rfl n0
    | exact absurd rfl n1
    | exact absurd rfl n2
    | (rcases nf with h | h | h <;> cases h; done)
    | (rcases nb with h | h | h <;> exact absurd rfl h)
    | skip
  all_goals
    clear n0 n1 n2 nf nb
    dsimp only [ExactCut] at h0 h1 h2
    first | (obtain ⟨t0, rfl, g0⟩ := h0; have h0 := g0) | (subst h0; have h0 := trivial) | skip
    first | (obtain ⟨t1, rfl, g1⟩ := h1; have h1 := g1) | (subst h1; have h1 := trivial) | skip
    first | (obtain ⟨t2, rfl, g2⟩ := h2; have h2 := g2) | (subst h2; have h2 := trivial) | skip
  all_goals (try cases c0) <;> (try cases c1) <;> (try cases c2)
  all_goals
    simp [run, optCut, addVertex, Poly.add, Res.bind] at e
    obtain ⟨rfl, rfl⟩ := e
    have ab := hw a b
    have bc := hw b c
    have ca := hw c a
    have ax0 := hw a x0
    have ax2 := hw a x2
    have bx0 := hw b x0
    have bx1 := hw b x1
    have cx1 := hw c x1
    have cx2 := hw c x2
    have x01 := hw x0 x1
    have x12 := hw x1 x2
    have x20 := hw x2 x0
    have ax1 := hw a x1
    have bx2 := hw b x2
    have cx0 := hw c x0
    have za := hz a
    have zb := hz b
    have zc := hz c
    have zx0 := hz x0
    have zx1 := hz x1
    have zx2 := hz x2
    simp only [fanSum, fan, around, pa, pb, pc, h0, h1, h2, List.map_cons, List.map_nil, List.tail_cons, List.zip_cons_cons, List.zip_nil_right,
      List.sum_cons, List.sum_nil, frontPart, backPart, cutEdge, CornerOn, CutOn]
    refine ⟨fun on ho oa ob oc o0 o1 o2 => ?_, by omega⟩
    try have := ho _ _ oa ob
    try have := ho _ _ oa oc
    try have := ho _ _ oa o0
    try have := ho _ _ oa o1
    try have := ho _ _ oa o2
    try have := ho _ _ ob oc
    try have := ho _ _ ob o0
    try have := ho _ _ ob o1
    try have := ho _ _ ob o2
    try have := ho _ _ oc o0
    try have := ho _ _ oc o1
    try have := ho _ _ oc o2
    try have := ho _ _ o0 o1
    try have := ho _ _ o0 o2
    try have := ho _ _ o1 o2
    constructor <;> omega

end Geom.Clip.Proof
