import Verif.Proof.Clip

/-
  The outcomes of the loops of `ClipTriangle`, by enumeration of the relations of the corners.
-/
set_option linter.unusedSectionVars false
set_option autoImplicit false

namespace Geom.Clip.Proof

open Plane (Relation)
open Spec

variable {K : Type} [Field K] [LinearOrder K] [IsStrictOrderedRing K]

/-- What is true of each outcome of the loops. -/
structure Good (front exact : Prop) (f b : Poly K) : Prop where
  backCount : b.length = 3 ∨ b.length = 4
  frontCount : front → f.length = 3 ∨ f.length = 4
  frontMax : f.length ≤ 4
  frontMin : 1 ≤ f.length
  oriented : ∀ x ∈ dets f ++ dets b, 0 ≤ x
  total : 1 ≤ (dets f).sum + (dets b).sum
  area : exact → (dets f).sum + (dets b).sum = 1

set_option maxHeartbeats 4000000 in
theorem run_good (r0 r1 r2 : Relation) (c0 c1 c2 : Option K) (t0 t1 t2 : K) (n0 : r0 ≠ .clipped) (n1 : r1 ≠ .clipped)
    (n2 : r2 ≠ .clipped)
    (h0 : (r0 = .inFrontOf → r1 = .inFrontOf → c0 = none) ∧ (r0 = .behind → r1 = .behind → c0 = none) ∧
      (r0 = .inFrontOf → r1 = .behind → c0 ≠ none) ∧ (r0 = .behind → r1 = .inFrontOf → c0 ≠ none))
    (h1 : (r1 = .inFrontOf → r2 = .inFrontOf → c1 = none) ∧ (r1 = .behind → r2 = .behind → c1 = none) ∧
      (r1 = .inFrontOf → r2 = .behind → c1 ≠ none) ∧ (r1 = .behind → r2 = .inFrontOf → c1 ≠ none))
    (h2 : (r2 = .inFrontOf → r0 = .inFrontOf → c2 = none) ∧ (r2 = .behind → r0 = .behind → c2 = none) ∧
      (r2 = .inFrontOf → r0 = .behind → c2 ≠ none) ∧ (r2 = .behind → r0 = .inFrontOf → c2 ≠ none))
    (e0 : c0 = none ∨ c0 = some t0) (e1 : c1 = none ∨ c1 = some t1) (e2 : c2 = none ∨ c2 = some t2)
    (g0 : 0 ≤ t0 ∧ t0 ≤ 1) (g1 : 0 ≤ t1 ∧ t1 ≤ 1) (g2 : 0 ≤ t2 ∧ t2 ≤ 1)
    (nf : r0 = .behind ∨ r1 = .behind ∨ r2 = .behind) (nb : r0 ≠ .behind ∨ r1 ≠ .behind ∨ r2 ≠ .behind) :
    ∃ f b, run ([], []) r0 r1 r2 c0 c1 c2 = .ok (f, b) ∧
      Good (r0 = .inFrontOf ∨ r1 = .inFrontOf ∨ r2 = .inFrontOf)
        ((r0 = .onto → t0 = 0) ∧ (r1 = .onto → t1 = 0) ∧ (r2 = .onto → t2 = 0)) f b := by
  obtain ⟨a0, b0⟩ := g0
  obtain ⟨a1, b1⟩ := g1
  obtain ⟨a2, b2⟩ := g2
  have p01 := mul_nonneg a0 a1
  have p12 := mul_nonneg a1 a2
  have p20 := mul_nonneg a2 a0
  have q01 := mul_nonneg a0 (sub_nonneg.2 b1)
  have q12 := mul_nonneg a1 (sub_nonneg.2 b2)
  have q20 := mul_nonneg a2 (sub_nonneg.2 b0)
  have r01 := mul_nonneg (sub_nonneg.2 b0) a1
  have r12 := mul_nonneg (sub_nonneg.2 b1) a2
  have r20 := mul_nonneg (sub_nonneg.2 b2) a0
  have s01 := mul_nonneg (sub_nonneg.2 b0) (sub_nonneg.2 b1)
  have s12 := mul_nonneg (sub_nonneg.2 b1) (sub_nonneg.2 b2)
  have s20 := mul_nonneg (sub_nonneg.2 b2) (sub_nonneg.2 b0)
  cases r0 <;> cases r1 <;> cases r2 <;> first
    | exact absurd rfl n0
    | exact absurd rfl n1
    | exact absurd rfl n2
    | (rcases nf with h | h | h <;> cases h; done)
    | (rcases nb with h | h | h <;> exact absurd rfl h)
    | skip
  all_goals
    clear n0 n1 n2 nf nb
    rcases e0 with rfl | rfl <;> rcases e1 with rfl | rfl <;> rcases e2 with rfl | rfl <;> first
    | (cases h0.1 rfl rfl; done)
    | (cases h1.1 rfl rfl; done)
    | (cases h2.1 rfl rfl; done)
    | (cases h0.2.1 rfl rfl; done)
    | (cases h1.2.1 rfl rfl; done)
    | (cases h2.2.1 rfl rfl; done)
    | exact absurd rfl (h0.2.2.1 rfl rfl)
    | exact absurd rfl (h1.2.2.1 rfl rfl)
    | exact absurd rfl (h2.2.2.1 rfl rfl)
    | exact absurd rfl (h0.2.2.2 rfl rfl)
    | exact absurd rfl (h1.2.2.2 rfl rfl)
    | exact absurd rfl (h2.2.2.2 rfl rfl)
    | skip
  all_goals clear h0 h1 h2
  all_goals refine ⟨_, _, rfl, ?_⟩
  all_goals
    constructor
    · simp
    · simp
    · simp
    · simp
    · simp only [dets, fan, det, bary, cutPoint, List.nil_append, List.cons_append, List.tail_cons, List.zip_cons_cons,
        List.zip_nil_right, List.zip_nil_left, List.map_cons, List.map_nil, List.mem_cons, List.not_mem_nil, or_false, forall_eq_or_imp,
        forall_eq]
      repeat' apply And.intro
      all_goals linarith
    · simp only [dets, fan, det, bary, cutPoint, List.nil_append, List.cons_append, List.tail_cons, List.zip_cons_cons,
        List.zip_nil_right, List.zip_nil_left, List.map_cons, List.map_nil, List.sum_cons, List.sum_nil]
      linarith
    · simp only [dets, fan, det, bary, cutPoint, List.nil_append, List.cons_append, List.tail_cons, List.zip_cons_cons,
        List.zip_nil_right, List.zip_nil_left, List.map_cons, List.map_nil, List.sum_cons, List.sum_nil]
      rintro ⟨x0, x1, x2⟩
      simp only [forall_const, reduceCtorEq, false_implies] at x0 x1 x2
      try simp only [x0, x1, x2]
      ring

end Geom.Clip.Proof
