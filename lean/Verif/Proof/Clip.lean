import Verif.Model.Clip
import Verif.Spec.Clip
import Verif.Spec.Triangle
import Verif.Spec.Plane
import Verif.Base.VecTac
import Verif.Base.Tac

/-
  Clipping in terms of the three signed distances.
-/
set_option linter.unusedSectionVars false
set_option autoImplicit false

namespace Geom.Clip.Proof

open Plane (Eqn Pl Relation)
open Triangle (Tri)
open Spec

variable {K : Type} [Field K] [LinearOrder K] [IsStrictOrderedRing K]

/-- The relation as function of the distance. -/
def rel (eps d : K) : Relation := if d > eps then .inFrontOf else if d < -eps then .behind else .onto

/-- The intersection of an edge with end distances `da`, `db`. -/
def Cut (da db : K) (c : Option K) : Prop :=
  (∃ t, c = some t ∧ 0 ≤ t ∧ t ≤ 1 ∧ (1 - t) * da + t * db = 0 ∧ da ≠ db) ∨
    (c = none ∧ (0 < da ∧ 0 < db ∨ da < 0 ∧ db < 0 ∨ da = db))

def optCut (s : Poly K × Poly K) (i : ℕ) (r : Relation) (c : Option K) : Res (Poly K × Poly K) :=
  match c with
  | some k => if r ≠ .onto then addVertex s (cutPoint i k) .onto else .ok s
  | none => .ok s

/-- The loops for given relations and intersections. -/
def run (s : Poly K × Poly K) (r0 r1 r2 : Relation) (c0 c1 c2 : Option K) : Res (Poly K × Poly K) :=
  (addVertex s (bary 0) r0).bind fun s =>
  (optCut s 0 r1 c0).bind fun s => (addVertex s (bary 1) r1).bind fun s =>
  (optCut s 1 r2 c1).bind fun s => (addVertex s (bary 2) r2).bind fun s =>
  optCut s 2 r0 c2

theorem interp_cut (nz : Bool) (da db : K) : ∃ c, Cut da db c ∧ ∀ (s : Poly K × Poly K) (i : ℕ) (r : Relation),
    addCut s i r (Ext.div nz (-da) (db - da)) = optCut s i r c := by
  unfold Ext.div
  by_cases h : db - da = 0
  · refine ⟨none, Or.inr ⟨rfl, Or.inr (Or.inr (by linarith))⟩, fun s i r => ?_⟩
    rw [if_pos h]
    unfold addCut optCut
    split_ifs <;> simp_all [Ext.ge, Ext.le]
  · rw [if_neg h]
    have hne : da ≠ db := fun h' => h (by rw [h', sub_self])
    have ht : -da / (db - da) * (db - da) = -da := div_mul_cancel₀ _ h
    generalize -da / (db - da) = t at ht
    by_cases hin : 0 ≤ t ∧ t ≤ 1
    · refine ⟨some t, Or.inl ⟨t, rfl, hin.1, hin.2, by linarith, hne⟩, fun s i r => ?_⟩
      unfold addCut optCut
      have : (Ext.fin t).ge 0 && (Ext.fin t).le 1 := by simp [Ext.ge, Ext.le, hin.1, hin.2]
      rw [if_pos this]
    · refine ⟨none, Or.inr ⟨rfl, ?_⟩, fun s i r => ?_⟩
      · rcases lt_or_ge t 0 with h0 | h0
        · rcases lt_trichotomy da 0 with h1 | h1 | h1
          · right; left
            refine ⟨h1, ?_⟩
            by_contra hc
            have := mul_neg_of_neg_of_pos h0 (show 0 < db - da by linarith [not_lt.1 hc])
            linarith
          · subst h1
            rw [neg_zero, mul_eq_zero] at ht
            rcases ht with ht | ht
            · exact absurd ht h0.ne
            · exact absurd ht h
          · left
            refine ⟨h1, ?_⟩
            by_contra hc
            have := mul_pos_of_neg_of_neg h0 (show db - da < 0 by linarith [not_lt.1 hc])
            linarith
        · have h1 : 1 < t := by
            by_contra hc
            exact hin ⟨h0, not_lt.1 hc⟩
          have ht' : (t - 1) * (db - da) = -db := by linear_combination ht
          rcases lt_trichotomy db 0 with h2 | h2 | h2
          · right; left
            refine ⟨?_, h2⟩
            by_contra hc
            have := mul_neg_of_pos_of_neg (show 0 < t - 1 by linarith) (show db - da < 0 by linarith [not_lt.1 hc])
            linarith
          · subst h2
            rw [neg_zero, mul_eq_zero] at ht'
            rcases ht' with ht' | ht'
            · linarith
            · exact absurd ht' h
          · left
            refine ⟨?_, h2⟩
            by_contra hc
            have := mul_pos (show 0 < t - 1 by linarith) (show 0 < db - da by linarith [not_lt.1 hc])
            linarith
      · unfold addCut optCut
        have : ((Ext.fin t).ge 0 && (Ext.fin t).le 1) = false := by
          simp only [Ext.ge, Ext.le, ← Bool.decide_and, decide_eq_false_iff_not]
          exact hin
        rw [this]
        simp

/-- What the relations say about the intersections. -/
theorem cut_rel {eps da db : K} (heps : 0 ≤ eps) {c : Option K} (h : Cut da db c) :
    (rel eps da = .inFrontOf → rel eps db = .inFrontOf → c = none) ∧
    (rel eps da = .behind → rel eps db = .behind → c = none) ∧
    (rel eps da = .inFrontOf → rel eps db = .behind → c ≠ none) ∧
    (rel eps da = .behind → rel eps db = .inFrontOf → c ≠ none) := by
  have hF : ∀ d : K, rel eps d = .inFrontOf → 0 < d := by
    intro d hd
    unfold rel at hd
    split_ifs at hd
    linarith
  have hB : ∀ d : K, rel eps d = .behind → d < 0 := by
    intro d hd
    unfold rel at hd
    split_ifs at hd
    linarith
  refine ⟨fun h1 h2 => ?_, fun h1 h2 => ?_, fun h1 h2 hc => ?_, fun h1 h2 hc => ?_⟩
  · have h1 := hF _ h1
    have h2 := hF _ h2
    rcases h with ⟨t, rfl, t0, t1, e, -⟩ | ⟨rfl, -⟩
    · exfalso
      rcases t0.lt_or_eq with t0 | t0
      · have := mul_pos t0 h2
        have := mul_nonneg (sub_nonneg.2 t1) h1.le
        linarith
      · subst t0; linarith
    · rfl
  · have h1 := hB _ h1
    have h2 := hB _ h2
    rcases h with ⟨t, rfl, t0, t1, e, -⟩ | ⟨rfl, -⟩
    · exfalso
      rcases t0.lt_or_eq with t0 | t0
      · have := mul_neg_of_pos_of_neg t0 h2
        have := mul_nonpos_of_nonneg_of_nonpos (sub_nonneg.2 t1) h1.le
        linarith
      · subst t0; linarith
    · rfl
  · have h1 := hF _ h1
    have h2 := hB _ h2
    rcases h with ⟨t, rfl, -⟩ | ⟨-, h⟩
    · cases hc
    · rcases h with h | h | h
      · linarith [h.2]
      · linarith [h.1]
      · linarith
  · have h1 := hB _ h1
    have h2 := hF _ h2
    rcases h with ⟨t, rfl, -⟩ | ⟨-, h⟩
    · cases hc
    · rcases h with h | h | h
      · linarith [h.1]
      · linarith [h.2]
      · linarith

theorem cut_range {da db : K} {c : Option K} (h : Cut da db c) : ∀ t, c = some t → 0 ≤ t ∧ t ≤ 1 := by
  rintro t rfl
  rcases h with ⟨t', h', t0, t1, -⟩ | ⟨h, -⟩
  · cases h'; exact ⟨t0, t1⟩
  · cases h

theorem cut_exact {da db : K} {c : Option K} (h : Cut da db c) (ha : da = 0) : ∀ t, c = some t → t = 0 := by
  rintro t rfl
  rcases h with ⟨t', h', t0, t1, e, hne⟩ | ⟨h, -⟩
  · cases h'
    subst ha
    rw [mul_zero, zero_add, mul_eq_zero] at e
    rcases e with e | e
    · exact e
    · exact absurd e.symm hne
  · cases h

/-- The determinant of three barycentric triples. -/
def det (p q r : V3 K) : K :=
  p.x * (q.y * r.z - q.z * r.y) - p.y * (q.x * r.z - q.z * r.x) + p.z * (q.x * r.y - q.y * r.x)

def dets (l : List (V3 K)) : List K := (fan l).map fun t => det t.1 t.2.1 t.2.2

theorem rel_ne_clipped (eps d : K) : rel eps d ≠ .clipped := by
  unfold rel; split_ifs <;> simp

theorem rel_front {eps d : K} : rel eps d = .inFrontOf ↔ eps < d := by
  unfold rel; split_ifs <;> simp_all

theorem rel_behind {eps d : K} (heps : 0 ≤ eps) : rel eps d = .behind ↔ d < -eps := by
  unfold rel; split_ifs with h1 h2
  · simp only [false_iff]; linarith
  · simpa using h2
  · simp only [false_iff]; exact h2

theorem rel_onto {eps d : K} : rel eps d = .onto ↔ -eps ≤ d ∧ d ≤ eps := by
  unfold rel; split_ifs with h1 h2
  · simp only [false_iff]; exact fun h => absurd h.2 (not_le.2 h1)
  · simp only [false_iff]; exact fun h => absurd h.1 (not_le.2 h2)
  · exact iff_of_true rfl ⟨not_lt.1 h2, not_lt.1 h1⟩

/-- `ClipTriangle` in terms of the distances. -/
theorem clip_eq (nz : ℕ → Bool) (eq : Eqn) (pl : Pl K) (t : Tri K) (eps : K) (s : Poly K × Poly K) :
    ∃ c0 c1 c2, Cut (Plane.sgnDistance eq pl t.a) (Plane.sgnDistance eq pl t.b) c0 ∧
      Cut (Plane.sgnDistance eq pl t.b) (Plane.sgnDistance eq pl t.c) c1 ∧
      Cut (Plane.sgnDistance eq pl t.c) (Plane.sgnDistance eq pl t.a) c2 ∧
      clipTriangle nz eq pl t eps s.1 s.2 =
        (let r0 := rel eps (Plane.sgnDistance eq pl t.a)
         let r1 := rel eps (Plane.sgnDistance eq pl t.b)
         let r2 := rel eps (Plane.sgnDistance eq pl t.c)
         if r0 ≠ .behind ∧ r1 ≠ .behind ∧ r2 ≠ .behind then .ok (.inFrontOf, s.1, s.2)
         else if ¬ r0 ≠ .behind ∧ ¬ r1 ≠ .behind ∧ ¬ r2 ≠ .behind then .ok (.behind, s.1, s.2)
         else (run s r0 r1 r2 c0 c1 c2).bind fun s => .ok (.clipped, s.1, s.2)) := by
  obtain ⟨c0, h0, e0⟩ := interp_cut (nz 0) (Plane.sgnDistance eq pl t.a) (Plane.sgnDistance eq pl t.b)
  obtain ⟨c1, h1, e1⟩ := interp_cut (nz 1) (Plane.sgnDistance eq pl t.b) (Plane.sgnDistance eq pl t.c)
  obtain ⟨c2, h2, e2⟩ := interp_cut (nz 2) (Plane.sgnDistance eq pl t.c) (Plane.sgnDistance eq pl t.a)
  refine ⟨c0, c1, c2, h0, h1, h2, ?_⟩
  have hd : ∀ p q : V3 K, V3.dot pl.normal (q - p) = Plane.sgnDistance eq pl q - Plane.sgnDistance eq pl p := by
    intro p q
    simp only [Plane.sgnDistance]
    vec_simp; ring
  have hr : ∀ x, Plane.relationPoint eq pl x eps = rel eps (Plane.sgnDistance eq pl x) := fun x => rfl
  unfold clipTriangle
  simp only [edgeStep, hr, corner, Plane.interp, hd, Nat.zero_add, Nat.reduceAdd, Nat.reduceMod, e0, e1, e2]
  unfold run
  simp only [gt_iff_lt, lt_irrefl, if_false, Nat.lt_add_one, if_true, Nat.zero_lt_two, Res.bind_assoc, Res.bind_pure, Res.bind_ok,
    Nat.zero_lt_one]

end Geom.Clip.Proof
