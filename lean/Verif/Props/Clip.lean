import Verif.Proof.ClipRun
import Verif.Props.Plane

/-!
Properties C25 and C26: clipping of a triangle by a plane.
-/

set_option linter.unusedSectionVars false
set_option autoImplicit false

namespace Geom.Clip.Props

open Plane (Eqn Pl Relation)
open Plane.Spec (side)
open Triangle (Tri)
open Spec Proof

variable {K : Type} [Field K] [LinearOrder K] [IsStrictOrderedRing K]

/-! Polygons are not lost, and predicates of all vertices are kept. -/

theorem add_ok {p q : Poly K} {v : V3 K} (h : p.add v = .ok q) : q = p ++ [v] := by
  unfold Poly.add at h
  split_ifs at h
  cases h
  rfl

theorem addVertex_ok {s s' : Poly K × Poly K} {v : V3 K} {r : Relation} (h : addVertex s v r = .ok s') :
    s' = (if r = .onto ∨ r = .inFrontOf then s.1 ++ [v] else s.1, if r = .onto ∨ r = .behind then s.2 ++ [v] else s.2) := by
  cases r <;> simp only [addVertex, Res.bind_eq_ok] at h
  · obtain ⟨f, hf, h⟩ := h
    cases h
    simp [add_ok hf]
  · cases h
    simp
  · obtain ⟨f, hf, h⟩ := h
    cases h
    simp [add_ok hf]
  · obtain ⟨f, hf, g, hg, h⟩ := h
    cases h
    simp [add_ok hf, add_ok hg]

/-- A predicate of the front vertices and one of the back vertices. -/
def All (P Q : V3 K → Prop) (s : Poly K × Poly K) : Prop := (∀ v ∈ s.1, P v) ∧ ∀ v ∈ s.2, Q v

theorem addVertex_all {P Q : V3 K → Prop} {s s' : Poly K × Poly K} {v : V3 K} {r : Relation} (h : addVertex s v r = .ok s')
    (hs : All P Q s) (hp : r = .onto ∨ r = .inFrontOf → P v) (hq : r = .onto ∨ r = .behind → Q v) : All P Q s' := by
  rw [addVertex_ok h]
  constructor
  · intro x hx
    dsimp only at hx
    split_ifs at hx with hr
    · rcases List.mem_append.1 hx with hx | hx
      · exact hs.1 x hx
      · rw [List.mem_singleton.1 hx]; exact hp hr
    · exact hs.1 x hx
  · intro x hx
    dsimp only at hx
    split_ifs at hx with hr
    · rcases List.mem_append.1 hx with hx | hx
      · exact hs.2 x hx
      · rw [List.mem_singleton.1 hx]; exact hq hr
    · exact hs.2 x hx

theorem optCut_all {P Q : V3 K → Prop} {s s' : Poly K × Poly K} {i : ℕ} {r : Relation} {c : Option K}
    (h : optCut s i r c = .ok s') (hs : All P Q s) (hp : ∀ t, c = some t → P (cutPoint i t) ∧ Q (cutPoint i t)) :
    All P Q s' := by
  unfold optCut at h
  cases c with
  | none => cases h; exact hs
  | some t =>
    dsimp only at h
    split_ifs at h
    · exact addVertex_all h hs (fun _ => (hp t rfl).1) (fun _ => (hp t rfl).2)
    · cases h; exact hs

theorem run_all {P Q : V3 K → Prop} {s s' : Poly K × Poly K} {r0 r1 r2 : Relation} {c0 c1 c2 : Option K}
    (h : run s r0 r1 r2 c0 c1 c2 = .ok s') (hs : All P Q s)
    (p0 : r0 = .onto ∨ r0 = .inFrontOf → P (bary 0)) (q0 : r0 = .onto ∨ r0 = .behind → Q (bary 0))
    (p1 : r1 = .onto ∨ r1 = .inFrontOf → P (bary 1)) (q1 : r1 = .onto ∨ r1 = .behind → Q (bary 1))
    (p2 : r2 = .onto ∨ r2 = .inFrontOf → P (bary 2)) (q2 : r2 = .onto ∨ r2 = .behind → Q (bary 2))
    (h0 : ∀ t, c0 = some t → P (cutPoint 0 t) ∧ Q (cutPoint 0 t))
    (h1 : ∀ t, c1 = some t → P (cutPoint 1 t) ∧ Q (cutPoint 1 t))
    (h2 : ∀ t, c2 = some t → P (cutPoint 2 t) ∧ Q (cutPoint 2 t)) : All P Q s' := by
  unfold run at h
  simp only [Res.bind_eq_ok] at h
  obtain ⟨s1, e1, s2, e2, s3, e3, s4, e4, s5, e5, e6⟩ := h
  exact optCut_all e6 (addVertex_all e5 (optCut_all e4 (addVertex_all e3 (optCut_all e2 (addVertex_all e1 hs p0 q0) h0)
    p1 q1) h1) p2 q2) h2

/-! The distances. -/

theorem side_cart (eq : Eqn) (pl : Pl K) (t : Tri K) (v : V3 K) (h : v.x + v.y + v.z = 1) :
    side eq pl (t.toCartesian v) = v.x * side eq pl t.a + v.y * side eq pl t.b + v.z * side eq pl t.c := by
  obtain ⟨x, y, z⟩ := v
  simp only at h
  obtain rfl : x = 1 - y - z := by linarith
  cases eq <;> simp only [side, Tri.toCartesian] <;> vec_simp <;> ring

/-- The barycentric coordinates of a point of the triangle. -/
def Convex (v : V3 K) : Prop := 0 ≤ v.x ∧ 0 ≤ v.y ∧ 0 ≤ v.z ∧ v.x + v.y + v.z = 1

theorem convex_bary (i : ℕ) : Convex (bary i : V3 K) := by
  unfold bary
  split <;> simp [Convex]

theorem convex_cut (i : ℕ) {t : K} (h : 0 ≤ t ∧ t ≤ 1) : Convex (cutPoint i t) := by
  have := sub_nonneg.2 h.2
  unfold cutPoint
  split <;> simp [Convex, h.1, h.2]

theorem convex_inTri (t : Tri K) {v : V3 K} (h : Convex v) : Triangle.Spec.InTri t (t.toCartesian v) :=
  ⟨v.x, v.y, v.z, h.1, h.2.1, h.2.2.1, h.2.2.2, rfl⟩

/-- With fresh polygons: the call is defined, and the outcome. -/
theorem clip_cases (nz : ℕ → Bool) (eq : Eqn) (pl : Pl K) (t : Tri K) (eps : K) (heps : 0 ≤ eps) :
    (clipTriangle nz eq pl t eps [] [] = .ok (.inFrontOf, [], []) ∧
      ∀ x, (x = t.a ∨ x = t.b ∨ x = t.c) → -eps ≤ side eq pl x) ∨
    (clipTriangle nz eq pl t eps [] [] = .ok (.behind, [], []) ∧
      ∀ x, (x = t.a ∨ x = t.b ∨ x = t.c) → side eq pl x < -eps) ∨
    ∃ f b, clipTriangle nz eq pl t eps [] [] = .ok (.clipped, f, b) ∧
      (∃ x, (x = t.a ∨ x = t.b ∨ x = t.c) ∧ side eq pl x < -eps) ∧
      (∃ x, (x = t.a ∨ x = t.b ∨ x = t.c) ∧ -eps ≤ side eq pl x) ∧
      Good (∃ x, (x = t.a ∨ x = t.b ∨ x = t.c) ∧ eps < side eq pl x)
        (∀ x, (x = t.a ∨ x = t.b ∨ x = t.c) → -eps ≤ side eq pl x → side eq pl x ≤ eps → side eq pl x = 0) f b ∧
      All (fun v => Convex v ∧ -eps ≤ side eq pl (t.toCartesian v)) (fun v => Convex v ∧ side eq pl (t.toCartesian v) ≤ eps)
        (f, b) := by
  obtain ⟨c0, c1, c2, h0, h1, h2, e⟩ := clip_eq nz eq pl t eps ([], [])
  simp only [Plane.Props.sgnDistance_eq] at h0 h1 h2 e
  rw [e]
  have nb : ∀ d : K, rel eps d ≠ .behind ↔ -eps ≤ d := fun d => by rw [Ne, rel_behind heps, not_lt]
  simp only [nb, not_le]
  by_cases hf : -eps ≤ side eq pl t.a ∧ -eps ≤ side eq pl t.b ∧ -eps ≤ side eq pl t.c
  · left
    rw [if_pos hf]
    refine ⟨rfl, ?_⟩
    rintro x (rfl | rfl | rfl)
    exacts [hf.1, hf.2.1, hf.2.2]
  · right
    rw [if_neg hf]
    by_cases hb : side eq pl t.a < -eps ∧ side eq pl t.b < -eps ∧ side eq pl t.c < -eps
    · left
      rw [if_pos hb]
      refine ⟨rfl, ?_⟩
      rintro x (rfl | rfl | rfl)
      exacts [hb.1, hb.2.1, hb.2.2]
    · right
      rw [if_neg hb]
      have hf' : side eq pl t.a < -eps ∨ side eq pl t.b < -eps ∨ side eq pl t.c < -eps := by
        by_contra hc
        push Not at hc
        exact hf hc
      have hb' : -eps ≤ side eq pl t.a ∨ -eps ≤ side eq pl t.b ∨ -eps ≤ side eq pl t.c := by
        by_contra hc
        push Not at hc
        exact hb hc
      have getD : ∀ c : Option K, c = none ∨ c = some (c.getD 0) := by rintro (_ | _) <;> simp
      have range : ∀ {da db : K} {c : Option K}, Cut da db c → 0 ≤ c.getD 0 ∧ c.getD 0 ≤ 1 := by
        intro da db c hc
        cases c with
        | none => exact ⟨le_rfl, zero_le_one⟩
        | some t => exact cut_range hc t rfl
      obtain ⟨f, b, hrun, hgood⟩ := run_good _ _ _ c0 c1 c2 (c0.getD 0) (c1.getD 0) (c2.getD 0) (rel_ne_clipped eps _)
        (rel_ne_clipped eps _) (rel_ne_clipped eps _) (cut_rel heps h0) (cut_rel heps h1) (cut_rel heps h2) (getD c0)
        (getD c1) (getD c2) (range h0) (range h1) (range h2)
        (by rw [rel_behind heps, rel_behind heps, rel_behind heps]; exact hf')
        (by rw [nb, nb, nb]; exact hb')
      refine ⟨f, b, by rw [hrun]; rfl, ?_, ?_, ?_, ?_⟩
      · rcases hf' with h | h | h
        exacts [⟨_, Or.inl rfl, h⟩, ⟨_, Or.inr (Or.inl rfl), h⟩, ⟨_, Or.inr (Or.inr rfl), h⟩]
      · rcases hb' with h | h | h
        exacts [⟨_, Or.inl rfl, h⟩, ⟨_, Or.inr (Or.inl rfl), h⟩, ⟨_, Or.inr (Or.inr rfl), h⟩]
      · refine ⟨hgood.1, ?_, hgood.3, hgood.4, hgood.5, hgood.6, ?_⟩
        · rintro ⟨x, rfl | rfl | rfl, hx⟩
          · exact hgood.2 (Or.inl (rel_front.2 hx))
          · exact hgood.2 (Or.inr (Or.inl (rel_front.2 hx)))
          · exact hgood.2 (Or.inr (Or.inr (rel_front.2 hx)))
        · intro hex
          have zero : ∀ {da db : K} {c : Option K}, Cut da db c → da = 0 → c.getD 0 = 0 := by
            intro da db c hc h0
            cases c with
            | none => rfl
            | some t => exact cut_exact hc h0 t rfl
          refine hgood.7 ⟨fun h => zero h0 ?_, fun h => zero h1 ?_, fun h => zero h2 ?_⟩
          · exact hex _ (Or.inl rfl) (rel_onto.1 h).1 (rel_onto.1 h).2
          · exact hex _ (Or.inr (Or.inl rfl)) (rel_onto.1 h).1 (rel_onto.1 h).2
          · exact hex _ (Or.inr (Or.inr rfl)) (rel_onto.1 h).1 (rel_onto.1 h).2
      · have hb0 : side eq pl (t.toCartesian (bary 0)) = side eq pl t.a := by
          rw [side_cart _ _ _ _ (convex_bary 0).2.2.2]; simp [bary]
        have hb1 : side eq pl (t.toCartesian (bary 1)) = side eq pl t.b := by
          rw [side_cart _ _ _ _ (convex_bary 1).2.2.2]; simp [bary]
        have hb2 : side eq pl (t.toCartesian (bary 2)) = side eq pl t.c := by
          rw [side_cart _ _ _ _ (convex_bary 2).2.2.2]; simp [bary]
        have fr : ∀ d : K, (rel eps d = .onto ∨ rel eps d = .inFrontOf) → -eps ≤ d := by
          rintro d (h | h)
          · exact (rel_onto.1 h).1
          · have := rel_front.1 h; linarith
        have bk : ∀ d : K, (rel eps d = .onto ∨ rel eps d = .behind) → d ≤ eps := by
          rintro d (h | h)
          · exact (rel_onto.1 h).2
          · have := (rel_behind heps).1 h; linarith
        have cutz : ∀ {da db : K} {c : Option K}, Cut da db c → ∀ t, c = some t → (1 - t) * da + t * db = 0 := by
          rintro da db c hc t rfl
          rcases hc with ⟨t', h', -, -, h, -⟩ | ⟨h, -⟩
          · cases h'; exact h
          · cases h
        refine run_all hrun ⟨by simp, by simp⟩ (fun h => ⟨convex_bary 0, by rw [hb0]; exact fr _ h⟩)
          (fun h => ⟨convex_bary 0, by rw [hb0]; exact bk _ h⟩) (fun h => ⟨convex_bary 1, by rw [hb1]; exact fr _ h⟩)
          (fun h => ⟨convex_bary 1, by rw [hb1]; exact bk _ h⟩) (fun h => ⟨convex_bary 2, by rw [hb2]; exact fr _ h⟩)
          (fun h => ⟨convex_bary 2, by rw [hb2]; exact bk _ h⟩) ?_ ?_ ?_
        · intro u hu
          have hc := convex_cut 0 (cut_range h0 u hu)
          have hz : side eq pl (t.toCartesian (cutPoint 0 u)) = 0 := by
            rw [side_cart _ _ _ _ hc.2.2.2, ← cutz h0 u hu]; simp [cutPoint]
          exact ⟨⟨hc, by rw [hz]; linarith⟩, ⟨hc, by rw [hz]; exact heps⟩⟩
        · intro u hu
          have hc := convex_cut 1 (cut_range h1 u hu)
          have hz : side eq pl (t.toCartesian (cutPoint 1 u)) = 0 := by
            rw [side_cart _ _ _ _ hc.2.2.2, ← cutz h1 u hu]; simp [cutPoint]
          exact ⟨⟨hc, by rw [hz]; linarith⟩, ⟨hc, by rw [hz]; exact heps⟩⟩
        · intro u hu
          have hc := convex_cut 2 (cut_range h2 u hu)
          have hz : side eq pl (t.toCartesian (cutPoint 2 u)) = 0 := by
            rw [side_cart _ _ _ _ hc.2.2.2, ← cutz h2 u hu]; simp [cutPoint]; ring
          exact ⟨⟨hc, by rw [hz]; linarith⟩, ⟨hc, by rw [hz]; exact heps⟩⟩

/-- With fresh polygons the call is always defined: no polygon receives more than four vertices. -/
theorem C25_defined (nz : ℕ → Bool) (eq : Eqn) (pl : Pl K) (t : Tri K) (eps : K) (heps : 0 ≤ eps) :
    ∃ r f b, clipTriangle nz eq pl t eps [] [] = .ok (r, f, b) ∧ f.length ≤ 4 ∧ b.length ≤ 4 := by
  rcases clip_cases nz eq pl t eps heps with ⟨e, -⟩ | ⟨e, -⟩ | ⟨f, b, e, -, -, g, -⟩
  · exact ⟨_, _, _, e, by simp, by simp⟩
  · exact ⟨_, _, _, e, by simp, by simp⟩
  · refine ⟨_, _, _, e, g.3, ?_⟩
    rcases g.1 with h | h <;> omega

/-- Each vertex is a point of the triangle; the front vertices are in front of the plane and the back
vertices behind it, up to the tolerance. -/
theorem C25_sides (nz : ℕ → Bool) (eq : Eqn) (pl : Pl K) (t : Tri K) (eps : K) (heps : 0 ≤ eps) (r : Relation)
    (f b : Poly K) (h : clipTriangle nz eq pl t eps [] [] = .ok (r, f, b)) :
    (∀ v ∈ f ++ b, v.x + v.y + v.z = 1 ∧ Triangle.Spec.InTri t (t.toCartesian v)) ∧
    (∀ v ∈ f, -eps ≤ side eq pl (t.toCartesian v)) ∧ ∀ v ∈ b, side eq pl (t.toCartesian v) ≤ eps := by
  rcases clip_cases nz eq pl t eps heps with ⟨e, -⟩ | ⟨e, -⟩ | ⟨f', b', e, -, -, -, g⟩
  · rw [e] at h; cases h; simp
  · rw [e] at h; cases h; simp
  · rw [e] at h
    cases h
    refine ⟨fun v hv => ?_, fun v hv => (g.1 v hv).2, fun v hv => (g.2 v hv).2⟩
    rcases List.mem_append.1 hv with hv | hv
    · exact ⟨(g.1 v hv).1.2.2.2, convex_inTri t (g.1 v hv).1⟩
    · exact ⟨(g.2 v hv).1.2.2.2, convex_inTri t (g.2 v hv).1⟩

/-- The relation: in front exactly if no corner is behind, behind exactly if all corners are, and else
clipped. -/
theorem C25_relation_partial (nz : ℕ → Bool) (eq : Eqn) (pl : Pl K) (t : Tri K) (eps : K) (heps : 0 ≤ eps)
    (r : Relation) (f b : Poly K) (h : clipTriangle nz eq pl t eps [] [] = .ok (r, f, b)) :
    (r = .inFrontOf ↔ ∀ x, (x = t.a ∨ x = t.b ∨ x = t.c) → -eps ≤ side eq pl x) ∧
    (r = .behind ↔ ∀ x, (x = t.a ∨ x = t.b ∨ x = t.c) → side eq pl x < -eps) ∧
    (r = .inFrontOf ∨ r = .behind ∨ r = .clipped) ∧ (r ≠ .clipped → f = [] ∧ b = []) := by
  rcases clip_cases nz eq pl t eps heps with ⟨e, h1⟩ | ⟨e, h1⟩ | ⟨f', b', e, ⟨x, hx, hx'⟩, ⟨y, hy, hy'⟩, -, -⟩
  · rw [e] at h
    cases h
    refine ⟨iff_of_true rfl h1, ?_, by simp, by simp⟩
    simp only [reduceCtorEq, false_iff]
    exact fun h2 => absurd (h1 _ (Or.inl rfl)) (not_le.2 (h2 _ (Or.inl rfl)))
  · rw [e] at h
    cases h
    refine ⟨?_, iff_of_true rfl h1, by simp, by simp⟩
    simp only [reduceCtorEq, false_iff]
    exact fun h2 => absurd (h2 _ (Or.inl rfl)) (not_le.2 (h1 _ (Or.inl rfl)))
  · rw [e] at h
    cases h
    refine ⟨?_, ?_, by simp, by simp⟩
    · simp only [reduceCtorEq, false_iff]
      exact fun h2 => absurd (h2 _ hx) (not_le.2 hx')
    · simp only [reduceCtorEq, false_iff]
      exact fun h2 => absurd hy' (not_le.2 (h2 _ hy))

/-- It is not true that the relation is `Behind` as soon as no corner is in front: a triangle which touches
the plane from behind is clipped, and the front polygon is a point. -/
theorem C25_behind_refuted :
    ¬ ∀ (nz : ℕ → Bool) (pl : Pl ℚ) (t : Tri ℚ) (eps : ℚ) (r : Relation) (f b : Poly ℚ), 0 ≤ eps →
      clipTriangle nz .nxEqD pl t eps [] [] = .ok (r, f, b) →
      (∀ x, (x = t.a ∨ x = t.b ∨ x = t.c) → side .nxEqD pl x ≤ eps) → (∃ x, (x = t.a ∨ x = t.b ∨ x = t.c) ∧ side .nxEqD pl x < -eps) →
      r = .behind := by
  intro h
  have := h (fun _ => false) ⟨⟨0, 0, 1⟩, 0⟩ ⟨⟨0, 0, 0⟩, ⟨1, 0, -1⟩, ⟨0, 1, -1⟩⟩ 0 .clipped
    [⟨1, 0, 0⟩, ⟨1, 0, 0⟩] [⟨1, 0, 0⟩, ⟨1, 0, 0⟩, ⟨0, 1, 0⟩, ⟨0, 0, 1⟩] le_rfl (by decide +kernel)
    (by rintro x (rfl | rfl | rfl) <;> norm_num [side]) ⟨⟨1, 0, -1⟩, by simp, by norm_num [side]⟩
  cases this

/-! The area. -/

theorem area_det (t : Tri K) (p q r : V3 K) (hp : p.x + p.y + p.z = 1) (hq : q.x + q.y + q.z = 1) (hr : r.x + r.y + r.z = 1) :
    area (t.toCartesian p) (t.toCartesian q) (t.toCartesian r) = det p q r • t.normal := by
  obtain ⟨px, py, pz⟩ := p
  obtain ⟨qx, qy, qz⟩ := q
  obtain ⟨rx, ry, rz⟩ := r
  simp only at hp hq hr
  obtain rfl : px = 1 - py - pz := by linarith
  obtain rfl : qx = 1 - qy - qz := by linarith
  obtain rfl : rx = 1 - ry - rz := by linarith
  simp only [area, det, Tri.toCartesian, Triangle.Tri.normal]
  ext <;> vec_simp <;> ring

theorem fan_mem (l : List (V3 K)) : ∀ e ∈ fan l, e.1 ∈ l ∧ e.2.1 ∈ l ∧ e.2.2 ∈ l := by
  cases l with
  | nil => simp [fan]
  | cons p rest =>
    intro e he
    simp only [fan, List.mem_map] at he
    obtain ⟨x, hx, rfl⟩ := he
    have h1 := List.of_mem_zip hx
    exact ⟨by simp, List.mem_cons_of_mem _ h1.1, List.mem_cons_of_mem _ (List.mem_of_mem_tail h1.2)⟩

theorem fan_map (g : V3 K → V3 K) (l : List (V3 K)) : fan (l.map g) = (fan l).map fun e => (g e.1, g e.2.1, g e.2.2) := by
  cases l with
  | nil => simp [fan]
  | cons p rest =>
    simp only [fan, List.map_cons, List.map_map, ← List.map_tail, List.zip_map]
    congr 1

theorem polyArea_cart (t : Tri K) (l : List (V3 K)) (h : ∀ v ∈ l, v.x + v.y + v.z = 1) :
    polyArea (l.map t.toCartesian) = (dets l).sum • t.normal := by
  have key : ∀ m : List (V3 K × V3 K × V3 K),
      (∀ e ∈ m, (e.1.x + e.1.y + e.1.z = 1) ∧ (e.2.1.x + e.2.1.y + e.2.1.z = 1) ∧ (e.2.2.x + e.2.2.y + e.2.2.z = 1)) →
      (m.map fun e => area (t.toCartesian e.1) (t.toCartesian e.2.1) (t.toCartesian e.2.2)).sum =
        (m.map fun e => det e.1 e.2.1 e.2.2).sum • t.normal := by
    intro m hm
    induction m with
    | nil => simp only [List.map_nil, List.sum_nil]; exact (zero_smul K _).symm
    | cons e m ih =>
      simp only [List.map_cons, List.sum_cons]
      have he := hm e (by simp)
      rw [ih fun e he => hm e (List.mem_cons_of_mem _ he), area_det t _ _ _ he.1 he.2.1 he.2.2, add_smul]
  unfold polyArea dets
  rw [fan_map, List.map_map]
  exact key _ fun e he => ⟨h _ (fan_mem l e he).1, h _ (fan_mem l e he).2.1, h _ (fan_mem l e he).2.2⟩

/-- If each corner that counts as lying on the plane does lie on it (for example with the tolerance 0), the
areas of the two polygons add up to the area of the triangle. -/
theorem C25_area_partial (nz : ℕ → Bool) (eq : Eqn) (pl : Pl K) (t : Tri K) (eps : K) (heps : 0 ≤ eps)
    (f b : Poly K) (h : clipTriangle nz eq pl t eps [] [] = .ok (.clipped, f, b))
    (hex : ∀ x, (x = t.a ∨ x = t.b ∨ x = t.c) → -eps ≤ side eq pl x → side eq pl x ≤ eps → side eq pl x = 0) :
    polyArea (f.map t.toCartesian) + polyArea (b.map t.toCartesian) = area t.a t.b t.c := by
  rcases clip_cases nz eq pl t eps heps with ⟨e, -⟩ | ⟨e, -⟩ | ⟨f', b', e, -, -, g, g'⟩
  · rw [e] at h; cases h
  · rw [e] at h; cases h
  · rw [e] at h
    cases h
    rw [polyArea_cart t f fun v hv => (g'.1 v hv).1.2.2.2, polyArea_cart t b fun v hv => (g'.2 v hv).1.2.2.2, ← add_smul,
      g.7 hex, one_smul]
    rfl

/-- For any tolerance the triangles of both fans keep the orientation of the triangle, and together they
are not smaller than the triangle. -/
theorem C25_area_covers (nz : ℕ → Bool) (eq : Eqn) (pl : Pl K) (t : Tri K) (eps : K) (heps : 0 ≤ eps)
    (f b : Poly K) (h : clipTriangle nz eq pl t eps [] [] = .ok (.clipped, f, b)) :
    (∀ e ∈ fan (f.map t.toCartesian) ++ fan (b.map t.toCartesian), ∃ k : K, 0 ≤ k ∧ area e.1 e.2.1 e.2.2 = k • area t.a t.b t.c) ∧
    ∃ k : K, 1 ≤ k ∧ polyArea (f.map t.toCartesian) + polyArea (b.map t.toCartesian) = k • area t.a t.b t.c := by
  rcases clip_cases nz eq pl t eps heps with ⟨e, -⟩ | ⟨e, -⟩ | ⟨f', b', e, -, -, g, g'⟩
  · rw [e] at h; cases h
  · rw [e] at h; cases h
  · rw [e] at h
    cases h
    have hf := fun v hv => (g'.1 v hv).1.2.2.2
    have hb := fun v hv => (g'.2 v hv).1.2.2.2
    constructor
    · intro e he
      rw [fan_map, fan_map] at he
      rcases List.mem_append.1 he with he | he
      · obtain ⟨e, he', rfl⟩ := List.mem_map.1 he
        refine ⟨det e.1 e.2.1 e.2.2, g.5 _ (List.mem_append_left _ (List.mem_map_of_mem he')), ?_⟩
        have := fan_mem f e he'
        exact area_det t _ _ _ (hf _ this.1) (hf _ this.2.1) (hf _ this.2.2)
      · obtain ⟨e, he', rfl⟩ := List.mem_map.1 he
        refine ⟨det e.1 e.2.1 e.2.2, g.5 _ (List.mem_append_right _ (List.mem_map_of_mem he')), ?_⟩
        have := fan_mem b e he'
        exact area_det t _ _ _ (hb _ this.1) (hb _ this.2.1) (hb _ this.2.2)
    · refine ⟨_, g.6, ?_⟩
      rw [polyArea_cart t f hf, polyArea_cart t b hb, ← add_smul]
      rfl

/-- With a positive tolerance the polygons can overlap: the areas need not add up. -/
theorem C25_area_refuted :
    ¬ ∀ (nz : ℕ → Bool) (pl : Pl ℚ) (t : Tri ℚ) (eps : ℚ) (f b : Poly ℚ), 0 ≤ eps → Plane.Spec.UnitN pl →
      clipTriangle nz .nxEqD pl t eps [] [] = .ok (.clipped, f, b) →
      polyArea (f.map t.toCartesian) + polyArea (b.map t.toCartesian) = area t.a t.b t.c := by
  intro h
  have := h (fun _ => false) ⟨⟨1, 0, 0⟩, 0⟩ ⟨⟨-1 / 10, 0, 0⟩, ⟨1, 0, 0⟩, ⟨-1, 1, 0⟩⟩ (1 / 10)
    [⟨1, 0, 0⟩, ⟨10 / 11, 1 / 11, 0⟩, ⟨0, 1, 0⟩, ⟨0, 1 / 2, 1 / 2⟩] [⟨1, 0, 0⟩, ⟨10 / 11, 1 / 11, 0⟩, ⟨0, 1 / 2, 1 / 2⟩, ⟨0, 0, 1⟩]
    (by norm_num) (by norm_num [Plane.Spec.UnitN]) (by decide +kernel)
  revert this
  decide +kernel

/-! Polygons are appended to, not cleared. -/

theorem addVertex_append {f b x y : Poly K} {s : Poly K × Poly K} {v : V3 K} {r : Relation}
    (h : addVertex (f ++ x, b ++ y) v r = .ok s) :
    ∃ x' y', addVertex (x, y) v r = .ok (x', y') ∧ s = (f ++ x', b ++ y') := by
  have fit : ∀ {p q z : Poly K}, (p ++ q).add v = .ok z → q.add v = .ok (q ++ [v]) ∧ z = p ++ (q ++ [v]) := by
    intro p q z h
    have e := add_ok h
    unfold Poly.add at h ⊢
    split_ifs at h with hl
    rw [List.length_append] at hl
    rw [if_pos (by omega)]
    exact ⟨rfl, by rw [e, List.append_assoc]⟩
  cases r <;> simp only [addVertex, Res.bind_eq_ok] at h ⊢
  · obtain ⟨z, hz, h⟩ := h
    cases h
    obtain ⟨e1, e2⟩ := fit hz
    exact ⟨_, _, ⟨_, e1, rfl⟩, by rw [e2]⟩
  · cases h
    exact ⟨_, _, rfl, rfl⟩
  · obtain ⟨z, hz, h⟩ := h
    cases h
    obtain ⟨e1, e2⟩ := fit hz
    exact ⟨_, _, ⟨_, e1, rfl⟩, by rw [e2]⟩
  · obtain ⟨z, hz, w, hw, h⟩ := h
    cases h
    obtain ⟨e1, e2⟩ := fit hz
    obtain ⟨e3, e4⟩ := fit hw
    exact ⟨_, _, ⟨_, e1, _, e3, rfl⟩, by rw [e2, e4]⟩

theorem optCut_append {f b x y : Poly K} {s : Poly K × Poly K} {i : ℕ} {r : Relation} {c : Option K}
    (h : optCut (f ++ x, b ++ y) i r c = .ok s) :
    ∃ x' y', optCut (x, y) i r c = .ok (x', y') ∧ s = (f ++ x', b ++ y') := by
  unfold optCut at h ⊢
  cases c with
  | none => cases h; exact ⟨_, _, rfl, rfl⟩
  | some t =>
    dsimp only at h ⊢
    split_ifs at h ⊢
    · exact addVertex_append h
    · cases h; exact ⟨_, _, rfl, rfl⟩

theorem add_outcome (p : Poly K) (v : V3 K) : (∃ q, p.add v = .ok q) ∨ p.add v = .ub := by
  unfold Poly.add
  split_ifs
  · exact Or.inl ⟨_, rfl⟩
  · exact Or.inr rfl

theorem addVertex_outcome (s : Poly K × Poly K) (v : V3 K) (r : Relation) :
    (∃ q, addVertex s v r = .ok q) ∨ addVertex s v r = .ub := by
  cases r <;> simp only [addVertex]
  · rcases add_outcome s.1 v with ⟨q, h⟩ | h <;> simp [h]
  · exact Or.inl ⟨_, rfl⟩
  · rcases add_outcome s.2 v with ⟨q, h⟩ | h <;> simp [h]
  · rcases add_outcome s.1 v with ⟨q, h⟩ | h <;> simp [h]
    rcases add_outcome s.2 v with ⟨q, h⟩ | h <;> simp [h]

theorem optCut_outcome (s : Poly K × Poly K) (i : ℕ) (r : Relation) (c : Option K) :
    (∃ q, optCut s i r c = .ok q) ∨ optCut s i r c = .ub := by
  unfold optCut
  cases c with
  | none => exact Or.inl ⟨_, rfl⟩
  | some t =>
    dsimp only
    split_ifs
    · exact addVertex_outcome _ _ _
    · exact Or.inl ⟨_, rfl⟩

theorem run_outcome (s : Poly K × Poly K) (r0 r1 r2 : Relation) (c0 c1 c2 : Option K) :
    (∃ q, run s r0 r1 r2 c0 c1 c2 = .ok q) ∨ run s r0 r1 r2 c0 c1 c2 = .ub := by
  have step : ∀ {α β : Type} {x : Res α} {g : α → Res β}, ((∃ q, x = .ok q) ∨ x = .ub) →
      (∀ a, (∃ q, g a = .ok q) ∨ g a = .ub) → (∃ q, x.bind g = .ok q) ∨ x.bind g = .ub := by
    rintro α β x g (⟨q, rfl⟩ | rfl) hg
    · exact hg q
    · exact Or.inr rfl
  unfold run
  exact step (addVertex_outcome _ _ _) fun _ => step (optCut_outcome _ _ _ _) fun _ => step (addVertex_outcome _ _ _) fun _ =>
    step (optCut_outcome _ _ _ _) fun _ => step (addVertex_outcome _ _ _) fun _ => optCut_outcome _ _ _ _

theorem run_append {f b : Poly K} {s : Poly K × Poly K} {r0 r1 r2 : Relation} {c0 c1 c2 : Option K}
    (h : run (f, b) r0 r1 r2 c0 c1 c2 = .ok s) :
    ∃ x' y', run ([], []) r0 r1 r2 c0 c1 c2 = .ok (x', y') ∧ s = (f ++ x', b ++ y') := by
  have h' : run (f ++ [], b ++ []) r0 r1 r2 c0 c1 c2 = .ok s := by rw [List.append_nil, List.append_nil]; exact h
  unfold run at h' ⊢
  simp only [Res.bind_eq_ok] at h' ⊢
  obtain ⟨s1, e1, s2, e2, s3, e3, s4, e4, s5, e5, e6⟩ := h'
  obtain ⟨x1, y1, g1, rfl⟩ := addVertex_append e1
  obtain ⟨x2, y2, g2, rfl⟩ := optCut_append e2
  obtain ⟨x3, y3, g3, rfl⟩ := addVertex_append e3
  obtain ⟨x4, y4, g4, rfl⟩ := optCut_append e4
  obtain ⟨x5, y5, g5, rfl⟩ := addVertex_append e5
  obtain ⟨x6, y6, g6, rfl⟩ := optCut_append e6
  exact ⟨x6, y6, ⟨_, g1, _, g2, _, g3, _, g4, _, g5, g6⟩, rfl⟩

theorem add_full {p q : Poly K} {v : V3 K} (h : p.add v = .ok q) : q.length ≤ 4 := by
  have e := add_ok h
  unfold Poly.add at h
  split_ifs at h with hl
  rw [e, List.length_append]
  simpa using hl

theorem addVertex_full {s s' : Poly K × Poly K} {v : V3 K} {r : Relation} (h : addVertex s v r = .ok s')
    (hs : s.2.length ≤ 4) : s'.2.length ≤ 4 := by
  cases r <;> simp only [addVertex, Res.bind_eq_ok] at h
  · obtain ⟨z, hz, h⟩ := h; cases h; exact hs
  · cases h; exact hs
  · obtain ⟨z, hz, h⟩ := h; cases h; exact add_full hz
  · obtain ⟨z, hz, w, hw, h⟩ := h; cases h; exact add_full hw

theorem optCut_full {s s' : Poly K × Poly K} {i : ℕ} {r : Relation} {c : Option K} (h : optCut s i r c = .ok s')
    (hs : s.2.length ≤ 4) : s'.2.length ≤ 4 := by
  unfold optCut at h
  cases c with
  | none => cases h; exact hs
  | some t =>
    dsimp only at h
    split_ifs at h
    · exact addVertex_full h hs
    · cases h; exact hs

theorem run_full {s s' : Poly K × Poly K} {r0 r1 r2 : Relation} {c0 c1 c2 : Option K}
    (h : run s r0 r1 r2 c0 c1 c2 = .ok s') (hs : s.2.length ≤ 4) : s'.2.length ≤ 4 := by
  unfold run at h
  simp only [Res.bind_eq_ok] at h
  obtain ⟨s1, e1, s2, e2, s3, e3, s4, e4, s5, e5, e6⟩ := h
  exact optCut_full e6 (addVertex_full e5 (optCut_full e4 (addVertex_full e3 (optCut_full e2 (addVertex_full e1 hs)))))

/-- The polygons must be fresh: if the triangle is clipped and the back polygon has two or more vertices from
before, the access is out of bounds. -/
theorem C25_reuse_undefined (nz : ℕ → Bool) (eq : Eqn) (pl : Pl K) (t : Tri K) (eps : K) (heps : 0 ≤ eps)
    (front back : Poly K) (h1 : ∃ x, (x = t.a ∨ x = t.b ∨ x = t.c) ∧ side eq pl x < -eps)
    (h2 : ∃ x, (x = t.a ∨ x = t.b ∨ x = t.c) ∧ -eps ≤ side eq pl x) (hb : 2 ≤ back.length) (hb4 : back.length ≤ 4) :
    clipTriangle nz eq pl t eps front back = .ub := by
  obtain ⟨c0, c1, c2, g0, g1, g2, e⟩ := clip_eq nz eq pl t eps (front, back)
  simp only [Plane.Props.sgnDistance_eq] at g0 g1 g2 e
  rw [e]
  have nb : ∀ d : K, rel eps d ≠ .behind ↔ -eps ≤ d := fun d => by rw [Ne, rel_behind heps, not_lt]
  simp only [nb, not_le]
  have hf' : side eq pl t.a < -eps ∨ side eq pl t.b < -eps ∨ side eq pl t.c < -eps := by
    obtain ⟨x, rfl | rfl | rfl, hx⟩ := h1
    exacts [Or.inl hx, Or.inr (Or.inl hx), Or.inr (Or.inr hx)]
  have hb' : -eps ≤ side eq pl t.a ∨ -eps ≤ side eq pl t.b ∨ -eps ≤ side eq pl t.c := by
    obtain ⟨x, rfl | rfl | rfl, hx⟩ := h2
    exacts [Or.inl hx, Or.inr (Or.inl hx), Or.inr (Or.inr hx)]
  rw [if_neg (by rcases hf' with h | h | h <;> intro hc <;> linarith [hc.1, hc.2.1, hc.2.2]),
    if_neg (by rcases hb' with h | h | h <;> intro hc <;> linarith [hc.1, hc.2.1, hc.2.2])]
  rcases run_outcome (front, back) (rel eps (side eq pl t.a)) (rel eps (side eq pl t.b)) (rel eps (side eq pl t.c)) c0 c1 c2
    with ⟨s, hs⟩ | hs
  · exfalso
    obtain ⟨x, y, hr, rfl⟩ := run_append hs
    have hfull := run_full hs hb4
    have getD : ∀ c : Option K, c = none ∨ c = some (c.getD 0) := by rintro (_ | _) <;> simp
    have range : ∀ {da db : K} {c : Option K}, Cut da db c → 0 ≤ c.getD 0 ∧ c.getD 0 ≤ 1 := by
      intro da db c hc
      cases c with
      | none => exact ⟨le_rfl, zero_le_one⟩
      | some t => exact cut_range hc t rfl
    obtain ⟨f, b, hrun, hgood⟩ := run_good _ _ _ c0 c1 c2 (c0.getD 0) (c1.getD 0) (c2.getD 0) (rel_ne_clipped eps _)
      (rel_ne_clipped eps _) (rel_ne_clipped eps _) (cut_rel heps g0) (cut_rel heps g1) (cut_rel heps g2) (getD c0)
      (getD c1) (getD c2) (range g0) (range g1) (range g2)
      (by rw [rel_behind heps, rel_behind heps, rel_behind heps]; exact hf') (by rw [nb, nb, nb]; exact hb')
    rw [hr] at hrun
    cases hrun
    rw [List.length_append] at hfull
    rcases hgood.1 with h | h <;> omega
  · rw [hs]; rfl

/-- A clipped triangle: the back polygon has three or four vertices; so has the front polygon if some corner
is in front of the plane, in any case it has one to four. -/
theorem C26_partial (nz : ℕ → Bool) (eq : Eqn) (pl : Pl K) (t : Tri K) (eps : K) (heps : 0 ≤ eps)
    (f b : Poly K) (h : clipTriangle nz eq pl t eps [] [] = .ok (.clipped, f, b)) :
    (b.length = 3 ∨ b.length = 4) ∧ 1 ≤ f.length ∧ f.length ≤ 4 ∧
    ((∃ x, (x = t.a ∨ x = t.b ∨ x = t.c) ∧ eps < side eq pl x) → f.length = 3 ∨ f.length = 4) := by
  rcases clip_cases nz eq pl t eps heps with ⟨e, -⟩ | ⟨e, -⟩ | ⟨f', b', e, -, -, g, -⟩
  · rw [e] at h; cases h
  · rw [e] at h; cases h
  · rw [e] at h
    cases h
    exact ⟨g.1, g.4, g.3, g.2⟩

/-- The front polygon can have fewer than three vertices: a triangle touching the plane from behind. -/
theorem C26_refuted :
    ¬ ∀ (nz : ℕ → Bool) (pl : Pl ℚ) (t : Tri ℚ) (eps : ℚ) (f b : Poly ℚ), 0 ≤ eps →
      clipTriangle nz .nxEqD pl t eps [] [] = .ok (.clipped, f, b) → f.length = 3 ∨ f.length = 4 := by
  intro h
  have := h (fun _ => false) ⟨⟨0, 0, 1⟩, 0⟩ ⟨⟨0, 0, 0⟩, ⟨1, 0, -1⟩, ⟨0, 1, -1⟩⟩ 0
    [⟨1, 0, 0⟩, ⟨1, 0, 0⟩] [⟨1, 0, 0⟩, ⟨1, 0, 0⟩, ⟨0, 1, 0⟩, ⟨0, 0, 1⟩] le_rfl (by decide +kernel)
  simp at this

/-- A triangle cut into a triangle and a quadrangle. -/
theorem sampleClip :
    clipTriangle (fun _ => false) .nxEqD ⟨⟨1, 0, 0⟩, 1⟩ (⟨⟨0, 0, 0⟩, ⟨4, 0, 0⟩, ⟨0, 4, 0⟩⟩ : Tri ℚ) (1 / 1000) [] [] =
      .ok (.clipped, [⟨3 / 4, 1 / 4, 0⟩, ⟨0, 1, 0⟩, ⟨0, 1 / 4, 3 / 4⟩], [⟨1, 0, 0⟩, ⟨3 / 4, 1 / 4, 0⟩, ⟨0, 1 / 4, 3 / 4⟩, ⟨0, 0, 1⟩]) := by
  decide +kernel

example := C25_defined (fun _ => false) .nxEqD ⟨⟨1, 0, 0⟩, 1⟩ (⟨⟨0, 0, 0⟩, ⟨4, 0, 0⟩, ⟨0, 4, 0⟩⟩ : Tri ℚ) (1 / 1000) (by norm_num)
example := C25_sides _ _ _ _ _ (by norm_num) _ _ _ sampleClip
example := C25_relation_partial _ _ _ _ _ (by norm_num) _ _ _ sampleClip
example := C25_area_partial _ _ _ _ _ (by norm_num) _ _ sampleClip (by
  rintro x (rfl | rfl | rfl) <;> norm_num [side, V3.dot])
example := C25_area_covers _ _ _ _ _ (by norm_num) _ _ sampleClip
example := C25_reuse_undefined (fun _ => false) .nxEqD ⟨⟨1, 0, 0⟩, 1⟩ (⟨⟨0, 0, 0⟩, ⟨4, 0, 0⟩, ⟨0, 4, 0⟩⟩ : Tri ℚ) (1 / 1000) (by norm_num)
  [⟨3 / 4, 1 / 4, 0⟩, ⟨0, 1, 0⟩, ⟨0, 1 / 4, 3 / 4⟩] [⟨1, 0, 0⟩, ⟨3 / 4, 1 / 4, 0⟩, ⟨0, 1 / 4, 3 / 4⟩, ⟨0, 0, 1⟩]
  ⟨⟨0, 0, 0⟩, .inl rfl, by norm_num [side, V3.dot]⟩ ⟨⟨4, 0, 0⟩, .inr (.inl rfl), by norm_num [side, V3.dot]⟩ (by simp) (by simp)
example := C26_partial _ _ _ _ _ (by norm_num) _ _ sampleClip

end Geom.Clip.Props
