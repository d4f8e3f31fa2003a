import Verif.Props.ClipVolume
import Verif.Proof.ClipEdges
import Verif.Spec.ClipEdges
import Verif.Props.Closed

/-
  C102: clipping opens a closed mesh only along the plane.
-/
set_option autoImplicit false
set_option linter.unusedSectionVars false

namespace Geom.Clip.Props
open Plane (Eqn Pl Relation)
open Plane.Spec (side)
open Triangle (Tri)
open Spec Proof

variable {K : Type} [Field K] [LinearOrder K] [IsStrictOrderedRing K]

/-- The point of the plane on the line through two points. -/
def cutAt (eq : Eqn) (pl : Pl K) (a b : V3 K) : V3 K :=
  let s := side eq pl a
  let t := side eq pl b
  ⟨(t * a.x - s * b.x) / (t - s), (t * a.y - s * b.y) / (t - s), (t * a.z - s * b.z) / (t - s)⟩

theorem cutAt_symm (eq : Eqn) (pl : Pl K) (a b : V3 K) : cutAt eq pl b a = cutAt eq pl a b := by
  unfold cutAt
  have h : ∀ x y : K, (side eq pl a * x - side eq pl b * y) / (side eq pl a - side eq pl b) =
      (side eq pl b * y - side eq pl a * x) / (side eq pl b - side eq pl a) := by
    intro x y
    rw [← neg_sub (side eq pl b * y), ← neg_sub (side eq pl b), neg_div_neg_eq]
  simp only [h]

theorem side_cutAt (eq : Eqn) (pl : Pl K) (a b : V3 K) (h : side eq pl a ≠ side eq pl b) : side eq pl (cutAt eq pl a b) = 0 := by
  have h' : side eq pl b - side eq pl a ≠ 0 := sub_ne_zero.2 h.symm
  have key : side eq pl (cutAt eq pl a b) * (side eq pl b - side eq pl a) =
      side eq pl b * side eq pl a - side eq pl a * side eq pl b := by
    have ex : ∀ n : V3 K, V3.dot n (cutAt eq pl a b) * (side eq pl b - side eq pl a) =
        side eq pl b * V3.dot n a - side eq pl a * V3.dot n b := by
      intro n
      simp only [cutAt, V3.dot]
      field_simp
      ring
    have := ex pl.normal
    simp only [V3.dot] at this
    generalize hc : cutAt eq pl a b = c at *
    generalize ha : side eq pl a = s at *
    generalize hb : side eq pl b = t at *
    cases eq <;> simp only [side] at ha hb ⊢ <;> subst ha <;> subst hb <;> linear_combination this
  rw [mul_comm (side eq pl b), sub_self, mul_eq_zero] at key
  exact key.resolve_right h'

theorem cut_point (eq : Eqn) (pl : Pl K) (a b : V3 K) (t : K) (h : (1 - t) * side eq pl a + t * side eq pl b = 0)
    (hne : side eq pl a ≠ side eq pl b) : (1 - t) • a + t • b = cutAt eq pl a b := by
  have h' : side eq pl b - side eq pl a ≠ 0 := sub_ne_zero.2 hne.symm
  have hc : ∀ x y : K, (1 - t) * x + t * y = (side eq pl b * x - side eq pl a * y) / (side eq pl b - side eq pl a) := by
    intro x y
    rw [eq_div_iff h']
    linear_combination (y - x) * h
  unfold cutAt
  apply V3.ext
  · simp [hc]
  · simp [hc]
  · simp [hc]

theorem exactCut {eq : Eqn} {pl : Pl K} {eps : K} (heps : 0 ≤ eps) {P : V3 K → V3 K} {i : ℕ} {a b : V3 K} {c : Option K}
    (hP : ∀ t, P (cutPoint i t) = (1 - t) • a + t • b) (h : Cut (side eq pl a) (side eq pl b) c)
    (ha : rel eps (side eq pl a) = .onto → side eq pl a = 0) :
    ExactCut P i (rel eps (side eq pl a)) (rel eps (side eq pl b)) a (cutAt eq pl a b) c := by
  obtain ⟨h1, h2, h3, h4⟩ := cut_rel heps h
  have opp : c ≠ none → ∃ t, c = some t ∧ P (cutPoint i t) = cutAt eq pl a b := by
    intro hc
    rcases h with ⟨t, rfl, -, -, e, hne⟩ | ⟨rfl, -⟩
    · exact ⟨t, rfl, by rw [hP, cut_point eq pl a b t e hne]⟩
    · exact absurd rfl hc
  have start : side eq pl a = 0 → side eq pl b ≠ 0 → ∃ t, c = some t ∧ P (cutPoint i t) = a := by
    intro h0 hb
    rcases h with ⟨t, rfl, -, -, e, -⟩ | ⟨rfl, hc⟩
    · rw [h0, mul_zero, zero_add, mul_eq_zero] at e
      obtain rfl := e.resolve_right hb
      refine ⟨0, rfl, ?_⟩
      rw [hP]
      apply V3.ext <;> simp
    · rw [h0] at hc
      rcases hc with hc | hc | hc
      · exact absurd hc.1 (lt_irrefl _)
      · exact absurd hc.1 (lt_irrefl _)
      · exact absurd hc.symm hb
  have nb : rel eps (side eq pl b) = .inFrontOf ∨ rel eps (side eq pl b) = .behind → side eq pl b ≠ 0 := by
    rintro (hb | hb)
    · have := rel_front.1 hb
      exact (heps.trans_lt this).ne'
    · have := (rel_behind heps).1 hb
      exact (this.trans_le (neg_nonpos.2 heps)).ne
  generalize hr : rel eps (side eq pl a) = r at *
  generalize hs : rel eps (side eq pl b) = s at *
  cases r <;> cases s <;> simp only [ExactCut]
  · exact h1 rfl rfl
  · exact opp (h3 rfl rfl)
  · exact opp (h4 rfl rfl)
  · exact h2 rfl rfl
  · exact start (ha rfl) (nb (.inl rfl))
  · exact start (ha rfl) (nb (.inr rfl))

/-- The faces that `ClipMesh` adds to the front mesh. -/
def frontTris (r : Relation) (T : Tri K) (f : Poly K) : List (V3 K × V3 K × V3 K) :=
  match r with
  | .inFrontOf => [(T.a, T.b, T.c)]
  | .clipped => fan (f.map T.toCartesian)
  | _ => []

/-- The faces that `ClipMesh` adds to the back mesh. -/
def backTris (r : Relation) (T : Tri K) (b : Poly K) : List (V3 K × V3 K × V3 K) :=
  match r with
  | .behind => [(T.a, T.b, T.c)]
  | .clipped => fan (b.map T.toCartesian)
  | _ => []

/-- The parts of an edge as function of its ends. -/
def frontE (w : V3 K → V3 K → ℤ) (eq : Eqn) (pl : Pl K) (eps : K) (a b : V3 K) : ℤ :=
  frontPart w (rel eps (side eq pl a)) (rel eps (side eq pl b)) a b (cutAt eq pl a b)
def backE (w : V3 K → V3 K → ℤ) (eq : Eqn) (pl : Pl K) (eps : K) (a b : V3 K) : ℤ :=
  backPart w (rel eps (side eq pl a)) (rel eps (side eq pl b)) a b (cutAt eq pl a b)
def bothE (w : V3 K → V3 K → ℤ) (eq : Eqn) (pl : Pl K) (eps : K) (a b : V3 K) : ℤ :=
  cutEdge w (rel eps (side eq pl a)) (rel eps (side eq pl b)) a b (cutAt eq pl a b)

theorem frontE_anti {w : V3 K → V3 K → ℤ} (hw : ∀ x y, w y x = -w x y) (eq : Eqn) (pl : Pl K) (eps : K) (a b : V3 K) :
    frontE w eq pl eps b a = -frontE w eq pl eps a b := by
  unfold frontE
  rw [cutAt_symm]
  generalize cutAt eq pl a b = x
  have h1 := hw a b
  have h2 := hw a x
  have h3 := hw b x
  cases rel eps (side eq pl a) <;> cases rel eps (side eq pl b) <;> simp only [frontPart] <;> omega

theorem backE_anti {w : V3 K → V3 K → ℤ} (hw : ∀ x y, w y x = -w x y) (eq : Eqn) (pl : Pl K) (eps : K) (a b : V3 K) :
    backE w eq pl eps b a = -backE w eq pl eps a b := by
  unfold backE
  rw [cutAt_symm]
  generalize cutAt eq pl a b = x
  have h1 := hw a b
  have h2 := hw a x
  have h3 := hw b x
  cases rel eps (side eq pl a) <;> cases rel eps (side eq pl b) <;> simp only [backPart] <;> omega

theorem bothE_anti {w : V3 K → V3 K → ℤ} (hw : ∀ x y, w y x = -w x y) (eq : Eqn) (pl : Pl K) (eps : K) (a b : V3 K) :
    bothE w eq pl eps b a = -bothE w eq pl eps a b := by
  unfold bothE
  rw [cutAt_symm]
  generalize cutAt eq pl a b = x
  have h1 := hw a b
  have h2 := hw a x
  have h3 := hw b x
  cases rel eps (side eq pl a) <;> cases rel eps (side eq pl b) <;> simp only [cutEdge] <;> omega

/-- The edges of the parts of a triangle. -/
theorem clip_edges (nz : ℕ → Bool) (eq : Eqn) (pl : Pl K) (T : Tri K) (eps : K) (heps : 0 ≤ eps)
    (hex : ∀ x, (x = T.a ∨ x = T.b ∨ x = T.c) → -eps ≤ side eq pl x → side eq pl x ≤ eps → side eq pl x = 0)
    (r : Relation) (f b : Poly K) (e : clipTriangle nz eq pl T eps [] [] = .ok (r, f, b)) (w : V3 K → V3 K → ℤ) (hw : ∀ x y, w y x = -w x y) :
    ((∀ x y, side eq pl x = 0 → side eq pl y = 0 → w x y = 0) →
      ((frontTris r T f).map (around w)).sum = frontE w eq pl eps T.a T.b + frontE w eq pl eps T.b T.c + frontE w eq pl eps T.c T.a ∧
      ((backTris r T b).map (around w)).sum = backE w eq pl eps T.a T.b + backE w eq pl eps T.b T.c + backE w eq pl eps T.c T.a) ∧
    ((frontTris r T f).map (around w)).sum + ((backTris r T b).map (around w)).sum =
      bothE w eq pl eps T.a T.b + bothE w eq pl eps T.b T.c + bothE w eq pl eps T.c T.a := by
  obtain ⟨c0, c1, c2, h0, h1, h2, e'⟩ := clip_eq nz eq pl T eps ([], [])
  simp only [Plane.Props.sgnDistance_eq] at h0 h1 h2 e'
  rw [e'] at e
  have ho : ∀ x, (x = T.a ∨ x = T.b ∨ x = T.c) → rel eps (side eq pl x) = .onto → side eq pl x = 0 := fun x hx h =>
    hex x hx (rel_onto.1 h).1 (rel_onto.1 h).2
  have ha := ho T.a (.inl rfl)
  have hb := ho T.b (.inr (.inl rfl))
  have hc := ho T.c (.inr (.inr rfl))
  have p0 : ∀ t : K, T.toCartesian (cutPoint 0 t) = (1 - t) • T.a + t • T.b := by
    intro t; simp only [Tri.toCartesian, cutPoint]; apply V3.ext <;> simp
  have p1 : ∀ t : K, T.toCartesian (cutPoint 1 t) = (1 - t) • T.b + t • T.c := by
    intro t; simp only [Tri.toCartesian, cutPoint]; apply V3.ext <;> simp
  have p2 : ∀ t : K, T.toCartesian (cutPoint 2 t) = (1 - t) • T.c + t • T.a := by
    intro t; simp only [Tri.toCartesian, cutPoint]; apply V3.ext <;> simp [add_comm]
  have q0 := exactCut heps p0 h0 ha
  have q1 := exactCut heps p1 h1 hb
  have q2 := exactCut heps p2 h2 hc
  have b0 : T.toCartesian (bary 0) = T.a := by simp only [Tri.toCartesian, bary]; apply V3.ext <;> simp
  have b1 : T.toCartesian (bary 1) = T.b := by simp only [Tri.toCartesian, bary]; apply V3.ext <;> simp
  have b2 : T.toCartesian (bary 2) = T.c := by simp only [Tri.toCartesian, bary]; apply V3.ext <;> simp
  have con : ∀ x y, CutOn (fun x => side eq pl x = 0) (rel eps (side eq pl x)) (rel eps (side eq pl y)) (cutAt eq pl x y) := by
    intro x y
    have key : rel eps (side eq pl x) ≠ rel eps (side eq pl y) → side eq pl (cutAt eq pl x y) = 0 := by
      intro h
      exact side_cutAt eq pl x y fun h' => h (by rw [h'])
    generalize rel eps (side eq pl x) = r at *
    generalize rel eps (side eq pl y) = s at *
    cases r <;> cases s <;> simp only [CutOn] <;> exact key (by simp)
  have cor : ∀ x, (rel eps (side eq pl x) = .onto → side eq pl x = 0) →
      CornerOn (fun x => side eq pl x = 0) (rel eps (side eq pl x)) x := by
    intro x hx
    generalize rel eps (side eq pl x) = r at *
    cases r <;> simp only [CornerOn]
    exact hx rfl
  have n := rel_ne_clipped eps
  have na := n (side eq pl T.a)
  have nb := n (side eq pl T.b)
  have nc := n (side eq pl T.c)
  have co := con T.a T.b
  have co1 := con T.b T.c
  have co2 := con T.c T.a
  have ka := cor _ ha
  have kb := cor _ hb
  have kc := cor _ hc
  unfold frontE backE bothE
  generalize rel eps (side eq pl T.a) = r0 at *
  generalize rel eps (side eq pl T.b) = r1 at *
  generalize rel eps (side eq pl T.c) = r2 at *
  split_ifs at e with hF hB
  · cases e
    simp only [frontTris, backTris, List.map_cons, List.map_nil, List.sum_cons, List.sum_nil, around]
    obtain ⟨f0, f1, f2⟩ := hF
    refine ⟨fun hz => ?_, ?_⟩
    · cases r0 <;> cases r1 <;> cases r2 <;> first
        | exact absurd rfl na
        | exact absurd rfl nb
        | exact absurd rfl nc
        | exact absurd rfl f0
        | exact absurd rfl f1
        | exact absurd rfl f2
        | skip
      all_goals
        simp only [CornerOn] at ka kb kc
        simp only [frontPart, backPart]
        try have h1 := hz _ _ ka kb
        try have h2 := hz _ _ kb kc
        try have h3 := hz _ _ kc ka
        constructor <;> omega
    · cases r0 <;> cases r1 <;> cases r2 <;> first
        | exact absurd rfl na
        | exact absurd rfl nb
        | exact absurd rfl nc
        | exact absurd rfl f0
        | exact absurd rfl f1
        | exact absurd rfl f2
        | (simp only [cutEdge]; omega)
  · cases e
    simp only [not_not] at hB
    obtain ⟨rfl, rfl, rfl⟩ := hB
    simp only [frontTris, backTris, List.map_cons, List.map_nil, List.sum_cons, List.sum_nil, around, frontPart, backPart, cutEdge]
    exact ⟨fun _ => ⟨by omega, by omega⟩, by omega⟩
  · rw [Res.bind_eq_ok] at e
    obtain ⟨⟨f', b'⟩, er, e⟩ := e
    cases e
    have hnf : r0 = .behind ∨ r1 = .behind ∨ r2 = .behind := by
      by_contra h
      push Not at h
      exact hF h
    have hnb : r0 ≠ .behind ∨ r1 ≠ .behind ∨ r2 ≠ .behind := by
      by_contra h
      push Not at h
      exact hB (by simpa using h)
    obtain ⟨k1, k2⟩ := run_edges T.toCartesian r0 r1 r2 c0 c1 c2 T.a T.b T.c _ _ _ na nb nc b0 b1 b2 q0 q1 q2 hnf hnb f' b' er w hw
    refine ⟨fun hz => ?_, ?_⟩
    · exact k1 (fun x => side eq pl x = 0) (fun x y h h' => hz x y h h') ka kb kc co co1 co2
    · exact k2

end Geom.Clip.Props

namespace Geom.TMesh
open Spec
open Plane (Eqn Pl Relation)
open Plane.Spec (side)
open Triangle (Tri)
open Clip.Spec (fan)
open Clip (clipTriangle)
open Clip.Props (clip_cases clip_edges frontTris backTris frontE backE bothE frontE_anti backE_anti bothE_anti)
open Clip.Proof (around)

variable {K : Type} [Field K] [LinearOrder K] [IsStrictOrderedRing K]

/-- The corners of a triangle of a mesh. -/
def posTri (m : Mesh K) (t : Ix) : V3 K × V3 K × V3 K := (posAt m t.a, posAt m t.b, posAt m t.c)

theorem posTri_append (vs ws : List (Vertex K)) (ts us : List Ix) (x : Ix)
    (h : x.a < vs.length ∧ x.b < vs.length ∧ x.c < vs.length) : posTri ⟨vs ++ ws, us⟩ x = posTri ⟨vs, ts⟩ x := by
  simp only [posTri]
  rw [posAt_append vs ws ts us _ h.1, posAt_append vs ws ts us _ h.2.1, posAt_append vs ws ts us _ h.2.2]

/-- The triangles of an added fan are the triangles of the fan of its positions. -/
theorem fan_tris (vs : List (Vertex K)) (ws : List (Vertex K)) (ts : List Ix) (hl : ws.length ≤ 4) :
    (fanIx vs.length ws.length).map (posTri ⟨vs ++ ws, ts⟩) = fan (ws.map fun v => v.position) := by
  have p := fun i v h => posAt_right vs ws ts i v h
  match ws, hl with
  | [], _ => rfl
  | [a], _ => rfl
  | [a, b], _ => rfl
  | [a, b, c], _ =>
    have p0 := p 0 a rfl
    have p1 := p 1 b rfl
    have p2 := p 2 c rfl
    rw [Nat.add_zero] at p0
    simp [fanIx, fan, posTri, p0, p1, p2]
  | [a, b, c, d], _ =>
    have p0 := p 0 a rfl
    have p1 := p 1 b rfl
    have p2 := p 2 c rfl
    have p3 := p 3 d rfl
    rw [Nat.add_zero] at p0
    simp [fanIx, fan, posTri, p0, p1, p2, p3, List.range_succ]

/-- What a mesh gets from a step: vertices and triangles, with the given corners. -/
def Adds (s : Mesh K) (vs : List (Vertex K)) (ts : List Ix) (l : List (V3 K × V3 K × V3 K)) : Prop :=
  (∀ x ∈ ts, x.a < s.vertices.length + vs.length ∧ x.b < s.vertices.length + vs.length ∧ x.c < s.vertices.length + vs.length) ∧
  ts.map (posTri ⟨s.vertices ++ vs, s.triangles ++ ts⟩) = l

theorem adds_nil (s : Mesh K) : Adds s [] [] [] := by simp [Adds]

theorem adds_copy (s : Mesh K) (a b c : Vertex K) :
    Adds s [a, b, c] [⟨s.vertices.length, s.vertices.length + 1, s.vertices.length + 2⟩] [(a.position, b.position, c.position)] := by
  refine ⟨by simp, ?_⟩
  have p := fun i v h => posAt_right s.vertices [a, b, c] (s.triangles ++ [⟨s.vertices.length, s.vertices.length + 1, s.vertices.length + 2⟩]) i v h
  have p0 := p 0 a rfl
  have p1 := p 1 b rfl
  have p2 := p 2 c rfl
  simp only [Nat.add_zero] at p0
  simp [posTri, p0, p1, p2]

theorem adds_fan (s : Mesh K) (ws : List (Vertex K)) (hl : ws.length ≤ 4) :
    Adds s ws (fanIx s.vertices.length ws.length) (fan (ws.map fun v => v.position)) :=
  ⟨fanIx_range _ _, fan_tris _ _ _ hl⟩

/-- The triangle of a mesh. -/
def triAt (m : Mesh K) (t : Ix) : Tri K := ⟨posAt m t.a, posAt m t.b, posAt m t.c⟩

theorem clipOne_tris (sz : ℕ) (hsz : 0 < sz) (zero : Vertex K) (nz : ℕ → Bool) (eq : Eqn) (pl : Pl K) (eps : K) (heps : 0 ≤ eps)
    (m : Mesh K) (hm : Valid m) (k : ℕ) (t : Ix) (hk : m.triangles[k]? = some t) (s : Mesh K × Mesh K) :
    ∃ vf vb tf tb r f b, clipOne sz zero nz eq pl eps m k t s =
        .ok (⟨s.1.vertices ++ vf, s.1.triangles ++ tf⟩, ⟨s.2.vertices ++ vb, s.2.triangles ++ tb⟩) ∧
      clipTriangle nz eq pl (triAt m t) eps [] [] = .ok (r, f, b) ∧
      Adds s.1 vf tf (frontTris r (triAt m t) f) ∧ Adds s.2 vb tb (backTris r (triAt m t) b) := by
  have ht := List.mem_of_getElem? hk
  obtain ⟨ha, hb, hc⟩ := (valid_iff m).1 hm t ht
  obtain ⟨a, ha, ha'⟩ := getR_lt _ _ ha
  obtain ⟨b, hb, hb'⟩ := getR_lt _ _ hb
  obtain ⟨c, hc, hc'⟩ := getR_lt _ _ hc
  have hcor : corners m t = .ok (a, b, c) := by simp [corners, ha', hb', hc', Res.bind]
  have hT : triAt m t = ⟨a.position, b.position, c.position⟩ := by simp [triAt, posAt, ha, hb, hc]
  rw [hT]
  set T : Tri K := ⟨a.position, b.position, c.position⟩ with hT
  rcases clip_cases nz eq pl T eps heps with ⟨e, -⟩ | ⟨e, -⟩ | ⟨f, bk, e, -, -, g, -⟩
  · refine ⟨[a, b, c], [], [⟨s.1.vertices.length, s.1.vertices.length + 1, s.1.vertices.length + 2⟩], [], _, _, _, ?_, e, adds_copy .., adds_nil _⟩
    simp only [clipOne, hcor, Res.bind, ← hT, e]
    simp [addTriCopy, addTriangle]
  · refine ⟨[], [a, b, c], [], [⟨s.2.vertices.length, s.2.vertices.length + 1, s.2.vertices.length + 2⟩], _, _, _, ?_, e, adds_nil _, adds_copy ..⟩
    simp only [clipOne, hcor, Res.bind, ← hT, e]
    simp [addTriCopy, addTriangle]
  · have hbc : ∀ w, ∃ v, barycentric sz zero m k w = .ok v ∧ Combines v a b c w :=
      fun w => C41_barycentric sz hsz zero m k t a b c w hk ha hb hc
    choose gv hg1 hg2 using hbc
    have hf4 : f.length ≤ 4 := g.frontMax
    have hb4 : bk.length ≤ 4 := by rcases g.backCount with h | h <;> omega
    have hpos : ∀ l : List (V3 K), (l.map gv).map (fun v => v.position) = l.map T.toCartesian := by
      intro l
      rw [List.map_map]
      exact List.map_congr_left fun w _ => combines_pos _ _ _ _ _ (hg2 w)
    refine ⟨f.map gv, bk.map gv, fanIx s.1.vertices.length f.length, fanIx s.2.vertices.length bk.length, _, _, _, ?_, e, ?_, ?_⟩
    · simp only [clipOne, hcor, Res.bind, ← hT, e]
      rw [addFan_eq _ gv s.1 f hf4 fun v _ => hg1 v]
      simp only
      rw [addFan_eq _ gv s.2 bk hb4 fun v _ => hg1 v]
    · have := adds_fan s.1 (f.map gv) (by simpa using hf4)
      rw [hpos, List.length_map] at this
      exact this
    · have := adds_fan s.2 (bk.map gv) (by simpa using hb4)
      rw [hpos, List.length_map] at this
      exact this

theorem adds_append (s : Mesh K) (vs ws : List (Vertex K)) (ts us : List Ix) (l k : List (V3 K × V3 K × V3 K)) (h : Adds s vs ts l)
    (h' : Adds ⟨s.vertices ++ vs, s.triangles ++ ts⟩ ws us k) : Adds s (vs ++ ws) (ts ++ us) (l ++ k) := by
  obtain ⟨h1, h2⟩ := h
  obtain ⟨h3, h4⟩ := h'
  dsimp only at h3 h4
  simp only [List.append_assoc, List.length_append] at h3 h4
  refine ⟨fun x hx => ?_, ?_⟩
  · rw [List.length_append]
    rcases List.mem_append.1 hx with hx | hx
    · have := h1 x hx; omega
    · have := h3 x hx; omega
  · rw [List.map_append, h4, ← h2]
    congr 1
    refine List.map_congr_left fun x hx => ?_
    have := posTri_append (s.vertices ++ vs) ws (s.triangles ++ ts) (s.triangles ++ (ts ++ us)) x (by
      rw [List.length_append]; exact h1 x hx)
    rw [List.append_assoc] at this
    exact this

theorem clipLoop_tris (sz : ℕ) (hsz : 0 < sz) (zero : Vertex K) (nz : ℕ → ℕ → Bool) (eq : Eqn) (pl : Pl K) (eps : K) (heps : 0 ≤ eps)
    (m : Mesh K) (hm : Valid m) (l : List Ix) (i : ℕ) (hl : ∀ j t, l[j]? = some t → m.triangles[i + j]? = some t)
    (s : Mesh K × Mesh K) :
    ∃ vf vb tf tb parts, clipLoop sz zero nz eq pl eps m i l s =
        .ok (⟨s.1.vertices ++ vf, s.1.triangles ++ tf⟩, ⟨s.2.vertices ++ vb, s.2.triangles ++ tb⟩) ∧
      Adds s.1 vf tf (parts.map Prod.fst).flatten ∧ Adds s.2 vb tb (parts.map Prod.snd).flatten ∧
      List.Forall₂ (fun t p => ∃ nz r f b, clipTriangle nz eq pl (triAt m t) eps [] [] = .ok (r, f, b) ∧
        p = (frontTris r (triAt m t) f, backTris r (triAt m t) b)) l parts := by
  induction l generalizing i s with
  | nil => exact ⟨[], [], [], [], [], by simp [clipLoop], adds_nil _, adds_nil _, .nil⟩
  | cons t l ih =>
    obtain ⟨vf, vb, tf, tb, r, f, b, e1, e, hf, hb⟩ := clipOne_tris sz hsz zero (nz i) eq pl eps heps m hm i t (hl 0 t rfl) s
    obtain ⟨vf', vb', tf', tb', parts, e2, hf', hb', a⟩ := ih (i + 1) (fun j u hj => by
      rw [show i + 1 + j = i + (j + 1) by omega]; exact hl (j + 1) u hj)
      (⟨s.1.vertices ++ vf, s.1.triangles ++ tf⟩, ⟨s.2.vertices ++ vb, s.2.triangles ++ tb⟩)
    refine ⟨vf ++ vf', vb ++ vb', tf ++ tf', tb ++ tb', (frontTris r (triAt m t) f, backTris r (triAt m t) b) :: parts, ?_,
      adds_append _ _ _ _ _ _ _ hf hf', adds_append _ _ _ _ _ _ _ hb hb', .cons ⟨_, _, _, _, e, rfl⟩ a⟩
    rw [clipLoop, e1, Res.bind_ok]
    simpa only [List.append_assoc] using e2

/-- The sum of the values of the edges. -/
def edgeSum (w : V3 K → V3 K → ℤ) (es : List (V3 K × V3 K)) : ℤ := (es.map fun e => w e.1 e.2).sum

theorem edgeSum_posEdges (w : V3 K → V3 K → ℤ) (m : Mesh K) :
    edgeSum w (posEdges m) = ((m.triangles.map (posTri m)).map (around w)).sum := by
  unfold edgeSum posEdges
  generalize m.triangles = ts
  induction ts with
  | nil => rfl
  | cons t ts ih =>
    simp only [List.flatMap_cons, List.map_append, List.sum_append, List.map_cons, List.map_nil, List.sum_cons, List.sum_nil, ih, around,
      posTri]
    omega

/-- The value that counts an edge with its direction. -/
def dirW (p q x y : V3 K) : ℤ := (if (x, y) = (p, q) then 1 else 0) - if (x, y) = (q, p) then 1 else 0

theorem dirW_anti (p q x y : V3 K) : dirW p q y x = -dirW p q x y := by
  unfold dirW
  have h1 : ((y, x) = (p, q)) = ((x, y) = (q, p)) := by simp [and_comm]
  have h2 : ((y, x) = (q, p)) = ((x, y) = (p, q)) := by simp [and_comm]
  simp only [h1, h2]
  omega

theorem edgeSum_dirW (p q : V3 K) (es : List (V3 K × V3 K)) : edgeSum (dirW p q) es = es.count (p, q) - es.count (q, p) := by
  unfold edgeSum
  induction es with
  | nil => rfl
  | cons e es ih =>
    rw [List.map_cons, List.sum_cons, ih, List.count_cons, List.count_cons]
    have h : ∀ u : V3 K × V3 K, (e == u) = decide (e = u) := fun u => by
      by_cases h : e = u <;> simp [h]
    simp only [dirW, h, decide_eq_true_eq]
    push_cast
    split_ifs <;> omega

theorem paired_iff (p q : V3 K) (es : List (V3 K × V3 K)) : Paired es p q ↔ edgeSum (dirW p q) es = 0 := by
  rw [edgeSum_dirW, Paired]; omega

/-- Opposite values cancel along the edges of a closed mesh. -/
theorem edgeSum_closed (w : V3 K → V3 K → ℤ) (hw : ∀ x y, w y x = -w x y) (es : List (V3 K × V3 K)) (h : ∀ p q, Paired es p q) :
    edgeSum w es = 0 := by
  have hp : (es.map Prod.swap).Perm es := by
    rw [List.perm_iff_count]
    rintro ⟨p, q⟩
    have : (es.map Prod.swap).count (Prod.swap (q, p)) = es.count (q, p) := List.count_map_of_injective _ _ Prod.swap_injective _
    rw [Prod.swap_prod_mk] at this
    rw [this]
    exact h q p
  have h1 : edgeSum w (es.map Prod.swap) = edgeSum w es := (hp.map _).sum_eq
  have h2 : edgeSum w (es.map Prod.swap) = -edgeSum w es := by
    unfold edgeSum
    rw [List.map_map]
    clear hp h h1
    induction es with
    | nil => rfl
    | cons e es ih =>
      rw [List.map_cons, List.map_cons, List.sum_cons, List.sum_cons, ih]
      simp only [Function.comp_apply, Prod.fst_swap, Prod.snd_swap, hw e.1 e.2]
      omega
  omega

/-- C102: if no corner is nearer to the plane than the tolerance without being on it, `ClipMesh` opens a closed mesh only along the
plane: each edge of the two meshes which is not in the plane is used in both directions equally often. And the two meshes fit together:
all edges of both, also those in the plane, are used in both directions equally often. `C102_band_needed` shows that the
condition is needed. -/
theorem C102_edges (sz : ℕ) (hsz : 0 < sz) (zero : Vertex K) (nz : ℕ → ℕ → Bool) (eq : Eqn) (pl : Pl K) (eps : K) (heps : 0 ≤ eps)
    (m front back : Mesh K) (hm : Valid m) (hex : ∀ t ∈ m.triangles, ExactAt eq pl eps m t) (hc : ClosedMesh m) :
    ∃ f b, clipMesh sz zero nz eq pl eps m front back = .ok (f, b) ∧
      (∀ p q, ¬ (side eq pl p = 0 ∧ side eq pl q = 0) → Paired (posEdges f) p q ∧ Paired (posEdges b) p q) ∧
      ∀ p q, Paired (posEdges f ++ posEdges b) p q := by
  obtain ⟨vf, vb, tf, tb, parts, e, ⟨-, hf⟩, ⟨-, hb⟩, hp⟩ := clipLoop_tris sz hsz zero nz eq pl eps heps m hm m.triangles 0
    (fun j t h => by rw [Nat.zero_add]; exact h) (clear front, clear back)
  simp only [clear, List.nil_append] at e hf hb
  have sumF : ∀ w, edgeSum w (posEdges ⟨vf, tf⟩) = ((parts.map Prod.fst).flatten.map (around w)).sum := fun w => by
    rw [edgeSum_posEdges]; exact congrArg (fun l => (l.map (around w)).sum) hf
  have sumB : ∀ w, edgeSum w (posEdges ⟨vb, tb⟩) = ((parts.map Prod.snd).flatten.map (around w)).sum := fun w => by
    rw [edgeSum_posEdges]; exact congrArg (fun l => (l.map (around w)).sum) hb
  have key : ∀ w : V3 K → V3 K → ℤ, (∀ x y, w y x = -w x y) →
      ((∀ x y, side eq pl x = 0 → side eq pl y = 0 → w x y = 0) →
        edgeSum w (posEdges ⟨vf, tf⟩) = edgeSum (frontE w eq pl eps) (posEdges m) ∧
        edgeSum w (posEdges ⟨vb, tb⟩) = edgeSum (backE w eq pl eps) (posEdges m)) ∧
      edgeSum w (posEdges ⟨vf, tf⟩) + edgeSum w (posEdges ⟨vb, tb⟩) = edgeSum (bothE w eq pl eps) (posEdges m) := by
    intro w hw
    rw [sumF, sumB, edgeSum_posEdges, edgeSum_posEdges, edgeSum_posEdges]
    clear e hf hb sumF sumB hc
    generalize m.triangles = ts at hp hex
    induction hp with
    | nil => exact ⟨fun _ => ⟨rfl, rfl⟩, rfl⟩
    | @cons t p ts parts h h' ih =>
      obtain ⟨nz, r, f, b, h, rfl⟩ := h
      have ht := hex t (List.mem_cons_self ..)
      obtain ⟨i1, i2⟩ := ih fun t ht => hex t (List.mem_cons_of_mem _ ht)
      obtain ⟨k1, k2⟩ := clip_edges nz eq pl (triAt m t) eps heps (by
        rintro x (rfl | rfl | rfl)
        · exact ht 0
        · exact ht 1
        · exact ht 2) r f b h w hw
      simp only [List.map_cons, List.flatten_cons, List.map_append, List.sum_append, List.sum_cons]
      have ea : ∀ v : V3 K → V3 K → ℤ, around v (posTri m t) = v (triAt m t).a (triAt m t).b + v (triAt m t).b (triAt m t).c +
        v (triAt m t).c (triAt m t).a := fun v => rfl
      simp only [ea]
      refine ⟨fun hz => ?_, by omega⟩
      have := i1 hz
      have := k1 hz
      omega
  refine ⟨⟨vf, tf⟩, ⟨vb, tb⟩, e, fun p q hpq => ?_, fun p q => ?_⟩
  · obtain ⟨k, -⟩ := key (dirW p q) (dirW_anti p q)
    have := k fun x y hx hy => by
      unfold dirW
      rw [if_neg, if_neg, sub_self]
      · rintro ⟨rfl, rfl⟩; exact hpq ⟨hy, hx⟩
      · rintro ⟨rfl, rfl⟩; exact hpq ⟨hx, hy⟩
    rw [paired_iff, paired_iff, this.1, this.2]
    exact ⟨edgeSum_closed _ (frontE_anti (dirW_anti p q) eq pl eps) _ hc, edgeSum_closed _ (backE_anti (dirW_anti p q) eq pl eps) _ hc⟩
  · obtain ⟨-, k⟩ := key (dirW p q) (dirW_anti p q)
    rw [edgeSum_closed _ (bothE_anti (dirW_anti p q) eq pl eps) _ hc] at k
    rw [paired_iff]
    unfold edgeSum at k ⊢
    rw [List.map_append, List.sum_append]
    exact k

/-- Without a tolerance every closed mesh is cut like that. -/
theorem C102_exact (sz : ℕ) (hsz : 0 < sz) (zero : Vertex K) (nz : ℕ → ℕ → Bool) (eq : Eqn) (pl : Pl K)
    (m front back : Mesh K) (hm : Valid m) (hc : ClosedMesh m) :
    ∃ f b, clipMesh sz zero nz eq pl 0 m front back = .ok (f, b) ∧
      (∀ p q, ¬ (side eq pl p = 0 ∧ side eq pl q = 0) → Paired (posEdges f) p q ∧ Paired (posEdges b) p q) ∧
      ∀ p q, Paired (posEdges f ++ posEdges b) p q :=
  C102_edges sz hsz zero nz eq pl 0 le_rfl m front back hm (fun _ _ _ h1 h2 => le_antisymm h2 (by simpa using h1)) hc

theorem closed_of_perm (m : Mesh ℚ) (h : ((posEdges m).map Prod.swap).isPerm (posEdges m) = true) : ClosedMesh m := by
  intro p q
  have : ((posEdges m).map Prod.swap).count (Prod.swap (p, q)) = (posEdges m).count (p, q) :=
    List.count_map_of_injective _ _ Prod.swap_injective _
  rw [Paired, ← this, (List.isPerm_iff.1 h).count_eq]
  rfl

/-- The tetrahedron of C97 is closed; the front mesh of its cut has 9 edges, of which 3 are in the plane. -/
theorem exTetra_ok : Valid exTetra ∧ (∀ t ∈ exTetra.triangles, ExactAt .nxEqD ⟨⟨1, 0, 0⟩, 1 / 2⟩ (1 / 10) exTetra t) ∧ ClosedMesh exTetra ∧
    (clipMesh 4 ⟨0, 0, 0⟩ (fun _ _ => false) .nxEqD ⟨⟨1, 0, 0⟩, 1 / 2⟩ (1 / 10) exTetra Mesh.empty Mesh.empty).map
      (fun r => ((posEdges r.1).length, (posEdges r.2).length,
        ((posEdges r.1).filter fun e => e.1.x = 1 / 2 ∧ e.2.x = 1 / 2).length)) = .ok (9, 21, 3) := by
  refine ⟨(valid_iff _).2 (by decide +kernel), ?_, closed_of_perm _ (by decide +kernel), by decide +kernel⟩
  unfold ExactAt
  decide +kernel

example := C102_edges 4 (by norm_num) ⟨0, 0, 0⟩ (fun _ _ => false) _ _ _ (by norm_num) exTetra Mesh.empty Mesh.empty exTetra_ok.1 exTetra_ok.2.1
  exTetra_ok.2.2.1

/-- A closed tetrahedron with a corner behind the plane x = 0, but not farther from it than 1/10. -/
def bandTetra : Mesh ℚ :=
  ⟨[⟨⟨-1 / 10, 0, 0⟩, 0, 0⟩, ⟨⟨1, 0, 0⟩, 0, 0⟩, ⟨⟨-1, 1, 0⟩, 0, 0⟩, ⟨⟨-1, 0, 1⟩, 0, 0⟩], [⟨0, 2, 1⟩, ⟨0, 1, 3⟩, ⟨0, 3, 2⟩, ⟨1, 2, 3⟩]⟩

/-- With a corner in the tolerance the meshes are also opened beside the plane, and do not fit together. -/
theorem C102_band_needed : ∃ (pl : Pl ℚ) (eps : ℚ) (m f b : Mesh ℚ) (p q : V3 ℚ), 0 ≤ eps ∧ Plane.Spec.UnitN pl ∧ Valid m ∧ ClosedMesh m ∧
    clipMesh 4 ⟨0, 0, 0⟩ (fun _ _ => false) .nxEqD pl eps m Mesh.empty Mesh.empty = .ok (f, b) ∧
    side .nxEqD pl q = 1 ∧ ¬ Paired (posEdges f) p q ∧ ¬ Paired (posEdges f ++ posEdges b) p q := by
  have hv : Valid bandTetra := (valid_iff _).2 (by decide +kernel)
  obtain ⟨f, b, parts, e, -⟩ := C27_partial 4 (by norm_num) (⟨0, 0, 0⟩ : Vertex ℚ) (fun _ _ => false) .nxEqD ⟨⟨1, 0, 0⟩, 0⟩ (1 / 10)
    (by norm_num) bandTetra Mesh.empty Mesh.empty hv
  have e2 : (clipMesh 4 ⟨0, 0, 0⟩ (fun _ _ => false) .nxEqD ⟨⟨1, 0, 0⟩, 0⟩ (1 / 10) bandTetra Mesh.empty Mesh.empty).map
      (fun r => decide ((posEdges r.1).count (⟨0, 0, 0⟩, ⟨1, 0, 0⟩) = (posEdges r.1).count (⟨1, 0, 0⟩, ⟨0, 0, 0⟩) ∨
        (posEdges r.1 ++ posEdges r.2).count (⟨0, 0, 0⟩, ⟨1, 0, 0⟩) = (posEdges r.1 ++ posEdges r.2).count (⟨1, 0, 0⟩, ⟨0, 0, 0⟩))) =
      .ok false := by decide +kernel
  rw [e] at e2
  simp only [Res.map, Res.bind, Res.ok.injEq, decide_eq_false_iff_not, not_or] at e2
  refine ⟨⟨⟨1, 0, 0⟩, 0⟩, 1 / 10, bandTetra, f, b, ⟨0, 0, 0⟩, ⟨1, 0, 0⟩, by norm_num, by norm_num [Plane.Spec.UnitN], hv, ?_, e,
    by norm_num [side], e2.1, e2.2⟩
  exact closed_of_perm _ (by decide +kernel)

/-- Generated solids without a border are closed meshes. -/
theorem closed_of_watertight (m : Mesh ℝ) (fs : List Gen.Spec.Face) (hf : Gen.Spec.NewFaces Mesh.empty m fs) (hw : Gen.Spec.Watertight fs) :
    Valid m ∧ ClosedMesh m := by
  obtain ⟨ts, h1, h2⟩ := hf
  simp only [Mesh.empty, List.nil_append] at h1
  have hface : ∀ t ∈ ts, ∃ y ∈ fs, Gen.Spec.face m t = some y := by
    intro t ht
    have := List.mem_map_of_mem (f := Gen.Spec.face m) ht
    rw [h2] at this
    obtain ⟨y, hy, e⟩ := List.mem_map.1 this
    exact ⟨y, hy, e.symm⟩
  have hpos : ∀ t y, Gen.Spec.face m t = some y → y = posTri m t ∧ t.a < m.vertices.length ∧ t.b < m.vertices.length ∧
      t.c < m.vertices.length := by
    intro t y e
    unfold Gen.Spec.face at e
    split at e
    · rename_i a b c ha hb hc
      cases e
      refine ⟨?_, (List.getElem?_eq_some_iff.1 ha).1, (List.getElem?_eq_some_iff.1 hb).1, (List.getElem?_eq_some_iff.1 hc).1⟩
      simp [posTri, posAt, ha, hb, hc]
    · cases e
  have hfs : fs = ts.map (posTri m) := by
    have : fs.map some = (ts.map (posTri m)).map some := by
      rw [← h2, List.map_map]
      refine List.map_congr_left fun t ht => ?_
      obtain ⟨y, -, e⟩ := hface t ht
      rw [e, (hpos t y e).1]
      rfl
    exact List.map_injective_iff.2 (Option.some_injective _) this
  constructor
  · rw [valid_iff, h1]
    intro t ht
    obtain ⟨y, -, e⟩ := hface t ht
    exact (hpos t y e).2
  · have he : posEdges m = fs.flatMap Gen.Spec.edges := by
      rw [hfs, posEdges, h1, List.flatMap_map]
      rfl
    intro p q
    by_cases hpq : p = q
    · rw [hpq]; rfl
    · have := hw.2 p q hpq
      unfold Gen.Spec.uses at this
      rw [Paired, he]
      convert this

/-- C102 for generated cuboids, which are cut by any plane. -/
theorem C102_cuboid (sx sy : ℝ) (hx : sx = 1 ∨ sx = -1) (hy : sy = 1 ∨ sy = -1) (d : Gen.CuboidDesc)
    (h1 : (max 1 d.segsY + 1) * (max 1 d.segsX + 1) ≤ 2 ^ 32) (h2 : (max 1 d.segsY + 1) * (max 1 d.segsZ + 1) ≤ 2 ^ 32)
    (h3 : (max 1 d.segsZ + 1) * (max 1 d.segsX + 1) ≤ 2 ^ 32) (sz : ℕ) (hsz : 0 < sz) (zero : Vertex ℝ) (nz : ℕ → ℕ → Bool) (eq : Eqn)
    (pl : Pl ℝ) :
    ∃ m f b, Gen.genCuboid sx sy d Mesh.empty = .ok m ∧ clipMesh sz zero nz eq pl 0 m Mesh.empty Mesh.empty = .ok (f, b) ∧
      (∀ p q, ¬ (side eq pl p = 0 ∧ side eq pl q = 0) → Paired (posEdges f) p q ∧ Paired (posEdges b) p q) ∧
      ∀ p q, Paired (posEdges f ++ posEdges b) p q := by
  obtain ⟨m, fs, e, hf, hw⟩ := Gen.C92_cuboid sx sy hx hy d Mesh.empty h1 h2 h3
  obtain ⟨hv, hc⟩ := closed_of_watertight m fs hf hw
  obtain ⟨f, b, e', h⟩ := C102_exact sz hsz zero nz eq pl m Mesh.empty Mesh.empty hv hc
  exact ⟨m, f, b, e, e', h⟩

example := C102_cuboid 1 (-1) (by norm_num) (by norm_num) ⟨⟨4, 1, 3⟩, 3, 2, 1, true⟩ (by norm_num) (by norm_num) (by norm_num) 4 (by norm_num)
  ⟨0, 0, 0⟩ (fun _ _ => false) .nxEqD ⟨⟨1, 0, 0⟩, 1⟩

end Geom.TMesh
