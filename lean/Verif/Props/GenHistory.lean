import Verif.Props.GenCurve
import Verif.Props.TriangleMesh

/-
  C36: the indices of a mesh stay valid over each editing history.
-/
set_option autoImplicit false
set_option linter.unusedSectionVars false

namespace Geom.Gen
open Spec
open TMesh (Mesh Vertex Ix addVertex addTriangle)
open TMesh.Spec (Valid corner)

/-! Calls that return have bounds which end the loops. -/

theorem bind_inv {α β : Type} {r : Res α} {f : α → Res β} {b : β} (h : r.bind f = .ok b) : ∃ a, r = .ok a ∧ f a = .ok b := by
  cases r with
  | ok a => exact ⟨a, rfl, h⟩
  | throw => cases h
  | ub => cases h
  | fuel => cases h

theorem loop32_returns {S : Type} (body : ℕ → S → Res S) (cont : ℕ → Bool) (hc : ∀ i, i < 2 ^ 32 → cont i = true) :
    ∀ fuel i s r, i < 2 ^ 32 → loop32 body cont fuel i s ≠ .ok r := by
  intro fuel
  induction fuel with
  | zero => intro i s r _ h; cases h
  | succ k ih =>
    intro i s r hi h
    simp only [loop32] at h
    rw [if_pos (hc i hi)] at h
    obtain ⟨a, _, h⟩ := bind_inv h
    exact ih _ _ _ (Nat.mod_lt _ (by norm_num)) h

theorem forLe_returns {S : Type} {lo hi : ℕ} {body : ℕ → S → Res S} {s r : S} (hl : lo < 2 ^ 32) (h : forLe lo hi body s = .ok r) :
    hi + 1 < 2 ^ 32 := by
  by_contra hn
  exact loop32_returns _ _ (fun i hi' => decide_eq_true (by omega)) _ _ _ _ hl h

theorem forLt_returns {S : Type} {lo hi : ℕ} {body : ℕ → S → Res S} {s r : S} (hl : lo < 2 ^ 32) (h : forLt lo hi body s = .ok r) :
    hi < 2 ^ 32 := by
  by_contra hn
  exact loop32_returns _ _ (fun i hi' => decide_eq_true (by omega)) _ _ _ _ hl h

/-- The first iteration returns. -/
theorem forLe_first {S : Type} {lo hi : ℕ} {body : ℕ → S → Res S} {s r : S} (hlo : lo ≤ hi) (h : forLe lo hi body s = .ok r) :
    ∃ s', body lo s = .ok s' := by
  unfold forLe fuel32 loop32 at h
  rw [if_pos (decide_eq_true hlo)] at h
  obtain ⟨a, h, _⟩ := bind_inv h
  exact ⟨a, h⟩

theorem forLt_first {S : Type} {lo hi : ℕ} {body : ℕ → S → Res S} {s r : S} (hlo : lo < hi) (h : forLt lo hi body s = .ok r) :
    ∃ s', body lo s = .ok s' := by
  unfold forLt fuel32 loop32 at h
  rw [if_pos (decide_eq_true hlo)] at h
  obtain ⟨a, h, _⟩ := bind_inv h
  exact ⟨a, h⟩

/-- Two nested loops. -/
theorem nest_returns {S : Type} {lo V U : ℕ} {body : ℕ → ℕ → S → Res S} {s r : S} (hl : lo < 2 ^ 32)
    (h : forLe 0 V (fun v s => forLe lo U (body v) s) s = .ok r) : V + 1 < 2 ^ 32 ∧ U + 1 < 2 ^ 32 := by
  obtain ⟨a, h'⟩ := forLe_first (Nat.zero_le _) h
  exact ⟨forLe_returns (by norm_num) h, forLe_returns hl h'⟩

theorem nestA_returns {S A : Type} {lo V U : ℕ} {body : ℕ → S × A → ℕ → S → Res S} {k : ℕ → S × A → S → Res (S × A)} {s r : S × A} (hl : lo < 2 ^ 32)
    (h : forLe 0 V (fun v s => (forLe lo U (body v s) s.1).bind (k v s)) s = .ok r) : V + 1 < 2 ^ 32 ∧ U + 1 < 2 ^ 32 := by
  obtain ⟨a, h'⟩ := forLe_first (Nat.zero_le _) h
  obtain ⟨b, h', _⟩ := bind_inv h'
  exact ⟨forLe_returns (by norm_num) h, forLe_returns hl h'⟩

theorem mantleVerts_returns {a0 st rx rz hh side : ℝ} {H V : ℕ} {m r : M} (h : mantleVerts a0 st rx rz hh side H V m = .ok r) :
    H + 1 < 2 ^ 32 ∧ V + 1 < 2 ^ 32 := by
  obtain ⟨a, h, _⟩ := bind_inv h
  exact nestA_returns (lo := 0) (by norm_num) h

theorem discVerts_returns {a0 st rx rz y side : ℝ} {top : Bool} {H C : ℕ} {m r : M} (h : discVerts a0 st rx rz y side top H C m = .ok r) :
    H + 1 < 2 ^ 32 ∧ C + 1 < 2 ^ 32 := by
  obtain ⟨a, h, _⟩ := bind_inv h
  exact nestA_returns (lo := 1) (by norm_num) h

theorem coneVerts_returns {st rx rz hh : ℝ} {H V : ℕ} {m r : M} (h : coneVerts st rx rz hh H V m = .ok r) :
    H + 1 < 2 ^ 32 ∧ V + 1 < 2 ^ 32 := by
  obtain ⟨a, h, _⟩ := bind_inv h
  exact nestA_returns (lo := 1) (by norm_num) h

theorem ringVerts_returns {st : ℝ} {i o : V2 ℝ} {y side : ℝ} {top : Bool} {H C : ℕ} {m r : M} (h : ringVerts st i o y side top H C m = .ok r) :
    H + 1 < 2 ^ 32 ∧ C + 1 < 2 ^ 32 := by
  obtain ⟨a, h, _⟩ := bind_inv h
  exact nestA_returns (lo := 0) (by norm_num) h

theorem spiralCover_returns {d : SpiralDesc} {t p side : ℝ} {top : Bool} {V C : ℕ} {m r : M} (h : spiralCover d t p side top V C m = .ok r) :
    V + 1 < 2 ^ 32 ∧ C + 1 < 2 ^ 32 := by
  obtain ⟨a, h, _⟩ := bind_inv h
  exact nestA_returns (lo := 1) (by norm_num) h

theorem opt_returns {C : ℕ} {x : Res M} {m r : M} (h : (if C = 0 then .ok m else x) = .ok r) (hx : x = .ok r → C + 1 < 2 ^ 32) : C + 1 < 2 ^ 32 := by
  split_ifs at h with hc
  · omega
  · exact hx h

theorem opt_returns' {C : ℕ} {x : Res M} {m r : M} (h : (if C > 0 then x else .ok m) = .ok r) (hx : x = .ok r → C + 1 < 2 ^ 32) : C + 1 < 2 ^ 32 := by
  split_ifs at h with hc
  · exact hx h
  · omega

/-! The history. -/

/-- The calls of mesh generators, with any descriptors. (For the senses of rotation, see DESIGN.md.) -/
inductive Generator : (M → Res M) → Prop
  | cuboid (sx sy : ℝ) (hx : sx = 1 ∨ sx = -1) (hy : sy = 1 ∨ sy = -1) (d : CuboidDesc) : Generator (genCuboid sx sy d)
  | ellipsoid (d : EllipsoidDesc) : Generator (genEllipsoid d)
  | cone (d : ConeDesc) : Generator (genCone d)
  | cylinder (d : CylinderDesc) : Generator (genCylinder d)
  | pie (d : PieDesc) : Generator (genPie d)
  | pipe (d : PipeDesc) : Generator (genPipe d)
  | capsule (d : CapsuleDesc) : Generator (genCapsule d)
  | torus (d : TorusDesc) : Generator (genTorus d)
  | torusKnot (sg : ℝ) (d : KnotDesc) : Generator (genTorusKnot sg d)
  | spiral (d : SpiralDesc) : Generator (genSpiral d)
  | curve (sg : ℝ) (d : CurveDesc) : Generator (genCurve sg d)
  | bezierPatch (d : PatchDesc) : Generator (genBezierPatch d)

theorem curve_returns (sg : ℝ) (d : CurveDesc) (m m' : M) (h : genCurve sg d m = .ok m') :
    (∃ f, d.curveFunction = some f) ∧ max 3 d.segsX < 2 ^ 32 ∧ max 3 d.segsY < 2 ^ 32 := by
  refine ⟨?_, ?_⟩
  · cases hf : d.curveFunction with
    | some f => exact ⟨f, rfl⟩
    | none => rw [C47_null sg d m hf] at h; cases h
  · obtain ⟨l, _, h⟩ := bind_inv h
    obtain ⟨r, h, _⟩ := bind_inv h
    obtain ⟨a, h'⟩ := forLt_first (by omega) h
    exact ⟨forLt_returns (by norm_num) h, forLt_returns (by norm_num) h'⟩

/-- Whenever a generator returns, it has appended vertices and triangles of these. -/
theorem generator_grows {g : M → Res M} (hg : Generator g) {m m' : M} (h : g m = .ok m') : ∃ nv nt P, Grows m m' nv nt P := by
  cases hg with
  | cuboid sx sy hx hy d =>
    have key : ∀ {m r : M} {rot : V3 ℝ → V3 ℝ} {a b c : ℝ} {H V : ℕ} {alt : Bool}, buildFace m rot a b c H V alt = .ok r →
        V + 1 < 2 ^ 32 ∧ H + 1 < 2 ^ 32 := by
      intro m r rot a b c H V alt h
      obtain ⟨_, h, _⟩ := bind_inv h
      exact nest_returns (by norm_num) h
    have h0 := h
    obtain ⟨_, h1, h⟩ := bind_inv h
    obtain ⟨_, h2, h⟩ := bind_inv h
    obtain ⟨_, h3, h⟩ := bind_inv h
    obtain ⟨r, e, hgr⟩ := C42_appends sx sy hx hy d m (key h1).2 (key h1).1 (key h3).2
    rw [e] at h0
    cases h0
    exact ⟨_, _, _, hgr⟩
  | ellipsoid d =>
    have h0 := h
    obtain ⟨_, h1, h⟩ := bind_inv h
    obtain ⟨b1, b2⟩ := nest_returns (by norm_num) h1
    obtain ⟨r, e, hgr⟩ := C43_appends d m b2 b1
    rw [e] at h0
    cases h0
    exact ⟨_, _, _, hgr⟩
  | cone d =>
    have h0 := h
    obtain ⟨_, h1, h⟩ := bind_inv h
    obtain ⟨_, h2, h⟩ := bind_inv h
    obtain ⟨b1, b2⟩ := coneVerts_returns h1
    obtain ⟨r, e, hgr, _⟩ := C44_cone d m b1 b2 (opt_returns' h2 fun h => (discVerts_returns h).2)
    rw [e] at h0
    cases h0
    exact ⟨_, _, _, hgr⟩
  | cylinder d =>
    have h0 := h
    obtain ⟨_, h1, h⟩ := bind_inv h
    obtain ⟨_, h2, h⟩ := bind_inv h
    obtain ⟨_, h3, h⟩ := bind_inv h
    obtain ⟨b1, b2⟩ := mantleVerts_returns h1
    obtain ⟨r, e, hgr, _⟩ := C44_cylinder d m b1 b2 (opt_returns h2 fun h => (discVerts_returns h).2) (opt_returns h3 fun h => (discVerts_returns h).2)
    rw [e] at h0
    cases h0
    exact ⟨_, _, _, hgr⟩
  | pie d =>
    have h0 := h
    obtain ⟨_, h1, h⟩ := bind_inv h
    obtain ⟨_, h2, h⟩ := bind_inv h
    obtain ⟨_, h3, h⟩ := bind_inv h
    obtain ⟨_, h4, h⟩ := bind_inv h
    obtain ⟨b1, b2⟩ := mantleVerts_returns h1
    obtain ⟨r, e, hgr, _⟩ := C45_pie d m b1 b2 (opt_returns' h4 fun h => (discVerts_returns h).2)
    rw [e] at h0
    cases h0
    exact ⟨_, _, _, hgr⟩
  | pipe d =>
    have h0 := h
    obtain ⟨_, h1, h⟩ := bind_inv h
    obtain ⟨_, h2, h⟩ := bind_inv h
    obtain ⟨_, h3, h⟩ := bind_inv h
    obtain ⟨_, h4, h⟩ := bind_inv h
    obtain ⟨b1, b2⟩ := mantleVerts_returns h1
    obtain ⟨r, e, hgr, _⟩ := C45_pipe d m b1 b2 (opt_returns h3 fun h => (ringVerts_returns h).2) (opt_returns h4 fun h => (ringVerts_returns h).2)
    rw [e] at h0
    cases h0
    exact ⟨_, _, _, hgr⟩
  | capsule d =>
    have h0 := h
    obtain ⟨_, h1, h⟩ := bind_inv h
    obtain ⟨_, h2, h⟩ := bind_inv h
    obtain ⟨b1, b2⟩ := mantleVerts_returns h1
    obtain ⟨b3, _⟩ := nest_returns (by norm_num) h2
    obtain ⟨r, e, hgr, _⟩ := C45_capsule d m b1 b2 b3
    rw [e] at h0
    cases h0
    exact ⟨_, _, _, hgr⟩
  | torus d =>
    have h0 := h
    obtain ⟨_, h1, h⟩ := bind_inv h
    obtain ⟨b1, b2⟩ := nest_returns (by norm_num) h1
    obtain ⟨r, e, hgr⟩ := C46_appends d m b2 b1
    rw [e] at h0
    cases h0
    exact ⟨_, _, _, hgr⟩
  | torusKnot sg d =>
    obtain ⟨_, b1, b2⟩ := curve_returns sg _ m m' h
    obtain ⟨r, e, hgr⟩ := C47_knot sg d m b1 b2
    rw [e] at h
    cases h
    exact ⟨_, _, _, hgr⟩
  | spiral d =>
    have h0 := h
    obtain ⟨N, h1, h⟩ := bind_inv h
    obtain ⟨_, h2, h⟩ := bind_inv h
    obtain ⟨_, h3, h⟩ := bind_inv h
    obtain ⟨_, h4, h⟩ := bind_inv h
    obtain ⟨b1, b2⟩ := nest_returns (by norm_num) h2
    have hN : max 0 d.turns * (max 3 d.segsX : ℕ) < 2 ^ 32 - 1 := by
      split_ifs at h1 with hh
      cases h1
      have := (Nat.floor_lt (by positivity : 0 ≤ max 0 d.turns * ((max 3 d.segsX : ℕ) : ℝ))).1 (show _ < 2 ^ 32 - 1 by omega)
      push_cast at this ⊢
      linarith
    obtain ⟨r, e, hgr, _⟩ := C47_spiral d m hN b1 (opt_returns h3 fun h => (spiralCover_returns h).2) (opt_returns h4 fun h => (spiralCover_returns h).2)
    rw [e] at h0
    cases h0
    exact ⟨_, _, _, hgr⟩
  | curve sg d =>
    obtain ⟨⟨f, hf⟩, b1, b2⟩ := curve_returns sg _ m m' h
    obtain ⟨r, e, hgr, _⟩ := C47_curve sg d f m hf b1 b2
    rw [e] at h
    cases h
    exact ⟨_, _, _, hgr⟩
  | bezierPatch d =>
    have h0 := h
    obtain ⟨_, h1, h⟩ := bind_inv h
    obtain ⟨b1, b2⟩ := nest_returns (by norm_num) h1
    obtain ⟨r, e, hgr, _⟩ := C47_patch d m b2 b1
    rw [e] at h0
    cases h0
    exact ⟨_, _, _, hgr⟩

/-- A mesh that arises from the empty one by adding vertices, adding triangles of existing vertices, appending a mesh with valid
indices (or itself), clearing, and calls of generators. -/
inductive Edited (zero : Vertex ℝ) : M → Prop
  | empty : Edited zero ⟨[], []⟩
  | addVertex (m : M) (v : Vertex ℝ) (h : Edited zero m) : Edited zero (addVertex m v).1
  | addTriangle (m : M) (a b c : ℕ) (h : Edited zero m) (ha : a < m.vertices.length) (hb : b < m.vertices.length) (hc : c < m.vertices.length) :
      Edited zero (addTriangle m ⟨a, b, c⟩).1
  | append (m m' : M) (o : Option M) (h : Edited zero m) (ho : ∀ x, o = some x → Valid x) (hr : TMesh.append zero m o = .ok m') : Edited zero m'
  | clear (m : M) (h : Edited zero m) : Edited zero (TMesh.clear m)
  | generate (g : M → Res M) (m m' : M) (h : Edited zero m) (hg : Generator g) (hr : g m = .ok m') : Edited zero m'

theorem grows_valid {m m' : M} {nv nt : ℕ} {P : Vertex ℝ → Prop} (h : Valid m) (hg : Grows m m' nv nt P) : Valid m' := by
  obtain ⟨vs, e, hl, _⟩ := hg.verts
  obtain ⟨ts, e', _, hts⟩ := hg.tris
  intro t ht i
  rw [e'] at ht
  rw [e, List.length_append, hl]
  rcases List.mem_append.1 ht with ht | ht
  · exact Nat.lt_add_right _ (h t ht i)
  · refine (hts t ht (corner t i) ?_).2
    fin_cases i <;> simp [corner]

/-- C36: the indices are valid after each editing history. -/
theorem C36 (zero : Vertex ℝ) (m : M) (h : Edited zero m) : Valid m := by
  induction h with
  | empty => intro t ht; cases ht
  | addVertex m v _ ih =>
    intro t ht i
    have := ih t ht i
    simp only [TMesh.addVertex, List.length_append]
    omega
  | addTriangle m a b c _ ha hb hc ih =>
    intro t ht i
    rcases List.mem_append.1 ht with ht | ht
    · exact ih t ht i
    · rw [List.mem_singleton] at ht
      subst ht
      fin_cases i
      · exact ha
      · exact hb
      · exact hc
  | append m m' o _ ho hr ih =>
    cases o with
    | some x =>
      obtain ⟨r, e, _, _, _, hv⟩ := TMesh.C37_append zero m x ih (ho x rfl)
      rw [e] at hr
      cases hr
      exact hv
    | none =>
      by_cases hm : m = Mesh.empty
      · subst hm
        rw [(TMesh.C38_partial zero Mesh.empty).2 rfl] at hr
        obtain ⟨r, e, _, _, _, hv⟩ := TMesh.C37_append zero Mesh.empty Mesh.empty ih ih
        rw [e] at hr
        cases hr
        exact hv
      · rw [TMesh.C38_refuted zero m hm] at hr
        cases hr
  | clear m _ _ => intro t ht; cases ht
  | generate g m m' _ hg hr ih =>
    obtain ⟨_, _, _, hgr⟩ := generator_grows hg hr
    exact grows_valid ih hgr

/-- A history: three vertices, a triangle, then an ellipsoid. -/
example (zero a b c : Vertex ℝ) : ∃ m : M, Edited zero m ∧ m.vertices.length = 15 ∧ m.triangles.length = 13 := by
  let v (m : M) (x : Vertex ℝ) : M := (addVertex m x).1
  let m0 : M := v (v (v ⟨[], []⟩ a) b) c
  have h0 : Edited zero m0 := .addVertex _ _ (.addVertex _ _ (.addVertex _ _ .empty))
  have h1 := Edited.addTriangle m0 0 1 2 h0 (by show 0 < 3; norm_num) (by show 1 < 3; norm_num) (by show 2 < 3; norm_num)
  obtain ⟨m', e, hg⟩ := C43_appends ⟨⟨1, 1, 1⟩, 3, 2, false⟩ (addTriangle m0 ⟨0, 1, 2⟩).1 (by norm_num) (by norm_num)
  refine ⟨m', .generate _ _ _ h1 (.ellipsoid _) e, ?_, ?_⟩
  · obtain ⟨vs, e, hl, _⟩ := hg.verts
    rw [e, List.length_append, hl]
    rfl
  · obtain ⟨vs, e, hl, _⟩ := hg.tris
    rw [e, List.length_append, hl]
    rfl

end Geom.Gen
