import Verif.Model.ClipShared
import Verif.Spec.ClipShared
import Verif.Props.ClipMesh

/-
  C120: `ClipMesh` with the same mesh for several arguments.
-/
set_option autoImplicit false
set_option linter.unusedSectionVars false

namespace Geom.TMesh
open Spec
open Plane (Eqn Pl Relation)

variable {K : Type}

/-- The second mesh after the first one. -/
def glue (m p : Mesh K) : Mesh K :=
  ⟨m.vertices ++ p.vertices, m.triangles ++ p.triangles.map fun t => ⟨m.vertices.length + t.a, m.vertices.length + t.b, m.vertices.length + t.c⟩⟩

def InRange (m : Mesh K) : Prop := ∀ t ∈ m.triangles, t.a < m.vertices.length ∧ t.b < m.vertices.length ∧ t.c < m.vertices.length

theorem glue_empty (m : Mesh K) : glue m Mesh.empty = m := by simp [glue, Mesh.empty]

theorem empty_glue (m : Mesh K) : glue Mesh.empty m = m := by simp [glue, Mesh.empty]

theorem inRange_empty : InRange (Mesh.empty : Mesh K) := by simp [InRange, Mesh.empty]

theorem glue_inRange {m p : Mesh K} (hm : InRange m) (hp : InRange p) : InRange (glue m p) := by
  intro t ht
  simp only [glue, List.mem_append, List.mem_map, List.length_append] at ht ⊢
  rcases ht with ht | ⟨u, hu, rfl⟩
  · obtain ⟨a, b, c⟩ := hm t ht
    exact ⟨by omega, by omega, by omega⟩
  · obtain ⟨a, b, c⟩ := hp u hu
    exact ⟨by simp; omega, by simp; omega, by simp; omega⟩

theorem faces_glue {m : Mesh K} (hm : InRange m) (p : Mesh K) : faces (glue m p) = faces m ++ faces p := by
  unfold faces glue
  simp only [List.map_append, List.map_map]
  congr 1
  · apply List.map_congr_left
    intro t ht
    obtain ⟨a, b, c⟩ := hm t ht
    rw [List.getElem?_append_left a, List.getElem?_append_left b, List.getElem?_append_left c]
  · apply List.map_congr_left
    intro t _
    have k : ∀ i, (m.vertices ++ p.vertices)[m.vertices.length + i]? = p.vertices[i]? := by
      intro i
      rw [List.getElem?_append_right (by omega), Nat.add_sub_cancel_left]
    simp only [Function.comp_apply, k]

theorem copy_glue (m : Mesh K) (a b c : Vertex K) : addTriCopy m a b c = glue m (addTriCopy Mesh.empty a b c) := by
  simp [addTriCopy, addTriangle, glue, Mesh.empty]

theorem copy_inRange (a b c : Vertex K) : InRange (addTriCopy Mesh.empty a b c) := by
  simp [addTriCopy, addTriangle, InRange, Mesh.empty]

theorem addFan_glue (bc : V3 K → Res (Vertex K)) (m : Mesh K) (l : List (V3 K)) : ∀ (i : ℕ) (p : Mesh K),
    addFan bc m.vertices.length i l (glue m p) = (addFan bc 0 i l p).bind fun q => .ok (glue m q) := by
  induction l with
  | nil => intro i p; rfl
  | cons v l ih =>
    intro i p
    simp only [addFan, Res.bind_assoc]
    congr 1
    funext w
    rw [← ih]
    congr 1
    split_ifs with h
    · have e : ∀ n : ℕ, n + i - 1 = n + (i - 1) := fun n => by omega
      simp [glue, addTriangle, e]
    · simp [glue]

theorem addFan_fresh (bc : V3 K → Res (Vertex K)) (m : Mesh K) (l : List (V3 K)) :
    addFan bc m.vertices.length 0 l m = (addFan bc 0 0 l Mesh.empty).bind fun q => .ok (glue m q) := by
  have := addFan_glue bc m l 0 Mesh.empty
  rwa [glue_empty] at this

theorem addFan_inRange (bc : V3 K → Res (Vertex K)) (l : List (V3 K)) : ∀ (p q : Mesh K), InRange p →
    addFan bc 0 p.vertices.length l p = .ok q → InRange q := by
  induction l with
  | nil =>
    intro p q hp h
    cases h
    exact hp
  | cons v l ih =>
    intro p q hp h
    obtain ⟨w, -, h⟩ := Res.bind_eq_ok.1 h
    have grow : InRange (⟨p.vertices ++ [w], p.triangles⟩ : Mesh K) := by
      intro t ht
      obtain ⟨a, b, c⟩ := hp t ht
      simp only [List.length_append, List.length_cons, List.length_nil]
      exact ⟨by omega, by omega, by omega⟩
    split_ifs at h with h2
    · refine ih (addTriangle ⟨p.vertices ++ [w], p.triangles⟩ ⟨0, 0 + p.vertices.length - 1, 0 + p.vertices.length⟩).1 q ?_ (by simpa [addTriangle] using h)
      intro t ht
      simp only [addTriangle, List.mem_append, List.mem_singleton] at ht
      rcases ht with ht | rfl
      · exact grow t ht
      · simp only [addTriangle, List.length_append, List.length_cons, List.length_nil]
        exact ⟨by omega, by omega, by omega⟩
    · exact ih _ q grow (by simpa using h)

variable [Field K] [LinearOrder K]

section
variable (sz : ℕ) (zero : Vertex K) (nz : ℕ → Bool) (eq : Eqn) (pl : Pl K) (eps : K)

/-- The pieces of a triangle do not depend on the meshes to which they are added. -/
theorem clipOne_glue (m : Mesh K) (i : ℕ) (t : Ix) (f b : Mesh K) :
    clipOne sz zero nz eq pl eps m i t (f, b) =
      (clipOne sz zero nz eq pl eps m i t (Mesh.empty, Mesh.empty)).bind fun s => .ok (glue f s.1, glue b s.2) := by
  unfold clipOne
  simp only [Res.bind_assoc]
  congr 1
  funext ⟨x, y, z⟩
  simp only [Res.bind_assoc]
  congr 1
  funext ⟨rel, fp, bp⟩
  cases rel with
  | inFrontOf => simp only [Res.bind_ok]; rw [copy_glue f, glue_empty]
  | behind => simp only [Res.bind_ok]; rw [copy_glue b, glue_empty]
  | onto => simp only [Res.bind_ok, glue_empty]
  | clipped =>
    simp only [Res.bind_assoc, Res.bind_ok]
    rw [addFan_fresh _ f, addFan_fresh _ b]
    simp only [Res.bind_assoc, Res.bind_ok]
    rfl

theorem clipOne_inRange {m : Mesh K} {i : ℕ} {t : Ix} {s : Mesh K × Mesh K}
    (h : clipOne sz zero nz eq pl eps m i t (Mesh.empty, Mesh.empty) = .ok s) : InRange s.1 ∧ InRange s.2 := by
  unfold clipOne at h
  obtain ⟨⟨x, y, z⟩, -, h⟩ := Res.bind_eq_ok.1 h
  obtain ⟨⟨rel, fp, bp⟩, -, h⟩ := Res.bind_eq_ok.1 h
  cases rel with
  | inFrontOf => cases h; exact ⟨copy_inRange x y z, inRange_empty⟩
  | behind => cases h; exact ⟨inRange_empty, copy_inRange x y z⟩
  | onto => cases h; exact ⟨inRange_empty, inRange_empty⟩
  | clipped =>
    obtain ⟨f, hf, h⟩ := Res.bind_eq_ok.1 h
    obtain ⟨b, hb, h⟩ := Res.bind_eq_ok.1 h
    cases h
    exact ⟨addFan_inRange _ _ _ _ inRange_empty hf, addFan_inRange _ _ _ _ inRange_empty hb⟩

/-- A mesh which is not the input gets the pieces. -/
theorem clipOneAt_eq {mesh front back : ℕ} (h1 : mesh ≠ front) (i : ℕ) (t : Ix) (o : Objects K) :
    clipOneAt sz zero nz eq pl eps mesh front back i t o =
      (clipOne sz zero nz eq pl eps (o mesh) i t (Mesh.empty, Mesh.empty)).bind fun s =>
        .ok (Function.update (Function.update o front (glue (o front) s.1)) back
          (glue (Function.update o front (glue (o front) s.1) back) s.2)) := by
  unfold clipOne clipOneAt
  simp only [Res.bind_assoc]
  congr 1
  funext ⟨x, y, z⟩
  simp only [Res.bind_assoc]
  congr 1
  funext ⟨rel, fp, bp⟩
  cases rel with
  | inFrontOf => simp only [Res.bind_ok]; rw [copy_glue (o front), glue_empty, Function.update_eq_self]
  | behind => simp only [Res.bind_ok]; rw [copy_glue (o back), glue_empty, Function.update_eq_self]
  | onto => simp only [Res.bind_ok, glue_empty, Function.update_eq_self]
  | clipped =>
    simp only [Res.bind_assoc, Res.bind_ok]
    rw [addFan_fresh _ (o front)]
    simp only [Res.bind_assoc, Res.bind_ok, Function.update_of_ne h1]
    congr 1
    funext f
    rw [addFan_fresh]
    simp only [Res.bind_assoc, Res.bind_ok]
    rfl

end

section
variable (sz : ℕ) (zero : Vertex K) (nz : ℕ → ℕ → Bool) (eq : Eqn) (pl : Pl K) (eps : K)

theorem loop_separate {mesh front back : ℕ} (h1 : mesh ≠ front) (h2 : mesh ≠ back) (h3 : front ≠ back) (ts : List Ix) : ∀ (i : ℕ) (o : Objects K),
    clipLoopAt sz zero nz eq pl eps mesh front back i ts o =
      (clipLoop sz zero nz eq pl eps (o mesh) i ts (o front, o back)).bind fun s => .ok (Function.update (Function.update o front s.1) back s.2) := by
  induction ts with
  | nil => intro i o; simp [clipLoopAt, clipLoop]
  | cons t l ih =>
    intro i o
    simp only [clipLoopAt, clipLoop]
    rw [clipOneAt_eq sz zero (nz i) eq pl eps h1, clipOne_glue sz zero (nz i) eq pl eps (o mesh) i t (o front) (o back)]
    simp only [Res.bind_assoc, Res.bind_ok]
    congr 1
    funext s
    rw [ih]
    simp only [Function.update_of_ne h1, Function.update_of_ne h2, Function.update_of_ne h3, Function.update_of_ne h3.symm, Function.update_self]
    congr 1
    funext r
    congr 1
    funext j
    by_cases hb : j = back
    · subst hb; simp
    · by_cases hf : j = front
      · subst hf; simp [hb]
      · simp [hb, hf]

/-- For three different meshes the function behaves as described by the other claims, and changes no other mesh. -/
theorem C120_separate_partial {mesh front back : ℕ} (h1 : mesh ≠ front) (h2 : mesh ≠ back) (h3 : front ≠ back) (o : Objects K) :
    clipMeshAt sz zero nz eq pl eps mesh front back o =
      (clipMesh sz zero nz eq pl eps (o mesh) (o front) (o back)).bind fun s =>
        .ok fun j => if j = back then s.2 else if j = front then s.1 else o j := by
  unfold clipMeshAt clipMesh
  simp only []
  rw [loop_separate sz zero nz eq pl eps h1 h2 h3]
  simp only [Function.update_of_ne h1, Function.update_of_ne h2, Function.update_of_ne h3, Function.update_of_ne h3.symm, Function.update_self]
  congr 1
  funext s
  congr 1
  funext j
  by_cases hb : j = back
  · subst hb; simp
  · by_cases hf : j = front
    · subst hf; simp [hb]
    · simp [hb, hf]

theorem clear_eq (m : Mesh K) : clear m = Mesh.empty := rfl

/-- If an output is the input, nothing is left of it, and the other output is empty too. -/
theorem C120_input {mesh front back : ℕ} (h : mesh = front ∨ mesh = back) (o : Objects K) :
    ∃ o', clipMeshAt sz zero nz eq pl eps mesh front back o = .ok o' ∧ o' mesh = Mesh.empty ∧ o' front = Mesh.empty ∧ o' back = Mesh.empty := by
  have key : Function.update (Function.update o front (clear (o front))) back (clear (Function.update o front (clear (o front)) back)) mesh = Mesh.empty := by
    by_cases hb : mesh = back
    · subst hb; rw [Function.update_self]; rfl
    · rw [Function.update_of_ne hb]
      obtain rfl := h.resolve_right hb
      rw [Function.update_self]; rfl
  refine ⟨_, ?_, key, ?_, ?_⟩
  · unfold clipMeshAt
    simp only []
    rw [key]
    rfl
  · by_cases hb : front = back
    · subst hb; rw [Function.update_self]; rfl
    · rw [Function.update_of_ne hb, Function.update_self]; rfl
  · rw [Function.update_self]; rfl

theorem loop_shared {mesh d : ℕ} (h1 : mesh ≠ d) (m : Mesh K) (ts : List Ix) : ∀ (i : ℕ) (o : Objects K) (f b f' b' : Mesh K),
    o mesh = m → InRange f → InRange b → InRange (o d) → ((o d).vertices.Perm (f.vertices ++ b.vertices)) → (faces (o d)).Perm (faces f ++ faces b) →
    clipLoop sz zero nz eq pl eps m i ts (f, b) = .ok (f', b') →
    ∃ o', clipLoopAt sz zero nz eq pl eps mesh d d i ts o = .ok o' ∧ (∀ j, j ≠ d → o' j = o j) ∧ InRange (o' d) ∧
      (o' d).vertices.Perm (f'.vertices ++ b'.vertices) ∧ (faces (o' d)).Perm (faces f' ++ faces b') := by
  induction ts with
  | nil =>
    intro i o f b f' b' _ _ _ hd hv hp h
    cases h
    exact ⟨o, rfl, fun _ _ => rfl, hd, hv, hp⟩
  | cons t l ih =>
    intro i o f b f' b' hm hf hb hd hv hp h
    simp only [clipLoop] at h
    obtain ⟨s, hs, h⟩ := Res.bind_eq_ok.1 h
    rw [clipOne_glue] at hs
    obtain ⟨r, hr, hs⟩ := Res.bind_eq_ok.1 hs
    cases hs
    obtain ⟨r1, r2⟩ := clipOne_inRange sz zero (nz i) eq pl eps hr
    have e := clipOneAt_eq sz zero (nz i) eq pl eps (front := d) (back := d) h1 i t o
    rw [hm, hr] at e
    simp only [Res.bind_ok, Function.update_self, Function.update_idem] at e
    have hg := glue_inRange hd r1
    obtain ⟨o', a1, a2, a3, a4, a5⟩ := ih (i + 1) (Function.update o d (glue (glue (o d) r.1) r.2)) (glue f r.1) (glue b r.2) f' b'
      (by rw [Function.update_of_ne h1, hm]) (glue_inRange hf r1) (glue_inRange hb r2)
      (by rw [Function.update_self]; exact glue_inRange hg r2)
      (by
        rw [Function.update_self]
        simp only [glue]
        calc ((o d).vertices ++ r.1.vertices ++ r.2.vertices).Perm (f.vertices ++ b.vertices ++ r.1.vertices ++ r.2.vertices) := (hv.append_right _).append_right _
          _ = f.vertices ++ (b.vertices ++ r.1.vertices) ++ r.2.vertices := by simp
          _ |>.Perm (f.vertices ++ (r.1.vertices ++ b.vertices) ++ r.2.vertices) := ((List.perm_append_comm).append_left _).append_right _
          _ = _ := by simp)
      (by
        rw [Function.update_self, faces_glue hg, faces_glue hd, faces_glue hf, faces_glue hb]
        calc (faces (o d) ++ faces r.1 ++ faces r.2).Perm (faces f ++ faces b ++ faces r.1 ++ faces r.2) := (hp.append_right _).append_right _
          _ = faces f ++ (faces b ++ faces r.1) ++ faces r.2 := by simp
          _ |>.Perm (faces f ++ (faces r.1 ++ faces b) ++ faces r.2) := ((List.perm_append_comm).append_left _).append_right _
          _ = _ := by simp) h
    refine ⟨o', ?_, ?_, a3, a4, a5⟩
    · simp only [clipLoopAt]
      rw [e]
      exact a1
    · intro j hj
      rw [a2 j hj, Function.update_of_ne hj]

/-- If the two outputs are one mesh different from the input, this gets the triangles of both parts. -/
theorem C120_shared_partial {mesh d : ℕ} (h1 : mesh ≠ d) (o : Objects K) (front back f b : Mesh K)
    (h : clipMesh sz zero nz eq pl eps (o mesh) front back = .ok (f, b)) :
    ∃ o', clipMeshAt sz zero nz eq pl eps mesh d d o = .ok o' ∧ (∀ j, j ≠ d → o' j = o j) ∧
      (o' d).vertices.Perm (f.vertices ++ b.vertices) ∧ (faces (o' d)).Perm (faces f ++ faces b) ∧
      ∀ t ∈ (o' d).triangles, t.a < (o' d).vertices.length ∧ t.b < (o' d).vertices.length ∧ t.c < (o' d).vertices.length := by
  have hc : ∀ m : Mesh K, clear m = Mesh.empty := fun _ => rfl
  obtain ⟨o', a1, a2, a3, a4, a5⟩ := loop_shared sz zero nz eq pl eps h1 (o mesh) (o mesh).triangles 0
    (Function.update o d Mesh.empty) Mesh.empty Mesh.empty f b (Function.update_of_ne h1 _ _) inRange_empty inRange_empty
    (by rw [Function.update_self]; exact inRange_empty) (by rw [Function.update_self]; exact List.Perm.refl _)
    (by rw [Function.update_self]; exact List.Perm.refl _) h
  refine ⟨o', ?_, ?_, a4, a5, a3⟩
  · unfold clipMeshAt
    simp only [hc, Function.update_idem, Function.update_of_ne h1]
    exact a1
  · intro j hj
    rw [a2 j hj, Function.update_of_ne hj]

end

/-- A triangle on both sides of the plane x = 0, and one in front of it. -/
def sharedMesh : Mesh ℚ :=
  ⟨[⟨⟨-1, 0, 0⟩, 0, 0⟩, ⟨⟨1, 0, 0⟩, 0, 0⟩, ⟨⟨-1, 1, 0⟩, 0, 0⟩, ⟨⟨2, 1, 0⟩, 0, 0⟩, ⟨⟨2, 2, 0⟩, 0, 0⟩], [⟨0, 1, 2⟩, ⟨1, 3, 4⟩]⟩

theorem sharedMesh_clip : ∃ f b, clipMesh 4 ⟨0, 0, 0⟩ (fun _ _ => false) .nxEqD ⟨⟨1, 0, 0⟩, 0⟩ 0 sharedMesh Mesh.empty Mesh.empty = .ok (f, b) ∧
    f.triangles.length = 2 ∧ b.triangles.length = 2 := by
  have e2 : (clipMesh 4 ⟨0, 0, 0⟩ (fun _ _ => false) .nxEqD ⟨⟨1, 0, 0⟩, 0⟩ 0 sharedMesh Mesh.empty Mesh.empty).map
      (fun r => decide (r.1.triangles.length = 2 ∧ r.2.triangles.length = 2)) = .ok true := by decide +kernel
  cases e : clipMesh 4 ⟨0, 0, 0⟩ (fun _ _ => false) .nxEqD ⟨⟨1, 0, 0⟩, 0⟩ 0 sharedMesh Mesh.empty Mesh.empty with
  | ok r =>
    rw [e] at e2
    simp only [Res.map, Res.bind_ok, Res.ok.injEq, decide_eq_true_eq] at e2
    exact ⟨r.1, r.2, rfl, e2⟩
  | throw => rw [e] at e2; cases e2
  | ub => rw [e] at e2; cases e2
  | fuel => rw [e] at e2; cases e2

/-- With the input as front mesh the result is not the front part of the input. -/
theorem C120_input_refuted :
    ¬∀ (pl : Pl ℚ) (o o' : Objects ℚ) (f b : Mesh ℚ), clipMesh 4 ⟨0, 0, 0⟩ (fun _ _ => false) .nxEqD pl 0 (o 0) Mesh.empty Mesh.empty = .ok (f, b) →
      clipMeshAt 4 ⟨0, 0, 0⟩ (fun _ _ => false) .nxEqD pl 0 0 0 1 o = .ok o' → (faces (o' 0)).length = (faces f).length := by
  intro h
  obtain ⟨f, b, h1, h2, -⟩ := sharedMesh_clip
  obtain ⟨o', h3, h4, -⟩ := C120_input 4 ⟨0, 0, 0⟩ (fun _ _ => false) .nxEqD ⟨⟨1, 0, 0⟩, 0⟩ 0 (mesh := 0) (front := 0) (back := 1) (Or.inl rfl) (fun _ => sharedMesh)
  have := h _ _ o' f b h1 h3
  rw [h4] at this
  simp [faces, h2, Mesh.empty] at this

/-- The instance with one output for both parts has four triangles. -/
example : ∃ o', clipMeshAt 4 ⟨0, 0, 0⟩ (fun _ _ => false) .nxEqD ⟨⟨1, 0, 0⟩, 0⟩ 0 0 1 1 (fun _ => sharedMesh) = .ok o' ∧ o' 0 = sharedMesh ∧
    (o' 1).triangles.length = 4 := by
  obtain ⟨f, b, h1, h2, h3⟩ := sharedMesh_clip
  obtain ⟨o', k1, k2, -, k3, -⟩ := C120_shared_partial 4 ⟨0, 0, 0⟩ (fun _ _ => false) .nxEqD ⟨⟨1, 0, 0⟩, 0⟩ 0 (mesh := 0) (d := 1) (by norm_num)
    (fun _ => sharedMesh) Mesh.empty Mesh.empty f b h1
  refine ⟨o', k1, k2 0 (by norm_num), ?_⟩
  have := k3.length_eq
  simpa [faces, h2, h3] using this

end Geom.TMesh
