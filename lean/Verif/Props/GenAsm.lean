import Verif.Props.GenGrid

/-
  Meshes of several parts: first the vertices of all parts, then the triangles of all parts.
-/
set_option autoImplicit false
set_option linter.unusedSectionVars false

namespace Geom.Gen
open TMesh (Mesh Vertex Ix)
open Spec

/-- Vertices, triangles (for the index of the first vertex), their number, and faces of a part. -/
structure Part where
  vs : List (Vertex ℝ)
  ts : ℕ → List Ix
  nt : ℕ
  fs : List Face

/-- The triangles use the vertices of the part. -/
def Part.Valid (p : Part) : Prop := ∀ off, (p.ts off).length = p.nt ∧ ∀ t ∈ p.ts off, ∀ i ∈ [t.a, t.b, t.c], off ≤ i ∧ i < off + p.vs.length

/-- The faces are the given ones. -/
def Part.HasFaces (p : Part) : Prop := ∀ (m : M) off, Stored m off p.vs → (p.ts off).map (face m) = p.fs.map some

/-- The triangles of a list of parts, with the vertices of the parts from the index `off` on. -/
def asm (off : ℕ) : List Part → List Ix
  | [] => []
  | p :: ps => p.ts off ++ asm (off + p.vs.length) ps

def allVs (ps : List Part) : List (Vertex ℝ) := ps.flatMap Part.vs

theorem asm_grows (m : M) (ps : List Part) (P : Vertex ℝ → Prop) (hv : ∀ p ∈ ps, p.Valid) (hP : ∀ p ∈ ps, ∀ x ∈ p.vs, P x) :
    Grows m (ext m (allVs ps) (asm m.vertices.length ps)) ((ps.map fun p => p.vs.length).sum) ((ps.map Part.nt).sum) P := by
  have key : ∀ (ps : List Part) (off : ℕ), (∀ p ∈ ps, p.Valid) → (asm off ps).length = (ps.map Part.nt).sum ∧
      ∀ t ∈ asm off ps, ∀ i ∈ [t.a, t.b, t.c], off ≤ i ∧ i < off + (ps.map fun p => p.vs.length).sum := by
    intro ps
    induction ps with
    | nil => intro off _; exact ⟨rfl, by simp [asm]⟩
    | cons p ps ih =>
      intro off h
      obtain ⟨l, q⟩ := h p (by simp) off
      obtain ⟨l', q'⟩ := ih (off + p.vs.length) (fun x hx => h x (by simp [hx]))
      refine ⟨by simp [asm, l, l'], ?_⟩
      intro t ht i hi
      simp only [List.map_cons, List.sum_cons]
      rcases List.mem_append.1 ht with ht | ht
      · have := q t ht i hi; omega
      · have := q' t ht i hi; omega
  refine grows_ext m _ _ _ _ _ ?_ (key ps _ hv).1 ?_ (key ps _ hv).2
  · rw [allVs, List.length_flatMap]
  · intro x hx
    obtain ⟨p, hp, hx⟩ := List.mem_flatMap.1 hx
    exact hP p hp x hx

theorem asm_faces (m : M) (ps : List Part) (hf : ∀ p ∈ ps, p.HasFaces) :
    NewFaces m (ext m (allVs ps) (asm m.vertices.length ps)) (ps.flatMap Part.fs) := by
  refine ⟨_, rfl, ?_⟩
  generalize hts : m.triangles ++ asm m.vertices.length ps = ts
  have key : ∀ (ps : List Part) (pre : List (Vertex ℝ)), (∀ p ∈ ps, p.HasFaces) →
      (asm pre.length ps).map (face ⟨pre ++ allVs ps, ts⟩) = (ps.flatMap Part.fs).map some := by
    intro ps
    induction ps with
    | nil => intro pre _; rfl
    | cons p ps ih =>
      intro pre h
      have h1 := h p (by simp) ⟨pre ++ allVs (p :: ps), ts⟩ pre.length (by
        have := stored_append pre p.vs (allVs ps) ts
        simpa [allVs] using this)
      have h2 := ih (pre ++ p.vs) (fun x hx => h x (by simp [hx]))
      rw [List.length_append, List.append_assoc] at h2
      simp only [asm, List.map_append, List.flatMap_cons]
      rw [h1, ← h2]
      rfl
  have := key ps m.vertices hf
  rw [ext, hts]
  exact this

/-- A part that is left out. -/
def Part.none : Part := ⟨[], fun _ => [], 0, []⟩

theorem none_valid : Part.none.Valid := by intro off; simp [Part.none]

theorem none_faces : Part.none.HasFaces := by intro m off _; rfl

theorem ext_len (m : M) (vs : List (Vertex ℝ)) (ts : List Ix) : (ext m vs ts).vertices.length = m.vertices.length + vs.length := by
  simp [ext]

/-- A grid of vertices with an accumulated angle. -/
theorem forLe_gridA (R C c0 : ℕ) (a0 step : ℝ) (body : ℕ → ℕ → ℝ → M → Res M) (f : ℕ → ℕ → Vertex ℝ) (m : M)
    (hR : R + 1 < 2 ^ 32) (hC : C + 1 < 2 ^ 32) (h0 : c0 ≤ C + 1)
    (hb : ∀ r c m, r ≤ R → body r c (a0 + r * step) m = .ok (ext m [f r c] [])) :
    ((forLe 0 R (fun r (s : M × ℝ) => (forLe c0 C (fun c m => body r c s.2 m) s.1).bind fun m => .ok (m, s.2 + step)) (m, a0)).bind
      fun s => .ok s.1) = .ok (ext m (gridV (R + 1) (C + 1 - c0) fun r j => f r (c0 + j)) []) := by
  have := forLe_acc 0 R (fun r (s : M × ℝ) => (forLe c0 C (fun c m => body r c s.2 m) s.1).bind fun m => .ok (m, s.2 + step))
    (fun i => a0 + i * step) (fun r => tab c0 (C + 1 - c0) fun c => [f r c]) (fun _ => []) m (by omega) hR (by
      intro i m _ hi
      dsimp only
      rw [forLe_ext c0 C _ (fun c => [f i c]) (fun _ => []) m h0 hC (fun c m _ _ => hb i c m hi), Res.bind_ok, tab_nil]
      congr 2
      push_cast
      ring)
  simp only [Nat.cast_zero, zero_mul, add_zero] at this
  rw [this, Res.bind_ok]
  simp only [Nat.sub_zero, tab_nil]
  congr 2
  unfold gridV tab
  simp

section mantle

/-- The vertices of a mantle; `ang u` is the angle of the column `u`. -/
noncomputable def mantleV (ang : ℕ → ℝ) (r : V2 ℝ) (h side : ℝ) (H V u v : ℕ) : Vertex ℝ :=
  ⟨atAngle r (h / 2 - h * (v / V)) (ang u), side • ⟨Real.sin (ang u), 0, Real.cos (ang u)⟩, ⟨(H - u : ℕ) * (1 / H), v * (1 / V)⟩⟩

theorem mantleVerts_ok (ang : ℕ → ℝ) (a0 step rx rz h side : ℝ) (H V : ℕ) (m : M) (hH : H + 1 < 2 ^ 32) (hV : V + 1 < 2 ^ 32)
    (ha : ∀ u : ℕ, a0 + u * step = ang u) :
    mantleVerts a0 step rx rz (h * (1 / 2)) side H V m = .ok (ext m (gridV (H + 1) (V + 1) (mantleV ang ⟨rx, rz⟩ h side H V)) []) := by
  have := forLe_gridA H V 0 a0 step (fun u v angle m => .ok (add m ⟨Real.sin angle * rx, lerp (h * (1 / 2)) (-(h * (1 / 2))) (v * (1 / V)), Real.cos angle * rz⟩
    (side • Plane.normalizeVec ⟨Real.sin angle, 0, Real.cos angle⟩) ((H - u : ℕ) * (1 / H)) (v * (1 / V)))) (mantleV ang ⟨rx, rz⟩ h side H V) m hH hV
    (by omega) (by
      intro u v m _
      rw [ha, add_eq, normalize_unit _ (by simp)]
      congr 4
      simp only [atAngle, lerp, V3.mk.injEq]
      exact ⟨mul_comm _ _, by ring, mul_comm _ _⟩)
  simp only [Nat.sub_zero, Nat.zero_add] at this
  exact this

/-- The part of a mantle. -/
noncomputable def mantleP (flip alt : Bool) (ang : ℕ → ℝ) (r : V2 ℝ) (h side : ℝ) (H V : ℕ) : Part :=
  ⟨gridV (H + 1) (V + 1) (mantleV ang r h side H V), mantleTrisIx flip alt H V, 2 * (H * V),
    let D := fun u v : ℕ => atAngle r (h / 2 - h * (v / V)) (ang u)
    grid H V fun u v => if flip then quad alt u v (D u v) (D (u + 1) v) (D (u + 1) (v + 1)) (D u (v + 1))
      else quad alt u v (D (u + 1) v) (D u v) (D u (v + 1)) (D (u + 1) (v + 1))⟩

theorem mantleP_valid (flip alt : Bool) (ang : ℕ → ℝ) (r : V2 ℝ) (h side : ℝ) (H V : ℕ) : (mantleP flip alt ang r h side H V).Valid := by
  intro off
  refine ⟨mantleTrisIx_length .., fun t ht i hi => ?_⟩
  have := mantleTrisIx_mem _ _ _ _ _ ht i hi
  simpa [mantleP, gridV_length] using this

theorem mantleP_faces (flip alt : Bool) (ang : ℕ → ℝ) (r : V2 ℝ) (h side : ℝ) (H V : ℕ) (hb : 2 * (V + 1) ≤ 2 ^ 32) :
    (mantleP flip alt ang r h side H V).HasFaces := fun _ _ hs => mantleTrisIx_faces _ _ _ _ _ hs hb

end mantle

section disc

noncomputable def discVx (ang : ℕ → ℝ) (r : V2 ℝ) (y side : ℝ) (top : Bool) (C u v : ℕ) : Vertex ℝ :=
  let ty := 1 / 2 + Real.cos (ang u) * (1 / 2) * (v * (1 / C))
  ⟨atAngle (scaled (v / C) r) y (ang u), ⟨0, side, 0⟩, ⟨1 / 2 + Real.sin (ang u) * (1 / 2) * (v * (1 / C)), if top then 1 - ty else ty⟩⟩

noncomputable def discCenter (y side : ℝ) : Vertex ℝ := ⟨⟨0, y, 0⟩, ⟨0, side, 0⟩, ⟨1 / 2, 1 / 2⟩⟩

theorem discVerts_ok (ang : ℕ → ℝ) (a0 step rx rz y side : ℝ) (top : Bool) (H C : ℕ) (m : M) (hH : H + 1 < 2 ^ 32) (hC : C + 1 < 2 ^ 32)
    (ha : ∀ u : ℕ, a0 + u * step = ang u) :
    discVerts a0 step rx rz y side top H C m = .ok (ext m (discV H C (discCenter y side) (discVx ang ⟨rx, rz⟩ y side top C)) []) := by
  have := forLe_gridA H C 1 a0 step (fun _ v angle m => .ok (add m (lerpV ⟨0, y, 0⟩ ⟨Real.sin angle * rx, y, Real.cos angle * rz⟩ (v * (1 / C)))
    ⟨0, side, 0⟩ (1 / 2 + Real.sin angle * (1 / 2) * (v * (1 / C))) (if top then 1 - (1 / 2 + Real.cos angle * (1 / 2) * (v * (1 / C))) else 1 / 2 + Real.cos angle * (1 / 2) * (v * (1 / C)))))
    (discVx ang ⟨rx, rz⟩ y side top C) (add m ⟨0, y, 0⟩ ⟨0, side, 0⟩ (1 / 2) (1 / 2)) hH hC (by omega) (by
      intro u v m _
      rw [ha, add_eq]
      simp only [discVx]
      congr 4
      simp only [atAngle, scaled, lerpV]
      ext <;> simp <;> ring)
  simp only [Nat.add_sub_cancel, Nat.add_comm 1] at this
  rw [add_eq, ext_ext] at this
  refine Eq.trans ?_ this
  rw [← add_eq]
  rfl

/-- The part of a disc. -/
noncomputable def discP (top alt : Bool) (ang : ℕ → ℝ) (r : V2 ℝ) (y side : ℝ) (H C : ℕ) : Part :=
  ⟨discV H C (discCenter y side) (discVx ang r y side top C), discTrisIx top alt H C, H * (2 * C - 1),
    disc top alt H C ⟨0, y, 0⟩ fun u v => atAngle (scaled (v / C) r) y (ang u)⟩

theorem discP_len (top alt : Bool) (ang : ℕ → ℝ) (r : V2 ℝ) (y side : ℝ) (H C : ℕ) : (discP top alt ang r y side H C).vs.length = 1 + (H + 1) * C := by
  simp [discP, discV, gridV_length, Nat.add_comm]

theorem discP_valid (top alt : Bool) (ang : ℕ → ℝ) (r : V2 ℝ) (y side : ℝ) (H C : ℕ) (h1 : 1 ≤ C) : (discP top alt ang r y side H C).Valid := by
  intro off
  refine ⟨discTrisIx_length _ _ _ _ _ h1, fun t ht i hi => ?_⟩
  have := discTrisIx_mem _ _ _ _ _ h1 ht i hi
  rwa [discP_len]

theorem discP_faces (top alt : Bool) (ang : ℕ → ℝ) (r : V2 ℝ) (y side : ℝ) (H C : ℕ) (h1 : 1 ≤ C) (hb : 2 * C ≤ 2 ^ 32) :
    (discP top alt ang r y side H C).HasFaces := fun _ _ hs => discTrisIx_faces _ _ _ _ _ hs h1 hb

/-- A disc that is left out if it has no segments. -/
noncomputable def discP0 (top alt : Bool) (ang : ℕ → ℝ) (r : V2 ℝ) (y side : ℝ) (H C : ℕ) : Part :=
  if C = 0 then Part.none else discP top alt ang r y side H C

theorem discP0_len (top alt : Bool) (ang : ℕ → ℝ) (r : V2 ℝ) (y side : ℝ) (H C : ℕ) :
    (discP0 top alt ang r y side H C).vs.length = if C = 0 then 0 else 1 + (H + 1) * C := by
  unfold discP0; split_ifs
  · rfl
  · exact discP_len ..

theorem discP0_nt (top alt : Bool) (ang : ℕ → ℝ) (r : V2 ℝ) (y side : ℝ) (H C : ℕ) :
    (discP0 top alt ang r y side H C).nt = H * (2 * C - 1) := by
  unfold discP0; split_ifs with h
  · subst h; simp [Part.none]
  · rfl

theorem discP0_valid (top alt : Bool) (ang : ℕ → ℝ) (r : V2 ℝ) (y side : ℝ) (H C : ℕ) : (discP0 top alt ang r y side H C).Valid := by
  unfold discP0; split_ifs
  · exact none_valid
  · exact discP_valid _ _ _ _ _ _ _ _ (by omega)

theorem discP0_faces (top alt : Bool) (ang : ℕ → ℝ) (r : V2 ℝ) (y side : ℝ) (H C : ℕ) (hb : 2 * C ≤ 2 ^ 32) :
    (discP0 top alt ang r y side H C).HasFaces := by
  unfold discP0; split_ifs
  · exact none_faces
  · exact discP_faces _ _ _ _ _ _ _ _ (by omega) hb

theorem discP0_fs (top alt : Bool) (ang : ℕ → ℝ) (r : V2 ℝ) (y side : ℝ) (H C : ℕ) :
    (discP0 top alt ang r y side H C).fs = if C = 0 then [] else disc top alt H C ⟨0, y, 0⟩ fun u v => atAngle (scaled (v / C) r) y (ang u) := by
  unfold discP0; split_ifs
  · rfl
  · rfl

theorem discP0_mem {top alt : Bool} {ang : ℕ → ℝ} {r : V2 ℝ} {y side : ℝ} {H C : ℕ} {x : Vertex ℝ} (hx : x ∈ (discP0 top alt ang r y side H C).vs) :
    ∃ (s : ℝ) (u : ℕ), 0 ≤ s ∧ s ≤ 1 ∧ u ≤ H ∧ x.position = atAngle (scaled s r) y (ang u) ∧ x.normal = ⟨0, side, 0⟩ := by
  unfold discP0 at hx
  split_ifs at hx with h
  · cases hx
  · rcases List.mem_cons.1 hx with rfl | hx
    · exact ⟨0, 0, le_refl _, zero_le_one, Nat.zero_le _, by simp [atAngle, scaled, discCenter], rfl⟩
    · obtain ⟨u, j, hu, hj, rfl⟩ := gridV_mem.1 hx
      have hC : (0 : ℝ) < C := by exact_mod_cast (show 0 < C by omega)
      exact ⟨((j + 1 : ℕ) : ℝ) / C, u, by positivity, by rw [div_le_one hC]; exact_mod_cast hj, by omega, rfl, rfl⟩

theorem discVerts0_ok (ang : ℕ → ℝ) (alt : Bool) (a0 step rx rz y side : ℝ) (top : Bool) (H C : ℕ) (m : M) (hH : H + 1 < 2 ^ 32) (hC : C + 1 < 2 ^ 32)
    (ha : ∀ u : ℕ, a0 + u * step = ang u) :
    (if C = 0 then .ok m else discVerts a0 step rx rz y side top H C m) = .ok (ext m (discP0 top alt ang ⟨rx, rz⟩ y side H C).vs []) := by
  unfold discP0
  split_ifs
  · simp [Part.none, ext_nil]
  · rw [discVerts_ok ang _ _ _ _ _ _ _ _ _ _ hH hC ha]; rfl

theorem discTris0_ok (ang : ℕ → ℝ) (r : V2 ℝ) (y side : ℝ) (top alt : Bool) (H C off : ℕ) (m : M) (hH : H < 2 ^ 32) (hC : C < 2 ^ 32) :
    (if C = 0 then .ok m else discTris top alt H C off m) = .ok (ext m [] ((discP0 top alt ang r y side H C).ts off)) := by
  unfold discP0
  split_ifs
  · simp [Part.none, ext_nil]
  · rw [discTris_ok _ _ _ _ _ _ hH (by omega) hC]; rfl

end disc

theorem frac_unit (k n : ℕ) (h : k ≤ n) : (0 : ℝ) ≤ (k : ℝ) / n ∧ (k : ℝ) / n ≤ 1 := by
  refine ⟨by positivity, ?_⟩
  rcases Nat.eq_zero_or_pos n with h' | h'
  · subst h'; simp
  · rw [div_le_one (by exact_mod_cast h')]; exact_mod_cast h

theorem height_bound (h t : ℝ) (h0 : 0 ≤ t) (h1 : t ≤ 1) : |h / 2 - h * t| ≤ |h| / 2 := by
  have e : h / 2 - h * t = h * (1 / 2 - t) := by ring
  rw [e, abs_mul]
  have : |1 / 2 - t| ≤ 1 / 2 := abs_le.2 ⟨by linarith, by linarith⟩
  have := mul_le_mul_of_nonneg_left this (abs_nonneg h)
  linarith

theorem mantleP_mem {flip alt : Bool} {ang : ℕ → ℝ} {r : V2 ℝ} {h side : ℝ} {H V : ℕ} {x : Vertex ℝ} (hx : x ∈ (mantleP flip alt ang r h side H V).vs) :
    ∃ (y : ℝ) (u : ℕ), |y| ≤ |h| / 2 ∧ u ≤ H ∧ x.position = atAngle r y (ang u) ∧ x.normal = side • ⟨Real.sin (ang u), 0, Real.cos (ang u)⟩ := by
  obtain ⟨u, v, hu, hv, rfl⟩ := gridV_mem.1 hx
  obtain ⟨a, b⟩ := frac_unit v V (by omega)
  exact ⟨_, u, height_bound h _ a b, by omega, rfl, rfl⟩

theorem mantleP_len (flip alt : Bool) (ang : ℕ → ℝ) (r : V2 ℝ) (h side : ℝ) (H V : ℕ) :
    (mantleP flip alt ang r h side H V).vs.length = (H + 1) * (V + 1) := gridV_length ..

end Geom.Gen
