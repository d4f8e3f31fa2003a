import Verif.Props.GenAsm

/-
  C44, C45: cylinder, cone, pipe, pie and capsule.
-/
set_option autoImplicit false
set_option linter.unusedSectionVars false
set_option linter.unusedSimpArgs false

namespace Geom.Gen
open TMesh (Mesh Vertex Ix)
open Spec

/-- The angles of a full turn. -/
noncomputable def turn (H u : ℕ) : ℝ := 2 * Real.pi * u / H

theorem turn_eq (H : ℕ) (u : ℕ) : 0 + (u : ℝ) * (1 / (H : ℝ) * (Real.pi * 2)) = turn H u := by unfold turn; ring

theorem half_abs (h : ℝ) : |h * (1 / 2) * 1| = |h| / 2 ∧ |h * (1 / 2) * -1| = |h| / 2 ∧ |-(h * (1 / 2))| = |h| / 2 := by
  refine ⟨?_, ?_, ?_⟩ <;> simp only [abs_mul, abs_neg, abs_one] <;> norm_num <;> ring

theorem pos_ite {C : ℕ} {α : Sort*} (a b : α) : (if C > 0 then a else b) = if C = 0 then b else a := by
  rcases Nat.eq_zero_or_pos C with h | h
  · simp [h]
  · rw [if_pos h, if_neg (by omega)]

theorem y_of_atAngle {p : V3 ℝ} {r : V2 ℝ} {y a : ℝ} (h : p = atAngle r y a) : p.y = y := by rw [h]; rfl

/-! C44. -/

/-- The parts of a mesh. -/
noncomputable def cylParts (d : CylinderDesc) (H V : ℕ) : List Part := [mantleP false d.alternateGrid (turn H) d.radius d.height 1 H V,
  discP0 false d.alternateGrid (turn H) d.radius (d.height * (1 / 2) * -1) (-1) H d.bottomCov,
  discP0 true d.alternateGrid (turn H) d.radius (d.height * (1 / 2) * 1) 1 H d.topCov]

theorem genCylinder_ok (d : CylinderDesc) (m : M) (hH : max 3 d.segsX + 1 < 2 ^ 32) (hV : max 1 d.segsY + 1 < 2 ^ 32) (hB : d.bottomCov + 1 < 2 ^ 32) (hT : d.topCov + 1 < 2 ^ 32) :
    genCylinder d m = .ok (ext m (allVs (cylParts d (max 3 d.segsX) (max 1 d.segsY))) (asm m.vertices.length (cylParts d (max 3 d.segsX) (max 1 d.segsY)))) := by
  simp only [genCylinder]
  generalize max 3 d.segsX = H at *
  generalize max 1 d.segsY = V at *
  rw [mantleVerts_ok (turn H) _ _ _ _ _ _ _ _ _ hH hV (turn_eq H), Res.bind_ok,
    discVerts0_ok (turn H) d.alternateGrid _ _ _ _ _ _ _ _ _ _ hH hB (turn_eq H), Res.bind_ok,
    discVerts0_ok (turn H) d.alternateGrid _ _ _ _ _ _ _ _ _ _ hH hT (turn_eq H), Res.bind_ok,
    mantleTris_ok _ _ _ _ _ _ (by omega) hV, Res.bind_ok,
    discTris0_ok (turn H) d.radius (d.height * (1 / 2) * -1) (-1) _ _ _ _ _ _ (by omega) (by omega), Res.bind_ok,
    discTris0_ok (turn H) d.radius (d.height * (1 / 2) * 1) 1 _ _ _ _ _ _ (by omega) (by omega)]
  simp only [ext_ext, ext_len, List.append_nil, List.nil_append]
  congr 2
  · simp only [cylParts, allVs, List.flatMap_cons, List.flatMap_nil, List.append_nil, List.append_assoc]; rfl
  · simp only [cylParts, asm, List.append_nil, List.append_assoc, List.length_append, Nat.add_assoc]; rfl

/-- C44: for each number of segments for which the loops end, the cylinder is appended: the mantle and, unless they have no
segments, the bottom and the top; each vertex is on the surface. -/
theorem C44_cylinder (d : CylinderDesc) (m : M) (hH : max 3 d.segsX + 1 < 2 ^ 32) (hV : max 1 d.segsY + 1 < 2 ^ 32)
    (hB : d.bottomCov + 1 < 2 ^ 32) (hT : d.topCov + 1 < 2 ^ 32) :
    let H := max 3 d.segsX
    let V := max 1 d.segsY
    let covV := fun C => if C = 0 then 0 else 1 + (H + 1) * C
    ∃ m', genCylinder d m = .ok m' ∧
      Grows m m' ((H + 1) * (V + 1) + covV d.bottomCov + covV d.topCov) (2 * (H * V) + H * (2 * d.bottomCov - 1) + H * (2 * d.topCov - 1))
        (fun v => OnCylinder d.radius d.height v.position ∧ UnitNormal v) ∧
      (2 * (V + 1) ≤ 2 ^ 32 → 2 * d.bottomCov ≤ 2 ^ 32 → 2 * d.topCov ≤ 2 ^ 32 →
        let D := fun u v : ℕ => atAngle d.radius (d.height / 2 - d.height * (v / V)) (2 * Real.pi * u / H)
        let cov := fun (top : Bool) (C : ℕ) (y : ℝ) => if C = 0 then [] else
          disc top d.alternateGrid H C ⟨0, y, 0⟩ fun u v => atAngle (scaled (v / C) d.radius) y (2 * Real.pi * u / H)
        NewFaces m m' ((grid H V fun u v => quad d.alternateGrid u v (D (u + 1) v) (D u v) (D u (v + 1)) (D (u + 1) (v + 1))) ++
          cov false d.bottomCov (d.height * (1 / 2) * -1) ++ cov true d.topCov (d.height * (1 / 2) * 1))) := by
  intro H V covV
  let ps : List Part := cylParts d H V
  refine ⟨ext m (allVs ps) (asm m.vertices.length ps), genCylinder_ok d m hH hV hB hT, ?_, ?_⟩
  · have := asm_grows m ps (fun v => OnCylinder d.radius d.height v.position ∧ UnitNormal v) (by
      intro p hp
      simp only [ps, cylParts, List.mem_cons, List.not_mem_nil, or_false] at hp
      rcases hp with rfl | rfl | rfl
      · exact mantleP_valid _ _ _ _ _ _ _ _
      · exact discP0_valid _ _ _ _ _ _ _ _
      · exact discP0_valid _ _ _ _ _ _ _ _) (by
      intro p hp x hx
      simp only [ps, cylParts, List.mem_cons, List.not_mem_nil, or_false] at hp
      rcases hp with rfl | rfl | rfl
      · obtain ⟨y, u, hy, _, e, n⟩ := mantleP_mem hx
        refine ⟨.inl ⟨by rw [e]; exact hy, turn H u, by rw [e]; rfl⟩, ?_⟩
        rw [UnitNormal, n]; simp
      · obtain ⟨s, u, h0, h1, _, e, n⟩ := discP0_mem hx
        refine ⟨.inr ⟨by rw [e]; exact (half_abs _).2.1, s, turn H u, h0, h1, by rw [e]; rfl⟩, ?_⟩
        rw [UnitNormal, n]; norm_num
      · obtain ⟨s, u, h0, h1, _, e, n⟩ := discP0_mem hx
        refine ⟨.inr ⟨by rw [e]; exact (half_abs _).1, s, turn H u, h0, h1, by rw [e]; rfl⟩, ?_⟩
        rw [UnitNormal, n]; norm_num)
    convert this using 1
    · simp [ps, cylParts, covV, mantleP_len, discP0_len, Nat.add_assoc]
    · simp [ps, cylParts, mantleP, discP0_nt, Nat.add_assoc]
  · intro r1 r2 r3
    have := asm_faces m ps (by
      intro p hp
      simp only [ps, cylParts, List.mem_cons, List.not_mem_nil, or_false] at hp
      rcases hp with rfl | rfl | rfl
      · exact mantleP_faces _ _ _ _ _ _ _ _ r1
      · exact discP0_faces _ _ _ _ _ _ _ _ r2
      · exact discP0_faces _ _ _ _ _ _ _ _ r3)
    simp only [ps, cylParts, List.flatMap_cons, List.flatMap_nil, List.append_nil, discP0_fs, ← List.append_assoc] at this
    exact this

/-- The default cylinder, and a point of a cylinder. -/
example : OnCylinder ⟨1 / 2, 1 / 2⟩ 1 ⟨0, 1 / 4, 1 / 2⟩ := .inl ⟨by norm_num [abs_le], 0, by simp [atAngle]⟩

/-- The vertices of the mantle of a cone. -/
noncomputable def coneVx (r : V2 ℝ) (h : ℝ) (H V u v : ℕ) : Vertex ℝ :=
  ⟨atAngle (scaled (v / V) r) (h / 2 - v / V * h) (turn H u),
    lerpV ⟨0, 1, 0⟩ ⟨Real.sin (turn H u), 0, Real.cos (turn H u)⟩ (√(v * (1 / V))), ⟨(H - u : ℕ) * (1 / H), v * (1 / V)⟩⟩

noncomputable def coneTip (h : ℝ) (H u : ℕ) : Vertex ℝ := ⟨⟨0, h / 2, 0⟩, ⟨0, 1, 0⟩, ⟨(H - u : ℕ) * (1 / H), 0⟩⟩

theorem coneVerts_ok (r : V2 ℝ) (h : ℝ) (H V : ℕ) (m : M) (hH : H + 1 < 2 ^ 32) (hV : V + 1 < 2 ^ 32) :
    coneVerts (1 / (H : ℝ) * (Real.pi * 2)) r.x r.y (h * (1 / 2)) H V m = .ok (ext m (coneV H V (coneTip h H) (coneVx r h H V)) []) := by
  unfold coneVerts
  dsimp only
  have := forLe_acc 0 H (fun u (s : M × ℝ) =>
    (forLe 1 V (fun v m => .ok (add m (lerpV ⟨0, h * (1 / 2), 0⟩ ⟨Real.sin s.2 * r.x, -(h * (1 / 2)), Real.cos s.2 * r.y⟩ (v * (1 / V)))
      (lerpV ⟨0, 1, 0⟩ (Plane.normalizeVec ⟨Real.sin s.2, 0, Real.cos s.2⟩) (√ (v * (1 / V)))) ((H - u : ℕ) * (1 / H)) (v * (1 / V)))) s.1).bind fun m =>
    .ok (if u < H then add m ⟨0, h * (1 / 2), 0⟩ ⟨0, 1, 0⟩ ((H - u : ℕ) * (1 / H)) 0 else m, s.2 + 1 / (H : ℝ) * (Real.pi * 2)))
    (fun i => 0 + (i : ℝ) * (1 / (H : ℝ) * (Real.pi * 2))) (fun u => (tab 1 V fun v => [coneVx r h H V u v]) ++ if u < H then [coneTip h H u] else []) (fun _ => [])
    m (by omega) hH (by
      intro u m _ _
      dsimp only
      rw [turn_eq, forLe_ext 1 V _ (fun v => [coneVx r h H V u v]) (fun _ => []) m (by omega) hV (fun v m _ _ => by
        rw [add_eq, normalize_unit _ (by simp)]
        congr 4
        simp only [atAngle, scaled, lerpV]
        ext <;> simp <;> ring), Res.bind_ok, tab_nil, Nat.add_sub_cancel]
      split_ifs
      · rw [add_eq, ext_ext, coneTip, show h * (1 / 2) = h / 2 by ring]
        congr 2
        push_cast [turn]
        ring
      · rw [List.append_nil]
        congr 2
        push_cast [turn]
        ring)
  simp only [Nat.cast_zero, zero_mul, add_zero] at this
  rw [this, Res.bind_ok]
  simp only [Nat.sub_zero, tab_nil]
  rfl

noncomputable def coneP (alt : Bool) (r : V2 ℝ) (h : ℝ) (H V : ℕ) : Part :=
  ⟨coneV H V (coneTip h H) (coneVx r h H V), coneTrisIx alt H V, H * (2 * V - 1),
    mantleOfCone alt H V ⟨0, h / 2, 0⟩ fun u v => atAngle (scaled (v / V) r) (h / 2 - v / V * h) (turn H u)⟩

/-- The parts of a mesh. -/
noncomputable def coneParts (d : ConeDesc) (H V : ℕ) : List Part := [coneP d.alternateGrid d.radius d.height H V,
  discP0 false d.alternateGrid (turn H) d.radius (-(d.height * (1 / 2))) (-1) H d.cov]

theorem genCone_ok (d : ConeDesc) (m : M) (hH : max 3 d.segsX + 1 < 2 ^ 32) (hV : max 1 d.segsY + 1 < 2 ^ 32) (hB : d.cov + 1 < 2 ^ 32) :
    genCone d m = .ok (ext m (allVs (coneParts d (max 3 d.segsX) (max 1 d.segsY))) (asm m.vertices.length (coneParts d (max 3 d.segsX) (max 1 d.segsY)))) := by
  simp only [genCone, pos_ite]
  have hV1 : 1 ≤ max 1 d.segsY := le_max_left _ _
  generalize max 3 d.segsX = H at *
  generalize max 1 d.segsY = V at *
  rw [coneVerts_ok _ _ _ _ _ hH hV, Res.bind_ok,
    discVerts0_ok (turn H) d.alternateGrid _ _ _ _ _ _ _ _ _ _ hH hB (turn_eq H), Res.bind_ok,
    coneTris_ok _ _ _ _ _ (by omega) hV1 hV, Res.bind_ok,
    discTris0_ok (turn H) d.radius (-(d.height * (1 / 2))) (-1) _ _ _ _ _ _ (by omega) (by omega)]
  simp only [ext_ext, ext_len, List.append_nil, List.nil_append]
  congr 2
  · simp only [coneParts, allVs, List.flatMap_cons, List.flatMap_nil, List.append_nil, List.append_assoc]; rfl
  · simp only [coneParts, asm, List.append_nil]; rfl

/-- C44: the cone. -/
theorem C44_cone (d : ConeDesc) (m : M) (hH : max 3 d.segsX + 1 < 2 ^ 32) (hV : max 1 d.segsY + 1 < 2 ^ 32) (hB : d.cov + 1 < 2 ^ 32) :
    let H := max 3 d.segsX
    let V := max 1 d.segsY
    ∃ m', genCone d m = .ok m' ∧
      Grows m m' (H * (V + 1) + V + if d.cov = 0 then 0 else 1 + (H + 1) * d.cov) (H * (2 * V - 1) + H * (2 * d.cov - 1))
        (fun v => OnCone d.radius d.height v.position) ∧
      (2 * (V + 1) ≤ 2 ^ 32 → 2 * d.cov ≤ 2 ^ 32 →
        NewFaces m m' ((mantleOfCone d.alternateGrid H V ⟨0, d.height / 2, 0⟩ fun u v =>
            atAngle (scaled (v / V) d.radius) (d.height / 2 - v / V * d.height) (2 * Real.pi * u / H)) ++
          if d.cov = 0 then [] else disc false d.alternateGrid H d.cov ⟨0, -(d.height * (1 / 2)), 0⟩ fun u v =>
            atAngle (scaled (v / d.cov) d.radius) (-(d.height * (1 / 2))) (2 * Real.pi * u / H))) := by
  intro H V
  have hV1 : 1 ≤ V := le_max_left _ _
  let ps : List Part := coneParts d H V
  refine ⟨ext m (allVs ps) (asm m.vertices.length ps), genCone_ok d m hH hV hB, ?_, ?_⟩
  · have := asm_grows m ps (fun v => OnCone d.radius d.height v.position) (by
      intro p hp
      simp only [ps, coneParts, List.mem_cons, List.not_mem_nil, or_false] at hp
      rcases hp with rfl | rfl
      · intro off
        refine ⟨coneTrisIx_length _ _ _ _ hV1, fun t ht i hi => ?_⟩
        have := coneTrisIx_mem _ _ _ _ hV1 ht i hi
        simpa [coneP, coneV_length] using this
      · exact discP0_valid _ _ _ _ _ _ _ _) (by
      intro p hp x hx
      simp only [ps, coneParts, List.mem_cons, List.not_mem_nil, or_false] at hp
      rcases hp with rfl | rfl
      · rcases coneV_mem _ _ hx with ⟨u, _, rfl⟩ | ⟨u, v, _, _, hv, rfl⟩
        · exact ⟨0, 0, le_refl _, zero_le_one, .inl (by simp [coneTip, atAngle, scaled])⟩
        · obtain ⟨a, b⟩ := frac_unit v V hv
          exact ⟨_, turn H u, a, b, .inl rfl⟩
      · obtain ⟨s, u, h0, h1, _, e, n⟩ := discP0_mem hx
        exact ⟨s, turn H u, h0, h1, .inr (by rw [e]; congr 1; ring)⟩)
    convert this using 1
    · simp [ps, coneParts, coneP, coneV_length, discP0_len]
    · simp [ps, coneParts, coneP, discP0_nt]
  · intro r1 r2
    have := asm_faces m ps (by
      intro p hp
      simp only [ps, coneParts, List.mem_cons, List.not_mem_nil, or_false] at hp
      rcases hp with rfl | rfl
      · exact fun m off hs => coneTrisIx_faces (tip := coneTip d.height H 0) (f := coneVx d.radius d.height H V) (tips := coneTip d.height H) d.alternateGrid H V off (fun u => rfl) hs hV1 r1
      · exact discP0_faces _ _ _ _ _ _ _ _ r2)
    simp only [ps, coneParts, List.flatMap_cons, List.flatMap_nil, List.append_nil, discP0_fs, ← List.append_assoc] at this
    exact this

/-- A point of a cone. -/
example : OnCone ⟨1 / 2, 1 / 2⟩ 1 ⟨0, 0, 1 / 4⟩ := ⟨1 / 2, 0, by norm_num, by norm_num, .inl (by simp [atAngle, scaled]; norm_num)⟩

/-! C45, pipe. -/

noncomputable def ringVx (inner outer : V2 ℝ) (y side : ℝ) (top : Bool) (H C u v : ℕ) : Vertex ℝ :=
  let a := turn H u
  let i := (v : ℝ) * (1 / C)
  let ay := 1 / 2 + Real.cos a * inner.y * (1 / (outer.y * 2))
  let b_y := 1 / 2 + Real.cos a * outer.y * (1 / (outer.y * 2))
  ⟨atAngle (between (v / C) inner outer) y a, ⟨0, side, 0⟩,
    ⟨lerp (1 / 2 + Real.sin a * inner.x * (1 / (outer.x * 2))) (1 / 2 + Real.sin a * outer.x * (1 / (outer.x * 2))) i,
      if top then lerp (1 - ay) (1 - b_y) i else lerp ay b_y i⟩⟩

theorem ringVerts_ok (inner outer : V2 ℝ) (y side : ℝ) (top : Bool) (H C : ℕ) (m : M) (hH : H + 1 < 2 ^ 32) (hC : C + 1 < 2 ^ 32) :
    ringVerts (1 / (H : ℝ) * (Real.pi * 2)) inner outer y side top H C m = .ok (ext m (gridV (H + 1) (C + 1) (ringVx inner outer y side top H C)) []) := by
  have := forLe_gridA H C 0 0 (1 / (H : ℝ) * (Real.pi * 2)) (fun _ v a m =>
    let i := (v : ℝ) * (1 / C)
    let ay := 1 / 2 + Real.cos a * inner.y * (1 / (outer.y * 2))
    let b_y := 1 / 2 + Real.cos a * outer.y * (1 / (outer.y * 2))
    .ok (add m (lerpV ⟨Real.sin a * inner.x, y, Real.cos a * inner.y⟩ ⟨Real.sin a * outer.x, y, Real.cos a * outer.y⟩ i) ⟨0, side, 0⟩
      (lerp (1 / 2 + Real.sin a * inner.x * (1 / (outer.x * 2))) (1 / 2 + Real.sin a * outer.x * (1 / (outer.x * 2))) i)
      (if top then lerp (1 - ay) (1 - b_y) i else lerp ay b_y i)))
    (ringVx inner outer y side top H C) m hH hC (by omega) (by
      intro u v m _
      dsimp only
      rw [turn_eq, add_eq]
      simp only [ringVx]
      congr 4
      simp only [atAngle, between, lerpV]
      ext <;> simp <;> ring)
  simp only [Nat.sub_zero, Nat.zero_add] at this
  exact this

/-- The part of a ring. -/
noncomputable def ringP (top alt : Bool) (inner outer : V2 ℝ) (y side : ℝ) (H C : ℕ) : Part :=
  ⟨gridV (H + 1) (C + 1) (ringVx inner outer y side top H C), ringTrisIx top alt H C, 2 * (H * C),
    let D := fun u v : ℕ => atAngle (between (v / C) inner outer) y (turn H u)
    grid H C fun u v => if top then quad alt u v (D (u + 1) v) (D u v) (D u (v + 1)) (D (u + 1) (v + 1))
      else quad alt u v (D u v) (D (u + 1) v) (D (u + 1) (v + 1)) (D u (v + 1))⟩

/-- The part of a ring, left out if it has no segments. -/
noncomputable def ringP0 (top alt : Bool) (inner outer : V2 ℝ) (y side : ℝ) (H C : ℕ) : Part :=
  if C = 0 then Part.none else ringP top alt inner outer y side H C

section ring
variable (top alt : Bool) (inner outer : V2 ℝ) (y side : ℝ) (H C : ℕ)

theorem ringP0_len : (ringP0 top alt inner outer y side H C).vs.length = if C = 0 then 0 else (H + 1) * (C + 1) := by
  unfold ringP0; split_ifs
  · rfl
  · exact gridV_length ..

theorem ringP0_nt : (ringP0 top alt inner outer y side H C).nt = 2 * (H * C) := by
  unfold ringP0; split_ifs with h
  · subst h; simp [Part.none]
  · rfl

theorem ringP0_valid : (ringP0 top alt inner outer y side H C).Valid := by
  unfold ringP0; split_ifs
  · exact none_valid
  · intro off
    refine ⟨ringTrisIx_length .., fun t ht i hi => ?_⟩
    have := ringTrisIx_mem _ _ _ _ _ ht i hi
    simpa [ringP, gridV_length] using this

theorem ringP0_faces (hb : 2 * (C + 1) ≤ 2 ^ 32) : (ringP0 top alt inner outer y side H C).HasFaces := by
  unfold ringP0; split_ifs
  · exact none_faces
  · exact fun _ _ hs => ringTrisIx_faces _ _ _ _ _ hs hb

theorem ringP0_fs : (ringP0 top alt inner outer y side H C).fs = if C = 0 then [] else
    let D := fun u v : ℕ => atAngle (between (v / C) inner outer) y (turn H u)
    grid H C fun u v => if top then quad alt u v (D (u + 1) v) (D u v) (D u (v + 1)) (D (u + 1) (v + 1))
      else quad alt u v (D u v) (D (u + 1) v) (D (u + 1) (v + 1)) (D u (v + 1)) := by
  unfold ringP0
  by_cases h : C = 0
  · rw [if_pos h, if_pos h]; rfl
  · rw [if_neg h, if_neg h]; rfl

theorem ringP0_mem {x : Vertex ℝ} (hx : x ∈ (ringP0 top alt inner outer y side H C).vs) :
    ∃ (s : ℝ) (u : ℕ), 0 ≤ s ∧ s ≤ 1 ∧ x.position = atAngle (between s inner outer) y (turn H u) ∧ x.normal = ⟨0, side, 0⟩ := by
  unfold ringP0 at hx
  split_ifs at hx
  · cases hx
  · obtain ⟨u, v, hu, hv, rfl⟩ := gridV_mem.1 hx
    obtain ⟨a, b⟩ := frac_unit v C (by omega)
    exact ⟨_, u, a, b, rfl, rfl⟩

theorem ringVerts0_ok (m : M) (hH : H + 1 < 2 ^ 32) (hC : C + 1 < 2 ^ 32) :
    (if C = 0 then .ok m else ringVerts (1 / (H : ℝ) * (Real.pi * 2)) inner outer y side top H C m) =
      .ok (ext m (ringP0 top alt inner outer y side H C).vs []) := by
  unfold ringP0
  split_ifs
  · simp [Part.none, ext_nil]
  · rw [ringVerts_ok _ _ _ _ _ _ _ _ hH hC]; rfl

theorem ringTris0_ok (off : ℕ) (m : M) (hH : H < 2 ^ 32) (hC : C + 1 < 2 ^ 32) :
    (if C = 0 then .ok m else ringTris top alt H C off m) = .ok (ext m [] ((ringP0 top alt inner outer y side H C).ts off)) := by
  unfold ringP0
  split_ifs
  · simp [Part.none, ext_nil]
  · rw [ringTris_ok _ _ _ _ _ _ hH hC]; rfl

end ring

/-- The parts of a mesh. -/
noncomputable def pipeParts (d : PipeDesc) (H V : ℕ) : List Part := [mantleP false d.alternateGrid (turn H) d.outerRadius d.height 1 H V,
  mantleP true d.alternateGrid (turn H) d.innerRadius d.height (-1) H V,
  ringP0 false d.alternateGrid d.innerRadius d.outerRadius (d.height * (1 / 2) * -1) (-1) H d.bottomCov,
  ringP0 true d.alternateGrid d.innerRadius d.outerRadius (d.height * (1 / 2) * 1) 1 H d.topCov]

theorem genPipe_ok (d : PipeDesc) (m : M) (hH : max 3 d.segsX + 1 < 2 ^ 32) (hV : max 1 d.segsY + 1 < 2 ^ 32) (hB : d.bottomCov + 1 < 2 ^ 32) (hT : d.topCov + 1 < 2 ^ 32) :
    genPipe d m = .ok (ext m (allVs (pipeParts d (max 3 d.segsX) (max 1 d.segsY))) (asm m.vertices.length (pipeParts d (max 3 d.segsX) (max 1 d.segsY)))) := by
  simp only [genPipe]
  generalize max 3 d.segsX = H at *
  generalize max 1 d.segsY = V at *
  rw [mantleVerts_ok (turn H) _ _ _ _ _ _ _ _ _ hH hV (turn_eq H), Res.bind_ok,
    mantleVerts_ok (turn H) _ _ _ _ _ _ _ _ _ hH hV (turn_eq H), Res.bind_ok,
    ringVerts0_ok _ d.alternateGrid _ _ _ _ _ _ _ hH hB, Res.bind_ok,
    ringVerts0_ok _ d.alternateGrid _ _ _ _ _ _ _ hH hT, Res.bind_ok,
    mantleTris_ok _ _ _ _ _ _ (by omega) hV, Res.bind_ok, mantleTris_ok _ _ _ _ _ _ (by omega) hV, Res.bind_ok,
    ringTris0_ok _ _ d.innerRadius d.outerRadius (d.height * (1 / 2) * -1) (-1) _ _ _ _ (by omega) hB, Res.bind_ok,
    ringTris0_ok _ _ d.innerRadius d.outerRadius (d.height * (1 / 2) * 1) 1 _ _ _ _ (by omega) hT]
  simp only [ext_ext, ext_len, List.append_nil, List.nil_append]
  congr 2
  · simp only [pipeParts, allVs, List.flatMap_cons, List.flatMap_nil, List.append_nil, List.append_assoc]; rfl
  · simp only [pipeParts, asm, List.append_nil, List.append_assoc, List.length_append, Nat.add_assoc]; rfl

/-- C45: the pipe: outer mantle, inner mantle, bottom ring, top ring. -/
theorem C45_pipe (d : PipeDesc) (m : M) (hH : max 3 d.segsX + 1 < 2 ^ 32) (hV : max 1 d.segsY + 1 < 2 ^ 32)
    (hB : d.bottomCov + 1 < 2 ^ 32) (hT : d.topCov + 1 < 2 ^ 32) :
    let H := max 3 d.segsX
    let V := max 1 d.segsY
    let covV := fun C => if C = 0 then 0 else (H + 1) * (C + 1)
    ∃ m', genPipe d m = .ok m' ∧
      Grows m m' (2 * ((H + 1) * (V + 1)) + covV d.bottomCov + covV d.topCov) (4 * (H * V) + 2 * (H * d.bottomCov) + 2 * (H * d.topCov))
        (fun v => OnPipe d.innerRadius d.outerRadius d.height v.position ∧ UnitNormal v) ∧
      (2 * (V + 1) ≤ 2 ^ 32 → 2 * (d.bottomCov + 1) ≤ 2 ^ 32 → 2 * (d.topCov + 1) ≤ 2 ^ 32 →
        let D := fun (r : V2 ℝ) (u v : ℕ) => atAngle r (d.height / 2 - d.height * (v / V)) (2 * Real.pi * u / H)
        let R := fun (C : ℕ) (y : ℝ) (u v : ℕ) => atAngle (between (v / C) d.innerRadius d.outerRadius) y (2 * Real.pi * u / H)
        let O := D d.outerRadius
        let I := D d.innerRadius
        let B := R d.bottomCov (d.height * (1 / 2) * -1)
        let T := R d.topCov (d.height * (1 / 2) * 1)
        NewFaces m m' ((grid H V fun u v => quad d.alternateGrid u v (O (u + 1) v) (O u v) (O u (v + 1)) (O (u + 1) (v + 1))) ++
          (grid H V fun u v => quad d.alternateGrid u v (I u v) (I (u + 1) v) (I (u + 1) (v + 1)) (I u (v + 1))) ++
          (if d.bottomCov = 0 then [] else grid H d.bottomCov fun u v =>
            quad d.alternateGrid u v (B u v) (B (u + 1) v) (B (u + 1) (v + 1)) (B u (v + 1))) ++
          (if d.topCov = 0 then [] else grid H d.topCov fun u v =>
            quad d.alternateGrid u v (T (u + 1) v) (T u v) (T u (v + 1)) (T (u + 1) (v + 1))))) := by
  intro H V covV
  let ps : List Part := pipeParts d H V
  refine ⟨ext m (allVs ps) (asm m.vertices.length ps), genPipe_ok d m hH hV hB hT, ?_, ?_⟩
  · have := asm_grows m ps (fun v => OnPipe d.innerRadius d.outerRadius d.height v.position ∧ UnitNormal v) (by
      intro p hp
      simp only [ps, pipeParts, List.mem_cons, List.not_mem_nil, or_false] at hp
      rcases hp with rfl | rfl | rfl | rfl
      · exact mantleP_valid _ _ _ _ _ _ _ _
      · exact mantleP_valid _ _ _ _ _ _ _ _
      · exact ringP0_valid _ _ _ _ _ _ _ _
      · exact ringP0_valid _ _ _ _ _ _ _ _) (by
      intro p hp x hx
      simp only [ps, pipeParts, List.mem_cons, List.not_mem_nil, or_false] at hp
      rcases hp with rfl | rfl | rfl | rfl
      · obtain ⟨y, u, hy, _, e, n⟩ := mantleP_mem hx
        refine ⟨.inl ⟨by rw [e]; exact hy, turn H u, .inl (by rw [e]; rfl)⟩, ?_⟩
        rw [UnitNormal, n]; simp
      · obtain ⟨y, u, hy, _, e, n⟩ := mantleP_mem hx
        refine ⟨.inl ⟨by rw [e]; exact hy, turn H u, .inr (by rw [e]; rfl)⟩, ?_⟩
        rw [UnitNormal, n]; simp
      · obtain ⟨s, u, h0, h1, e, n⟩ := ringP0_mem _ _ _ _ _ _ _ _ hx
        refine ⟨.inr ⟨by rw [e]; exact (half_abs _).2.1, s, turn H u, h0, h1, by rw [e]; rfl⟩, ?_⟩
        rw [UnitNormal, n]; norm_num
      · obtain ⟨s, u, h0, h1, e, n⟩ := ringP0_mem _ _ _ _ _ _ _ _ hx
        refine ⟨.inr ⟨by rw [e]; exact (half_abs _).1, s, turn H u, h0, h1, by rw [e]; rfl⟩, ?_⟩
        rw [UnitNormal, n]; norm_num)
    convert this using 1
    · simp [ps, pipeParts, covV, mantleP_len, ringP0_len]; ring
    · simp [ps, pipeParts, mantleP, ringP0_nt]; ring
  · intro r1 r2 r3
    have := asm_faces m ps (by
      intro p hp
      simp only [ps, pipeParts, List.mem_cons, List.not_mem_nil, or_false] at hp
      rcases hp with rfl | rfl | rfl | rfl
      · exact mantleP_faces _ _ _ _ _ _ _ _ r1
      · exact mantleP_faces _ _ _ _ _ _ _ _ r1
      · exact ringP0_faces _ _ _ _ _ _ _ _ r2
      · exact ringP0_faces _ _ _ _ _ _ _ _ r3)
    simp only [ps, pipeParts, List.flatMap_cons, List.flatMap_nil, List.append_nil, ringP0_fs, ← List.append_assoc] at this
    exact this

/-- A point of a pipe. -/
example : OnPipe ⟨1 / 4, 1 / 4⟩ ⟨1 / 2, 1 / 2⟩ 1 ⟨0, 1 / 2, 3 / 8⟩ :=
  .inr ⟨by norm_num, 1 / 2, 0, by norm_num, by norm_num, by simp [atAngle, between]; norm_num⟩

/-! C45, pie. -/

noncomputable def sideVx (angle normalAngle tc0 tc1 : ℝ) (r : V2 ℝ) (h : ℝ) (C V u v : ℕ) : Vertex ℝ :=
  ⟨atAngle (scaled (u / C) r) (h / 2 - h * (v / V)) angle, ⟨Real.sin normalAngle, 0, Real.cos normalAngle⟩, ⟨tc0 + u * (1 / C) * tc1, v * (1 / V)⟩⟩

theorem sideVerts_ok (angle no tc0 tc1 : ℝ) (r : V2 ℝ) (h : ℝ) (C V : ℕ) (m : M) (hC : C + 1 < 2 ^ 32) (hV : V + 1 < 2 ^ 32) :
    sideVerts angle no tc0 tc1 r.x r.y (h * (1 / 2)) C V m = .ok (ext m (gridV (C + 1) (V + 1) (sideVx angle (angle + no) tc0 tc1 r h C V)) []) := by
  refine forLe_grid C V _ _ m hC hV fun u v m => ?_
  dsimp only
  rw [add_eq, sideVx]
  congr 4
  simp only [atAngle, scaled, lerp]
  ext <;> simp <;> ring

noncomputable def sideP (flip alt : Bool) (angle normalAngle tc0 tc1 : ℝ) (r : V2 ℝ) (h : ℝ) (C V : ℕ) : Part :=
  ⟨gridV (C + 1) (V + 1) (sideVx angle normalAngle tc0 tc1 r h C V), mantleTrisIx flip alt C V, 2 * (C * V),
    let D := fun u v : ℕ => atAngle (scaled (u / C) r) (h / 2 - h * (v / V)) angle
    grid C V fun u v => if flip then quad alt u v (D u v) (D (u + 1) v) (D (u + 1) (v + 1)) (D u (v + 1))
      else quad alt u v (D (u + 1) v) (D u v) (D u (v + 1)) (D (u + 1) (v + 1))⟩

theorem sideP_valid (flip alt : Bool) (angle na tc0 tc1 : ℝ) (r : V2 ℝ) (h : ℝ) (C V : ℕ) : (sideP flip alt angle na tc0 tc1 r h C V).Valid := by
  intro off
  refine ⟨mantleTrisIx_length .., fun t ht i hi => ?_⟩
  have := mantleTrisIx_mem _ _ _ _ _ ht i hi
  simpa [sideP, gridV_length] using this

theorem sideP_faces (flip alt : Bool) (angle na tc0 tc1 : ℝ) (r : V2 ℝ) (h : ℝ) (C V : ℕ) (hb : 2 * (V + 1) ≤ 2 ^ 32) :
    (sideP flip alt angle na tc0 tc1 r h C V).HasFaces := fun _ _ hs => mantleTrisIx_faces _ _ _ _ _ hs hb

theorem sideP_mem {flip alt : Bool} {angle na tc0 tc1 : ℝ} {r : V2 ℝ} {h : ℝ} {C V : ℕ} {x : Vertex ℝ}
    (hx : x ∈ (sideP flip alt angle na tc0 tc1 r h C V).vs) : ∃ s y : ℝ, 0 ≤ s ∧ s ≤ 1 ∧ |y| ≤ |h| / 2 ∧
      x.position = atAngle (scaled s r) y angle ∧ UnitNormal x := by
  obtain ⟨u, v, hu, hv, rfl⟩ := gridV_mem.1 hx
  obtain ⟨a, b⟩ := frac_unit u C (by omega)
  obtain ⟨a', b'⟩ := frac_unit v V (by omega)
  exact ⟨_, _, a, b, height_bound h _ a' b', rfl, by simp [UnitNormal, sideVx]⟩

/-- The angles of a pie. -/
noncomputable def pieAngle (start cut : ℝ) (H u : ℕ) : ℝ := start + (2 * Real.pi - cut) * (u / H)

/-- The parts of a pie. -/
noncomputable def pieParts (d : PieDesc) (cut : ℝ) (H V C : ℕ) : List Part :=
  [mantleP false d.alternateGrid (pieAngle (d.angleOffset + cut) cut H) d.radius d.height 1 H V,
  sideP false d.alternateGrid (d.angleOffset + cut) (d.angleOffset + cut + (Real.pi + Real.pi / 2)) 1 (-1) d.radius d.height C V,
  sideP true d.alternateGrid (d.angleOffset + cut - cut) (d.angleOffset + cut - cut + (Real.pi / 2)) 0 1 d.radius d.height C V,
  discP0 false d.alternateGrid (pieAngle (d.angleOffset + cut) cut H) d.radius (d.height * (1 / 2) * -1) (-1) H d.cov,
  discP0 true d.alternateGrid (pieAngle (d.angleOffset + cut) cut H) d.radius (d.height * (1 / 2) * 1) 1 H d.cov]

theorem genPie_ok (d : PieDesc) (m : M) (hH : max 3 d.segsX + 1 < 2 ^ 32) (hV : max 1 d.segsY + 1 < 2 ^ 32) (hC : d.cov + 1 < 2 ^ 32) :
    let ps := pieParts d (max 0 (min d.angle (Real.pi * 2))) (max 3 d.segsX) (max 1 d.segsY) (max 1 d.cov)
    genPie d m = .ok (ext m (allVs ps) (asm m.vertices.length ps)) := by
  dsimp only
  have hC' : max 1 d.cov + 1 < 2 ^ 32 := by
    rcases max_choice 1 d.cov with h | h
    · rw [h]; norm_num
    · rw [h]; exact hC
  have ha : ∀ u : ℕ, d.angleOffset + max 0 (min d.angle (Real.pi * 2)) + (u : ℝ) * (1 / ((max 3 d.segsX : ℕ) : ℝ) * (Real.pi * 2 - max 0 (min d.angle (Real.pi * 2)))) =
      pieAngle (d.angleOffset + max 0 (min d.angle (Real.pi * 2))) (max 0 (min d.angle (Real.pi * 2))) (max 3 d.segsX) u := by
    intro u; simp only [pieAngle]; ring
  simp only [genPie, pos_ite]
  generalize max 0 (min d.angle (Real.pi * 2)) = cut at *
  generalize max 3 d.segsX = H at *
  generalize max 1 d.segsY = V at *
  generalize max 1 d.cov = C at *
  rw [mantleVerts_ok (pieAngle (d.angleOffset + cut) cut H) _ _ _ _ _ _ _ _ _ hH hV ha, Res.bind_ok,
    sideVerts_ok _ _ _ _ _ _ _ _ _ hC' hV, Res.bind_ok, sideVerts_ok _ _ _ _ _ _ _ _ _ hC' hV, Res.bind_ok,
    discVerts0_ok (pieAngle (d.angleOffset + cut) cut H) d.alternateGrid _ _ _ _ _ _ _ _ _ _ hH hC ha, Res.bind_ok,
    discVerts0_ok (pieAngle (d.angleOffset + cut) cut H) d.alternateGrid _ _ _ _ _ _ _ _ _ _ hH hC ha, Res.bind_ok,
    mantleTris_ok _ _ _ _ _ _ (by omega) hV, Res.bind_ok, mantleTris_ok _ _ _ _ _ _ (by omega) hV, Res.bind_ok,
    mantleTris_ok _ _ _ _ _ _ (by omega) hV, Res.bind_ok,
    discTris0_ok (pieAngle (d.angleOffset + cut) cut H) d.radius (d.height * (1 / 2) * -1) (-1) _ _ _ _ _ _ (by omega) (by omega), Res.bind_ok,
    discTris0_ok (pieAngle (d.angleOffset + cut) cut H) d.radius (d.height * (1 / 2) * 1) 1 _ _ _ _ _ _ (by omega) (by omega)]
  simp only [ext_ext, ext_len, List.append_nil, List.nil_append]
  congr 2
  · simp only [pieParts, allVs, List.flatMap_cons, List.flatMap_nil, List.append_nil, List.append_assoc]; rfl
  · simp only [pieParts, asm, List.append_nil, List.append_assoc, List.length_append, Nat.add_assoc]; rfl

/-- C45: the pie: mantle, two plane sides, bottom and top (if they have segments). -/
theorem C45_pie (d : PieDesc) (m : M) (hH : max 3 d.segsX + 1 < 2 ^ 32) (hV : max 1 d.segsY + 1 < 2 ^ 32) (hC : d.cov + 1 < 2 ^ 32) :
    let H := max 3 d.segsX
    let V := max 1 d.segsY
    let C := max 1 d.cov
    let cut := max 0 (min d.angle (Real.pi * 2))
    let covV := if d.cov = 0 then 0 else 1 + (H + 1) * d.cov
    ∃ m', genPie d m = .ok m' ∧
      Grows m m' ((H + 1) * (V + 1) + 2 * ((C + 1) * (V + 1)) + 2 * covV) (2 * (H * V) + 4 * (C * V) + 2 * (H * (2 * d.cov - 1)))
        (fun v => OnPie d.radius d.height d.angleOffset (d.angleOffset + cut) v.position ∧ UnitNormal v) ∧
      (2 * (V + 1) ≤ 2 ^ 32 → 2 * d.cov ≤ 2 ^ 32 →
        let ang := fun u : ℕ => d.angleOffset + cut + (2 * Real.pi - cut) * (u / H)
        let D := fun u v : ℕ => atAngle d.radius (d.height / 2 - d.height * (v / V)) (ang u)
        let S := fun (a : ℝ) (u v : ℕ) => atAngle (scaled (u / C) d.radius) (d.height / 2 - d.height * (v / V)) a
        let A := S (d.angleOffset + cut)
        let B := S (d.angleOffset + cut - cut)
        let cov := fun (top : Bool) (y : ℝ) => if d.cov = 0 then [] else
          disc top d.alternateGrid H d.cov ⟨0, y, 0⟩ fun u v => atAngle (scaled (v / d.cov) d.radius) y (ang u)
        NewFaces m m' ((grid H V fun u v => quad d.alternateGrid u v (D (u + 1) v) (D u v) (D u (v + 1)) (D (u + 1) (v + 1))) ++
          (grid C V fun u v => quad d.alternateGrid u v (A (u + 1) v) (A u v) (A u (v + 1)) (A (u + 1) (v + 1))) ++
          (grid C V fun u v => quad d.alternateGrid u v (B u v) (B (u + 1) v) (B (u + 1) (v + 1)) (B u (v + 1))) ++
          cov false (d.height * (1 / 2) * -1) ++ cov true (d.height * (1 / 2) * 1))) := by
  intro H V C cut covV
  have cut0 : 0 ≤ cut := le_max_left _ _
  have cut1 : cut ≤ 2 * Real.pi := max_le (by positivity) ((min_le_right _ _).trans (by linarith))
  let ang := pieAngle (d.angleOffset + cut) cut H
  have hr : ∀ u, u ≤ H → d.angleOffset + cut ≤ ang u ∧ ang u ≤ d.angleOffset + 2 * Real.pi := by
    intro u hu
    obtain ⟨a, b⟩ := frac_unit u H hu
    simp only [ang, pieAngle]
    have h0 : 0 ≤ 2 * Real.pi - cut := by linarith
    have := mul_nonneg h0 a
    have := mul_le_mul_of_nonneg_left b h0
    constructor <;> linarith
  let a1 := d.angleOffset + cut
  let a0 := d.angleOffset + cut - cut
  have ea0 : a0 = d.angleOffset := by simp only [a0]; ring
  let ps : List Part := pieParts d cut H V C
  refine ⟨ext m (allVs ps) (asm m.vertices.length ps), genPie_ok d m hH hV hC, ?_, ?_⟩
  · have := asm_grows m ps (fun v => OnPie d.radius d.height d.angleOffset (d.angleOffset + cut) v.position ∧ UnitNormal v) (by
      intro p hp
      simp only [ps, pieParts, List.mem_cons, List.not_mem_nil, or_false] at hp
      rcases hp with rfl | rfl | rfl | rfl | rfl
      · exact mantleP_valid _ _ _ _ _ _ _ _
      · exact sideP_valid _ _ _ _ _ _ _ _ _ _
      · exact sideP_valid _ _ _ _ _ _ _ _ _ _
      · exact discP0_valid _ _ _ _ _ _ _ _
      · exact discP0_valid _ _ _ _ _ _ _ _) (by
      intro p hp x hx
      simp only [ps, pieParts, List.mem_cons, List.not_mem_nil, or_false] at hp
      rcases hp with rfl | rfl | rfl | rfl | rfl
      · obtain ⟨y, u, hy, hu, e, n⟩ := mantleP_mem hx
        refine ⟨.inl ⟨by rw [e]; exact hy, ang u, (hr u hu).1, (hr u hu).2, by rw [e]; rfl⟩, ?_⟩
        rw [UnitNormal, n]; simp
      · obtain ⟨s, y, h0, h1, hy, e, n⟩ := sideP_mem hx
        exact ⟨.inr (.inl ⟨by rw [e]; exact hy, s, h0, h1, .inr (by rw [e]; rfl)⟩), n⟩
      · obtain ⟨s, y, h0, h1, hy, e, n⟩ := sideP_mem hx
        exact ⟨.inr (.inl ⟨by rw [e]; exact hy, s, h0, h1, .inl (by rw [e, show d.angleOffset + cut - cut = d.angleOffset from ea0]; rfl)⟩), n⟩
      · obtain ⟨s, u, h0, h1, hu, e, n⟩ := discP0_mem hx
        refine ⟨.inr (.inr ⟨by rw [e]; exact (half_abs _).2.1, s, ang u, h0, h1, (hr u hu).1, (hr u hu).2, by rw [e]; rfl⟩), ?_⟩
        rw [UnitNormal, n]; norm_num
      · obtain ⟨s, u, h0, h1, hu, e, n⟩ := discP0_mem hx
        refine ⟨.inr (.inr ⟨by rw [e]; exact (half_abs _).1, s, ang u, h0, h1, (hr u hu).1, (hr u hu).2, by rw [e]; rfl⟩), ?_⟩
        rw [UnitNormal, n]; norm_num)
    convert this using 1
    · simp only [ps, pieParts, covV, mantleP_len, discP0_len, sideP, gridV_length, List.map_cons, List.map_nil, List.sum_cons, List.sum_nil]; split_ifs <;> ring
    · simp [ps, pieParts, mantleP, sideP, discP0_nt]; ring
  · intro r1 r2
    have := asm_faces m ps (by
      intro p hp
      simp only [ps, pieParts, List.mem_cons, List.not_mem_nil, or_false] at hp
      rcases hp with rfl | rfl | rfl | rfl | rfl
      · exact mantleP_faces _ _ _ _ _ _ _ _ r1
      · exact sideP_faces _ _ _ _ _ _ _ _ _ _ r1
      · exact sideP_faces _ _ _ _ _ _ _ _ _ _ r1
      · exact discP0_faces _ _ _ _ _ _ _ _ r2
      · exact discP0_faces _ _ _ _ _ _ _ _ r2)
    simp only [ps, pieParts, List.flatMap_cons, List.flatMap_nil, List.append_nil, discP0_fs, ← List.append_assoc] at this
    exact this

example := C45_pie ⟨⟨4, 2⟩, 3, 5, 2, 1, 2, 1 / 2, true⟩ ⟨[], []⟩ (by norm_num) (by norm_num) (by norm_num)

/-! C45, capsule. -/

/-- The point of a half ellipsoid; the azimuth `a` is counted from the Z axis. -/
noncomputable def hemiPoint (r : V3 ℝ) (h side theta a : ℝ) : V3 ℝ :=
  ⟨-side * (r.x * (Real.sin theta * Real.sin a)), side * (r.y * Real.cos theta + h / 2), r.z * (Real.sin theta * Real.cos a)⟩

noncomputable def hemiVx (r : V3 ℝ) (h side : ℝ) (H V v u : ℕ) : Vertex ℝ :=
  ⟨hemiPoint r h side (Real.pi / 2 * (v / V)) (turn H u), hemiPoint ⟨1, 1, 1⟩ 0 side (Real.pi / 2 * (v / V)) (turn H u), ⟨u * (1 / H), v * (1 / V)⟩⟩

theorem hemi_unit (side theta a : ℝ) (hs : side = 1 ∨ side = -1) : (hemiPoint ⟨1, 1, 1⟩ 0 side theta a).x ^ 2 + (hemiPoint ⟨1, 1, 1⟩ 0 side theta a).y ^ 2 +
    (hemiPoint ⟨1, 1, 1⟩ 0 side theta a).z ^ 2 = 1 := by
  have h2 : side ^ 2 = 1 := by rcases hs with rfl | rfl <;> norm_num
  simp only [hemiPoint]
  linear_combination ((Real.sin theta * Real.sin a) ^ 2 + Real.cos theta ^ 2) * h2 + Real.sin_sq_add_cos_sq theta + Real.sin theta ^ 2 * Real.sin_sq_add_cos_sq a

theorem hemiVerts_ok (r : V3 ℝ) (h side : ℝ) (hs : side = 1 ∨ side = -1) (H V : ℕ) (m : M) (hH : H + 1 < 2 ^ 32) (hV : V + 1 < 2 ^ 32) :
    hemiVerts r (h * (1 / 2)) side H V m = .ok (ext m (gridV (V + 1) (H + 1) (hemiVx r h side H V)) []) := by
  refine forLe_grid V H _ _ m hV hH fun v u m => ?_
  dsimp only
  have e : (⟨(swapYZ (spherical (v * (1 / V) * (Real.pi / 2)) (u * (1 / H) * (Real.pi * 2) * side + Real.pi / 2))).x,
      (swapYZ (spherical (v * (1 / V) * (Real.pi / 2)) (u * (1 / H) * (Real.pi * 2) * side + Real.pi / 2))).y * side,
      (swapYZ (spherical (v * (1 / V) * (Real.pi / 2)) (u * (1 / H) * (Real.pi * 2) * side + Real.pi / 2))).z⟩ : V3 ℝ) =
      hemiPoint ⟨1, 1, 1⟩ 0 side (Real.pi / 2 * (v / V)) (turn H u) := by
    rw [show (v : ℝ) * (1 / V) * (Real.pi / 2) = Real.pi / 2 * (v / V) by ring,
      show (u : ℝ) * (1 / H) * (Real.pi * 2) * side = turn H u * side by unfold turn; ring]
    simp only [swapYZ, spherical, hemiPoint, Real.cos_add_pi_div_two, Real.sin_add_pi_div_two]
    rcases hs with rfl | rfl
    · ext <;> simp <;> ring
    · ext <;> simp <;> ring
  rw [e, add_eq, normalize_unit _ (hemi_unit _ _ _ hs), hemiVx]
  congr 4
  simp only [hemiPoint]
  ext <;> simp <;> ring

noncomputable def hemiP (alt : Bool) (r : V3 ℝ) (h side : ℝ) (H V : ℕ) : Part :=
  ⟨gridV (V + 1) (H + 1) (hemiVx r h side H V), gridTrisIx false alt H V, 2 * (H * V),
    let E := fun v u : ℕ => hemiPoint r h side (Real.pi / 2 * (v / V)) (turn H u)
    grid V H fun v u => quad alt u v (E v u) (E v (u + 1)) (E (v + 1) (u + 1)) (E (v + 1) u)⟩

theorem hemiP_valid (alt : Bool) (r : V3 ℝ) (h side : ℝ) (H V : ℕ) : (hemiP alt r h side H V).Valid := by
  intro off
  refine ⟨gridTrisIx_length .., fun t ht i hi => ?_⟩
  have := gridTrisIx_mem _ _ _ _ _ ht i hi
  simpa [hemiP, gridV_length] using this

theorem hemiP_mem {alt : Bool} {r : V3 ℝ} {h side : ℝ} {H V : ℕ} (hs : side = 1 ∨ side = -1) {x : Vertex ℝ} (hx : x ∈ (hemiP alt r h side H V).vs) :
    OnCapsule r h x.position ∧ UnitNormal x := by
  obtain ⟨v, u, hv, hu, rfl⟩ := gridV_mem.1 hx
  refine ⟨.inr ?_, hemi_unit _ _ _ hs⟩
  obtain ⟨a, b⟩ := frac_unit v V (by omega)
  have hc : 0 ≤ Real.cos (Real.pi / 2 * (v / V)) := by
    apply Real.cos_nonneg_of_mem_Icc
    have := Real.pi_pos
    constructor
    · have : 0 ≤ Real.pi / 2 * ((v : ℝ) / V) := by positivity
      linarith
    · nlinarith
  refine ⟨-side * (Real.sin (Real.pi / 2 * (v / V)) * Real.sin (turn H u)), Real.cos (Real.pi / 2 * (v / V)),
    Real.sin (Real.pi / 2 * (v / V)) * Real.cos (turn H u), ?_, hc, ?_⟩
  · have h2 : side ^ 2 = 1 := by rcases hs with rfl | rfl <;> norm_num
    linear_combination (Real.sin (Real.pi / 2 * (v / V)) * Real.sin (turn H u)) ^ 2 * h2 + Real.sin_sq_add_cos_sq (Real.pi / 2 * (v / V)) +
      Real.sin (Real.pi / 2 * (v / V)) ^ 2 * Real.sin_sq_add_cos_sq (turn H u)
  · rcases hs with rfl | rfl
    · left; simp only [hemiVx, hemiPoint]; ext <;> simp
    · right; simp only [hemiVx, hemiPoint]; ext <;> simp

/-- The parts of a mesh. -/
noncomputable def capsuleParts (d : CapsuleDesc) (H V E : ℕ) : List Part := [mantleP false d.alternateGrid (turn H) ⟨d.radius.x, d.radius.z⟩ d.height 1 H V,
  hemiP d.alternateGrid d.radius d.height 1 H E, hemiP d.alternateGrid d.radius d.height (-1) H E]

theorem genCapsule_ok (d : CapsuleDesc) (m : M) (hH : max 3 d.segsX + 1 < 2 ^ 32) (hV : max 1 d.segsY + 1 < 2 ^ 32) (hE : max 2 d.ellipsoidSegs + 1 < 2 ^ 32) :
    genCapsule d m = .ok (ext m (allVs (capsuleParts d (max 3 d.segsX) (max 1 d.segsY) (max 2 d.ellipsoidSegs))) (asm m.vertices.length (capsuleParts d (max 3 d.segsX) (max 1 d.segsY) (max 2 d.ellipsoidSegs)))) := by
  simp only [genCapsule]
  generalize max 3 d.segsX = H at *
  generalize max 1 d.segsY = V at *
  generalize max 2 d.ellipsoidSegs = E at *
  rw [mantleVerts_ok (turn H) _ _ _ _ _ _ _ _ _ hH hV (turn_eq H), Res.bind_ok,
    hemiVerts_ok _ _ _ (.inl rfl) _ _ _ hH hE, Res.bind_ok, hemiVerts_ok _ _ _ (.inr rfl) _ _ _ hH hE, Res.bind_ok,
    mantleTris_ok _ _ _ _ _ _ (by omega) hV, Res.bind_ok, gridTris_ok _ _ _ _ _ _ (by omega) (by omega), Res.bind_ok,
    gridTris_ok _ _ _ _ _ _ (by omega) (by omega)]
  simp only [ext_ext, ext_len, List.append_nil, List.nil_append]
  congr 2
  · simp only [capsuleParts, allVs, List.flatMap_cons, List.flatMap_nil, List.append_nil, List.append_assoc]; rfl
  · simp only [capsuleParts, asm, List.append_nil, List.append_assoc, List.length_append, Nat.add_assoc]; rfl

/-- C45: the capsule: mantle, upper and lower half of the ellipsoid. -/
theorem C45_capsule (d : CapsuleDesc) (m : M) (hH : max 3 d.segsX + 1 < 2 ^ 32) (hV : max 1 d.segsY + 1 < 2 ^ 32)
    (hE : max 2 d.ellipsoidSegs + 1 < 2 ^ 32) :
    let H := max 3 d.segsX
    let V := max 1 d.segsY
    let E := max 2 d.ellipsoidSegs
    ∃ m', genCapsule d m = .ok m' ∧
      Grows m m' ((H + 1) * (V + 1) + 2 * ((H + 1) * (E + 1))) (2 * (H * V) + 4 * (H * E))
        (fun v => OnCapsule d.radius d.height v.position ∧ UnitNormal v) ∧
      (2 * (V + 1) ≤ 2 ^ 32 → (E + 1) * (H + 1) ≤ 2 ^ 32 →
        let D := fun u v : ℕ => atAngle ⟨d.radius.x, d.radius.z⟩ (d.height / 2 - d.height * (v / V)) (2 * Real.pi * u / H)
        let S := fun (side : ℝ) (v u : ℕ) =>
          let theta := Real.pi / 2 * (v / E)
          (⟨-side * (d.radius.x * (Real.sin theta * Real.sin (2 * Real.pi * u / H))), side * (d.radius.y * Real.cos theta + d.height / 2),
            d.radius.z * (Real.sin theta * Real.cos (2 * Real.pi * u / H))⟩ : V3 ℝ)
        let T := S 1
        let B := S (-1)
        NewFaces m m' ((grid H V fun u v => quad d.alternateGrid u v (D (u + 1) v) (D u v) (D u (v + 1)) (D (u + 1) (v + 1))) ++
          (grid E H fun v u => quad d.alternateGrid u v (T v u) (T v (u + 1)) (T (v + 1) (u + 1)) (T (v + 1) u)) ++
          (grid E H fun v u => quad d.alternateGrid u v (B v u) (B v (u + 1)) (B (v + 1) (u + 1)) (B (v + 1) u)))) := by
  intro H V E
  let ps : List Part := capsuleParts d H V E
  refine ⟨ext m (allVs ps) (asm m.vertices.length ps), genCapsule_ok d m hH hV hE, ?_, ?_⟩
  · have := asm_grows m ps (fun v => OnCapsule d.radius d.height v.position ∧ UnitNormal v) (by
      intro p hp
      simp only [ps, capsuleParts, List.mem_cons, List.not_mem_nil, or_false] at hp
      rcases hp with rfl | rfl | rfl
      · exact mantleP_valid _ _ _ _ _ _ _ _
      · exact hemiP_valid _ _ _ _ _ _
      · exact hemiP_valid _ _ _ _ _ _) (by
      intro p hp x hx
      simp only [ps, capsuleParts, List.mem_cons, List.not_mem_nil, or_false] at hp
      rcases hp with rfl | rfl | rfl
      · obtain ⟨y, u, hy, _, e, n⟩ := mantleP_mem hx
        refine ⟨.inl ⟨by rw [e]; exact hy, turn H u, by rw [e]; rfl⟩, ?_⟩
        rw [UnitNormal, n]; simp
      · exact hemiP_mem (.inl rfl) hx
      · exact hemiP_mem (.inr rfl) hx)
    convert this using 1
    · simp [ps, capsuleParts, mantleP_len, hemiP, gridV_length]; ring
    · simp [ps, capsuleParts, mantleP, hemiP]; ring
  · intro r1 r2
    have := asm_faces m ps (by
      intro p hp
      simp only [ps, capsuleParts, List.mem_cons, List.not_mem_nil, or_false] at hp
      rcases hp with rfl | rfl | rfl
      · exact mantleP_faces _ _ _ _ _ _ _ _ r1
      · exact fun _ _ hs => gridTrisIx_faces _ _ _ _ _ hs r2
      · exact fun _ _ hs => gridTrisIx_faces _ _ _ _ _ hs r2)
    simp only [ps, capsuleParts, List.flatMap_cons, List.flatMap_nil, List.append_nil, ← List.append_assoc] at this
    exact this

/-- A point of a capsule. -/
example : OnCapsule ⟨1, 1, 1⟩ 2 ⟨0, 2, 0⟩ := .inr ⟨0, 1, 0, by norm_num, by norm_num, .inl (by norm_num)⟩

end Geom.Gen
