import Verif.Props.GenRound

/-
  C88: texture coordinates parametrise the generated surfaces.
-/
set_option autoImplicit false
set_option linter.unusedSectionVars false

namespace Geom.Gen
open Spec
open TMesh (Mesh Vertex Ix)

theorem adds_ext (m : M) (vs : List (Vertex ℝ)) (ts : List Ix) (P : Vertex ℝ → Prop) (h0 : vs ≠ []) (h : ∀ v ∈ vs, P v) : Adds m (ext m vs ts) P :=
  ⟨vs, h0, rfl, h⟩

theorem adds_of_grows {m m' : M} {nv nt : ℕ} {P : Vertex ℝ → Prop} (h : Grows m m' nv nt P) (h0 : 0 < nv) : Adds m m' P := by
  obtain ⟨vs, e, l, hp⟩ := h.verts
  refine ⟨vs, ?_, e, hp⟩
  rintro rfl
  simp at l
  omega

theorem adds_imp {m m' : M} {P Q : Vertex ℝ → Prop} (h : Adds m m' P) (hpq : ∀ v, P v → Q v) : Adds m m' Q := by
  obtain ⟨vs, h0, e, hp⟩ := h
  exact ⟨vs, h0, e, fun v hv => hpq v (hp v hv)⟩

theorem adds_asm (m : M) (p : Part) (ps : List Part) (ts : List Ix) (P : Vertex ℝ → Prop) (h0 : p.vs ≠ []) (h : ∀ q ∈ p :: ps, ∀ v ∈ q.vs, P v) :
    Adds m (ext m (allVs (p :: ps)) ts) P := by
  refine adds_ext m _ _ _ ?_ ?_
  · rw [allVs, List.flatMap_cons]
    simp [h0]
  · intro v hv
    obtain ⟨q, hq, hv⟩ := List.mem_flatMap.1 hv
    exact h q hq v hv

theorem frac1 (k n : ℕ) (h : k ≤ n) : (0 : ℝ) ≤ (k : ℝ) * (1 / n) ∧ (k : ℝ) * (1 / n) ≤ 1 := by
  have := frac_unit k n h
  rwa [mul_one_div]

/-- Vertices of a mantle part. -/
theorem mantleP_attr {flip alt : Bool} {ang : ℕ → ℝ} {r : V2 ℝ} {h side a0 a1 : ℝ} {H V : ℕ} (hH : 0 < H) (ha : ∀ u : ℕ, ang u = a0 + (a1 - a0) * (u / H))
    {x : Vertex ℝ} (hx : x ∈ (mantleP flip alt ang r h side H V).vs) : MantleVertex r h a0 a1 side x := by
  obtain ⟨u, v, hu, hv, rfl⟩ := gridV_mem.1 hx
  obtain ⟨a, b⟩ := frac1 v V (by omega)
  obtain ⟨c, e⟩ := frac1 (H - u) H (by omega)
  have hH' : (H : ℝ) ≠ 0 := by positivity
  have key : a1 + (a0 - a1) * (((H - u : ℕ) : ℝ) * (1 / H)) = ang u := by
    rw [ha, Nat.cast_sub (by omega)]
    field_simp
    ring
  refine ⟨⟨c, e, a, b⟩, ?_, ?_⟩
  · simp only [mantleV, key]
    rw [mul_one_div]
  · simp only [mantleV, key]
    ext <;> simp

/-- Vertices of a disc part. -/
theorem discP0_attr {top alt : Bool} {ang : ℕ → ℝ} {r : V2 ℝ} {y side : ℝ} {H C : ℕ} (hs : side = if top then 1 else -1) {x : Vertex ℝ}
    (hx : x ∈ (discP0 top alt ang r y side H C).vs) : CoverVertex r y side x := by
  unfold discP0 at hx
  split_ifs at hx with h
  · cases hx
  · rcases List.mem_cons.1 hx with rfl | hx
    · refine ⟨by norm_num [discCenter], ?_, rfl⟩
      simp only [discCenter]
      ext <;> norm_num
    · obtain ⟨u, j, hu, hj, rfl⟩ := gridV_mem.1 hx
      obtain ⟨a, b⟩ := frac1 (j + 1) C (by omega)
      have e2 : ((j + 1 : ℕ) : ℝ) / C = ((j + 1 : ℕ) : ℝ) * (1 / C) := by ring
      simp only [CoverVertex, discVx, e2]
      generalize ((j + 1 : ℕ) : ℝ) * (1 / C) = s at a b
      have p := Real.sin_sq_add_cos_sq (ang u)
      have s1 : s ^ 2 ≤ 1 := by nlinarith
      refine ⟨?_, ?_, trivial⟩
      · cases top
        · simp only [Bool.false_eq_true, if_false]
          calc _ = s ^ 2 * (Real.sin (ang u) ^ 2 + Real.cos (ang u) ^ 2) := by ring
            _ ≤ 1 := by rw [p]; linarith
        · simp only [if_true]
          calc _ = s ^ 2 * (Real.sin (ang u) ^ 2 + Real.cos (ang u) ^ 2) := by ring
            _ ≤ 1 := by rw [p]; linarith
      · cases top
        · simp only [Bool.false_eq_true, if_false] at hs ⊢
          subst hs
          simp only [atAngle, scaled]
          ext <;> simp <;> ring
        · simp only [if_true] at hs ⊢
          subst hs
          simp only [atAngle, scaled]
          ext <;> simp <;> ring

theorem gridV_ne (R C : ℕ) (f : ℕ → ℕ → Vertex ℝ) : gridV (R + 1) (C + 1) f ≠ [] := by
  intro h
  have := congrArg List.length h
  rw [gridV_length] at this
  simp at this

theorem turn_form (H u : ℕ) : turn H u = 0 + (2 * Real.pi - 0) * (u / H) := by unfold turn; ring

/-- C88: cylinder. -/
theorem C88_cylinder (d : CylinderDesc) (m : M) (hH : max 3 d.segsX + 1 < 2 ^ 32) (hV : max 1 d.segsY + 1 < 2 ^ 32)
    (hB : d.bottomCov + 1 < 2 ^ 32) (hT : d.topCov + 1 < 2 ^ 32) : ∃ m', genCylinder d m = .ok m' ∧ Adds m m' fun v =>
      MantleVertex d.radius d.height 0 (2 * Real.pi) 1 v ∨ CoverVertex d.radius (-d.height / 2) (-1) v ∨ CoverVertex d.radius (d.height / 2) 1 v := by
  refine ⟨_, genCylinder_ok d m hH hV hB hT, adds_asm _ _ _ _ _ (gridV_ne _ _ _) ?_⟩
  intro p hp x hx
  simp only [List.mem_cons, List.not_mem_nil, or_false] at hp
  rcases hp with rfl | rfl | rfl
  · exact .inl (mantleP_attr (by omega) (turn_form _) hx)
  · have := discP0_attr (by simp) hx
    rw [show d.height * (1 / 2) * -1 = -d.height / 2 by ring] at this
    exact .inr (.inl this)
  · have := discP0_attr (by simp) hx
    rw [show d.height * (1 / 2) * 1 = d.height / 2 by ring] at this
    exact .inr (.inr this)

example := C88_cylinder ⟨⟨4, 2⟩, 3, 5, 2, 1, 2, true⟩ ⟨[], []⟩ (by norm_num) (by norm_num) (by norm_num) (by norm_num)

theorem turn_tex {H u : ℕ} (hH : 0 < H) (hu : u ≤ H) : 2 * Real.pi * (1 - ((H - u : ℕ) : ℝ) * (1 / H)) = turn H u := by
  have hH' : (H : ℝ) ≠ 0 := by positivity
  rw [Nat.cast_sub hu]
  unfold turn
  field_simp
  ring

theorem coneVx_attr (r : V2 ℝ) (h : ℝ) {H V u v : ℕ} (hH : 0 < H) (hu : u ≤ H) (hv : v ≤ V) : ConeVertex r h (coneVx r h H V u v) := by
  obtain ⟨a, b⟩ := frac1 (H - u) H (by omega)
  obtain ⟨a', b'⟩ := frac1 v V (by omega)
  refine ⟨⟨a, b, a', b'⟩, ?_, ?_⟩
  · simp only [coneVx]
    rw [turn_tex hH hu, mul_one_div]
  · simp only [coneVx]
    rw [turn_tex hH hu]
    ext <;> simp [lerpV]
    ring

/-- C88: cone. -/
theorem C88_cone (d : ConeDesc) (m : M) (hH : max 3 d.segsX + 1 < 2 ^ 32) (hV : max 1 d.segsY + 1 < 2 ^ 32) (hB : d.cov + 1 < 2 ^ 32) :
    ∃ m', genCone d m = .ok m' ∧ Adds m m' fun v => ConeVertex d.radius d.height v ∨ CoverVertex d.radius (-d.height / 2) (-1) v := by
  have h3 : 3 ≤ max 3 d.segsX := le_max_left _ _
  have h1 : 1 ≤ max 1 d.segsY := le_max_left _ _
  refine ⟨_, genCone_ok d m hH hV hB, adds_asm _ _ _ _ _ ?_ ?_⟩
  · intro h
    have := congrArg List.length h
    simp only [coneP, coneV_length, List.length_nil] at this
    omega
  intro p hp x hx
  simp only [List.mem_cons, List.not_mem_nil, or_false] at hp
  generalize max 3 d.segsX = H at *
  generalize max 1 d.segsY = V at *
  rcases hp with rfl | rfl
  · left
    rcases coneV_mem _ _ hx with ⟨u, hu, rfl⟩ | ⟨u, v, hu, _, hv, rfl⟩
    · obtain ⟨a, b⟩ := frac1 (H - u) H (by omega)
      refine ⟨⟨a, b, le_refl _, zero_le_one⟩, ?_, ?_⟩
      · simp [coneTip, atAngle, scaled]
      · simp [coneTip]
    · exact coneVx_attr _ _ (by omega) hu hv
  · have := discP0_attr (by simp) hx
    rw [show -(d.height * (1 / 2)) = -d.height / 2 by ring] at this
    exact .inr this

example := C88_cone ⟨⟨4, 2⟩, 3, 5, 2, 1, true⟩ ⟨[], []⟩ (by norm_num) (by norm_num) (by norm_num)

theorem ring_frac {a i o s x : ℝ} (ho : o ≠ 0) (hi : |i| ≤ |o|) (h0 : 0 ≤ a) (h1 : a ≤ 1) (hs : |s| ≤ 1) (h : o * (2 * x - 1) = s * (i + (o - i) * a)) :
    0 ≤ x ∧ x ≤ 1 := by
  have ho' : 0 < |o| := abs_pos.2 ho
  have h2 : |i + (o - i) * a| ≤ |o| := by
    rw [show i + (o - i) * a = (1 - a) * i + a * o by ring]
    refine (abs_add_le _ _).trans ?_
    rw [abs_mul, abs_mul, abs_of_nonneg h0, abs_of_nonneg (by linarith : 0 ≤ 1 - a)]
    nlinarith
  have h3 : |o| * |2 * x - 1| ≤ |o| * 1 := by
    rw [← abs_mul, h, abs_mul, mul_one]
    exact (mul_le_of_le_one_left (abs_nonneg _) hs).trans h2
  have h4 := abs_le.1 (le_of_mul_le_mul_left h3 ho')
  constructor <;> linarith [h4.1, h4.2]

/-- C88: pipe, with outer radii that are not zero. The covers use the picture of the full disc; the texture coordinates are inside of the texture
if the inner radii are at most the outer ones. -/
theorem C88_pipe (d : PipeDesc) (m : M) (hH : max 3 d.segsX + 1 < 2 ^ 32) (hV : max 1 d.segsY + 1 < 2 ^ 32)
    (hB : d.bottomCov + 1 < 2 ^ 32) (hT : d.topCov + 1 < 2 ^ 32) (hx : d.outerRadius.x ≠ 0) (hy : d.outerRadius.y ≠ 0) :
    ∃ m', genPipe d m = .ok m' ∧ Adds m m' fun v =>
      MantleVertex d.outerRadius d.height 0 (2 * Real.pi) 1 v ∨ MantleVertex d.innerRadius d.height 0 (2 * Real.pi) (-1) v ∨
      ∃ side : ℝ, (side = 1 ∨ side = -1) ∧ v.normal = ⟨0, side, 0⟩ ∧
        v.position = ⟨d.outerRadius.x * (2 * v.texCoord.x - 1), side * (d.height / 2), -side * (d.outerRadius.y * (2 * v.texCoord.y - 1))⟩ ∧
        (|d.innerRadius.x| ≤ |d.outerRadius.x| → |d.innerRadius.y| ≤ |d.outerRadius.y| → InTexture v.texCoord) := by
  have tex : ∀ (top alt : Bool) (y side : ℝ) (H C : ℕ), side = (if top then 1 else -1) →
      ∀ x ∈ (ringP0 top alt d.innerRadius d.outerRadius y side H C).vs,
        |d.innerRadius.x| ≤ |d.outerRadius.x| → |d.innerRadius.y| ≤ |d.outerRadius.y| → InTexture x.texCoord := by
    intro top alt y side H C hs x hx' h1 h2
    unfold ringP0 at hx'
    split_ifs at hx'
    · cases hx'
    · obtain ⟨u, v, hu, hv, rfl⟩ := gridV_mem.1 hx'
      obtain ⟨a, b⟩ := frac1 v C (by omega)
      obtain ⟨p, q⟩ := ring_frac (s := Real.sin (turn H u)) (x := (ringVx d.innerRadius d.outerRadius y side top H C u v).texCoord.x) hx h1 a b
        (Real.abs_sin_le_one _) (by
          simp only [ringVx, lerp]
          field_simp
          ring)
      cases top
      · obtain ⟨p', q'⟩ := ring_frac (s := Real.cos (turn H u)) (x := (ringVx d.innerRadius d.outerRadius y side false H C u v).texCoord.y) hy h2 a b
          (Real.abs_cos_le_one _) (by
            simp only [ringVx, lerp, Bool.false_eq_true, if_false]
            field_simp
            ring)
        exact ⟨p, q, p', q'⟩
      · obtain ⟨p', q'⟩ := ring_frac (s := -Real.cos (turn H u)) (x := (ringVx d.innerRadius d.outerRadius y side true H C u v).texCoord.y) hy h2 a b
          (by rw [abs_neg]; exact Real.abs_cos_le_one _) (by
            simp only [ringVx, lerp, if_true]
            field_simp
            ring)
        exact ⟨p, q, p', q'⟩
  have key : ∀ (top alt : Bool) (y side : ℝ) (H C : ℕ), side = (if top then 1 else -1) → y = side * (d.height / 2) →
      ∀ x ∈ (ringP0 top alt d.innerRadius d.outerRadius y side H C).vs, x.normal = ⟨0, side, 0⟩ ∧
        x.position = ⟨d.outerRadius.x * (2 * x.texCoord.x - 1), side * (d.height / 2), -side * (d.outerRadius.y * (2 * x.texCoord.y - 1))⟩ := by
    intro top alt y side H C hs hy' x hx'
    unfold ringP0 at hx'
    split_ifs at hx'
    · cases hx'
    · obtain ⟨u, v, hu, hv, rfl⟩ := gridV_mem.1 hx'
      refine ⟨rfl, ?_⟩
      subst hy'
      cases top
      · simp only [Bool.false_eq_true, if_false] at hs
        subst hs
        simp only [ringVx, atAngle, between, lerp, Bool.false_eq_true, if_false]
        ext <;> dsimp only <;> field_simp <;> ring
      · simp only [if_true] at hs
        subst hs
        simp only [ringVx, atAngle, between, lerp, if_true]
        ext <;> dsimp only <;> field_simp <;> ring
  refine ⟨_, genPipe_ok d m hH hV hB hT, adds_asm _ _ _ _ _ (gridV_ne _ _ _) ?_⟩
  intro p hp x hx
  simp only [List.mem_cons, List.not_mem_nil, or_false] at hp
  rcases hp with rfl | rfl | rfl | rfl
  · exact .inl (mantleP_attr (by omega) (turn_form _) hx)
  · exact .inr (.inl (mantleP_attr (by omega) (turn_form _) hx))
  · exact .inr (.inr ⟨-1, .inr rfl, (key false _ _ _ _ _ (by simp) (by ring) x hx).1, (key false _ _ _ _ _ (by simp) (by ring) x hx).2,
      tex false _ _ _ _ _ (by simp) x hx⟩)
  · exact .inr (.inr ⟨1, .inl rfl, (key true _ _ _ _ _ (by simp) (by ring) x hx).1, (key true _ _ _ _ _ (by simp) (by ring) x hx).2,
      tex true _ _ _ _ _ (by simp) x hx⟩)

example := C88_pipe ⟨⟨2, 1⟩, ⟨4, 2⟩, 3, 5, 2, 1, 2, true⟩ ⟨[], []⟩ (by norm_num) (by norm_num) (by norm_num) (by norm_num) (by norm_num)
  (by norm_num)

/-- C88: pie. The normals of the plane sides point into the piece that is cut off. -/
theorem C88_pie (d : PieDesc) (m : M) (hH : max 3 d.segsX + 1 < 2 ^ 32) (hV : max 1 d.segsY + 1 < 2 ^ 32) (hC : d.cov + 1 < 2 ^ 32) :
    let a0 := d.angleOffset
    let a1 := d.angleOffset + max 0 (min d.angle (Real.pi * 2))
    ∃ m', genPie d m = .ok m' ∧ Adds m m' fun v => MantleVertex d.radius d.height a1 (a0 + 2 * Real.pi) 1 v ∨
      SideVertex d.radius d.height a1 (a1 + 3 * Real.pi / 2) (1 - v.texCoord.x) v ∨ SideVertex d.radius d.height a0 (a0 + Real.pi / 2) v.texCoord.x v ∨
      CoverVertex d.radius (-d.height / 2) (-1) v ∨ CoverVertex d.radius (d.height / 2) 1 v := by
  intro a0 a1
  have key : ∀ (flip alt : Bool) (angle na tc0 tc1 : ℝ) (C V : ℕ), ((tc0 = 1 ∧ tc1 = -1) ∨ (tc0 = 0 ∧ tc1 = 1)) →
      ∀ x ∈ (sideP flip alt angle na tc0 tc1 d.radius d.height C V).vs, ∃ s, x.texCoord.x = tc0 + s * tc1 ∧ SideVertex d.radius d.height angle na s x := by
    intro flip alt angle na tc0 tc1 C V ht x hx
    obtain ⟨u, v, hu, hv, rfl⟩ := gridV_mem.1 hx
    obtain ⟨a, b⟩ := frac1 u C (by omega)
    obtain ⟨a', b'⟩ := frac1 v V (by omega)
    refine ⟨u * (1 / C), rfl, ⟨?_, ?_, a', b'⟩, ?_, rfl⟩
    · simp only [sideVx]
      rcases ht with ⟨rfl, rfl⟩ | ⟨rfl, rfl⟩ <;> linarith
    · simp only [sideVx]
      rcases ht with ⟨rfl, rfl⟩ | ⟨rfl, rfl⟩ <;> linarith
    · simp only [sideVx, mul_one_div]
  refine ⟨_, genPie_ok d m hH hV hC, adds_asm _ _ _ _ _ (gridV_ne _ _ _) ?_⟩
  intro p hp x hx
  simp only [List.mem_cons, List.not_mem_nil, or_false] at hp
  rcases hp with rfl | rfl | rfl | rfl | rfl
  · exact .inl (mantleP_attr (by omega) (fun u => by simp only [pieAngle, a0, a1]; ring) hx)
  · obtain ⟨s, e, h⟩ := key _ _ _ _ _ _ _ _ (.inl ⟨rfl, rfl⟩) x hx
    rw [show s = 1 - x.texCoord.x by rw [e]; ring] at h
    rw [show Real.pi + Real.pi / 2 = 3 * Real.pi / 2 by ring] at h
    exact .inr (.inl h)
  · obtain ⟨s, e, h⟩ := key _ _ _ _ _ _ _ _ (.inr ⟨rfl, rfl⟩) x hx
    rw [show s = x.texCoord.x by rw [e]; ring] at h
    rw [show d.angleOffset + max 0 (min d.angle (Real.pi * 2)) - max 0 (min d.angle (Real.pi * 2)) = a0 by simp only [a0]; ring] at h
    exact .inr (.inr (.inl h))
  · have := discP0_attr (by simp) hx
    rw [show d.height * (1 / 2) * -1 = -d.height / 2 by ring] at this
    exact .inr (.inr (.inr (.inl this)))
  · have := discP0_attr (by simp) hx
    rw [show d.height * (1 / 2) * 1 = d.height / 2 by ring] at this
    exact .inr (.inr (.inr (.inr this)))

example := C88_pie ⟨⟨4, 2⟩, 3, 5, 2, 1, 2, 1 / 2, true⟩ ⟨[], []⟩ (by norm_num) (by norm_num) (by norm_num)

/-- C88: capsule. -/
theorem C88_capsule (d : CapsuleDesc) (m : M) (hH : max 3 d.segsX + 1 < 2 ^ 32) (hV : max 1 d.segsY + 1 < 2 ^ 32)
    (hE : max 2 d.ellipsoidSegs + 1 < 2 ^ 32) : ∃ m', genCapsule d m = .ok m' ∧ Adds m m' fun v =>
      MantleVertex ⟨d.radius.x, d.radius.z⟩ d.height 0 (2 * Real.pi) 1 v ∨ HemiVertex d.radius d.height 1 v ∨ HemiVertex d.radius d.height (-1) v := by
  have key : ∀ (side : ℝ) (H E : ℕ), 0 < H → ∀ x ∈ (hemiP d.alternateGrid d.radius d.height side H E).vs, HemiVertex d.radius d.height side x := by
    intro side H E h0 x hx
    obtain ⟨v, u, hv, hu, rfl⟩ := gridV_mem.1 hx
    obtain ⟨a, b⟩ := frac1 u H (by omega)
    obtain ⟨a', b'⟩ := frac1 v E (by omega)
    refine ⟨⟨a, b, a', b'⟩, ?_, ?_⟩
    · simp only [hemiVx, hemiPoint, turn]
      rw [mul_one_div, mul_one_div, show 2 * Real.pi * ((u : ℝ) / H) = 2 * Real.pi * u / H by ring]
      ext <;> dsimp only <;> ring
    · simp only [hemiVx, hemiPoint, turn]
      rw [mul_one_div, mul_one_div, show 2 * Real.pi * ((u : ℝ) / H) = 2 * Real.pi * u / H by ring]
      ext <;> dsimp only <;> ring
  refine ⟨_, genCapsule_ok d m hH hV hE, adds_asm _ _ _ _ _ (gridV_ne _ _ _) ?_⟩
  intro p hp x hx
  simp only [List.mem_cons, List.not_mem_nil, or_false] at hp
  rcases hp with rfl | rfl | rfl
  · exact .inl (mantleP_attr (by omega) (turn_form _) hx)
  · exact .inr (.inl (key _ _ _ (by omega) x hx))
  · exact .inr (.inr (key _ _ _ (by omega) x hx))

example := C88_capsule ⟨⟨4, 2, 3⟩, 1, 5, 2, 3, true⟩ ⟨[], []⟩ (by norm_num) (by norm_num) (by norm_num)

/-- C88: ellipsoid. -/
theorem C88_ellipsoid (d : EllipsoidDesc) (m : M) (hU : max 3 d.segsX + 1 < 2 ^ 32) (hV : max 2 d.segsY + 1 < 2 ^ 32) :
    ∃ m', genEllipsoid d m = .ok m' ∧ Adds m m' fun v => InTexture v.texCoord ∧
      v.position = ellipsoidPoint d.radius (Real.pi * v.texCoord.y) (2 * Real.pi * v.texCoord.x) ∧
      v.normal = ellipsoidPoint ⟨1, 1, 1⟩ (Real.pi * v.texCoord.y) (2 * Real.pi * v.texCoord.x) := by
  simp only [genEllipsoid]
  generalize max 3 d.segsX = U at *
  generalize max 2 d.segsY = V at *
  rw [ellipsoidVerts_ok _ _ _ _ hU hV, Res.bind_ok, gridTris_ok _ _ _ _ _ _ (by omega) (by omega), ext_ext]
  refine ⟨_, rfl, adds_ext _ _ _ _ (by rw [List.append_nil]; exact gridV_ne _ _ _) ?_⟩
  intro x hx
  rw [List.append_nil] at hx
  obtain ⟨r, c, h1, h2, rfl⟩ := gridV_mem.1 hx
  obtain ⟨a, b⟩ := frac_unit c U (by omega)
  obtain ⟨a', b'⟩ := frac_unit r V (by omega)
  refine ⟨⟨a, b, a', b'⟩, ?_, ?_⟩
  · simp only [ellV, mul_div_assoc]
  · simp only [ellV, mul_div_assoc]

example := C88_ellipsoid ⟨⟨4, 2, 3⟩, 5, 4, true⟩ ⟨[], []⟩ (by norm_num) (by norm_num)

theorem normalizeVec_times (v : V3 ℝ) : ∃ s : ℝ, 0 < s ∧ Plane.normalizeVec v = s • v := by
  unfold Plane.normalizeVec
  split
  · exact ⟨1, one_pos, by ext <;> simp⟩
  · rename_i h
    have h0 : 0 ≤ v.lenSq := by simp only [V3.lenSq, V3.dot]; nlinarith [sq_nonneg v.x, sq_nonneg v.y, sq_nonneg v.z]
    exact ⟨_, one_div_pos.2 (Real.sqrt_pos.2 (lt_of_le_of_ne h0 (Ne.symm h))), rfl⟩

/-- C88: torus. The normal is, up to a positive factor, the vector of the angles divided by the radii of the tube. -/
theorem C88_torus (d : TorusDesc) (m : M) (hU : max 3 d.segsX + 1 < 2 ^ 32) (hV : max 3 d.segsY + 1 < 2 ^ 32) :
    ∃ m', genTorus d m = .ok m' ∧ Adds m m' fun v => InTexture ⟨-v.texCoord.x, v.texCoord.y⟩ ∧
      v.position = torusPoint d.ringRadius d.tubeRadius (2 * Real.pi * v.texCoord.y) (-(2 * Real.pi * v.texCoord.x)) ∧
      (let theta := 2 * Real.pi * v.texCoord.y
       let phi := -(2 * Real.pi * v.texCoord.x)
       ∃ k : ℝ, 0 < k ∧ v.normal = k • (⟨Real.sin phi * Real.sin theta / d.tubeRadius.x, Real.cos theta / d.tubeRadius.y,
         Real.cos phi * Real.sin theta / d.tubeRadius.z⟩ : V3 ℝ)) ∧
      (d.tubeRadius.x ≠ 0 → d.tubeRadius.y ≠ 0 → d.tubeRadius.z ≠ 0 → UnitNormal v) := by
  simp only [genTorus]
  generalize max 3 d.segsX = U at *
  generalize max 3 d.segsY = V at *
  rw [torusVerts_ok _ _ _ _ _ hU hV, Res.bind_ok, gridTris_ok _ _ _ _ _ _ (by omega) (by omega), ext_ext]
  refine ⟨_, rfl, adds_ext _ _ _ _ (by rw [List.append_nil]; exact gridV_ne _ _ _) ?_⟩
  intro x hx
  rw [List.append_nil] at hx
  obtain ⟨r, c, h1, h2, rfl⟩ := gridV_mem.1 hx
  obtain ⟨a, b⟩ := frac_unit c U (by omega)
  obtain ⟨a', b'⟩ := frac_unit r V (by omega)
  refine ⟨⟨?_, ?_, a', b'⟩, ?_, ?_, ?_⟩
  · simpa [torV] using a
  · simpa [torV] using b
  · simp only [torV, mul_div_assoc, mul_neg, neg_neg]
  · obtain ⟨k, hk, e⟩ := normalizeVec_times ⟨Real.sin (2 * Real.pi * c / U) * Real.sin (2 * Real.pi * r / V) / d.tubeRadius.x,
      Real.cos (2 * Real.pi * r / V) / d.tubeRadius.y, Real.cos (2 * Real.pi * c / U) * Real.sin (2 * Real.pi * r / V) / d.tubeRadius.z⟩
    refine ⟨k, hk, ?_⟩
    simp only [torV, tubeNormal] at e ⊢
    rw [e]
    simp only [mul_div_assoc, mul_neg, neg_neg]
  · intro h1 h2 h3
    have := C46_normal d.tubeRadius (2 * Real.pi * r / V) (2 * Real.pi * c / U) h1 h2 h3
    simp only [V3.lenSq, V3.dot] at this
    simp only [UnitNormal, torV]
    linarith

example := C88_torus ⟨⟨4, 2⟩, ⟨2, 3, 1⟩, 5, 4, true⟩ ⟨[], []⟩ (by norm_num) (by norm_num)

/-- C88: cuboid, for each sense of rotation of the quaternions. -/
theorem C88_cuboid (sx sy : ℝ) (hx : sx = 1 ∨ sx = -1) (hy : sy = 1 ∨ sy = -1) (d : CuboidDesc) (m : M)
    (h1 : max 1 d.segsX + 1 < 2 ^ 32) (h2 : max 1 d.segsY + 1 < 2 ^ 32) (h3 : max 1 d.segsZ + 1 < 2 ^ 32) :
    ∃ m', genCuboid sx sy d m = .ok m' ∧ Adds m m' (BoxVertex d.size) := by
  have key : ∀ (R : V3 ℝ → V3 ℝ) (sh sv oz : ℝ) (H V : ℕ) (a b : V3 ℝ), V3.dot a a = 1 → V3.dot b b = 1 → V3.dot a b = 0 → V3.cross a b = -R ⟨0, 0, -1⟩ →
      (∀ x y : ℝ, R ⟨sh * (x - 1 / 2), sv * (y - 1 / 2), oz / 2⟩ =
        ⟨d.size.x * (1 / 2 * (R ⟨0, 0, -1⟩).x + (x - 1 / 2) * a.x + (y - 1 / 2) * b.x), d.size.y * (1 / 2 * (R ⟨0, 0, -1⟩).y + (x - 1 / 2) * a.y + (y - 1 / 2) * b.y),
          d.size.z * (1 / 2 * (R ⟨0, 0, -1⟩).z + (x - 1 / 2) * a.z + (y - 1 / 2) * b.z)⟩) →
      ∀ i j, i ≤ V → j ≤ H → BoxVertex d.size (faceV R sh sv oz H V i j) := by
    intro R sh sv oz H V a b ha hb hab hc hR i j hi hj
    obtain ⟨p, q⟩ := frac_unit j H hj
    obtain ⟨p', q'⟩ := frac_unit i V hi
    refine ⟨⟨p, q, by simpa [faceV] using q', by simpa [faceV] using p'⟩, a, b, ha, hb, hab, hc, ?_⟩
    simp only [faceV]
    rw [show sh * ((j : ℝ) / H) - sh / 2 = sh * ((j : ℝ) / H - 1 / 2) by ring, show sv * ((i : ℝ) / V) - sv / 2 = sv * ((i : ℝ) / V - 1 / 2) by ring, hR]
    ext <;> dsimp only [V3.add_x, V3.add_y, V3.add_z, V3.smul_x, V3.smul_y, V3.smul_z] <;> ring
  have sx2 : sx ^ 2 = 1 := by rcases hx with rfl | rfl <;> norm_num
  have sy2 : sy ^ 2 = 1 := by rcases hy with rfl | rfl <;> norm_num
  simp only [genCuboid]
  obtain ⟨m1, e1, g1⟩ := face_grows m id d.size.x d.size.y (-d.size.z) _ _ d.alternateGrid h1 h2 (BoxVertex d.size)
    (key _ _ _ _ _ _ ⟨1, 0, 0⟩ ⟨0, 1, 0⟩ (by norm_num [V3.dot]) (by norm_num [V3.dot]) (by norm_num [V3.dot]) (by ext <;> norm_num [V3.cross])
      (fun x y => by ext <;> simp <;> ring))
  obtain ⟨m2, e2, g2⟩ := face_grows m1 (rotY (sy * Real.pi)) d.size.x d.size.y (-d.size.z) _ _ d.alternateGrid h1 h2 (BoxVertex d.size)
    (key _ _ _ _ _ _ ⟨-1, 0, 0⟩ ⟨0, 1, 0⟩ (by norm_num [V3.dot]) (by norm_num [V3.dot]) (by norm_num [V3.dot])
      (by rw [rotY_pi sy hy]; ext <;> norm_num [V3.cross]) (fun x y => by rw [rotY_pi sy hy, rotY_pi sy hy]; ext <;> simp <;> ring))
  obtain ⟨m3, e3, g3⟩ := face_grows m2 (rotY (sy * -(Real.pi / 2))) d.size.z d.size.y (-d.size.x) _ _ d.alternateGrid h3 h2 (BoxVertex d.size)
    (key _ _ _ _ _ _ ⟨0, 0, sy⟩ ⟨0, 1, 0⟩ (by simp only [V3.dot]; linear_combination sy2) (by norm_num [V3.dot]) (by norm_num [V3.dot])
      (by rw [rotY_neg sy hy]; ext <;> norm_num [V3.cross]) (fun x y => by rw [rotY_neg sy hy, rotY_neg sy hy]; ext <;> simp <;> ring))
  obtain ⟨m4, e4, g4⟩ := face_grows m3 (rotY (sy * (Real.pi / 2))) d.size.z d.size.y (-d.size.x) _ _ d.alternateGrid h3 h2 (BoxVertex d.size)
    (key _ _ _ _ _ _ ⟨0, 0, -sy⟩ ⟨0, 1, 0⟩ (by simp only [V3.dot]; linear_combination sy2) (by norm_num [V3.dot]) (by norm_num [V3.dot])
      (by rw [rotY_half sy hy]; ext <;> norm_num [V3.cross]) (fun x y => by rw [rotY_half sy hy, rotY_half sy hy]; ext <;> simp <;> ring))
  obtain ⟨m5, e5, g5⟩ := face_grows m4 (rotX (sx * (Real.pi / 2))) d.size.x d.size.z (-d.size.y) _ _ d.alternateGrid h1 h3 (BoxVertex d.size)
    (key _ _ _ _ _ _ ⟨1, 0, 0⟩ ⟨0, 0, sx⟩ (by norm_num [V3.dot]) (by simp only [V3.dot]; linear_combination sx2) (by norm_num [V3.dot])
      (by rw [rotX_half sx hx]; ext <;> norm_num [V3.cross]) (fun x y => by rw [rotX_half sx hx, rotX_half sx hx]; ext <;> simp <;> ring))
  obtain ⟨m6, e6, g6⟩ := face_grows m5 (rotX (sx * -(Real.pi / 2))) d.size.x d.size.z (-d.size.y) _ _ d.alternateGrid h1 h3 (BoxVertex d.size)
    (key _ _ _ _ _ _ ⟨1, 0, 0⟩ ⟨0, 0, -sx⟩ (by norm_num [V3.dot]) (by simp only [V3.dot]; linear_combination sx2) (by norm_num [V3.dot])
      (by rw [rotX_neg sx hx]; ext <;> norm_num [V3.cross]) (fun x y => by rw [rotX_neg sx hx, rotX_neg sx hx]; ext <;> simp <;> ring))
  refine ⟨m6, ?_, ?_⟩
  · rw [e1, Res.bind_ok, e2, Res.bind_ok, e3, Res.bind_ok, e4, Res.bind_ok, e5, Res.bind_ok, e6]
  · exact adds_of_grows (grows_trans (grows_trans (grows_trans (grows_trans (grows_trans g1 g2) g3) g4) g5) g6) (by positivity)

/-- Such vertices: of the mantle of the unit cylinder, and of the front of a box. -/
example : MantleVertex ⟨1, 1⟩ 2 0 (2 * Real.pi) 1 ⟨⟨0, 1, 1⟩, ⟨0, 0, 1⟩, ⟨1, 0⟩⟩ := by
  refine ⟨by norm_num [InTexture], ?_, ?_⟩ <;> simp [atAngle]
example : BoxVertex ⟨2, 2, 2⟩ ⟨⟨1, 0, -1⟩, ⟨0, 0, -1⟩, ⟨1, 1 / 2⟩⟩ :=
  ⟨by norm_num [InTexture], ⟨1, 0, 0⟩, ⟨0, 1, 0⟩, by norm_num [V3.dot], by norm_num [V3.dot], by norm_num [V3.dot], by ext <;> norm_num [V3.cross], by ext <;> norm_num⟩

end Geom.Gen
