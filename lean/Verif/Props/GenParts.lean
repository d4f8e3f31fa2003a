import Verif.Props.GenBase

/-
  The parts of the generators: rectangular grids, discs, cones.
-/
set_option autoImplicit false
set_option linter.unusedSectionVars false

namespace Geom.Gen
open TMesh (Mesh Vertex Ix addVertex addTriangle)
open Spec

/-! Nested loops. -/

theorem forLe_grid (R C : ℕ) (body : ℕ → ℕ → M → Res M) (f : ℕ → ℕ → Vertex ℝ) (m : M) (hR : R + 1 < 2 ^ 32) (hC : C + 1 < 2 ^ 32)
    (hb : ∀ r c m, body r c m = .ok (ext m [f r c] [])) :
    forLe 0 R (fun r m => forLe 0 C (fun c m => body r c m) m) m = .ok (ext m (gridV (R + 1) (C + 1) f) []) := by
  rw [forLe_ext 0 R _ (fun r => tab 0 (C + 1) fun c => [f r c]) (fun _ => []) m (by omega) hR]
  · simp only [Nat.sub_zero, tab_nil]; rfl
  · intro r m _ _
    rw [forLe_ext 0 C _ (fun c => [f r c]) (fun _ => []) m (by omega) hC (fun c m _ _ => hb r c m)]
    simp only [Nat.sub_zero, tab_nil]

theorem forLt_gridV (R C : ℕ) (body : ℕ → ℕ → M → Res M) (f : ℕ → ℕ → Vertex ℝ) (m : M) (hR : R < 2 ^ 32) (hC : C < 2 ^ 32)
    (hb : ∀ r c m, r < R → c < C → body r c m = .ok (ext m [f r c] [])) :
    forLt 0 R (fun r m => forLt 0 C (fun c m => body r c m) m) m = .ok (ext m (gridV R C f) []) := by
  rw [forLt_ext 0 R _ (fun r => tab 0 C fun c => [f r c]) (fun _ => []) m (by omega) hR]
  · simp only [Nat.sub_zero, tab_nil]; rfl
  · intro r m _ hr
    rw [forLt_ext 0 C _ (fun c => [f r c]) (fun _ => []) m (by omega) hC (fun c m _ hc => hb r c m hr hc)]
    simp only [Nat.sub_zero, tab_nil]

theorem forLt_gridT (R C : ℕ) (body : ℕ → ℕ → M → Res M) (q : ℕ → ℕ → List Ix) (m : M) (hR : R < 2 ^ 32) (hC : C < 2 ^ 32)
    (hb : ∀ r c m, body r c m = .ok (ext m [] (q r c))) :
    forLt 0 R (fun r m => forLt 0 C (fun c m => body r c m) m) m = .ok (ext m [] (gridT R C q)) := by
  rw [forLt_ext 0 R _ (fun _ => []) (fun r => tab 0 C fun c => q r c) m (by omega) hR]
  · simp only [Nat.sub_zero, tab_nil]; rfl
  · intro r m _ _
    rw [forLt_ext 0 C _ (fun _ => []) (fun c => q r c) m (by omega) hC (fun c m _ _ => hb r c m)]
    simp only [Nat.sub_zero, tab_nil]

/-! Rectangular grids. -/

/-- The quad of a cell with corners in the grid order. -/
def cellIx (flip alt : Bool) (u v a b c d : ℕ) : List Ix := if flip then quadIx alt u v b a d c else quadIx alt u v a b c d

theorem cell_eq (flip alt : Bool) (m : M) (u v a b c d o : ℕ) :
    (if flip then addQuad m alt u v b a d c o else addQuad m alt u v a b c d o) =
      ext m [] (cellIx flip alt u v (o + a) (o + b) (o + c) (o + d)) := by
  cases flip <;> simp [cellIx, addQuad_eq]

theorem cellIx_length (flip alt : Bool) (u v a b c d : ℕ) : (cellIx flip alt u v a b c d).length = 2 := by
  unfold cellIx; split_ifs <;> exact quadIx_length ..

theorem cellIx_mem {flip alt : Bool} {u v a b c d : ℕ} {t : Ix} (ht : t ∈ cellIx flip alt u v a b c d) :
    ∀ i ∈ [t.a, t.b, t.c], i = a ∨ i = b ∨ i = c ∨ i = d := by
  unfold cellIx at ht
  intro i hi
  split_ifs at ht
  · have := quadIx_mem ht i hi; tauto
  · exact quadIx_mem ht i hi

/-- The faces of a cell. -/
def cellF (flip alt : Bool) (u v : ℕ) (p0 p1 p2 p3 : V3 ℝ) : List Face :=
  if flip then quad alt u v p1 p0 p3 p2 else quad alt u v p0 p1 p2 p3

theorem cell_faces {m : M} (flip alt : Bool) (u v : ℕ) {a b c d : ℕ} {x y z w : Vertex ℝ} (ha : m.vertices[a]? = some x)
    (hb : m.vertices[b]? = some y) (hc : m.vertices[c]? = some z) (hd : m.vertices[d]? = some w) :
    (cellIx flip alt u v a b c d).map (face m) = (cellF flip alt u v x.position y.position z.position w.position).map some := by
  unfold cellIx cellF
  split_ifs
  · exact quad_faces alt u v hb ha hd hc
  · exact quad_faces alt u v ha hb hc hd

/-- A grid that is stored. -/
theorem stored_grid {m : M} {off R C : ℕ} {f : ℕ → ℕ → Vertex ℝ} (h : Stored m off (gridV R C f)) {r c : ℕ} (hr : r < R) (hc : c < C) :
    m.vertices[off + (r * C + c)]? = some (f r c) := by
  rw [h _ (by rw [gridV_length]; exact grid_lt hr hc), gridV_get R C f r c hr hc]

theorem stored_grid32 {m : M} {off R C : ℕ} {f : ℕ → ℕ → Vertex ℝ} (h : Stored m off (gridV R C f)) (hb : R * C ≤ 2 ^ 32) {r c i : ℕ}
    (hr : r < R) (hc : c < C) (hi : i = r * C + c) : m.vertices[off + w32 i]? = some (f r c) := by
  have := grid_lt hr hc
  rw [w32_of_lt (by omega), hi, stored_grid h hr hc]

theorem w32_grid_lt {R C r c i : ℕ} (hr : r < R) (hc : c < C) (hi : i = r * C + c) : w32 i < R * C :=
  (w32_le i).trans_lt (hi ▸ grid_lt hr hc)

section gridTris
variable (flip alt : Bool) (U V off : ℕ)

/-- The triangles that `gridTris` adds. -/
def gridTrisIx : List Ix := gridT V U fun v u => cellIx flip alt u v (off + w32 (v * (U + 1) + u)) (off + w32 (v * (U + 1) + (u + 1)))
  (off + w32 ((v + 1) * (U + 1) + (u + 1))) (off + w32 ((v + 1) * (U + 1) + u))

theorem gridTris_ok (m : M) (hU : U < 2 ^ 32) (hV : V < 2 ^ 32) : gridTris flip alt U V off m = .ok (ext m [] (gridTrisIx flip alt U V off)) :=
  forLt_gridT V U _ _ m hV hU fun _ _ _ => congrArg Res.ok (cell_eq ..)

theorem gridTrisIx_length : (gridTrisIx flip alt U V off).length = 2 * (U * V) := by
  rw [gridTrisIx, gridT_length V U 2 _ (fun _ _ => cellIx_length ..)]; ring

theorem gridTrisIx_mem {t : Ix} (ht : t ∈ gridTrisIx flip alt U V off) :
    ∀ i ∈ [t.a, t.b, t.c], off ≤ i ∧ i < off + (V + 1) * (U + 1) := by
  obtain ⟨v, u, hv, hu, ht⟩ := gridT_mem.1 ht
  intro i hi
  have := cellIx_mem ht i hi
  have h0 := w32_grid_lt (R := V + 1) (C := U + 1) (r := v) (c := u) (by omega) (by omega) rfl
  have h1 := w32_grid_lt (R := V + 1) (C := U + 1) (r := v) (c := u + 1) (by omega) (by omega) rfl
  have h2 := w32_grid_lt (R := V + 1) (C := U + 1) (r := v + 1) (c := u + 1) (by omega) (by omega) rfl
  have h3 := w32_grid_lt (R := V + 1) (C := U + 1) (r := v + 1) (c := u) (by omega) (by omega) rfl
  omega

theorem gridTrisIx_faces {m : M} {f : ℕ → ℕ → Vertex ℝ} (h : Stored m off (gridV (V + 1) (U + 1) f)) (hb : (V + 1) * (U + 1) ≤ 2 ^ 32) :
    (gridTrisIx flip alt U V off).map (face m) = (grid V U fun v u => cellF flip alt u v (f v u).position (f v (u + 1)).position
      (f (v + 1) (u + 1)).position (f (v + 1) u).position).map some := by
  apply gridT_faces
  intro v u hv hu
  exact cell_faces flip alt u v (stored_grid32 h hb (by omega) (by omega) rfl) (stored_grid32 h hb (by omega) (by omega) rfl)
    (stored_grid32 h hb (by omega) (by omega) rfl) (stored_grid32 h hb (by omega) (by omega) rfl)

end gridTris

section faceTris
variable (back alt : Bool) (H V off : ℕ)

def faceTrisIx : List Ix := gridT V H fun v u => cellIx back alt u v (off + w32 (v * (H + 1) + u)) (off + w32 ((v + 1) * (H + 1) + u))
  (off + w32 ((v + 1) * (H + 1) + u + 1)) (off + w32 (v * (H + 1) + u + 1))

theorem faceTris_ok (m : M) (hH : H < 2 ^ 32) (hV : V < 2 ^ 32) : faceTris back alt H V off m = .ok (ext m [] (faceTrisIx back alt H V off)) :=
  forLt_gridT V H _ _ m hV hH fun _ _ _ => congrArg Res.ok (cell_eq ..)

theorem faceTrisIx_length : (faceTrisIx back alt H V off).length = 2 * (H * V) := by
  rw [faceTrisIx, gridT_length V H 2 _ (fun _ _ => cellIx_length ..)]; ring

theorem faceTrisIx_mem {t : Ix} (ht : t ∈ faceTrisIx back alt H V off) :
    ∀ i ∈ [t.a, t.b, t.c], off ≤ i ∧ i < off + (V + 1) * (H + 1) := by
  obtain ⟨v, u, hv, hu, ht⟩ := gridT_mem.1 ht
  intro i hi
  have := cellIx_mem ht i hi
  have h0 := w32_grid_lt (R := V + 1) (C := H + 1) (r := v) (c := u) (by omega) (by omega) rfl
  have h1 := w32_grid_lt (R := V + 1) (C := H + 1) (r := v) (c := u + 1) (by omega) (by omega) rfl
  have h2 := w32_grid_lt (R := V + 1) (C := H + 1) (r := v + 1) (c := u + 1) (by omega) (by omega) rfl
  have h3 := w32_grid_lt (R := V + 1) (C := H + 1) (r := v + 1) (c := u) (by omega) (by omega) rfl
  simp only [← Nat.add_assoc] at h1 h2
  omega

theorem faceTrisIx_faces {m : M} {f : ℕ → ℕ → Vertex ℝ} (h : Stored m off (gridV (V + 1) (H + 1) f)) (hb : (V + 1) * (H + 1) ≤ 2 ^ 32) :
    (faceTrisIx back alt H V off).map (face m) = (grid V H fun v u => cellF back alt u v (f v u).position (f (v + 1) u).position
      (f (v + 1) (u + 1)).position (f v (u + 1)).position).map some := by
  apply gridT_faces
  intro v u hv hu
  exact cell_faces back alt u v (stored_grid32 h hb (by omega) (by omega) rfl) (stored_grid32 h hb (by omega) (by omega) rfl)
    (stored_grid32 h hb (by omega) (by omega) rfl) (stored_grid32 h hb (by omega) (by omega) rfl)

end faceTris

/-! Mantles: the first counter goes around, the second one downward. -/

theorem forLt_gridTA (R C step off : ℕ) (body : ℕ → ℕ → ℕ → M → Res M) (q : ℕ → ℕ → List Ix) (m : M) (hR : R < 2 ^ 32) (hC : C < 2 ^ 32)
    (hb : ∀ r c m, r < R → c < C → body r c (off + r * step) m = .ok (ext m [] (q r c))) :
    ((forLt 0 R (fun r (s : M × ℕ) => (forLt 0 C (fun c m => body r c s.2 m) s.1).bind fun m => .ok (m, s.2 + step)) (m, off)).bind
      fun s => .ok s.1) = .ok (ext m [] (gridT R C q)) := by
  have := forLt_acc 0 R (fun r (s : M × ℕ) => (forLt 0 C (fun c m => body r c s.2 m) s.1).bind fun m => .ok (m, s.2 + step))
    (fun i => off + i * step) (fun _ => []) (fun r => tab 0 C fun c => q r c) m (by omega) hR (fun r m _ hr => by
      dsimp only
      rw [forLt_ext 0 C _ (fun _ => []) (fun c => q r c) m (by omega) hC (fun c m _ hc => hb r c m hr hc)]
      simp only [Nat.sub_zero, tab_nil, Res.bind_ok]
      rw [Nat.succ_mul, Nat.add_assoc])
  simp only [Nat.zero_mul, Nat.add_zero] at this
  rw [this]
  simp only [Nat.sub_zero, tab_nil, Res.bind_ok]
  rfl

section mantleTris
variable (flip alt : Bool) (H V off : ℕ)

def mantleTrisIx : List Ix := gridT H V fun u v => cellIx flip alt u v (off + u * (1 + V) + w32 (v + 1 + V)) (off + u * (1 + V) + v)
  (off + u * (1 + V) + w32 (v + 1)) (off + u * (1 + V) + w32 (v + 2 + V))

theorem mantleTris_ok (m : M) (hH : H < 2 ^ 32) (hV : V + 1 < 2 ^ 32) :
    mantleTris flip alt H V off m = .ok (ext m [] (mantleTrisIx flip alt H V off)) := by
  unfold mantleTris mantleTrisIx
  rw [w32_of_lt (show 1 + V < 2 ^ 32 by omega)]
  exact forLt_gridTA H V (1 + V) off
    (fun u v o m => .ok (if flip then addQuad m alt u v v (w32 (v + 1 + V)) (w32 (v + 2 + V)) (w32 (v + 1)) o
      else addQuad m alt u v (w32 (v + 1 + V)) v (w32 (v + 1)) (w32 (v + 2 + V)) o)) _ m hH (by omega)
    fun _ _ _ _ _ => congrArg Res.ok (cell_eq ..)

theorem mantleTrisIx_length : (mantleTrisIx flip alt H V off).length = 2 * (H * V) := by
  rw [mantleTrisIx, gridT_length H V 2 _ (fun _ _ => cellIx_length ..)]; ring

theorem mantleTrisIx_mem {t : Ix} (ht : t ∈ mantleTrisIx flip alt H V off) :
    ∀ i ∈ [t.a, t.b, t.c], off ≤ i ∧ i < off + (H + 1) * (V + 1) := by
  obtain ⟨u, v, hu, hv, ht⟩ := gridT_mem.1 ht
  intro i hi
  have := cellIx_mem ht i hi
  have h0 := w32_le (v + 1 + V)
  have h1 := w32_le (v + 1)
  have h2 := w32_le (v + 2 + V)
  have h3 := grid_lt (R := H + 1) (C := V + 1) (r := u + 1) (c := v + 1) (by omega) (by omega)
  have h4 : (u + 1) * (V + 1) = u * (1 + V) + (1 + V) := by ring
  rw [h4] at h3
  generalize (H + 1) * (V + 1) = n at *
  generalize u * (1 + V) = k at *
  omega

theorem mantleTrisIx_faces {m : M} {f : ℕ → ℕ → Vertex ℝ} (h : Stored m off (gridV (H + 1) (V + 1) f)) (hb : 2 * (V + 1) ≤ 2 ^ 32) :
    (mantleTrisIx flip alt H V off).map (face m) = (grid H V fun u v => cellF flip alt u v (f (u + 1) v).position (f u v).position
      (f u (v + 1)).position (f (u + 1) (v + 1)).position).map some := by
  apply gridT_faces
  intro u v hu hv
  have e : ∀ a b, off + u * (1 + V) + (a * (V + 1) + b) = off + ((u + a) * (V + 1) + b) := fun a b => by ring
  have l0 := stored_grid h (r := u + 1) (c := v) (by omega) (by omega)
  have l1 := stored_grid h (r := u) (c := v) (by omega) (by omega)
  have l2 := stored_grid h (r := u) (c := v + 1) (by omega) (by omega)
  have l3 := stored_grid h (r := u + 1) (c := v + 1) (by omega) (by omega)
  refine cell_faces flip alt u v ?_ ?_ ?_ ?_
  · rw [← l0, w32_of_lt (by omega), show v + 1 + V = 1 * (V + 1) + v by ring, e]
  · rw [← l1]; congr 1; ring
  · rw [← l2, w32_of_lt (by omega)]; congr 1; ring
  · rw [← l3, w32_of_lt (by omega), show v + 2 + V = 1 * (V + 1) + (v + 1) by ring, e]

end mantleTris

section ringTris
variable (top alt : Bool) (H V off : ℕ)

def ringTrisIx : List Ix := gridT H V fun u v => cellIx top alt u v (off + u * (V + 1) + v) (off + u * (V + 1) + w32 (v + 1 + V))
  (off + u * (V + 1) + w32 (v + 2 + V)) (off + u * (V + 1) + w32 (v + 1))

theorem ringTris_ok (m : M) (hH : H < 2 ^ 32) (hV : V + 1 < 2 ^ 32) :
    ringTris top alt H V off m = .ok (ext m [] (ringTrisIx top alt H V off)) := by
  unfold ringTris ringTrisIx
  rw [w32_of_lt (show V + 1 < 2 ^ 32 by omega)]
  exact forLt_gridTA H V (V + 1) off
    (fun u v o m => .ok (if top then addQuad m alt u v (w32 (v + 1 + V)) v (w32 (v + 1)) (w32 (v + 2 + V)) o
      else addQuad m alt u v v (w32 (v + 1 + V)) (w32 (v + 2 + V)) (w32 (v + 1)) o)) _ m hH (by omega)
    fun _ _ _ _ _ => congrArg Res.ok (cell_eq ..)

theorem ringTrisIx_length : (ringTrisIx top alt H V off).length = 2 * (H * V) := by
  rw [ringTrisIx, gridT_length H V 2 _ (fun _ _ => cellIx_length ..)]; ring

theorem ringTrisIx_mem {t : Ix} (ht : t ∈ ringTrisIx top alt H V off) :
    ∀ i ∈ [t.a, t.b, t.c], off ≤ i ∧ i < off + (H + 1) * (V + 1) := by
  obtain ⟨u, v, hu, hv, ht⟩ := gridT_mem.1 ht
  intro i hi
  have := cellIx_mem ht i hi
  have h0 := w32_le (v + 1 + V)
  have h1 := w32_le (v + 1)
  have h2 := w32_le (v + 2 + V)
  have h3 := grid_lt (R := H + 1) (C := V + 1) (r := u + 1) (c := v + 1) (by omega) (by omega)
  have h4 : (u + 1) * (V + 1) = u * (V + 1) + (1 + V) := by ring
  rw [h4] at h3
  generalize (H + 1) * (V + 1) = n at *
  generalize u * (V + 1) = k at *
  omega

theorem ringTrisIx_faces {m : M} {f : ℕ → ℕ → Vertex ℝ} (h : Stored m off (gridV (H + 1) (V + 1) f)) (hb : 2 * (V + 1) ≤ 2 ^ 32) :
    (ringTrisIx top alt H V off).map (face m) = (grid H V fun u v => cellF top alt u v (f u v).position (f (u + 1) v).position
      (f (u + 1) (v + 1)).position (f u (v + 1)).position).map some := by
  apply gridT_faces
  intro u v hu hv
  have e : ∀ a b, off + u * (V + 1) + (a * (V + 1) + b) = off + ((u + a) * (V + 1) + b) := fun a b => by ring
  have l0 := stored_grid h (r := u + 1) (c := v) (by omega) (by omega)
  have l1 := stored_grid h (r := u) (c := v) (by omega) (by omega)
  have l2 := stored_grid h (r := u) (c := v + 1) (by omega) (by omega)
  have l3 := stored_grid h (r := u + 1) (c := v + 1) (by omega) (by omega)
  refine cell_faces top alt u v ?_ ?_ ?_ ?_
  · rw [← l1]; congr 1; ring
  · rw [← l0, w32_of_lt (by omega), show v + 1 + V = 1 * (V + 1) + v by ring, e]
  · rw [← l3, w32_of_lt (by omega), show v + 2 + V = 1 * (V + 1) + (v + 1) by ring, e]
  · rw [← l2, w32_of_lt (by omega)]; congr 1; ring

end ringTris

/-! Discs: a center and rings from 1 to `C`. -/

/-- A strip: one triangle and then quads. -/
theorem forLt_stripA (R C step off : ℕ) (first : ℕ → ℕ → M → M) (body : ℕ → ℕ → ℕ → M → Res M) (t : ℕ → Ix) (q : ℕ → ℕ → List Ix) (m : M)
    (hR : R < 2 ^ 32) (h1 : 1 ≤ C) (hC : C < 2 ^ 32)
    (hf : ∀ r m, r < R → first r (off + r * step) m = ext m [] [t r])
    (hb : ∀ r c m, r < R → 1 ≤ c → c < C → body r c (off + r * step) m = .ok (ext m [] (q r c))) :
    ((forLt 0 R (fun r (s : M × ℕ) => (forLt 1 C (fun c m => body r c s.2 m) (first r s.2 s.1)).bind fun m => .ok (m, s.2 + step)) (m, off)).bind
      fun s => .ok s.1) = .ok (ext m [] (tab 0 R fun r => t r :: tab 1 (C - 1) (q r))) := by
  have := forLt_acc 0 R (fun r (s : M × ℕ) => (forLt 1 C (fun c m => body r c s.2 m) (first r s.2 s.1)).bind fun m => .ok (m, s.2 + step))
    (fun i => off + i * step) (fun _ => []) (fun r => t r :: tab 1 (C - 1) (q r)) m (by omega) hR (fun r m _ hr => by
      dsimp only
      rw [hf r m hr, forLt_ext 1 C _ (fun _ => []) (fun c => q r c) _ h1 hC (fun c m h hc => hb r c m hr h hc)]
      simp only [tab_nil, Res.bind_ok, ext_ext]
      rw [Nat.succ_mul, Nat.add_assoc]
      rfl)
  simp only [Nat.zero_mul, Nat.add_zero] at this
  rw [this]
  simp only [Nat.sub_zero, tab_nil, Res.bind_ok]

theorem strip_length (R C : ℕ) (t : ℕ → Ix) (q : ℕ → ℕ → List Ix) (h1 : 1 ≤ C) (h : ∀ r c, (q r c).length = 2) :
    (tab 0 R fun r => t r :: tab 1 (C - 1) (q r)).length = R * (2 * C - 1) := by
  rw [tab_length 0 R (2 * C - 1)]
  intro r _
  rw [List.length_cons, tab_length 1 (C - 1) 2 _ (fun _ _ => h _ _)]
  omega

theorem strip_faces {m : M} {R C : ℕ} {t : ℕ → Ix} {q : ℕ → ℕ → List Ix} {t' : ℕ → Face} {f : ℕ → ℕ → List Face}
    (ht : ∀ r, r < R → face m (t r) = some (t' r))
    (hq : ∀ r j, r < R → j < C - 1 → (q r (j + 1)).map (face m) = (f r j).map some) :
    (tab 0 R fun r => t r :: tab 1 (C - 1) (q r)).map (face m) =
      ((List.range R).flatMap fun r => t' r :: (List.range (C - 1)).flatMap fun j => f r j).map some := by
  rw [← tab_zero_eq, tab_map, tab_map]
  apply tab_congr
  intro r hr
  simp only [Nat.zero_add, List.map_cons]
  rw [ht r hr, ← tab_zero_eq, tab_map, tab_map]
  congr 1
  unfold tab
  apply List.flatMap_congr
  intro j hj
  rw [List.mem_range] at hj
  simp only [Nat.zero_add]
  rw [Nat.add_comm 1 j]
  exact hq r j hr hj

section discTris
variable (top alt : Bool) (H C off : ℕ)

/-- The vertices of a disc. -/
def discV (center : Vertex ℝ) (f : ℕ → ℕ → Vertex ℝ) : List (Vertex ℝ) := center :: gridV (H + 1) C fun u j => f u (j + 1)

def discTrisIx : List Ix := tab 0 H fun u =>
  (if top then ⟨off, off + 1 + u * C, off + 1 + u * C + C⟩ else ⟨off + 1 + u * C + C, off + 1 + u * C, off⟩) ::
  tab 1 (C - 1) fun v => cellIx top alt u v (off + 1 + u * C + (v - 1)) (off + 1 + u * C + w32 (v - 1 + C))
    (off + 1 + u * C + w32 (v + C)) (off + 1 + u * C + v)

theorem discTris_ok (m : M) (hH : H < 2 ^ 32) (h1 : 1 ≤ C) (hC : C < 2 ^ 32) :
    discTris top alt H C off m = .ok (ext m [] (discTrisIx top alt H C off)) := by
  unfold discTris discTrisIx
  exact forLt_stripA H C C (off + 1) (fun _ o m => if top then tri m off o (o + C) else tri m (o + C) o off)
    (fun u v o m => .ok (if top then addQuad m alt u v (w32 (v - 1 + C)) (v - 1) v (w32 (v + C)) o
      else addQuad m alt u v (v - 1) (w32 (v - 1 + C)) (w32 (v + C)) v o)) _ _ m hH h1 hC
    (fun r m _ => by cases top <;> simp [tri_eq]) fun _ _ _ _ _ _ => congrArg Res.ok (cell_eq ..)

theorem discTrisIx_length (h1 : 1 ≤ C) : (discTrisIx top alt H C off).length = H * (2 * C - 1) :=
  strip_length H C _ _ h1 (fun _ _ => cellIx_length ..)

theorem discTrisIx_mem {t : Ix} (h1 : 1 ≤ C) (ht : t ∈ discTrisIx top alt H C off) :
    ∀ i ∈ [t.a, t.b, t.c], off ≤ i ∧ i < off + (1 + (H + 1) * C) := by
  obtain ⟨u, hu, ht⟩ := mem_tab.1 ht
  simp only [Nat.zero_add] at ht
  intro i hi
  have h3 := grid_lt (R := H + 1) (C := C) (r := u + 1) (c := C - 1) (by omega) (by omega)
  have h4 : (u + 1) * C = u * C + C := by ring
  rw [h4] at h3
  generalize (H + 1) * C = n at *
  generalize u * C = k at *
  rcases List.mem_cons.1 ht with rfl | ht
  · cases top
    · simp at hi; omega
    · simp at hi; omega
  · obtain ⟨j, hj, ht⟩ := mem_tab.1 ht
    have := cellIx_mem ht i hi
    have h5 := w32_le (1 + j - 1 + C)
    have h6 := w32_le (1 + j + C)
    omega

theorem discTrisIx_faces {m : M} {center : Vertex ℝ} {f : ℕ → ℕ → Vertex ℝ} (h : Stored m off (discV H C center f)) (h1 : 1 ≤ C)
    (hb : 2 * C ≤ 2 ^ 32) :
    (discTrisIx top alt H C off).map (face m) = (disc top alt H C center.position fun u v => (f u v).position).map some := by
  have lc : m.vertices[off]? = some center := by
    have := h 0 (by simp [discV])
    simpa [discV] using this
  have lg : ∀ u j, u ≤ H → j < C → m.vertices[off + 1 + u * C + j]? = some (f u (j + 1)) := by
    intro u j hu hj
    have hl : u * C + j < (H + 1) * C := grid_lt (by omega) hj
    have := h (u * C + j + 1) (by simp [discV, gridV_length]; omega)
    simp only [discV, List.getElem?_cons_succ] at this
    rw [gridV_get (H + 1) C _ u j (by omega) hj] at this
    rw [← this]; congr 1; ring
  have e : ∀ u j, off + 1 + u * C + (j + C) = off + 1 + (u + 1) * C + j := fun u j => by ring
  unfold discTrisIx disc
  apply strip_faces
  · intro u hu
    have a := lg u 0 (by omega) (by omega)
    have b := lg (u + 1) 0 (by omega) (by omega)
    rw [← e, Nat.zero_add] at b
    cases top
    · exact face_some b a lc
    · exact face_some lc a b
  · intro u j hu hj
    have a := lg u j (by omega) (by omega)
    have b := lg (u + 1) j (by omega) (by omega)
    have c := lg (u + 1) (j + 1) (by omega) (by omega)
    have d := lg u (j + 1) (by omega) (by omega)
    rw [← e] at b c
    rw [← w32_of_lt (show j + C < 2 ^ 32 by omega)] at b
    rw [← w32_of_lt (show j + 1 + C < 2 ^ 32 by omega)] at c
    exact cell_faces top alt u (j + 1) a b c d

end discTris

/-! Cones: rows 1 to `V` and the tip in each column but the last one, which has no tip. -/

section coneTris
variable (alt : Bool) (H V off : ℕ)

def coneV (tip : ℕ → Vertex ℝ) (f : ℕ → ℕ → Vertex ℝ) : List (Vertex ℝ) :=
  tab 0 (H + 1) fun u => (tab 1 V fun v => [f u v]) ++ if u < H then [tip u] else []

theorem coneV_eq (tip : ℕ → Vertex ℝ) (f : ℕ → ℕ → Vertex ℝ) :
    coneV H V tip f = (tab 0 H fun u => (tab 1 V fun v => [f u v]) ++ [tip u]) ++ tab 1 V fun v => [f H v] := by
  unfold coneV
  rw [tab_succ]
  simp only [Nat.zero_add, lt_irrefl, if_false, List.append_nil]
  congr 1
  apply tab_congr
  intro i hi
  simp [hi]

theorem coneV_length (tip : ℕ → Vertex ℝ) (f : ℕ → ℕ → Vertex ℝ) : (coneV H V tip f).length = H * (V + 1) + V := by
  rw [coneV_eq, List.length_append, row_length, tab_length 0 H (V + 1)]
  intro i _
  simp [row_length]

theorem coneV_get (tip : ℕ → Vertex ℝ) (f : ℕ → ℕ → Vertex ℝ) (u j : ℕ) (hu : u ≤ H) (hj : j < V) :
    (coneV H V tip f)[u * (V + 1) + j]? = some (f u (j + 1)) := by
  have hl : ∀ i, i < H → ((tab 1 V fun v => [f (0 + i) v]) ++ [tip (0 + i)]).length = V + 1 := by
    intro i _; simp [row_length]
  have ht := tab_length 0 H (V + 1) (fun u => (tab 1 V fun v => [f u v]) ++ [tip u]) hl
  rw [coneV_eq]
  rcases Nat.lt_or_ge u H with h | h
  · have : u * (V + 1) + j < H * (V + 1) := grid_lt h (by omega)
    rw [List.getElem?_append_left (by omega), tab_get 0 H (V + 1) _ hl u j h (by omega),
      List.getElem?_append_left (by rw [row_length]; omega), row_get V _ 1 j hj, Nat.zero_add, Nat.add_comm 1 j]
  · obtain rfl : u = H := by omega
    rw [List.getElem?_append_right (by omega), ht, Nat.add_sub_cancel_left, row_get V _ 1 j hj, Nat.add_comm 1 j]

theorem coneV_tip (tip : ℕ → Vertex ℝ) (f : ℕ → ℕ → Vertex ℝ) (u : ℕ) (hu : u < H) :
    (coneV H V tip f)[u * (V + 1) + V]? = some (tip u) := by
  have hl : ∀ i, i < H → ((tab 1 V fun v => [f (0 + i) v]) ++ [tip (0 + i)]).length = V + 1 := by
    intro i _; simp [row_length]
  have ht := tab_length 0 H (V + 1) (fun u => (tab 1 V fun v => [f u v]) ++ [tip u]) hl
  have : u * (V + 1) + V < H * (V + 1) := grid_lt hu (by omega)
  rw [coneV_eq, List.getElem?_append_left (by omega), tab_get 0 H (V + 1) _ hl u V hu (by omega),
    List.getElem?_append_right (by rw [row_length]), row_length, Nat.sub_self, Nat.zero_add]
  rfl

theorem coneV_mem {tip : ℕ → Vertex ℝ} {f : ℕ → ℕ → Vertex ℝ} {x : Vertex ℝ} (h : x ∈ coneV H V tip f) :
    (∃ u, u < H ∧ x = tip u) ∨ ∃ u v, u ≤ H ∧ 1 ≤ v ∧ v ≤ V ∧ x = f u v := by
  obtain ⟨u, hu, h⟩ := mem_tab.1 h
  simp only [Nat.zero_add, List.mem_append] at h
  rcases h with h | h
  · obtain ⟨v, hv, h⟩ := mem_tab.1 h
    exact .inr ⟨u, 1 + v, by omega, by omega, by omega, by simpa using h⟩
  · split_ifs at h with hc
    · exact .inl ⟨u, hc, by simpa using h⟩
    · simp at h

def coneTrisIx : List Ix := tab 0 H fun u =>
  ⟨off + u * (1 + V) + V, off + u * (1 + V), off + u * (1 + V) + 1 + V⟩ ::
  tab 1 (V - 1) fun v => quadIx alt u v (off + u * (1 + V) + w32 (v + V)) (off + u * (1 + V) + (v - 1))
    (off + u * (1 + V) + v) (off + u * (1 + V) + w32 (v + 1 + V))

theorem coneTris_ok (m : M) (hH : H < 2 ^ 32) (h1 : 1 ≤ V) (hV : V + 1 < 2 ^ 32) :
    coneTris alt H V off m = .ok (ext m [] (coneTrisIx alt H V off)) := by
  unfold coneTris coneTrisIx
  rw [w32_of_lt (show 1 + V < 2 ^ 32 by omega)]
  exact forLt_stripA H V (1 + V) off (fun _ o m => tri m (o + V) o (o + 1 + V))
    (fun u v o m => .ok (addQuad m alt u v (w32 (v + V)) (v - 1) v (w32 (v + 1 + V)) o)) _ _ m hH h1 (by omega)
    (fun r m _ => by simp [tri_eq]) fun _ _ _ _ _ _ => congrArg Res.ok (addQuad_eq ..)

theorem coneTrisIx_length (h1 : 1 ≤ V) : (coneTrisIx alt H V off).length = H * (2 * V - 1) :=
  strip_length H V _ _ h1 (fun _ _ => quadIx_length ..)

theorem coneTrisIx_mem {t : Ix} (h1 : 1 ≤ V) (ht : t ∈ coneTrisIx alt H V off) :
    ∀ i ∈ [t.a, t.b, t.c], off ≤ i ∧ i < off + (H * (V + 1) + V) := by
  obtain ⟨u, hu, ht⟩ := mem_tab.1 ht
  simp only [Nat.zero_add] at ht
  intro i hi
  have h3 := Nat.mul_le_mul_right (V + 1) (show u + 1 ≤ H by omega)
  have h4 : (u + 1) * (V + 1) = u * (1 + V) + (1 + V) := by ring
  rw [h4] at h3
  generalize H * (V + 1) = n at *
  generalize u * (1 + V) = k at *
  rcases List.mem_cons.1 ht with rfl | ht
  · simp at hi; omega
  · obtain ⟨j, hj, ht⟩ := mem_tab.1 ht
    have := quadIx_mem ht i hi
    have h5 := w32_le (1 + j + V)
    have h6 := w32_le (1 + j + 1 + V)
    omega

theorem coneTrisIx_faces {m : M} {tip : Vertex ℝ} {tips : ℕ → Vertex ℝ} {f : ℕ → ℕ → Vertex ℝ} (ht : ∀ u, (tips u).position = tip.position)
    (h : Stored m off (coneV H V tips f)) (h1 : 1 ≤ V) (hb : 2 * (V + 1) ≤ 2 ^ 32) :
    (coneTrisIx alt H V off).map (face m) = (mantleOfCone alt H V tip.position fun u v => (f u v).position).map some := by
  have lt : ∀ u, u < H → m.vertices[off + u * (1 + V) + V]? = some (tips u) := by
    intro u hu
    have h3 := Nat.mul_le_mul_right (V + 1) (show u + 1 ≤ H by omega)
    have h4 : (u + 1) * (V + 1) = u * (V + 1) + (1 + V) := by ring
    rw [h4] at h3
    have := h (u * (V + 1) + V) (by rw [coneV_length]; omega)
    rw [coneV_tip H V tips f u hu] at this
    rw [← this]; congr 1; ring
  have lg : ∀ u j, u ≤ H → j < V → m.vertices[off + u * (1 + V) + j]? = some (f u (j + 1)) := by
    intro u j hu hj
    have h3 := Nat.mul_le_mul_right (V + 1) hu
    have := h (u * (V + 1) + j) (by rw [coneV_length]; omega)
    rw [coneV_get H V tips f u j hu hj] at this
    rw [← this]; congr 1; ring
  have e : ∀ u j, off + u * (1 + V) + (j + 1 + V) = off + (u + 1) * (1 + V) + j := fun u j => by ring
  unfold coneTrisIx mantleOfCone
  apply strip_faces
  · intro u hu
    have a := lg u 0 (by omega) (by omega)
    have b := lg (u + 1) 0 (by omega) (by omega)
    rw [← e, Nat.zero_add, ← Nat.add_assoc] at b
    rw [← ht u]
    exact face_some (lt u hu) a b
  · intro u j hu hj
    have a := lg u j (by omega) (by omega)
    have b := lg (u + 1) j (by omega) (by omega)
    have c := lg (u + 1) (j + 1) (by omega) (by omega)
    have d := lg u (j + 1) (by omega) (by omega)
    rw [← e] at b c
    rw [← w32_of_lt (show j + 1 + V < 2 ^ 32 by omega)] at b
    rw [← w32_of_lt (show j + 1 + 1 + V < 2 ^ 32 by omega)] at c
    exact quad_faces alt u (j + 1) b a d c

end coneTris

end Geom.Gen
