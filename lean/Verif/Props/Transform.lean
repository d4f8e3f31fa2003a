import Verif.Base.Tac
import Verif.Spec.Transform

/-!
Properties C66-C69: transforms and projections.
-/

set_option linter.unusedSectionVars false
set_option autoImplicit false

namespace Geom.Transform.Props

open Spec

variable {K : Type} [CommRing K]

/-! ## C66: the cached matrix of Transform3 -/

theorem moves_computed (m : Mat K) (p : V3 K) (q : Quat K) (s : V3 K) :
    Moves (scaleMatrix (quaternionToMatrix (setPosition m p) q) s) ⟨p, q, s⟩ := by
  intro v
  ext <;> simp [apply, scaleMatrix, quaternionToMatrix, setPosition, Quat.rot, Quat.vec, V3.cross] <;> ring

/-- What the members mean: they are the abstract values, and a clean matrix belongs to them. -/
def Inv (t : T3 K) (a : A3 K) : Prop :=
  t.position = a.pos ∧ t.rotation = a.rot ∧ t.scale = a.scl ∧ (t.hasChanged = false → Moves t.matrix a)

theorem inv_getMatrix {t : T3 K} {a : A3 K} (h : Inv t a) : Inv t.getMatrix a ∧ t.getMatrix.hasChanged = false := by
  obtain ⟨h1, h2, h3, h4⟩ := h
  unfold T3.getMatrix
  split
  · refine ⟨⟨h1, h2, h3, fun _ => ?_⟩, rfl⟩
    have := moves_computed t.matrix t.position t.rotation t.scale
    rw [h1, h2, h3] at this
    rw [h1, h2, h3]
    exact this
  · rename_i hc
    simp only [Bool.not_eq_true] at hc
    exact ⟨⟨h1, h2, h3, h4⟩, hc⟩

theorem inv_step (mulAssign : Quat K → Quat K → Quat K) {t : T3 K} {a : A3 K} (h : Inv t a) (o : Op3 K) :
    Inv (t.step mulAssign o) (a.step mulAssign o) := by
  cases o with
  | getMatrix => exact (inv_getMatrix h).1
  | turn r c =>
    obtain ⟨h1, h2, h3, h4⟩ := h
    refine ⟨?_, ?_, h3, fun hc => by cases hc⟩
    · simp only [T3.step, T3.turn, A3.step, ← h1]
      ext <;> simp <;> ring
    · simp [T3.step, T3.turn, A3.step, h2]
  | _ =>
    obtain ⟨h1, h2, h3, h4⟩ := h
    refine ⟨?_, ?_, ?_, fun hc => by cases hc⟩ <;>
      simp [T3.step, T3.setPosition, T3.setRotation, T3.setScale, T3.moveGlobal, T3.moveLocal, A3.step, h1, h2, h3]

theorem inv_run (mulAssign : Quat K → Quat K → Quat K) (ops : List (Op3 K)) :
    ∀ {t : T3 K} {a : A3 K}, Inv t a → Inv (t.run mulAssign ops) (ops.foldl (A3.step mulAssign) a) := by
  induction ops with
  | nil => exact fun h => h
  | cons o os ih => exact fun h => ih (inv_step mulAssign h o)

/-- After each history the getters return the current values, and `GetMatrix` returns the matrix
which scales, rotates and moves by these values. `m` is what the constructor leaves in the matrix. -/
theorem C66_transform3 (mulAssign : Quat K → Quat K → Quat K) (m : Mat K) (ops : List (Op3 K)) :
    let t := (T3.new m).run mulAssign ops
    let a := ops.foldl (A3.step mulAssign) ⟨0, .one, ⟨1, 1, 1⟩⟩
    t.position = a.pos ∧ t.rotation = a.rot ∧ t.scale = a.scl ∧ Moves t.getMatrix.matrix a := by
  intro t a
  have h : Inv t a := inv_run mulAssign ops ⟨rfl, rfl, rfl, fun h => by cases h⟩
  obtain ⟨h1, h2⟩ := inv_getMatrix h
  exact ⟨h.1, h.2.1, h.2.2.1, h1.2.2.2 h2⟩

/-- The same for the constructor from a matrix, whatever the decomposition is. -/
theorem C66_transform3_matrix (mulAssign : Quat K → Quat K → Quat K) (m : Mat K) (p : V3 K) (q : Quat K)
    (s : V3 K) (ops : List (Op3 K)) :
    let t := (T3.ofParts m p q s).run mulAssign ops
    let a := ops.foldl (A3.step mulAssign) ⟨p, q, s⟩
    t.position = a.pos ∧ t.rotation = a.rot ∧ t.scale = a.scl ∧ Moves t.getMatrix.matrix a := by
  intro t a
  have h : Inv t a := inv_run mulAssign ops ⟨rfl, rfl, rfl, fun h => by cases h⟩
  obtain ⟨h1, h2⟩ := inv_getMatrix h
  exact ⟨h.1, h.2.1, h.2.2.1, h1.2.2.2 h2⟩

/-- The action on points determines the matrix, so the result does not depend on the history. -/
theorem C66_matrix_unique (m m' : Mat K) (a : A3 K) (h : Moves m a) (h' : Moves m' a) : m = m' := by
  have e : ∀ v, apply m v = apply m' v := fun v => (h v).trans (h' v).symm
  have e0 := e 0
  have e1 := e ⟨1, 0, 0⟩
  have e2 := e ⟨0, 1, 0⟩
  have e3 := e ⟨0, 0, 1⟩
  simp only [apply, V3.mk.injEq, V3.zero_x, V3.zero_y, V3.zero_z, mul_zero, mul_one, zero_add, add_zero] at e0 e1 e2 e3
  funext i j
  obtain ⟨a1, a2, a3⟩ := e0
  rw [a1, a2, a3] at e1 e2 e3
  simp only [add_left_inj] at e1 e2 e3
  obtain ⟨b1, b2, b3⟩ := e1
  obtain ⟨c1, c2, c3⟩ := e2
  obtain ⟨d1, d2, d3⟩ := e3
  fin_cases i <;> fin_cases j <;> assumption

/-- A history with a stale matrix in the middle: the second read sees the second position. -/
example :
    let t := (T3.new (K := ℚ) (fun _ _ => 7)).run Quat.mul [.setPosition ⟨1, 2, 3⟩, .getMatrix, .setScale ⟨2, 2, 2⟩, .moveLocal ⟨1, 0, 0⟩]
    t.hasChanged = true ∧ t.matrix 0 3 = 1 ∧ t.getMatrix.matrix 0 3 = 2 ∧ t.getMatrix.matrix 1 1 = 2 := by
  simp only [T3.run, List.foldl, T3.step, T3.new, T3.setPosition, T3.getMatrix, T3.setScale, T3.moveLocal,
    T3.moveGlobal, Quat.rot, Quat.vec, V3.cross, Quat.one]
  norm_num [scaleMatrix, quaternionToMatrix, setPosition]

/-! ## C66: the cached matrix of Transform2 -/

/-- What the members mean. -/
def Inv2 (rs : ℝ → V2 ℝ → Fin 2 → Fin 3 → ℝ) (t : T2) (a : A2) : Prop :=
  t.position = a.pos ∧ t.rotation = a.rot ∧ t.scale = a.scl ∧
    (t.hasChanged = false → (t.matrix 0 2 = a.pos.x ∧ t.matrix 1 2 = a.pos.y ∧
      ∀ i j, j ≠ 2 → t.matrix i j = rs a.rot a.scl i j))

/-- The position after `Turn` as the code computes it (see C69). -/
noncomputable def codeTurn (p : V2 ℝ) (r : ℝ) (c : V2 ℝ) : V2 ℝ :=
  ⟨c.x + Real.sin r * (p.x - c.x), c.y + Real.cos r * (p.y - c.y)⟩

theorem inv2_getMatrix {rs} {t : T2} {a : A2} (h : Inv2 rs t a) :
    Inv2 rs (t.getMatrix rs) a ∧ (t.getMatrix rs).hasChanged = false := by
  obtain ⟨h1, h2, h3, h4⟩ := h
  unfold T2.getMatrix
  split
  · refine ⟨⟨h1, h2, h3, fun _ => ?_⟩, rfl⟩
    refine ⟨?_, ?_, fun i j hj => ?_⟩ <;> simp_all [setRotationAndScale, setPosition2]
  · rename_i hc
    simp only [Bool.not_eq_true] at hc
    exact ⟨⟨h1, h2, h3, h4⟩, hc⟩

theorem inv2_step {rs} {t : T2} {a : A2} (h : Inv2 rs t a) (o : Op2) : Inv2 rs (t.step rs o) (a.step codeTurn o) := by
  cases o with
  | getMatrix => exact (inv2_getMatrix h).1
  | turn r c =>
    obtain ⟨h1, h2, h3, h4⟩ := h
    refine ⟨?_, ?_, h3, fun hc => by cases hc⟩
    · simp only [T2.step, T2.turn, A2.step, codeTurn, ← h1]
      ext <;> simp <;> ring
    · simp [T2.step, T2.turn, A2.step, h2]
  | _ =>
    obtain ⟨h1, h2, h3, h4⟩ := h
    refine ⟨?_, ?_, ?_, fun hc => by cases hc⟩ <;>
      simp [T2.step, T2.setPosition, T2.setRotation, T2.setScale, A2.step, h1, h2, h3]

/-- After each history `GetMatrix` returns the matrix of the current position, rotation and scale. -/
theorem C66_transform2 (rs : ℝ → V2 ℝ → Fin 2 → Fin 3 → ℝ) (m : Mat2) (ops : List Op2) :
    let t := (T2.new m).run rs ops
    let a := ops.foldl (A2.step codeTurn) ⟨0, 0, ⟨1, 1⟩⟩
    t.position = a.pos ∧ t.rotation = a.rot ∧ t.scale = a.scl ∧
      (t.getMatrix rs).matrix 0 2 = a.pos.x ∧ (t.getMatrix rs).matrix 1 2 = a.pos.y ∧
      ∀ i j, j ≠ 2 → (t.getMatrix rs).matrix i j = rs a.rot a.scl i j := by
  intro t a
  have h : Inv2 rs t a := by
    suffices ∀ (ops : List Op2) {t : T2} {a : A2}, Inv2 rs t a → Inv2 rs (t.run rs ops) (ops.foldl (A2.step codeTurn) a) from
      this ops ⟨rfl, rfl, rfl, fun h => by cases h⟩
    intro ops
    induction ops with
    | nil => exact fun h => h
    | cons o os ih => exact fun h => ih (inv2_step h o)
  obtain ⟨h1, h2⟩ := inv2_getMatrix h
  exact ⟨h.1, h.2.1, h.2.2.1, h1.2.2.2 h2⟩

/-- A read between two setters. -/
example :
    let t := (T2.new (fun _ _ => 7)).run (fun r s i _ => r + s.x + i.val) [.setPosition ⟨1, 2⟩, .getMatrix, .setRotation 3]
    t.hasChanged = true ∧ t.matrix 1 0 = 2 ∧ (t.getMatrix (fun r s i _ => r + s.x + i.val)).matrix 1 0 = 5 := by
  simp only [T2.run, List.foldl, T2.step, T2.new, T2.setPosition, T2.getMatrix, T2.setRotation]
  norm_num [setRotationAndScale, setPosition2]
  exact fun h => absurd h (by decide)

/-! ## C67: the cached matrix of Projection -/

section projection

variable {T M : Type} [DecidableEq T]

/-- What the members mean. -/
def InvP (e : ProjEnv T M) (p : Proj T M) (a : AP T) : Prop :=
  p.near = a.near ∧ p.far = a.far ∧ p.fov = a.fov ∧ p.aspect = a.aspect ∧ p.flags = a.flags ∧
    p.isOrtho = a.ortho ∧ p.orthoSize = a.size ∧ (p.hasChanged = false → p.matrix = a.matrix e a.flags)

theorem compute_eq {e : ProjEnv T M} {p : Proj T M} {a : AP T} (h : InvP e p a) (f : Int) :
    p.compute e f = a.matrix e f := by
  obtain ⟨h1, h2, h3, h4, h5, h6, h7, -⟩ := h
  unfold Proj.compute AP.matrix
  rw [h1, h2, h3, h4, h6, h7]
  cases a.ortho <;> rfl

theorem invP_getMatrix {e : ProjEnv T M} {p : Proj T M} {a : AP T} (h : InvP e p a) :
    InvP e (p.getMatrix e) a ∧ (p.getMatrix e).hasChanged = false := by
  have hc := compute_eq h
  obtain ⟨h1, h2, h3, h4, h5, h6, h7, h8⟩ := h
  unfold Proj.getMatrix
  split
  · exact ⟨⟨h1, h2, h3, h4, h5, h6, h7, fun _ => by rw [← h5]; exact hc _⟩, rfl⟩
  · rename_i hc
    simp only [Bool.not_eq_true] at hc
    exact ⟨⟨h1, h2, h3, h4, h5, h6, h7, h8⟩, hc⟩

theorem invP_step {e : ProjEnv T M} {p : Proj T M} {a : AP T} (h : InvP e p a) (o : OpP T) :
    InvP e (p.step e o) (a.step o) := by
  cases o with
  | getMatrix => exact (invP_getMatrix h).1
  | setOrtho b =>
    obtain ⟨h1, h2, h3, h4, h5, h6, h7, h8⟩ := h
    simp only [Proj.step, Proj.setOrtho, AP.step]
    split
    · exact ⟨h1, h2, h3, h4, h5, rfl, h7, fun hc => by cases hc⟩
    · rename_i hb
      have hb' : p.isOrtho = b := by simpa using hb
      refine ⟨h1, h2, h3, h4, h5, hb', h7, fun hc => ?_⟩
      rw [h8 hc]
      simp [AP.matrix, ← h6, hb']
  | setOrthoSize s =>
    obtain ⟨h1, h2, h3, h4, h5, h6, h7, h8⟩ := h
    simp only [Proj.step, Proj.setOrthoSize, AP.step]
    split
    · refine ⟨h1, h2, h3, h4, h5, h6, rfl, fun hc => ?_⟩
      by_cases ho : p.isOrtho = true
      · simp [ho] at hc
      · have hc' : p.hasChanged = false := by simpa [ho] using hc
        have : a.ortho = false := by rw [← h6]; simpa using ho
        simp [h8 hc', AP.matrix, this]
    · rename_i hb
      have hb' : p.orthoSize = s := by
        push Not at hb
        exact V2.ext hb.1 hb.2
      refine ⟨h1, h2, h3, h4, h5, h6, hb', fun hc => ?_⟩
      rw [h8 hc]
      simp [AP.matrix, ← h7, hb']
  | setFlags f =>
    obtain ⟨h1, h2, h3, h4, h5, h6, h7, h8⟩ := h
    simp only [Proj.step, Proj.setFlags, AP.step]
    split
    · exact ⟨h1, h2, h3, h4, rfl, h6, h7, fun hc => by cases hc⟩
    · rename_i hb
      have hb' : p.flags = f := by simpa using hb
      refine ⟨h1, h2, h3, h4, hb', h6, h7, fun hc => ?_⟩
      rw [h8 hc]
      simp [AP.matrix, ← h5, hb']
  | setNear v =>
    obtain ⟨h1, h2, h3, h4, h5, h6, h7, h8⟩ := h
    exact ⟨rfl, h2, h3, h4, h5, h6, h7, fun hc => by cases hc⟩
  | setFar v =>
    obtain ⟨h1, h2, h3, h4, h5, h6, h7, h8⟩ := h
    exact ⟨h1, rfl, h3, h4, h5, h6, h7, fun hc => by cases hc⟩
  | setFOV v =>
    obtain ⟨h1, h2, h3, h4, h5, h6, h7, h8⟩ := h
    exact ⟨h1, h2, rfl, h4, h5, h6, h7, fun hc => by cases hc⟩
  | setAspect v =>
    obtain ⟨h1, h2, h3, h4, h5, h6, h7, h8⟩ := h
    exact ⟨h1, h2, h3, rfl, h5, h6, h7, fun hc => by cases hc⟩

/-- After each history the getters return the values set last, `GetMatrix()` returns the matrix of
these values and the current mode, and `GetMatrix(matrix, flags)` the one with the given flags. -/
theorem C67_projection (e : ProjEnv T M) (near far fov aspect : T) (size : V2 T) (m : M) (ops : List (OpP T)) :
    let p := (Proj.new near far fov aspect size m).run e ops
    let a := ops.foldl AP.step ⟨near, far, fov, aspect, 0, false, size⟩
    p.near = a.near ∧ p.far = a.far ∧ p.fov = a.fov ∧ p.aspect = a.aspect ∧ p.flags = a.flags ∧
      p.isOrtho = a.ortho ∧ p.orthoSize = a.size ∧
      (p.getMatrix e).matrix = a.matrix e a.flags ∧ ∀ f, p.compute e f = a.matrix e f := by
  intro p a
  have h : InvP e p a := by
    suffices ∀ (ops : List (OpP T)) {p : Proj T M} {a : AP T}, InvP e p a →
        InvP e (p.run e ops) (ops.foldl AP.step a) from
      this ops ⟨rfl, rfl, rfl, rfl, rfl, rfl, rfl, fun h => by cases h⟩
    intro ops
    induction ops with
    | nil => exact fun h => h
    | cons o os ih => exact fun h => ih (invP_step h o)
  obtain ⟨h1, h2⟩ := invP_getMatrix h
  have hc := compute_eq h
  obtain ⟨a1, a2, a3, a4, a5, a6, a7, -⟩ := h
  exact ⟨a1, a2, a3, a4, a5, a6, a7, h1.2.2.2.2.2.2.2 h2, hc⟩

end projection

/-- The size is set while the mode is perspective, and the mode is switched afterwards: the size
counts although setting it did not mark the matrix as changed. -/
example : let e : ProjEnv ℚ (List ℚ) := ⟨fun a b c d _ => [a, b, c, d], fun a b c d _ => [0, a, b, c, d]⟩
    let p := (Proj.new (1 : ℚ) 1000 45 1 ⟨0, 0⟩ []).run e [.getMatrix, .setOrthoSize ⟨8, 6⟩]
    p.hasChanged = false ∧ (p.getMatrix e).matrix = [0, 1, 1, 1000, 45] ∧
      ((p.run e [.setOrtho true]).getMatrix e).matrix = [8, 6, 1, 1000] := by
  decide +kernel

/-! ## C68: Transform3::Turn -/

theorem rot_lenSq (q : Quat K) (hq : q.x * q.x + q.y * q.y + q.z * q.z + q.w * q.w = 1) (v : V3 K) :
    (q.rot v).lenSq = v.lenSq := by
  have hw : q.w * q.w = 1 - (q.x * q.x + q.y * q.y + q.z * q.z) := by linear_combination hq
  simp only [V3.lenSq, V3.dot, Quat.rot, Quat.vec, V3.cross, V3.add_x, V3.add_y, V3.add_z, V3.smul_x, V3.smul_y, V3.smul_z]
  linear_combination (4 * ((q.y * v.z - q.z * v.y) ^ 2 + (q.z * v.x - q.x * v.z) ^ 2 + (q.x * v.y - q.y * v.x) ^ 2)) * hw

/-- `Turn` moves the position to pivot + rotation (position - pivot). -/
theorem C68_position_partial (mulAssign : Quat K → Quat K → Quat K) (t : T3 K) (r : Quat K) (c : V3 K) :
    (t.turn mulAssign r c).position = c + r.rot (t.position - c) ∧
    (t.turn mulAssign r c).scale = t.scale := by
  refine ⟨?_, rfl⟩
  ext <;> simp [T3.turn] <;> ring

/-- For a unit quaternion the distance to the pivot does not change. -/
theorem C68_distance_partial (mulAssign : Quat K → Quat K → Quat K) (t : T3 K) (r : Quat K) (c : V3 K)
    (hr : r.x * r.x + r.y * r.y + r.z * r.z + r.w * r.w = 1) :
    ((t.turn mulAssign r c).position - c).lenSq = (t.position - c).lenSq := by
  rw [(C68_position_partial mulAssign t r c).1, ← rot_lenSq r hr (t.position - c)]
  congr 1
  ext <;> simp

/-- Turning by the identity changes neither position nor scale nor (the product having the
identity as unit, in either order) rotation. -/
theorem C68_identity_partial (t : T3 K) (c : V3 K) :
    (t.turn Quat.mul .one c).position = t.position ∧ (t.turn Quat.mul .one c).rotation = t.rotation ∧
    (t.turn (fun q r => Quat.mul r q) .one c).rotation = t.rotation ∧
    (t.turn Quat.mul .one c).scale = t.scale := by
  refine ⟨?_, ?_, ?_, rfl⟩ <;> ext <;> simp [T3.turn, Quat.mul, Quat.one, Quat.rot, Quat.vec, V3.cross]

/-- The rotation as `q v q⁻¹`; it agrees with `Quat.rot` for unit quaternions. -/
def conj (q : Quat K) (v : V3 K) : V3 K :=
  (q.w * q.w - (q.x * q.x + q.y * q.y + q.z * q.z)) • v +
    ((2 * (q.x * v.x + q.y * v.y + q.z * v.z)) • q.vec + (2 * q.w) • V3.cross q.vec v)

theorem rot_eq_conj (q : Quat K) (hq : q.x * q.x + q.y * q.y + q.z * q.z + q.w * q.w = 1) (v : V3 K) :
    q.rot v = conj q v := by
  ext <;> simp [Quat.rot, Quat.vec, V3.cross, conj]
  · linear_combination -v.x * hq
  · linear_combination -v.y * hq
  · linear_combination -v.z * hq

theorem unit_mul (q r : Quat K) (hq : q.x * q.x + q.y * q.y + q.z * q.z + q.w * q.w = 1)
    (hr : r.x * r.x + r.y * r.y + r.z * r.z + r.w * r.w = 1) :
    (q.mul r).x * (q.mul r).x + (q.mul r).y * (q.mul r).y + (q.mul r).z * (q.mul r).z +
      (q.mul r).w * (q.mul r).w = 1 := by
  simp only [Quat.mul]
  linear_combination (q.x * q.x + q.y * q.y + q.z * q.z + q.w * q.w) * hr + hq

theorem rot_mul (q r : Quat K) (hq : q.x * q.x + q.y * q.y + q.z * q.z + q.w * q.w = 1)
    (hr : r.x * r.x + r.y * r.y + r.z * r.z + r.w * r.w = 1) (v : V3 K) :
    (Quat.mul q r).rot v = q.rot (r.rot v) := by
  rw [rot_eq_conj _ (unit_mul q r hq hr), rot_eq_conj q hq, rot_eq_conj r hr]
  ext <;> simp [conj, Quat.mul, Quat.vec, V3.cross] <;> ring

theorem rot_add (q : Quat K) (u v : V3 K) : q.rot (u + v) = q.rot u + q.rot v := by
  ext <;> simp [Quat.rot, Quat.vec, V3.cross] <;> ring

/-- If the product applies the old rotation first, then each point of the object is turned about
the pivot; in particular the local point which lies on the pivot stays there. -/
theorem C68_turns_points_partial (mulAssign : Quat K → Quat K → Quat K) (m : Mat K) (t : T3 K) (r : Quat K)
    (c : V3 K) (hmul : ∀ v, (mulAssign t.rotation r).rot v = r.rot (t.rotation.rot v))
    (hm : Moves m ⟨t.position, t.rotation, t.scale⟩) :
    ∀ v, apply (t.turn mulAssign r c).getMatrix.matrix v = c + r.rot (apply m v - c) := by
  intro v
  have h := (inv_getMatrix (t := t.turn mulAssign r c)
    (a := ⟨c + r.rot (t.position - c), mulAssign t.rotation r, t.scale⟩)
    ⟨(C68_position_partial mulAssign t r c).1, rfl, rfl, fun hc => by cases hc⟩)
  rw [h.1.2.2.2 h.2 v, hm v]
  simp only [hmul]
  rw [show ∀ x : V3 K, t.position + x - c = (t.position - c) + x from fun x => by ext <;> simp <;> ring,
    rot_add]
  ext <;> simp <;> ring

/-- With the product `r q` for `q *= r` the assumption above holds for unit quaternions. -/
theorem C68_product_partial (t : T3 K) (r : Quat K) (c : V3 K)
    (hq : t.rotation.x * t.rotation.x + t.rotation.y * t.rotation.y + t.rotation.z * t.rotation.z +
      t.rotation.w * t.rotation.w = 1)
    (hr : r.x * r.x + r.y * r.y + r.z * r.z + r.w * r.w = 1) :
    ∀ v, apply (t.turn (fun q r => Quat.mul r q) r c).getMatrix.matrix v = c + r.rot (apply
      (scaleMatrix (quaternionToMatrix (setPosition t.matrix t.position) t.rotation) t.scale) v - c) :=
  C68_turns_points_partial _ _ t r c (fun v => rot_mul r t.rotation hr hq v)
    (moves_computed t.matrix t.position t.rotation t.scale)

/-- With the Hamilton product `q r` for `q *= r` the claim about the local pivot fails: the object
is turned about z already, the turn is about x, the local point (-1, 0, 0) lies on the pivot before
and not after. -/
theorem C68_hamilton_refuted : ∃ (t : T3 ℚ) (r : Quat ℚ) (c v : V3 ℚ),
    r.x * r.x + r.y * r.y + r.z * r.z + r.w * r.w = 1 ∧
    apply t.getMatrix.matrix v = c ∧ apply (t.turn Quat.mul r c).getMatrix.matrix v ≠ c := by
  refine ⟨⟨0, ⟨0, 0, 3/5, 4/5⟩, ⟨1, 1, 1⟩, fun _ _ => 0, true⟩, ⟨3/5, 0, 0, 4/5⟩, ⟨7/25, 24/25, 0⟩, ⟨1, 0, 0⟩,
    ?_, ?_, ?_⟩
  · norm_num
  · ext <;> norm_num [apply, T3.getMatrix, scaleMatrix, quaternionToMatrix, setPosition]
  · intro h
    have := congrArg V3.z h
    norm_num [apply, T3.getMatrix, T3.turn, scaleMatrix, quaternionToMatrix, setPosition, Quat.rot, Quat.vec, V3.cross,
      Quat.mul] at this

/-- A unit rotation which is not the identity, and a position off the pivot. -/
example : let r : Quat ℚ := ⟨0, 0, 3/5, 4/5⟩;
    r.x * r.x + r.y * r.y + r.z * r.z + r.w * r.w = 1 ∧
    ((T3.new (fun _ _ => 0)).turn Quat.mul r ⟨1, 0, 0⟩).position = ⟨18/25, -24/25, 0⟩ := by
  refine ⟨by norm_num, ?_⟩
  ext <;> norm_num [T3.turn, T3.new, Quat.rot, Quat.vec, V3.cross]

/-! ## C69: Transform2::Turn -/

/-- The claim fails: turning by the angle 0 moves the position, and it does so for each position
which is not above or below the pivot. -/
theorem C69_identity_refuted (t : T2) (c : V2 ℝ) : (t.turn 0 c).position = t.position ↔ t.position.x = c.x := by
  constructor
  · intro h
    have := congrArg V2.x h
    simp [T2.turn] at this
    linarith
  · intro h
    ext <;> simp [T2.turn, h]

/-- The distance to the pivot is not kept: a quarter turn keeps it only for positions on the
horizontal line through the pivot. -/
theorem C69_distance_refuted (t : T2) (c : V2 ℝ) :
    ((t.turn (Real.pi / 2) c).position - c).lenSq = (t.position - c).lenSq ↔ t.position.y = c.y := by
  simp only [T2.turn, Real.sin_pi_div_two, Real.cos_pi_div_two, V2.lenSq, V2.dot, V2.sub_x, V2.sub_y, V2.add_x, V2.add_y]
  constructor
  · intro h
    have : (t.position.y - c.y) * (t.position.y - c.y) = 0 := by linear_combination -h
    have := mul_self_eq_zero.1 this
    linarith
  · intro h
    rw [h]; ring

/-- For the rotation about the pivot the code is right only at the pivot itself, for all angles. -/
theorem C69_refuted (t : T2) (c : V2 ℝ) :
    (∀ θ, (t.turn θ c).position = rotateAbout t.position θ c) ↔ t.position = c := by
  constructor
  · intro h
    have h0 := congrArg V2.x (h 0)
    have h1 := congrArg V2.y (h (Real.pi / 2))
    have h2 := congrArg V2.x (h (Real.pi / 2))
    simp [T2.turn, rotateAbout] at h0 h1 h2
    ext <;> linarith
  · rintro h θ
    ext <;> simp [T2.turn, rotateAbout, h]

/-- What holds: the pivot itself stays, the angle is added to the rotation, the scale stays, and
the distance to the pivot never grows. -/
theorem C69_partial (t : T2) (θ : ℝ) (c : V2 ℝ) :
    (t.position = c → (t.turn θ c).position = c) ∧ (t.turn θ c).rotation = t.rotation + θ ∧
    (t.turn θ c).scale = t.scale ∧
    ((t.turn θ c).position - c).lenSq ≤ (t.position - c).lenSq := by
  refine ⟨fun h => ?_, rfl, rfl, ?_⟩
  · ext <;> simp [T2.turn, h]
  · simp only [T2.turn, V2.lenSq, V2.dot, V2.sub_x, V2.sub_y, V2.add_x, V2.add_y]
    have hs := Real.sin_sq_add_cos_sq θ
    nlinarith [sq_nonneg ((t.position.x - c.x) * Real.cos θ), sq_nonneg ((t.position.y - c.y) * Real.sin θ)]

/-- A transform off the pivot in both coordinates. -/
example : let t := (T2.new (fun _ _ => 0)).setPosition ⟨3, 4⟩;
    (t.turn 0 ⟨1, 1⟩).position = ⟨1, 4⟩ ∧ rotateAbout t.position 0 ⟨1, 1⟩ = ⟨3, 4⟩ := by
  refine ⟨?_, ?_⟩ <;> ext <;> simp [T2.turn, T2.new, T2.setPosition, rotateAbout]

/-! The theorems for a rotation which is not the identity. -/

example := C68_distance_partial Quat.mul ((T3.new (fun _ _ => 0)).setPosition ⟨3, 4, 5⟩) (⟨0, 0, 3 / 5, 4 / 5⟩ : Quat ℚ) ⟨1, 0, 0⟩ (by norm_num)
example := C68_product_partial ((T3.new (fun _ _ => 0)).setPosition ⟨3, 4, 5⟩) (⟨0, 0, 3 / 5, 4 / 5⟩ : Quat ℚ) ⟨1, 0, 0⟩
  (by norm_num [T3.new, T3.setPosition, Quat.one]) (by norm_num)

end Geom.Transform.Props
