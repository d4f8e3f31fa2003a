import Verif.Model.ConvexHull
import Verif.Spec.ConvexHull
import Verif.Spec.AABB
import Verif.Props.Plane
import Verif.Props.PlaneIntersect
import Verif.Props.AABB

/-
  C30, C31: convex hulls and frustums; C87: corners of frustums.
-/
set_option autoImplicit false
set_option linter.unusedSectionVars false

namespace Geom.Hull
open Spec
open Plane (Eqn Pl)
open Plane.Props (sgnDistance_eq)
open Plane.Spec (side UnitN On)
open Sphere (Sphere)

section order
variable {K : Type} [Field K] [LinearOrder K] [IsStrictOrderedRing K]

theorem front_iff (eq : Eqn) (p : Pl K) (x : V3 K) : Plane.isFrontFacing eq p x = true ↔ 0 < side eq p x := by
  rw [← sgnDistance_eq]
  simp [Plane.isFrontFacing, Plane.sgnDistance]

/-- C30: a point is inside exactly if it is in front of no plane. -/
theorem C30_point (eq : Eqn) (l : List (Pl K)) (x : V3 K) : isPointInside eq l x = true ↔ Inside eq l x := by
  induction l with
  | nil => simp [isPointInside, Inside]
  | cons p l ih =>
    simp only [isPointInside, Inside, List.mem_cons, forall_eq_or_imp] at *
    by_cases h : Plane.isFrontFacing eq p x = true
    · rw [if_pos h]
      simp [not_le.2 ((front_iff eq p x).1 h)]
    · rw [if_neg h, ih]
      simp [not_lt.1 fun hh => h ((front_iff eq p x).2 hh)]

/-- C30: order and repetition of planes are irrelevant, and more planes give a smaller hull. -/
theorem C30_mono (eq : Eqn) (l l' : List (Pl K)) (h : ∀ p ∈ l, p ∈ l') (x : V3 K) (hx : isPointInside eq l' x = true) :
    isPointInside eq l x = true := by
  rw [C30_point] at *
  exact fun p hp => hx p (h p hp)

example : isPointInside .nxEqD [(⟨⟨1, 0, 0⟩, 0⟩ : Pl ℚ)] ⟨-1, -2, 3⟩ = true :=
  C30_mono _ _ [⟨⟨1, 0, 0⟩, 0⟩, ⟨⟨0, 1, 0⟩, 0⟩] (by simp) _ (by decide +kernel)

/-- C30: the hull is convex. -/
theorem C30_convex (eq : Eqn) (l : List (Pl K)) (x y : V3 K) (s t : K) (hs : 0 ≤ s) (ht : 0 ≤ t) (hst : s + t = 1)
    (hx : isPointInside eq l x = true) (hy : isPointInside eq l y = true) :
    isPointInside eq l (s • x + t • y) = true := by
  rw [C30_point] at *
  intro p hp
  have : side eq p (s • x + t • y) = s * side eq p x + t * side eq p y := by
    cases eq
    · simp [side]; linear_combination p.distance * hst
    · simp [side]; linear_combination (-p.distance) * hst
  rw [this]
  have h1 := mul_nonneg hs (neg_nonneg.2 (hx p hp))
  have h2 := mul_nonneg ht (neg_nonneg.2 (hy p hp))
  linarith

example := C30_convex .nxEqD [(⟨⟨1, 0, 0⟩, 0⟩ : Pl ℚ), ⟨⟨0, 1, 0⟩, 0⟩] ⟨-1, -2, 3⟩ ⟨-5, 0, 7⟩ (1 / 3) (2 / 3) (by norm_num) (by norm_num) (by norm_num)
  (by decide +kernel) (by decide +kernel)

/-- C30: a sphere counts as inside exactly if its centre is in front of no plane by more than its radius. -/
theorem C30_sphere (eq : Eqn) (l : List (Pl K)) (s : Sphere K) :
    isSphereInside eq l s = true ↔ ∀ p ∈ l, side eq p s.origin ≤ s.radius := by
  induction l with
  | nil => simp [isSphereInside]
  | cons p l ih =>
    simp only [isSphereInside, List.mem_cons, forall_eq_or_imp, sgnDistance_eq, gt_iff_lt]
    by_cases h : s.radius < side eq p s.origin
    · rw [if_pos h]
      simp [not_le.2 h]
    · rw [if_neg h, ih]
      simp [not_lt.1 h]

end order

theorem cauchy (a b c x y z : ℝ) :
    (a * x + b * y + c * z) ^ 2 ≤ (a * a + b * b + c * c) * (x ^ 2 + y ^ 2 + z ^ 2) := by
  nlinarith [sq_nonneg (a * y - b * x), sq_nonneg (a * z - c * x), sq_nonneg (b * z - c * y)]

theorem side_diff (eq : Eqn) (p : Pl ℝ) (x y : V3 ℝ) : side eq p x - side eq p y = V3.dot p.normal (x - y) := by
  cases eq <;> simp [side, V3.dot] <;> ring

/-- C30: for planes with unit normals a sphere counts as inside exactly if each half space contains a point of
the ball, as documented ("or just intersecting one of its planes"). -/
theorem C30_sphere_touch (eq : Eqn) (l : List (Pl ℝ)) (hl : ∀ p ∈ l, UnitN p) (s : Sphere ℝ) (hr : 0 ≤ s.radius) :
    isSphereInside eq l s = true ↔ ∀ p ∈ l, ∃ x, InBall s x ∧ side eq p x ≤ 0 := by
  rw [C30_sphere]
  refine forall₂_congr fun p hp => ?_
  have hu : p.normal.x * p.normal.x + p.normal.y * p.normal.y + p.normal.z * p.normal.z = 1 := hl p hp
  constructor
  · intro h
    refine ⟨s.origin - s.radius • p.normal, ?_, ?_⟩
    · simp only [InBall, V3.sub_x, V3.sub_y, V3.sub_z, V3.smul_x, V3.smul_y, V3.smul_z]
      exact le_of_eq (by linear_combination s.radius ^ 2 * hu)
    · have := side_diff eq p (s.origin - s.radius • p.normal) s.origin
      have h2 : V3.dot p.normal (s.origin - s.radius • p.normal - s.origin) = -s.radius := by
        simp only [V3.dot, V3.sub_x, V3.sub_y, V3.sub_z, V3.smul_x, V3.smul_y, V3.smul_z]
        linear_combination (-s.radius) * hu
      linarith
  · rintro ⟨x, hx, h⟩
    by_contra hcon
    push Not at hcon
    have h1 := side_diff eq p s.origin x
    have h2 : s.radius < V3.dot p.normal (s.origin - x) := by linarith
    simp only [V3.dot, V3.sub_x, V3.sub_y, V3.sub_z] at h2
    unfold InBall at hx
    have h3 : s.radius ^ 2 < (p.normal.x * (s.origin.x - x.x) + p.normal.y * (s.origin.y - x.y) + p.normal.z * (s.origin.z - x.z)) ^ 2 := by
      nlinarith
    have h4 := cauchy p.normal.x p.normal.y p.normal.z (s.origin.x - x.x) (s.origin.y - x.y) (s.origin.z - x.z)
    rw [hu, one_mul] at h4
    nlinarith

example := C30_sphere_touch .nxEqD [(⟨⟨1, 0, 0⟩, 0⟩ : Pl ℝ), ⟨⟨3 / 5, 4 / 5, 0⟩, 0⟩] (by simp [UnitN]; norm_num) ⟨⟨1, -2, 3⟩, 1⟩ (by norm_num)

/-- C30: no sphere which meets the hull is rejected. -/
theorem C30_sphere_complete (eq : Eqn) (l : List (Pl ℝ)) (hl : ∀ p ∈ l, UnitN p) (s : Sphere ℝ) (hr : 0 ≤ s.radius)
    (x : V3 ℝ) (hx : InBall s x) (hi : Inside eq l x) : isSphereInside eq l s = true :=
  (C30_sphere_touch eq l hl s hr).2 fun p hp => ⟨x, hx, hi p hp⟩

example : isSphereInside .nxEqD [(⟨⟨1, 0, 0⟩, 0⟩ : Pl ℝ), ⟨⟨3 / 5, 4 / 5, 0⟩, 0⟩] ⟨⟨1, -2, 3⟩, 1⟩ = true :=
  C30_sphere_complete _ _ (by simp [UnitN]; norm_num) _ (by norm_num) ⟨0, -2, 3⟩ (by norm_num [InBall]) (by norm_num [Inside, side, V3.dot])

/-- C30: a sphere near a corner of the hull counts as inside although it has no point in common with the hull. -/
theorem C30_sphere_refuted : ∃ (l : List (Pl ℝ)) (s : Sphere ℝ), (∀ p ∈ l, UnitN p) ∧ 0 < s.radius ∧
    isSphereInside .nxEqD l s = true ∧ ∀ x, InBall s x → ¬ Inside .nxEqD l x := by
  refine ⟨[⟨⟨1, 0, 0⟩, 0⟩, ⟨⟨0, 1, 0⟩, 0⟩], ⟨⟨9, 9, 0⟩, 10⟩, ?_, by norm_num, ?_, ?_⟩
  · simp [UnitN]
  · rw [C30_sphere]; simp [side]; norm_num
  · intro x hx h
    have h1 := h _ (List.mem_cons_self ..)
    have h2 := h _ (List.mem_cons_of_mem _ (List.mem_cons_self ..))
    simp [side] at h1 h2
    simp only [InBall] at hx
    nlinarith [sq_nonneg (x.z - 0)]

/-- A corner of space, a point in it, and a sphere which touches it. -/
example : isPointInside .nxEqD [(⟨⟨1, 0, 0⟩, 0⟩ : Pl ℚ), ⟨⟨0, 1, 0⟩, 0⟩] ⟨-1, -2, 3⟩ = true ∧
    isPointInside .nxEqD [(⟨⟨1, 0, 0⟩, 0⟩ : Pl ℚ), ⟨⟨0, 1, 0⟩, 0⟩] ⟨-1, 2, 3⟩ = false ∧
    isSphereInside .nxEqD [(⟨⟨1, 0, 0⟩, 0⟩ : Pl ℚ), ⟨⟨0, 1, 0⟩, 0⟩] ⟨⟨1, -2, 3⟩, 1⟩ = true := by decide +kernel
example : ∀ p ∈ [(⟨⟨1, 0, 0⟩, 0⟩ : Pl ℝ), ⟨⟨3/5, 4/5, 0⟩, 0⟩], UnitN p := by simp [UnitN]; norm_num

/-! C31. -/

/-- Normalizing a plane does not change which points are in front of it. -/
theorem normalize_front (eq : Eqn) (p : Pl ℝ) (x : V3 ℝ) : 0 < side eq (Plane.normalize p) x ↔ 0 < side eq p x := by
  by_cases h : p.normal = 0
  · rw [Plane.Props.C78_normalize_zero p h]
  · have := (Plane.Props.C78_normalize eq p h).2.2 x
    rwa [sgnDistance_eq, sgnDistance_eq] at this

theorem side_ofCoeffs (eq : Eqn) (a b c d : ℝ) (x : V3 ℝ) :
    side eq (Plane.ofCoeffs eq a b c d) x = a * x.x + b * x.y + c * x.z - d := by
  cases eq <;> simp [side, Plane.ofCoeffs, Eqn.distanceSign]; ring

/-- C31: what the planes of the frustum enclose, for each matrix: the points p for which the clip inequalities hold for
the homogeneous coordinates (p, -1). The sign of the fourth coordinate is wrong, since the constructor
of the plane expects the right hand side of the equation. -/
theorem C31_actual_partial (eq : Eqn) (m : Fin 4 → Fin 4 → ℝ) (x : V3 ℝ) :
    isPointInside eq (setFromMatrix eq m) x = true ↔ InVolume (clip m x (-1)) := by
  rw [C30_point]
  have : Inside eq (setFromMatrix eq m) x ↔ Inside eq (rawPlanes eq m) x := by
    simp only [Inside, setFromMatrix, normalize, List.mem_map, forall_exists_index, and_imp, forall_apply_eq_imp_iff₂]
    refine forall₂_congr fun p _ => ?_
    rw [← not_lt, ← not_lt, normalize_front]
  rw [this]
  simp only [Inside, rawPlanes, List.mem_cons, List.not_mem_nil, or_false, forall_eq_or_imp, forall_eq, side_ofCoeffs,
    InVolume, clip]
  constructor
  · rintro ⟨h1, h2, h3, h4, h5, h6⟩
    refine ⟨?_, ?_, ?_, ?_, ?_, ?_⟩ <;> linarith
  · rintro ⟨h1, h2, h3, h4, h5, h6⟩
    refine ⟨?_, ?_, ?_, ?_, ?_, ?_⟩ <;> linarith

/-- C31 holds for matrices without fourth column. -/
theorem C31_partial (eq : Eqn) (m : Fin 4 → Fin 4 → ℝ) (h : ∀ i, m i 3 = 0) (x : V3 ℝ) :
    isPointInside eq (setFromMatrix eq m) x = true ↔ InVolume (clip m x 1) := by
  rw [C31_actual_partial]
  have : clip m x (-1) = clip m x 1 := by funext i; simp [clip, h i]
  rw [this]

example (x : V3 ℝ) := C31_partial .nxEqD (fun i j => if i = j ∧ i ≠ 3 then 1 else 0) (by intro i; fin_cases i <;> simp) x

/-- The identity matrix. -/
def one4 : Fin 4 → Fin 4 → ℝ := fun i j => if i = j then 1 else 0

/-- C31 is violated: for the identity matrix the clip volume contains the origin, but the planes enclose no point. -/
theorem C31_refuted (eq : Eqn) : InVolume (clip one4 0 1) ∧ ∀ x, isPointInside eq (setFromMatrix eq one4) x = false := by
  constructor
  · simp [InVolume, clip, one4]
  · intro x
    rw [Bool.eq_false_iff, Ne, C31_actual_partial]
    simp only [InVolume, clip, one4]
    simp
    intro h1 h2
    linarith

example : ∀ i, (fun i j => if i = j ∧ i ≠ 3 then 1 else 0 : Fin 4 → Fin 4 → ℝ) i 3 = 0 := by
  intro i; fin_cases i <;> simp

/-! C87. -/

section corners
variable {K : Type} [Field K] [LinearOrder K] [IsStrictOrderedRing K]

/-- C87: if the planes of a corner have exactly one common point `x`, the result is `x` if it lies in the direction of
the intersection line as seen from the origin, and the origin otherwise. -/
theorem C87_corner (nz : Bool) (eq : Eqn) (a b c : Pl K) (e : K) (he : 0 ≤ e) (h2 : e < (V3.cross a.normal b.normal).lenSq)
    (h3 : Plane.Spec.det a.normal b.normal c.normal ≠ 0) :
    ∃ x, (∀ y, (On eq a y ∧ On eq b y ∧ On eq c y) ↔ y = x) ∧
      corner nz eq e a b c = some (if 0 ≤ V3.dot x (V3.cross a.normal b.normal) then x else 0) := by
  obtain ⟨x, h, h'⟩ := Plane.Props.C15_complete_partial nz eq a b c e he h2 h3
  refine ⟨x, h, ?_⟩
  unfold corner
  rw [h']
  split_ifs <;> rfl

/-- C87: each of the four results is, for planes with exactly one common point, this point of the far plane and of the two planes
that the name says, or the origin if the point does not lie in the direction of the intersection line. -/
theorem C87_corners (nz : Bool) (eq : Eqn) (f : Frustum K) (e : K) (he : 0 ≤ e) :
    let Corner := fun (r : Option (V3 K)) (a b : Pl K) => e < (V3.cross f.far.normal a.normal).lenSq →
      Plane.Spec.det f.far.normal a.normal b.normal ≠ 0 → ∃ x, r = some x ∧
      ((On eq f.far x ∧ On eq a x ∧ On eq b x ∧ 0 ≤ V3.dot x (V3.cross f.far.normal a.normal)) ∨
        (x = 0 ∧ ∃ y, On eq f.far y ∧ On eq a y ∧ On eq b y ∧ V3.dot y (V3.cross f.far.normal a.normal) < 0))
    Corner (leftTop nz eq e f) f.top f.left ∧ Corner (leftBottom nz eq e f) f.bottom f.left ∧
    Corner (rightTop nz eq e f) f.top f.right ∧ Corner (rightBottom nz eq e f) f.bottom f.right := by
  intro Corner
  have key : ∀ a b : Pl K, Corner (corner nz eq e f.far a b) a b := by
    intro a b h2 h3
    obtain ⟨x, hx, h⟩ := C87_corner nz eq f.far a b e he h2 h3
    obtain ⟨p, q, s⟩ := (hx x).2 rfl
    by_cases hd : 0 ≤ V3.dot x (V3.cross f.far.normal a.normal)
    · exact ⟨x, by rw [h, if_pos hd], .inl ⟨p, q, s, hd⟩⟩
    · exact ⟨0, by rw [h, if_neg hd], .inr ⟨rfl, x, p, q, s, not_le.1 hd⟩⟩
  exact ⟨key _ _, key _ _, key _ _, key _ _⟩

/-- C87 is violated: if the origin lies between the left and the right corner (with respect to the line on which
both are), then one of `LeftTop` and `RightTop` is not a corner but the origin. The same holds at the bottom. -/
theorem C87_refuted (nz : Bool) (eq : Eqn) (f : Frustum K) (e : K) (he : 0 ≤ e) (lt rt : V3 K)
    (h2 : e < (V3.cross f.far.normal f.top.normal).lenSq)
    (hl : Plane.Spec.det f.far.normal f.top.normal f.left.normal ≠ 0)
    (hr : Plane.Spec.det f.far.normal f.top.normal f.right.normal ≠ 0)
    (l1 : On eq f.far lt ∧ On eq f.top lt ∧ On eq f.left lt) (r1 : On eq f.far rt ∧ On eq f.top rt ∧ On eq f.right rt)
    (hb : V3.dot lt (V3.cross f.far.normal f.top.normal) * V3.dot rt (V3.cross f.far.normal f.top.normal) < 0) :
    (leftTop nz eq e f = some lt ∧ rightTop nz eq e f = some 0) ∨
    (leftTop nz eq e f = some 0 ∧ rightTop nz eq e f = some rt) := by
  obtain ⟨x, hx, hx'⟩ := C87_corner nz eq f.far f.top f.left e he h2 hl
  obtain ⟨y, hy, hy'⟩ := C87_corner nz eq f.far f.top f.right e he h2 hr
  obtain rfl := (hx lt).1 l1
  obtain rfl := (hy rt).1 r1
  simp only [leftTop, rightTop, hx', hy', Option.some.injEq]
  rcases mul_neg_iff.1 hb with ⟨h, h'⟩ | ⟨h, h'⟩
  · exact .inl ⟨if_pos h.le, if_neg (not_le.2 h')⟩
  · exact .inr ⟨if_neg (not_le.2 h), if_pos h'.le⟩

/-- C87: `GetBoundingBox` is the tightest box around the given origin and the four results. -/
theorem C87_box (nz : Bool) (eq : Eqn) (f : Frustum K) (e : K) (origin : V3 K) (b : AABB.Box 3 K)
    (h : getBoundingBox nz eq e f origin = some b) :
    ∃ lt lb rt rb, leftTop nz eq e f = some lt ∧ leftBottom nz eq e f = some lb ∧ rightTop nz eq e f = some rt ∧
      rightBottom nz eq e f = some rb ∧
      AABB.IsHull {p | p ∈ [TMesh.coords origin, TMesh.coords lt, TMesh.coords lb, TMesh.coords rt, TMesh.coords rb]} b := by
  unfold getBoundingBox at h
  dsimp only at h
  split at h
  · rename_i lt lb rt rb h1 h2 h3 h4
    refine ⟨lt, lb, rt, rb, h1, h2, h3, h4, ?_⟩
    injection h with h
    subst h
    exact AABB.Props.C01_hull_resetTo (TMesh.coords origin) [TMesh.coords lt, TMesh.coords lb, TMesh.coords rt, TMesh.coords rb]
  · cases h

/-- The pyramid with tip at the origin whose far plane is z = 1, and left, right, top and bottom at 45 degrees: the two
right corners are the origin instead of (1, 1, 1) and (1, -1, 1). -/
def pyramid : Frustum ℚ :=
  ⟨⟨⟨0, 0, -1⟩, 0⟩, ⟨⟨-1, 0, -1⟩, 0⟩, ⟨⟨1, 0, -1⟩, 0⟩, ⟨⟨0, 1, -1⟩, 0⟩, ⟨⟨0, -1, -1⟩, 0⟩, ⟨⟨0, 0, 1⟩, 1⟩⟩

example : leftTop false .nxEqD (1 / 1000) pyramid = some ⟨-1, 1, 1⟩ ∧ rightTop false .nxEqD (1 / 1000) pyramid = some 0 ∧
    leftBottom false .nxEqD (1 / 1000) pyramid = some 0 ∧ rightBottom false .nxEqD (1 / 1000) pyramid = some ⟨1, -1, 1⟩ := by
  decide +kernel
example : V3.dot ⟨-1, 1, 1⟩ (V3.cross pyramid.far.normal pyramid.top.normal) *
    V3.dot ⟨1, 1, 1⟩ (V3.cross pyramid.far.normal pyramid.top.normal) < 0 ∧
    Plane.Spec.det pyramid.far.normal pyramid.top.normal pyramid.left.normal ≠ 0 := by decide +kernel
example : getBoundingBox false .nxEqD (1 / 1000) pyramid 0 ≠ none := by decide +kernel

end corners

example := C87_corner false .nxEqD pyramid.far pyramid.top pyramid.left (1 / 1000) (by norm_num) (by decide +kernel) (by decide +kernel)
example := C87_corners false .nxEqD pyramid (1 / 1000) (by norm_num)
example := C87_refuted false .nxEqD pyramid (1 / 1000) (by norm_num) ⟨-1, 1, 1⟩ ⟨1, 1, 1⟩ (by decide +kernel) (by decide +kernel) (by decide +kernel)
  (by norm_num [On, side, pyramid, V3.dot]) (by norm_num [On, side, pyramid, V3.dot]) (by decide +kernel)

end Geom.Hull
