import Verif.Props.ClipMesh
import Verif.Spec.ClipVolume

/-
  C97: the volume of clipped meshes.
-/
set_option autoImplicit false
set_option linter.unusedSectionVars false

namespace Geom.TMesh
open Spec
open Plane (Eqn Pl)
open Plane.Spec (side)
open Clip.Spec (area)

variable {K : Type} [Field K] [LinearOrder K] [IsStrictOrderedRing K]

theorem tetra_area (o p q r : V3 K) : tetra o p q r = V3.dot (p - o) (area p q r) := by
  simp only [tetra, area]; vec_simp; ring

/-- All points of a triangle are on the same height over the vector area. -/
theorem inTri_height (a b c o x : V3 K) (h : Triangle.Spec.InTri ⟨a, b, c⟩ x) : V3.dot (x - o) (area a b c) = V3.dot (a - o) (area a b c) := by
  obtain ⟨u, v, w, -, -, -, h1, rfl⟩ := h
  obtain rfl : u = 1 - v - w := by linear_combination h1
  simp only [area]; vec_simp; ring

theorem dot_smul (a b : V3 K) (k : K) : V3.dot a (k • b) = k * V3.dot a b := by vec_simp; ring

theorem dot_add (a b c : V3 K) : V3.dot a (b + c) = V3.dot a b + V3.dot a c := by vec_simp; ring

theorem dot_zero (a : V3 K) : V3.dot a 0 = 0 := by vec_simp; ring

theorem volume_part (m f : Mesh K) (t : Ix) (o : V3 K) (ts : List Ix)
    (h : ∀ x ∈ ts, InsideOf m f t x ∧ ∃ l : K, 0 ≤ l ∧ triArea f x = l • triArea m t) :
    volumeAt o f ts = V3.dot (posAt m t.a - o) ((ts.map (triArea f)).sum) := by
  induction ts with
  | nil => simp [volumeAt, dot_zero]
  | cons x ts ih =>
    obtain ⟨h1, l, -, h2⟩ := h x (List.mem_cons_self ..)
    have := ih fun y hy => h y (List.mem_cons_of_mem _ hy)
    simp only [volumeAt, List.map_cons, List.sum_cons, dot_add] at this ⊢
    rw [this, tetra_area]
    congr 1
    have h3 : area (posAt f x.a) (posAt f x.b) (posAt f x.c) = l • area (posAt m t.a) (posAt m t.b) (posAt m t.c) := h2
    rw [h2, h3, dot_smul, dot_smul]
    congr 1
    exact inTri_height _ _ _ o _ (h1 0)

theorem volume_replaced (m f b : Mesh K) (t : Ix) (tf tb : List Ix) (k : K) (h : Replaces m f b t tf tb k) (o : V3 K) :
    volumeAt o f tf + volumeAt o b tb = k * volumeAt o m [t] := by
  rw [volume_part m f t o tf h.1, volume_part m b t o tb h.2.1, ← dot_add, h.2.2, dot_smul]
  simp only [volumeAt, List.map_cons, List.map_nil, List.sum_cons, List.sum_nil, add_zero, tetra_area]
  rfl

/-- C97: if no corner is nearer to the plane than the tolerance without being on it, the two meshes of `ClipMesh` enclose with any
point together the volume that the mesh encloses with it. `C97_band_needed` shows that the condition is needed. -/
theorem C97_volume (sz : ℕ) (hsz : 0 < sz) (zero : Vertex K) (nz : ℕ → ℕ → Bool) (eq : Eqn) (pl : Pl K) (eps : K) (heps : 0 ≤ eps)
    (m front back : Mesh K) (hm : Valid m) (hex : ∀ t ∈ m.triangles, ExactAt eq pl eps m t) :
    ∃ f b, clipMesh sz zero nz eq pl eps m front back = .ok (f, b) ∧
      ∀ o, volumeAt o f f.triangles + volumeAt o b b.triangles = volumeAt o m m.triangles := by
  obtain ⟨f, b, parts, e, -, -, -, -, h1, h2, h3⟩ := C27_partial sz hsz zero nz eq pl eps heps m front back hm
  refine ⟨f, b, e, fun o => ?_⟩
  rw [h1, h2]
  clear h1 h2 e
  have hap : ∀ (m : Mesh K) (x y : List Ix), volumeAt o m (x ++ y) = volumeAt o m x + volumeAt o m y := fun m x y => by
    simp [volumeAt]
  generalize m.triangles = ts at h3 hex
  induction h3 with
  | nil => simp [volumeAt]
  | @cons t p ts parts h h' ih =>
    obtain ⟨k, -, hk, hr, -⟩ := h
    have := volume_replaced m f b t p.1 p.2 k hr o
    rw [hk (hex t (List.mem_cons_self ..)), one_mul] at this
    have ih := ih fun t ht => hex t (List.mem_cons_of_mem _ ht)
    rw [List.map_cons, List.map_cons, List.flatten_cons, List.flatten_cons, hap, hap, show t :: ts = [t] ++ ts from rfl, hap]
    linear_combination this + ih

/-- Without a tolerance the volume is always kept. -/
theorem C97_exact (sz : ℕ) (hsz : 0 < sz) (zero : Vertex K) (nz : ℕ → ℕ → Bool) (eq : Eqn) (pl : Pl K)
    (m front back : Mesh K) (hm : Valid m) :
    ∃ f b, clipMesh sz zero nz eq pl 0 m front back = .ok (f, b) ∧
      ∀ o, volumeAt o f f.triangles + volumeAt o b b.triangles = volumeAt o m m.triangles :=
  C97_volume sz hsz zero nz eq pl 0 le_rfl m front back hm fun _ _ _ h1 h2 => le_antisymm h2 (by simpa using h1)

/-- A tetrahedron with the corners (0, 0, 0), (1, 0, 0), (0, 1, 0) and (0, 0, 1). -/
def exTetra : Mesh ℚ :=
  ⟨[⟨⟨0, 0, 0⟩, ⟨0, 0, 1⟩, ⟨0, 0⟩⟩, ⟨⟨1, 0, 0⟩, ⟨0, 0, 1⟩, ⟨0, 0⟩⟩, ⟨⟨0, 1, 0⟩, ⟨0, 0, 1⟩, ⟨0, 0⟩⟩, ⟨⟨0, 0, 1⟩, ⟨0, 0, 1⟩, ⟨0, 0⟩⟩],
   [⟨0, 2, 1⟩, ⟨0, 1, 3⟩, ⟨0, 3, 2⟩, ⟨1, 2, 3⟩]⟩

/-- It is cut at x = 1/2 with a tolerance of 1/10: seen from a point of the plane the front mesh has an eighth of the volume. -/
theorem exTetra_exact : Valid exTetra ∧ (∀ t ∈ exTetra.triangles, ExactAt .nxEqD ⟨⟨1, 0, 0⟩, 1 / 2⟩ (1 / 10) exTetra t) ∧
    (clipMesh 4 ⟨0, 0, 0⟩ (fun _ _ => false) .nxEqD ⟨⟨1, 0, 0⟩, 1 / 2⟩ (1 / 10) exTetra Mesh.empty Mesh.empty).map
      (fun r => (volumeAt ⟨1 / 2, 0, 0⟩ r.1 r.1.triangles, volumeAt ⟨1 / 2, 0, 0⟩ r.2 r.2.triangles)) = .ok (1 / 8, 7 / 8) := by
  refine ⟨(valid_iff _).2 (by decide +kernel), ?_, by decide +kernel⟩
  unfold ExactAt
  decide +kernel

example := C97_volume 4 (by norm_num) ⟨0, 0, 0⟩ (fun _ _ => false) _ _ _ (by norm_num) exTetra Mesh.empty Mesh.empty exTetra_exact.1 exTetra_exact.2.1

/-- With a corner in the tolerance the volume is not kept. -/
theorem C97_band_needed : ¬ ∀ (pl : Pl ℚ) (eps : ℚ) (m f b : Mesh ℚ), 0 ≤ eps → Plane.Spec.UnitN pl → Valid m →
    clipMesh 4 ⟨0, 0, 0⟩ (fun _ _ => false) .nxEqD pl eps m Mesh.empty Mesh.empty = .ok (f, b) →
    ∀ o, volumeAt o f f.triangles + volumeAt o b b.triangles = volumeAt o m m.triangles := by
  intro h
  have h' := h ⟨⟨1, 0, 0⟩, 0⟩ (1 / 10) bandMesh
  have e2 : (clipMesh 4 ⟨0, 0, 0⟩ (fun _ _ => false) .nxEqD ⟨⟨1, 0, 0⟩, 0⟩ (1 / 10) bandMesh Mesh.empty Mesh.empty).map
      (fun r => decide (volumeAt ⟨0, 0, 1⟩ r.1 r.1.triangles + volumeAt ⟨0, 0, 1⟩ r.2 r.2.triangles =
        volumeAt ⟨0, 0, 1⟩ bandMesh bandMesh.triangles)) = .ok false := by decide +kernel
  have hv : Valid bandMesh := (valid_iff _).2 (by decide +kernel)
  obtain ⟨f, b, parts, e, -⟩ := C27_partial 4 (by norm_num) (⟨0, 0, 0⟩ : Vertex ℚ) (fun _ _ => false) .nxEqD ⟨⟨1, 0, 0⟩, 0⟩ (1 / 10)
    (by norm_num) bandMesh Mesh.empty Mesh.empty hv
  have := h' f b (by norm_num) (by norm_num [Plane.Spec.UnitN]) hv e ⟨0, 0, 1⟩
  rw [e] at e2
  simp only [Res.map, Res.bind, Res.ok.injEq, decide_eq_false_iff_not] at e2
  exact e2 this

end Geom.TMesh
