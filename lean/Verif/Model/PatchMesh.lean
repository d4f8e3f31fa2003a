import Verif.Model.Gen
import Verif.Model.Bezier
import Verif.Base.Dot

/-
  Model of sources/MeshGeneratorBezierPatch.cpp together with the patch it evaluates, include/Geom/BezierPatch.h.
  (`genBezierPatch` of Model/Gen is the same function for an arbitrary surface.)
-/
set_option autoImplicit false

namespace Geom.Gen
open TMesh (Mesh)

/-- include/Geom/MeshGenerator.h 299-316, `BezierPatchDescriptor`. -/
structure BezierPatchDesc where
  bezierPatch : Bezier.Patch (V3 ℝ)
  segsX : ℕ
  segsY : ℕ
  alternateGrid : Bool
  backFacing : Bool

/-- sources/MeshGeneratorBezierPatch.cpp 36-66: the vertices. Each evaluation of the patch (BezierPatch.h 39-65) can be undefined. -/
noncomputable def bezierVerts (d : BezierPatchDesc) (segsHorz segsVert : ℕ) (m : Mesh ℝ) : Res (Mesh ℝ) :=
  let invHorz : ℝ := 1 / segsHorz
  let invVert : ℝ := 1 / segsVert
  let delta : ℝ := 1 / 100
  forLe 0 segsVert (fun i m => forLe 0 segsHorz (fun j m =>
    let tx := j * invHorz
    let ty := i * invVert
    (d.bezierPatch.eval tx ty).bind fun coord =>
    (d.bezierPatch.eval (tx + delta) ty).bind fun pu =>
    (d.bezierPatch.eval tx (ty + delta)).bind fun pv =>
    let normal := Plane.normalizeVec (V3.cross (pu - coord) (pv - coord))
    .ok (if d.backFacing then add m coord normal tx ty else add m coord (-normal) tx (1 - ty))) m) m

/-- sources/MeshGeneratorBezierPatch.cpp 18-84, `GenerateBezierPatch`. -/
noncomputable def genPatchMesh (d : BezierPatchDesc) (m : Mesh ℝ) : Res (Mesh ℝ) :=
  let idxOffset := m.vertices.length
  let segsHorz := max 1 d.segsX
  let segsVert := max 1 d.segsY
  (bezierVerts d segsHorz segsVert m).bind fun m =>
  faceTris d.backFacing d.alternateGrid segsHorz segsVert idxOffset m

end Geom.Gen
