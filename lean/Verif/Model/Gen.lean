import Verif.Base.Loop32
import Verif.Model.TriangleMesh

/-
  Model of the mesh generators, sources/MeshGenerator*.cpp.

  Counters and index arithmetic of segments have 32 bits: unsigned arithmetic is reduced modulo 2^32 (one
  reduction of a whole expression, since the reduction respects sums and products). Offsets are `size_t`; they are
  natural numbers here. Scalars are real numbers; the conversion of a counter to `Real` is exact. A loop that does not
  end is `Res.fuel`. Local variables that are overwritten before each use are not part of the state.
  GaussianLib: `Lerp(a, b, t) = a + (b - a) t`, `Clamp`, and the conversion of spherical coordinates
  (radius, theta, phi) to (r cos phi sin theta, r sin phi sin theta, r cos theta) are assumptions.
-/
set_option autoImplicit false

namespace Geom.Gen
open TMesh (Mesh Vertex Ix addVertex addTriangle)

abbrev M := Mesh ℝ

/-- sources/TriangleMesh.cpp 67-72: `mesh.AddVertex(position, normal, texCoord)`, result not used. -/
def add (m : M) (p n : V3 ℝ) (tu tv : ℝ) : M := (addVertex m ⟨p, n, ⟨tu, tv⟩⟩).1

/-- sources/TriangleMesh.cpp 74-78: `mesh.AddTriangle(a, b, c)`, result not used. -/
def tri (m : M) (a b c : ℕ) : M := (addTriangle m ⟨a, b, c⟩).1

/-- sources/MeshGeneratorCylinder.cpp 59 and others (assumed meaning): `Gs::Lerp` of scalars. -/
def lerp (a b t : ℝ) : ℝ := a + (b - a) * t

/-- sources/MeshGeneratorCylinder.cpp 109 and others (assumed meaning): `Gs::Lerp` of vectors. -/
def lerpV (a b : V3 ℝ) (t : ℝ) : V3 ℝ := a + t • (b - a)

/-- sources/MeshGeneratorEllipsoid.cpp 30-47, sources/MeshGeneratorCapsule.cpp 36-93 (assumed meaning): The conversion of `Gs::Spherical(1, theta, phi)` to `Gs::Vector3`. -/
noncomputable def spherical (theta phi : ℝ) : V3 ℝ :=
  ⟨Real.cos phi * Real.sin theta, Real.sin phi * Real.sin theta, Real.cos theta⟩

/-- sources/MeshGeneratorEllipsoid.cpp 47, sources/MeshGeneratorCapsule.cpp 93: `std::swap(coord.y, coord.z)`. -/
def swapYZ (c : V3 ℝ) : V3 ℝ := ⟨c.x, c.z, c.y⟩

/-- sources/MeshGeneratorDetails.cpp 18-56, `AddTriangulatedQuad`. -/
def addQuad (m : M) (alternateGrid : Bool) (u v i0 i1 i2 i3 indexOffset : ℕ) : M :=
  if !alternateGrid || decide (u % 2 = v % 2) then
    tri (tri m (indexOffset + i0) (indexOffset + i1) (indexOffset + i2))
      (indexOffset + i0) (indexOffset + i2) (indexOffset + i3)
  else
    tri (tri m (indexOffset + i0) (indexOffset + i1) (indexOffset + i3))
      (indexOffset + i1) (indexOffset + i2) (indexOffset + i3)

/-! Cuboid. -/

/-- include/Geom/MeshGenerator.h 48-59, `CuboidDescriptor`. -/
structure CuboidDesc where
  size : V3 ℝ
  segsX : ℕ
  segsY : ℕ
  segsZ : ℕ
  alternateGrid : Bool

/-- sources/MeshGeneratorCuboid.cpp 93, 99, 105: The rotation of a vector by `Quaternion::EulerAngles((0, angle, 0))`. The sense of rotation is not known:
`angle` is the angle or its opposite. -/
noncomputable def rotY (angle : ℝ) (v : V3 ℝ) : V3 ℝ :=
  ⟨Real.cos angle * v.x + Real.sin angle * v.z, v.y, Real.cos angle * v.z - Real.sin angle * v.x⟩

/-- sources/MeshGeneratorCuboid.cpp 111, 117: The rotation of a vector by `Quaternion::EulerAngles((angle, 0, 0))`. -/
noncomputable def rotX (angle : ℝ) (v : V3 ℝ) : V3 ℝ :=
  ⟨v.x, Real.cos angle * v.y - Real.sin angle * v.z, Real.sin angle * v.y + Real.cos angle * v.z⟩

/-- sources/MeshGeneratorCuboid.cpp 41-58: the vertices of a face. `sizeOffsetZ` is halved already. -/
noncomputable def faceVerts (rotation : V3 ℝ → V3 ℝ) (sizeHorz sizeVert sizeOffsetZ : ℝ) (segsHorz segsVert : ℕ) (m : M) : Res M :=
  let invHorz : ℝ := 1 / segsHorz
  let invVert : ℝ := 1 / segsVert
  forLe 0 segsVert (fun i m => forLe 0 segsHorz (fun j m =>
    let u := invHorz * j
    let v := invVert * i
    let x := sizeHorz * u - sizeHorz / 2
    let y := sizeVert * v - sizeVert / 2
    .ok (add m (rotation ⟨x, y, sizeOffsetZ⟩) (rotation ⟨0, 0, -1⟩) u (1 - v))) m) m

/-- sources/MeshGeneratorCuboid.cpp 60-75 and sources/MeshGeneratorBezierPatch.cpp 68-83: the triangles of a grid. -/
def faceTris (backFacing alternateGrid : Bool) (segsHorz segsVert idxOffset : ℕ) (m : M) : Res M :=
  forLt 0 segsVert (fun v m => forLt 0 segsHorz (fun u m =>
    let i0 := w32 (v * (segsHorz + 1) + u)
    let i1 := w32 ((v + 1) * (segsHorz + 1) + u)
    let i2 := w32 ((v + 1) * (segsHorz + 1) + u + 1)
    let i3 := w32 (v * (segsHorz + 1) + u + 1)
    .ok (if backFacing then addQuad m alternateGrid u v i1 i0 i3 i2 idxOffset
      else addQuad m alternateGrid u v i0 i1 i2 i3 idxOffset)) m) m

/-- sources/MeshGeneratorCuboid.cpp 19-76, `BuildFace`. -/
noncomputable def buildFace (m : M) (rotation : V3 ℝ → V3 ℝ) (sizeHorz sizeVert sizeOffsetZ : ℝ) (segsHorz segsVert : ℕ)
    (alternateGrid : Bool) : Res M :=
  let idxOffset := m.vertices.length
  (faceVerts rotation sizeHorz sizeVert (sizeOffsetZ / 2) segsHorz segsVert m).bind fun m =>
  faceTris false alternateGrid segsHorz segsVert idxOffset m

/-- sources/MeshGeneratorCuboid.cpp 78-120, `GenerateCuboid`; `sx` and `sy` (1 or -1) are the senses of rotation about
the X and Y axis. -/
noncomputable def genCuboid (sx sy : ℝ) (d : CuboidDesc) (m : M) : Res M :=
  let segsX := max 1 d.segsX
  let segsY := max 1 d.segsY
  let segsZ := max 1 d.segsZ
  (buildFace m id d.size.x d.size.y (-d.size.z) segsX segsY d.alternateGrid).bind fun m =>
  (buildFace m (rotY (sy * Real.pi)) d.size.x d.size.y (-d.size.z) segsX segsY d.alternateGrid).bind fun m =>
  (buildFace m (rotY (sy * -(Real.pi / 2))) d.size.z d.size.y (-d.size.x) segsZ segsY d.alternateGrid).bind fun m =>
  (buildFace m (rotY (sy * (Real.pi / 2))) d.size.z d.size.y (-d.size.x) segsZ segsY d.alternateGrid).bind fun m =>
  (buildFace m (rotX (sx * (Real.pi / 2))) d.size.x d.size.z (-d.size.y) segsX segsZ d.alternateGrid).bind fun m =>
  buildFace m (rotX (sx * -(Real.pi / 2))) d.size.x d.size.z (-d.size.y) segsX segsZ d.alternateGrid

/-! Ellipsoid. -/

/-- include/Geom/MeshGenerator.h 61-75, `EllipsoidDescriptor`. -/
structure EllipsoidDesc where
  radius : V3 ℝ
  segsX : ℕ
  segsY : ℕ
  alternateGrid : Bool

/-- The indices of the quads of a grid with `segsU + 1` vertices in a row: sources/MeshGeneratorEllipsoid.cpp 55-69,
sources/MeshGeneratorTorus.cpp 68-82 (`flip`), sources/MeshGeneratorCapsule.cpp 131-145 and
sources/MeshGeneratorSpiral.cpp 150-164 (`flip`). -/
def gridTris (flip alternateGrid : Bool) (segsU segsV idxBaseOffset : ℕ) (m : M) : Res M :=
  forLt 0 segsV (fun v m => forLt 0 segsU (fun u m =>
    let i0 := w32 (v * (segsU + 1) + u)
    let i1 := w32 (v * (segsU + 1) + (u + 1))
    let i2 := w32 ((v + 1) * (segsU + 1) + (u + 1))
    let i3 := w32 ((v + 1) * (segsU + 1) + u)
    .ok (if flip then addQuad m alternateGrid u v i1 i0 i3 i2 idxBaseOffset
      else addQuad m alternateGrid u v i0 i1 i2 i3 idxBaseOffset)) m) m

/-- sources/MeshGeneratorEllipsoid.cpp 29-52: the vertices. -/
noncomputable def ellipsoidVerts (radius : V3 ℝ) (segsU segsV : ℕ) (m : M) : Res M :=
  let invSegsU : ℝ := 1 / segsU
  let invSegsV : ℝ := 1 / segsV
  forLe 0 segsV (fun v m => 
    let ty := v * invSegsV
    let theta := ty * Real.pi
    forLe 0 segsU (fun u m =>
      let tx := u * invSegsU
      let phi := tx * (Real.pi * 2)
      let coord := swapYZ (spherical theta phi)
      .ok (add m (V3.mulC coord radius) (Plane.normalizeVec coord) tx ty)) m) m

/-- sources/MeshGeneratorEllipsoid.cpp 19-70, `GenerateEllipsoid`. -/
noncomputable def genEllipsoid (d : EllipsoidDesc) (m : M) : Res M :=
  let idxBaseOffset := m.vertices.length
  let segsU := max 3 d.segsX
  let segsV := max 2 d.segsY
  (ellipsoidVerts d.radius segsU segsV m).bind fun m =>
  gridTris false d.alternateGrid segsU segsV idxBaseOffset m

/-! Torus. -/

/-- include/Geom/MeshGenerator.h 190-207, `TorusDescriptor`. -/
structure TorusDesc where
  ringRadius : V2 ℝ
  tubeRadius : V3 ℝ
  segsX : ℕ
  segsY : ℕ
  alternateGrid : Bool

/-- sources/MeshGeneratorTorus.cpp 56-59 and sources/MeshGeneratorSpiral.cpp 85-88: the normal. (A radius of zero gives a
quotient by zero, which is zero here.) -/
noncomputable def tubeNormal (tube : V3 ℝ) (theta phi : ℝ) : V3 ℝ :=
  Plane.normalizeVec ⟨Real.sin phi * Real.sin theta / tube.x, Real.cos theta / tube.y, Real.cos phi * Real.sin theta / tube.z⟩

/-- sources/MeshGeneratorTorus.cpp 28-65: the vertices. -/
noncomputable def torusVerts (ring : V2 ℝ) (tube : V3 ℝ) (segsU segsV : ℕ) (m : M) : Res M :=
  let invSegsU : ℝ := 1 / segsU
  let invSegsV : ℝ := 1 / segsV
  forLe 0 segsV (fun v m =>
    let ty := v * invSegsV
    let theta := ty * (Real.pi * 2)
    let s0 := Real.sin theta
    let c0 := Real.cos theta
    forLe 0 segsU (fun u m =>
      let tx := u * invSegsU
      let phi := tx * (Real.pi * 2)
      let s1 := Real.sin phi
      let c1 := Real.cos phi
      let coord := ⟨s1 * ring.x + s1 * s0 * tube.x, c0 * tube.y, c1 * ring.y + c1 * s0 * tube.z⟩
      .ok (add m coord (tubeNormal tube theta phi) (-tx) ty)) m) m

/-- sources/MeshGeneratorTorus.cpp 18-83, `GenerateTorus`. -/
noncomputable def genTorus (d : TorusDesc) (m : M) : Res M :=
  let idxBaseOffset := m.vertices.length
  let segsU := max 3 d.segsX
  let segsV := max 3 d.segsY
  (torusVerts d.ringRadius d.tubeRadius segsU segsV m).bind fun m =>
  gridTris true d.alternateGrid segsU segsV idxBaseOffset m

/-! Parts of cylinder, cone, pipe, pie and capsule. -/

/-- The vertices of a mantle that begins with the angle `a0`: sources/MeshGeneratorCylinder.cpp 36-65,
sources/MeshGeneratorPipe.cpp 46-75 (`side` is `faceSide[i]`), sources/MeshGeneratorPie.cpp 42-71,
sources/MeshGeneratorCapsule.cpp 40-69. -/
noncomputable def mantleVerts (a0 angleSteps rx rz halfHeight side : ℝ) (segsHorz segsVert : ℕ) (m : M) : Res M :=
  let invHorz : ℝ := 1 / segsHorz
  let invVert : ℝ := 1 / segsVert
  (forLe 0 segsHorz (fun u (s : M × ℝ) =>
    let angle := s.2
    let sn := Real.sin angle
    let cs := Real.cos angle
    let normal := Plane.normalizeVec ⟨sn, 0, cs⟩
    let tx := (segsHorz - u : ℕ) * invHorz
    (forLe 0 segsVert (fun v m =>
      let ty := v * invVert
      .ok (add m ⟨sn * rx, lerp halfHeight (-halfHeight) ty, cs * rz⟩ (side • normal) tx ty)) s.1).bind fun m =>
    .ok (m, angle + angleSteps)) (m, a0)).bind fun s => .ok s.1

/-- The triangles of a mantle: sources/MeshGeneratorCylinder.cpp 121-136, sources/MeshGeneratorPipe.cpp 139-157 (`flip` for
the inner mantle), sources/MeshGeneratorPie.cpp 167-182 and 187-205, sources/MeshGeneratorCapsule.cpp 111-126. -/
def mantleTris (flip alternateGrid : Bool) (segsHorz segsVert idxOffset : ℕ) (m : M) : Res M :=
  (forLt 0 segsHorz (fun u (s : M × ℕ) =>
    (forLt 0 segsVert (fun v m =>
      let i0 := w32 (v + 1 + segsVert)
      let i1 := v
      let i2 := w32 (v + 1)
      let i3 := w32 (v + 2 + segsVert)
      .ok (if flip then addQuad m alternateGrid u v i1 i0 i3 i2 s.2 else addQuad m alternateGrid u v i0 i1 i2 i3 s.2)) s.1).bind fun m =>
    .ok (m, s.2 + w32 (1 + segsVert))) (m, idxOffset)).bind fun s => .ok s.1

/-- The vertices of a disc: sources/MeshGeneratorCylinder.cpp 78-117, sources/MeshGeneratorCone.cpp 83-117,
sources/MeshGeneratorPie.cpp 124-162. `top` is `i == 1`. The index of the center is the number of vertices before. -/
noncomputable def discVerts (a0 angleSteps rx rz y side : ℝ) (top : Bool) (segsHorz segsCov : ℕ) (m : M) : Res M :=
  let invCov : ℝ := 1 / segsCov
  let m := add m ⟨0, y, 0⟩ ⟨0, side, 0⟩ (1 / 2) (1 / 2)
  (forLe 0 segsHorz (fun _ (s : M × ℝ) =>
    let angle := s.2
    let sn := Real.sin angle
    let cs := Real.cos angle
    (forLe 1 segsCov (fun v m =>
      let interp := v * invCov
      let tx := 1 / 2 + sn * (1 / 2) * interp
      let ty := 1 / 2 + cs * (1 / 2) * interp
      .ok (add m (lerpV ⟨0, y, 0⟩ ⟨sn * rx, y, cs * rz⟩ interp) ⟨0, side, 0⟩ tx (if top then 1 - ty else ty))) s.1).bind fun m =>
    .ok (m, angle + angleSteps)) (m, a0)).bind fun s => .ok s.1

/-- The triangles of a disc: sources/MeshGeneratorCylinder.cpp 144-167, sources/MeshGeneratorCone.cpp 143-160 (with
`top` false), sources/MeshGeneratorPie.cpp 213-236, sources/MeshGeneratorSpiral.cpp 172-195. -/
def discTris (top alternateGrid : Bool) (segsHorz segsCov coverIndexOffset : ℕ) (m : M) : Res M :=
  (forLt 0 segsHorz (fun u (s : M × ℕ) =>
    let idxOffset := s.2
    let m := if top then tri s.1 coverIndexOffset idxOffset (idxOffset + segsCov)
      else tri s.1 (idxOffset + segsCov) idxOffset coverIndexOffset
    (forLt 1 segsCov (fun v m =>
      let i0 := v - 1
      let i1 := w32 (v - 1 + segsCov)
      let i2 := w32 (v + segsCov)
      let i3 := v
      .ok (if top then addQuad m alternateGrid u v i1 i0 i3 i2 idxOffset else addQuad m alternateGrid u v i0 i1 i2 i3 idxOffset)) m).bind fun m =>
    .ok (m, idxOffset + segsCov)) (m, coverIndexOffset + 1)).bind fun s => .ok s.1

/-! Cylinder. -/

/-- include/Geom/MeshGenerator.h 96-116, `CylinderDescriptor`. -/
structure CylinderDesc where
  radius : V2 ℝ
  height : ℝ
  segsX : ℕ
  segsY : ℕ
  topCov : ℕ
  bottomCov : ℕ
  alternateGrid : Bool

/-- sources/MeshGeneratorCylinder.cpp 18-169, `GenerateCylinder`. -/
noncomputable def genCylinder (d : CylinderDesc) (m : M) : Res M :=
  let idxBaseOffset := m.vertices.length
  let segsHorz := max 3 d.segsX
  let segsVert := max 1 d.segsY
  let angleSteps := 1 / (segsHorz : ℝ) * (Real.pi * 2)
  let halfHeight := d.height * (1 / 2)
  (mantleVerts 0 angleSteps d.radius.x d.radius.y halfHeight 1 segsHorz segsVert m).bind fun m =>
  let coverBottom := m.vertices.length
  (if d.bottomCov = 0 then .ok m
    else discVerts 0 angleSteps d.radius.x d.radius.y (halfHeight * -1) (-1) false segsHorz d.bottomCov m).bind fun m =>
  let coverTop := m.vertices.length
  (if d.topCov = 0 then .ok m
    else discVerts 0 angleSteps d.radius.x d.radius.y (halfHeight * 1) 1 true segsHorz d.topCov m).bind fun m =>
  (mantleTris false d.alternateGrid segsHorz segsVert idxBaseOffset m).bind fun m =>
  (if d.bottomCov = 0 then .ok m else discTris false d.alternateGrid segsHorz d.bottomCov coverBottom m).bind fun m =>
  if d.topCov = 0 then .ok m else discTris true d.alternateGrid segsHorz d.topCov coverTop m

/-! Cone. -/

/-- include/Geom/MeshGenerator.h 77-94, `ConeDescriptor`. -/
structure ConeDesc where
  radius : V2 ℝ
  height : ℝ
  segsX : ℕ
  segsY : ℕ
  cov : ℕ
  alternateGrid : Bool

/-- sources/MeshGeneratorCone.cpp 33-80: the vertices of the mantle. -/
noncomputable def coneVerts (angleSteps rx rz halfHeight : ℝ) (segsHorz segsVert : ℕ) (m : M) : Res M :=
  let invHorz : ℝ := 1 / segsHorz
  let invVert : ℝ := 1 / segsVert
  let tip : V3 ℝ := ⟨0, halfHeight, 0⟩
  (forLe 0 segsHorz (fun u (s : M × ℝ) =>
    let angle := s.2
    let sn := Real.sin angle
    let cs := Real.cos angle
    let coord : V3 ℝ := ⟨sn * rx, -halfHeight, cs * rz⟩
    let normal := Plane.normalizeVec ⟨sn, 0, cs⟩
    let tx := (segsHorz - u : ℕ) * invHorz
    (forLe 1 segsVert (fun v m =>
      let ty := v * invVert
      .ok (add m (lerpV tip coord ty) (lerpV ⟨0, 1, 0⟩ normal (√ ty)) tx ty)) s.1).bind fun m =>
    let m := if u < segsHorz then add m tip ⟨0, 1, 0⟩ tx 0 else m
    .ok (m, angle + angleSteps)) (m, 0)).bind fun s => .ok s.1

/-- sources/MeshGeneratorCone.cpp 121-138: the triangles of the mantle. -/
def coneTris (alternateGrid : Bool) (segsHorz segsVert idxOffset : ℕ) (m : M) : Res M :=
  (forLt 0 segsHorz (fun u (s : M × ℕ) =>
    let idxOffset := s.2
    let m := tri s.1 (idxOffset + segsVert) idxOffset (idxOffset + 1 + segsVert)
    (forLt 1 segsVert (fun v m =>
      let i0 := w32 (v + segsVert)
      let i1 := v - 1
      let i2 := v
      let i3 := w32 (v + 1 + segsVert)
      .ok (addQuad m alternateGrid u v i0 i1 i2 i3 idxOffset)) m).bind fun m =>
    .ok (m, idxOffset + w32 (1 + segsVert))) (m, idxOffset)).bind fun s => .ok s.1

/-- sources/MeshGeneratorCone.cpp 18-162, `GenerateCone`. -/
noncomputable def genCone (d : ConeDesc) (m : M) : Res M :=
  let idxBaseOffset := m.vertices.length
  let segsHorz := max 3 d.segsX
  let segsVert := max 1 d.segsY
  let angleSteps := 1 / (segsHorz : ℝ) * (Real.pi * 2)
  let halfHeight := d.height * (1 / 2)
  (coneVerts angleSteps d.radius.x d.radius.y halfHeight segsHorz segsVert m).bind fun m =>
  let coverIndexOffset := m.vertices.length
  (if d.cov > 0 then discVerts 0 angleSteps d.radius.x d.radius.y (-halfHeight) (-1) false segsHorz d.cov m else .ok m).bind fun m =>
  (coneTris d.alternateGrid segsHorz segsVert idxBaseOffset m).bind fun m =>
  if d.cov > 0 then discTris false d.alternateGrid segsHorz d.cov coverIndexOffset m else .ok m

/-! Pipe. -/

/-- include/Geom/MeshGenerator.h 143-166, `PipeDescriptor`. -/
structure PipeDesc where
  innerRadius : V2 ℝ
  outerRadius : V2 ℝ
  height : ℝ
  segsX : ℕ
  segsY : ℕ
  topCov : ℕ
  bottomCov : ℕ
  alternateGrid : Bool

/-- sources/MeshGeneratorPipe.cpp 89-131: the vertices of a ring. (An outer radius of zero gives a quotient by zero in the
texture coordinates, which is zero here.) -/
noncomputable def ringVerts (angleSteps : ℝ) (inner outer : V2 ℝ) (y side : ℝ) (top : Bool) (segsHorz segsCov : ℕ) (m : M) : Res M :=
  let invCov : ℝ := 1 / segsCov
  (forLe 0 segsHorz (fun _ (s : M × ℝ) =>
    let angle := s.2
    let sn := Real.sin angle
    let cs := Real.cos angle
    let coord : V3 ℝ := ⟨sn * outer.x, y, cs * outer.y⟩
    let coordAlt : V3 ℝ := ⟨sn * inner.x, y, cs * inner.y⟩
    (forLe 0 segsCov (fun v m =>
      let interp := v * invCov
      let ay := 1 / 2 + coordAlt.z * (1 / (outer.y * 2))
      let b_y := 1 / 2 + coord.z * (1 / (outer.y * 2))
      let tx := lerp (1 / 2 + coordAlt.x * (1 / (outer.x * 2))) (1 / 2 + coord.x * (1 / (outer.x * 2))) interp
      let ty := if top then lerp (1 - ay) (1 - b_y) interp else lerp ay b_y interp
      .ok (add m (lerpV coordAlt coord interp) ⟨0, side, 0⟩ tx ty)) s.1).bind fun m =>
    .ok (m, angle + angleSteps)) (m, 0)).bind fun s => .ok s.1

/-- sources/MeshGeneratorPipe.cpp 166-184: the triangles of a ring. -/
def ringTris (top alternateGrid : Bool) (segsHorz segsCov idxOffset : ℕ) (m : M) : Res M :=
  (forLt 0 segsHorz (fun u (s : M × ℕ) =>
    (forLt 0 segsCov (fun v m =>
      let i0 := v
      let i1 := w32 (v + 1 + segsCov)
      let i2 := w32 (v + 2 + segsCov)
      let i3 := w32 (v + 1)
      .ok (if top then addQuad m alternateGrid u v i1 i0 i3 i2 s.2 else addQuad m alternateGrid u v i0 i1 i2 i3 s.2)) s.1).bind fun m =>
    .ok (m, s.2 + w32 (segsCov + 1))) (m, idxOffset)).bind fun s => .ok s.1

/-- sources/MeshGeneratorPipe.cpp 18-186, `GeneratePipe`. -/
noncomputable def genPipe (d : PipeDesc) (m : M) : Res M :=
  let segsHorz := max 3 d.segsX
  let segsVert := max 1 d.segsY
  let angleSteps := 1 / (segsHorz : ℝ) * (Real.pi * 2)
  let halfHeight := d.height * (1 / 2)
  let mantleOuter := m.vertices.length
  (mantleVerts 0 angleSteps d.outerRadius.x d.outerRadius.y halfHeight 1 segsHorz segsVert m).bind fun m =>
  let mantleInner := m.vertices.length
  (mantleVerts 0 angleSteps d.innerRadius.x d.innerRadius.y halfHeight (-1) segsHorz segsVert m).bind fun m =>
  let coverBottom := m.vertices.length
  (if d.bottomCov = 0 then .ok m
    else ringVerts angleSteps d.innerRadius d.outerRadius (halfHeight * -1) (-1) false segsHorz d.bottomCov m).bind fun m =>
  let coverTop := m.vertices.length
  (if d.topCov = 0 then .ok m
    else ringVerts angleSteps d.innerRadius d.outerRadius (halfHeight * 1) 1 true segsHorz d.topCov m).bind fun m =>
  (mantleTris false d.alternateGrid segsHorz segsVert mantleOuter m).bind fun m =>
  (mantleTris true d.alternateGrid segsHorz segsVert mantleInner m).bind fun m =>
  (if d.bottomCov = 0 then .ok m else ringTris false d.alternateGrid segsHorz d.bottomCov coverBottom m).bind fun m =>
  if d.topCov = 0 then .ok m else ringTris true d.alternateGrid segsHorz d.topCov coverTop m

/-! Pie. -/

/-- include/Geom/MeshGenerator.h 118-141, `PieDescriptor`. -/
structure PieDesc where
  radius : V2 ℝ
  height : ℝ
  segsX : ℕ
  segsY : ℕ
  cov : ℕ
  angle : ℝ
  angleOffset : ℝ
  alternateGrid : Bool

/-- sources/MeshGeneratorPie.cpp 82-110: the vertices of one of the two plane sides. `tc0`, `tc1` are the elements of
`mantleSideTC`. -/
noncomputable def sideVerts (angle normalOffset tc0 tc1 rx rz halfHeight : ℝ) (segsCovMantle segsVert : ℕ) (m : M) : Res M :=
  let invCovMantle : ℝ := 1 / segsCovMantle
  let invVert : ℝ := 1 / segsVert
  let angleNormal := angle + normalOffset
  let normal : V3 ℝ := ⟨Real.sin angleNormal, 0, Real.cos angleNormal⟩
  forLe 0 segsCovMantle (fun u m =>
    let r := u * invCovMantle
    let tx := tc0 + r * tc1
    forLe 0 segsVert (fun v m =>
      let ty := v * invVert
      .ok (add m ⟨Real.sin angle * rx * r, lerp halfHeight (-halfHeight) ty, Real.cos angle * rz * r⟩ normal tx ty)) m) m

/-- sources/MeshGeneratorPie.cpp 18-239, `GeneratePie`. -/
noncomputable def genPie (d : PieDesc) (m : M) : Res M :=
  let idxBaseOffset := m.vertices.length
  let segsHorz := max 3 d.segsX
  let segsVert := max 1 d.segsY
  let segsCovMantle := max 1 d.cov
  let pieAngle := max 0 (min d.angle (Real.pi * 2))
  let pieAngleOffset := d.angleOffset + pieAngle
  let angleSteps := 1 / (segsHorz : ℝ) * (Real.pi * 2 - pieAngle)
  let halfHeight := d.height * (1 / 2)
  (mantleVerts pieAngleOffset angleSteps d.radius.x d.radius.y halfHeight 1 segsHorz segsVert m).bind fun m =>
  let mantle0 := m.vertices.length
  (sideVerts pieAngleOffset (Real.pi + Real.pi / 2) 1 (-1) d.radius.x d.radius.y halfHeight segsCovMantle segsVert m).bind fun m =>
  let mantle1 := m.vertices.length
  (sideVerts (pieAngleOffset - pieAngle) (Real.pi / 2) 0 1 d.radius.x d.radius.y halfHeight segsCovMantle segsVert m).bind fun m =>
  let cover0 := m.vertices.length
  (if d.cov > 0 then discVerts pieAngleOffset angleSteps d.radius.x d.radius.y (halfHeight * -1) (-1) false segsHorz d.cov m else .ok m).bind fun m =>
  let cover1 := m.vertices.length
  (if d.cov > 0 then discVerts pieAngleOffset angleSteps d.radius.x d.radius.y (halfHeight * 1) 1 true segsHorz d.cov m else .ok m).bind fun m =>
  (mantleTris false d.alternateGrid segsHorz segsVert idxBaseOffset m).bind fun m =>
  (mantleTris false d.alternateGrid segsCovMantle segsVert mantle0 m).bind fun m =>
  (mantleTris true d.alternateGrid segsCovMantle segsVert mantle1 m).bind fun m =>
  (if d.cov > 0 then discTris false d.alternateGrid segsHorz d.cov cover0 m else .ok m).bind fun m =>
  if d.cov > 0 then discTris true d.alternateGrid segsHorz d.cov cover1 m else .ok m

/-! Capsule. -/

/-- include/Geom/MeshGenerator.h 168-188, `CapsuleDescriptor`. -/
structure CapsuleDesc where
  radius : V3 ℝ
  height : ℝ
  segsX : ℕ
  segsY : ℕ
  ellipsoidSegs : ℕ
  alternateGrid : Bool

/-- sources/MeshGeneratorCapsule.cpp 79-107: the vertices of a half ellipsoid; `side` is `coverSide[i]`. -/
noncomputable def hemiVerts (radius : V3 ℝ) (halfHeight side : ℝ) (segsHorz segsV : ℕ) (m : M) : Res M :=
  let invHorz : ℝ := 1 / segsHorz
  let invSegsV : ℝ := 1 / segsV
  forLe 0 segsV (fun v m =>
    let ty := v * invSegsV
    let theta := ty * (Real.pi / 2)
    forLe 0 segsHorz (fun u m =>
      let tx := u * invHorz
      let phi := tx * (Real.pi * 2) * side + Real.pi / 2
      let c := swapYZ (spherical theta phi)
      let coord : V3 ℝ := ⟨c.x, c.y * side, c.z⟩
      let normal := Plane.normalizeVec coord
      let p := V3.mulC coord radius
      .ok (add m ⟨p.x, p.y + halfHeight * side, p.z⟩ normal tx ty)) m) m

/-- sources/MeshGeneratorCapsule.cpp 19-147, `GenerateCapsule`. -/
noncomputable def genCapsule (d : CapsuleDesc) (m : M) : Res M :=
  let idxBaseOffset := m.vertices.length
  let segsHorz := max 3 d.segsX
  let segsVert := max 1 d.segsY
  let segsV := max 2 d.ellipsoidSegs
  let angleSteps := 1 / (segsHorz : ℝ) * (Real.pi * 2)
  let halfHeight := d.height * (1 / 2)
  (mantleVerts 0 angleSteps d.radius.x d.radius.z halfHeight 1 segsHorz segsVert m).bind fun m =>
  let base0 := m.vertices.length
  (hemiVerts d.radius halfHeight 1 segsHorz segsV m).bind fun m =>
  let base1 := m.vertices.length
  (hemiVerts d.radius halfHeight (-1) segsHorz segsV m).bind fun m =>
  (mantleTris false d.alternateGrid segsHorz segsVert idxBaseOffset m).bind fun m =>
  (gridTris false d.alternateGrid segsHorz segsV base0 m).bind fun m =>
  gridTris false d.alternateGrid segsHorz segsV base1 m

/-! Curve and torus knot. -/

/-- include/Geom/MeshGenerator.h 277-297, `CurveDescriptor`; `none` is the null function. -/
structure CurveDesc where
  curveFunction : Option (ℝ → V3 ℝ)
  radius : ℝ
  segsX : ℕ
  segsY : ℕ
  alternateGrid : Bool
  vertexModifier : Option (ℝ → ℝ → ℝ)

/-- sources/MeshGeneratorCurve.cpp 65: `Gs::RotateVectorAroundAxis` (assumed meaning: rotation about the normalised axis). The sense of rotation is not
known: `angle` is the angle or its opposite. -/
noncomputable def rotAxis (v axis : V3 ℝ) (angle : ℝ) : V3 ℝ :=
  let k := Plane.normalizeVec axis
  Real.cos angle • v + Real.sin angle • V3.cross k v + ((1 - Real.cos angle) * V3.dot k v) • k

/-- sources/MeshGeneratorCurve.cpp 28-35: the samples. A call of the null function throws. -/
noncomputable def curveSamples (f : Option (ℝ → V3 ℝ)) (segsU : ℕ) : Res (List (V3 ℝ)) :=
  forLt 0 segsU (fun i l => match f with
    | some f => .ok (l.set i (f (i / (segsU - 1 : ℕ))))
    | none => .throw) (List.replicate segsU 0)

/-- sources/MeshGeneratorCurve.cpp 48-71: position and normal of a vertex; `sg` is the sense of rotation. -/
noncomputable def curveVertex (sg : ℝ) (here next : V3 ℝ) (radius : ℝ) (modifier : Option (ℝ → ℝ → ℝ)) (tx ty : ℝ) : V3 ℝ × V3 ℝ :=
  let tangent := Plane.normalizeVec (next - here)
  let bitangent := V3.cross ⟨0, 1, 0⟩ tangent
  let normal := Plane.normalizeVec (V3.cross tangent bitangent)
  let normal := rotAxis normal tangent (sg * (ty * (Real.pi * 2)))
  let displacement := match modifier with
    | some f => radius * f tx ty
    | none => radius
  (here + displacement • normal, normal)

/-- sources/MeshGeneratorCurve.cpp 41-75: the vertices. -/
noncomputable def curveVerts (sg radius : ℝ) (modifier : Option (ℝ → ℝ → ℝ)) (samples : List (V3 ℝ)) (segsU segsV : ℕ) (m : M) : Res M :=
  forLt 0 segsU (fun u m =>
    let tx : ℝ := u / (segsU - 1 : ℕ)
    forLt 0 segsV (fun v m =>
      (TMesh.getR samples ((u + 1) % (segsU - 1))).bind fun next =>
      (TMesh.getR samples u).bind fun here =>
      let ty : ℝ := v / (segsV - 1 : ℕ)
      let p := curveVertex sg here next radius modifier tx ty
      .ok (add m p.1 p.2 tx ty)) m) m

/-- sources/MeshGeneratorCurve.cpp 78-111: the triangles. -/
def curveTris (alternateGrid : Bool) (segsU segsV idxBaseOffset : ℕ) (m : M) : Res M :=
  forLt 0 segsU (fun u m => forLt 0 segsV (fun v m =>
    let i0 := w32 (u * segsV + v)
    let i1 := if v + 1 < segsV then w32 (u * segsV + v + 1) else w32 (u * segsV)
    let i2 := if u + 1 < segsU then w32 ((u + 1) * segsV + v) else v
    let i3 := if u + 1 < segsU then (if v + 1 < segsV then w32 ((u + 1) * segsV + v + 1) else w32 ((u + 1) * segsV))
      else (if v + 1 < segsV then v + 1 else 0)
    .ok (addQuad m alternateGrid u v i0 i1 i3 i2 idxBaseOffset)) m) m

/-- sources/MeshGeneratorCurve.cpp 21-112, `GenerateCurve`. -/
noncomputable def genCurve (sg : ℝ) (d : CurveDesc) (m : M) : Res M :=
  let idxBaseOffset := m.vertices.length
  let segsU := max 3 d.segsX
  let segsV := max 3 d.segsY
  (curveSamples d.curveFunction segsU).bind fun samples =>
  (curveVerts sg d.radius d.vertexModifier samples segsU segsV m).bind fun m =>
  curveTris d.alternateGrid segsU segsV idxBaseOffset m

/-- include/Geom/MeshGenerator.h 209-244, `TorusKnotDescriptor`. -/
structure KnotDesc where
  ringRadius : V3 ℝ
  tubeRadius : ℝ
  innerRadius : ℝ
  loops : ℕ
  turns : ℕ
  segsX : ℕ
  segsY : ℕ
  alternateGrid : Bool
  vertexModifier : Option (ℝ → ℝ → ℝ)

/-- sources/MeshGeneratorTorusKnot.cpp 26-39: the curve. -/
noncomputable def knotCurve (d : KnotDesc) (t : ℝ) : V3 ℝ :=
  let t := t * (Real.pi * 2)
  let p : ℝ := d.loops
  let q : ℝ := d.turns
  let r := Real.cos (q * t) + d.innerRadius
  V3.mulC ⟨Real.cos (p * t) * r, Real.sin (q * t), Real.sin (p * t) * r⟩ d.ringRadius

/-- sources/MeshGeneratorTorusKnot.cpp 18-47, `GenerateTorusKnot`. -/
noncomputable def genTorusKnot (sg : ℝ) (d : KnotDesc) (m : M) : Res M :=
  genCurve sg ⟨some (knotCurve d), d.tubeRadius, d.segsX, d.segsY, d.alternateGrid, d.vertexModifier⟩ m

/-! Spiral. -/

/-- include/Geom/MeshGenerator.h 246-275, `SpiralDescriptor`. -/
structure SpiralDesc where
  ringRadius : V2 ℝ
  tubeRadius : V3 ℝ
  displacement : ℝ
  turns : ℝ
  segsX : ℕ
  segsY : ℕ
  topCov : ℕ
  bottomCov : ℕ
  alternateGrid : Bool

/-- sources/MeshGeneratorSpiral.cpp 32-56, `GetCoverCoordAndNormal`: coordinate and normal. -/
noncomputable def coverCoord (d : SpiralDesc) (turns theta phi : ℝ) (center : Bool) : V3 ℝ × V3 ℝ :=
  let s1 := Real.sin phi
  let c1 := Real.cos phi
  let x := s1 * d.ringRadius.x
  let y := (phi / (Real.pi * 2) - turns * (1 / 2)) * d.displacement
  let z := c1 * d.ringRadius.y
  let normal := ⟨c1, 0, s1⟩
  if center then (⟨x, y, z⟩, normal)
  else
    let s0 := Real.sin theta
    let c0 := Real.cos theta
    (⟨x + s1 * s0 * d.tubeRadius.x, y + c0 * d.tubeRadius.y, z + c1 * s0 * d.tubeRadius.z⟩, normal)

/-- sources/MeshGeneratorSpiral.cpp 62-94: the vertices of the mantle. -/
noncomputable def spiralVerts (d : SpiralDesc) (turns : ℝ) (segsU segsV totalSegsU : ℕ) (m : M) : Res M :=
  let invSegsU : ℝ := 1 / segsU
  let invSegsV : ℝ := 1 / segsV
  forLe 0 segsV (fun v m =>
    let ty := v * invSegsV
    let theta := ty * (Real.pi * 2)
    let s0 := Real.sin theta
    let c0 := Real.cos theta
    forLe 0 totalSegsU (fun u m =>
      let tx := u * invSegsU
      let phi := tx * (Real.pi * 2)
      let s1 := Real.sin phi
      let c1 := Real.cos phi
      let coord := ⟨s1 * d.ringRadius.x + s1 * s0 * d.tubeRadius.x, c0 * d.tubeRadius.y + (tx - turns * (1 / 2)) * d.displacement,
        c1 * d.ringRadius.y + c1 * s0 * d.tubeRadius.z⟩
      .ok (add m coord (tubeNormal d.tubeRadius theta phi) (-tx) ty)) m) m

/-- sources/MeshGeneratorSpiral.cpp 108-146: the vertices of a cover. -/
noncomputable def spiralCover (d : SpiralDesc) (turns phi side : ℝ) (top : Bool) (segsV segsCov : ℕ) (m : M) : Res M :=
  let invSegsV : ℝ := 1 / segsV
  let invCov : ℝ := 1 / segsCov
  let c := coverCoord d turns 0 phi true
  let m := add m c.1 (side • c.2) (1 / 2) (1 / 2)
  (forLe 0 segsV (fun _ (s : M × ℝ) =>
    let theta := s.2
    let tx := Real.sin theta
    let ty := Real.cos theta
    (forLe 1 segsCov (fun j m =>
      let interp := j * invCov
      let fx := 1 / 2 + tx * (1 / 2) * interp
      let fy := 1 / 2 + ty * (1 / 2) * interp
      let p := coverCoord d turns theta phi false
      .ok (add m (lerpV c.1 p.1 interp) (side • p.2) fx (if top then 1 - fy else fy))) s.1).bind fun m =>
    .ok (m, theta + invSegsV * (Real.pi * 2))) (m, 0)).bind fun s => .ok s.1

/-- sources/MeshGeneratorSpiral.cpp 18-197, `GenerateSpiral`. The conversion of a number that is too large for 32 bits is
undefined. -/
noncomputable def genSpiral (d : SpiralDesc) (m : M) : Res M :=
  let idxBaseOffset := m.vertices.length
  let turns := max 0 d.turns
  let segsU := max 3 d.segsX
  let segsV := max 3 d.segsY
  (if turns * segsU < 2 ^ 32 then .ok ⌊turns * segsU⌋₊ else .ub : Res ℕ).bind fun totalSegsU =>
  (spiralVerts d turns segsU segsV totalSegsU m).bind fun m =>
  let cover0 := m.vertices.length
  (if d.bottomCov = 0 then .ok m else spiralCover d turns 0 (-1) false segsV d.bottomCov m).bind fun m =>
  let cover1 := m.vertices.length
  (if d.topCov = 0 then .ok m else spiralCover d turns (turns * (Real.pi * 2)) 1 true segsV d.topCov m).bind fun m =>
  (gridTris true d.alternateGrid totalSegsU segsV idxBaseOffset m).bind fun m =>
  (if d.bottomCov = 0 then .ok m else discTris false d.alternateGrid segsV d.bottomCov cover0 m).bind fun m =>
  if d.topCov = 0 then .ok m else discTris true d.alternateGrid segsV d.topCov cover1 m

/-! Bezier patch. -/

/-- include/Geom/MeshGenerator.h 299-316, `BezierPatchDescriptor`; the patch is any function here. -/
structure PatchDesc where
  bezierPatch : ℝ → ℝ → V3 ℝ
  segsX : ℕ
  segsY : ℕ
  alternateGrid : Bool
  backFacing : Bool

/-- sources/MeshGeneratorBezierPatch.cpp 36-66: the vertices. -/
noncomputable def patchVerts (d : PatchDesc) (segsHorz segsVert : ℕ) (m : M) : Res M :=
  let invHorz : ℝ := 1 / segsHorz
  let invVert : ℝ := 1 / segsVert
  let delta : ℝ := 1 / 100
  forLe 0 segsVert (fun i m => forLe 0 segsHorz (fun j m =>
    let tx := j * invHorz
    let ty := i * invVert
    let coord := d.bezierPatch tx ty
    let uOffset := d.bezierPatch (tx + delta) ty - coord
    let vOffset := d.bezierPatch tx (ty + delta) - coord
    let normal := Plane.normalizeVec (V3.cross uOffset vOffset)
    .ok (if d.backFacing then add m coord normal tx ty else add m coord (-normal) tx (1 - ty))) m) m

/-- sources/MeshGeneratorBezierPatch.cpp 18-84, `GenerateBezierPatch`. -/
noncomputable def genBezierPatch (d : PatchDesc) (m : M) : Res M :=
  let idxOffset := m.vertices.length
  let segsHorz := max 1 d.segsX
  let segsVert := max 1 d.segsY
  (patchVerts d segsHorz segsVert m).bind fun m =>
  faceTris d.backFacing d.alternateGrid segsHorz segsVert idxOffset m

end Geom.Gen
