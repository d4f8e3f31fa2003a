import Verif.Model.TriangleMesh
import Mathlib.Logic.Function.Basic

/-
  Moves of meshes between variables. A store has the meshes of all variables, which are numbered. The C++ standard leaves open what a vector holds after
  it was the source of a move assignment, and after it was assigned to itself by a move; a library decides this.
-/
set_option autoImplicit false

namespace Geom.TMesh

variable {K : Type}

/-- The decisions of a library for `std::vector`. -/
structure Lib where
  /-- What the source holds after a move assignment, given the former contents of the target and the source. -/
  left : {α : Type} → List α → List α → List α
  /-- What a vector holds after a move assignment to itself. -/
  self : {α : Type} → List α → List α

/-- The meshes of all variables. -/
abbrev Store (K : Type) := ℕ → Mesh K

/-- sources/TriangleMesh.cpp 48-52, move constructor from the variable `j`: the new mesh and the store; a vector is empty after a construction from it. -/
def construct (j : ℕ) (s : Store K) : Mesh K × Store K := (⟨(s j).vertices, (s j).triangles⟩, Function.update s j ⟨[], []⟩)

/-- sources/TriangleMesh.cpp 56: the vertices. -/
def moveVertices (lib : Lib) (i j : ℕ) (s : Store K) : Store K :=
  if i = j then Function.update s i ⟨lib.self (s i).vertices, (s i).triangles⟩
  else Function.update (Function.update s j ⟨lib.left (s i).vertices (s j).vertices, (s j).triangles⟩) i ⟨(s j).vertices, (s i).triangles⟩

/-- sources/TriangleMesh.cpp 57: the triangles. -/
def moveTriangles (lib : Lib) (i j : ℕ) (s : Store K) : Store K :=
  if i = j then Function.update s i ⟨(s i).vertices, lib.self (s i).triangles⟩
  else Function.update (Function.update s j ⟨(s j).vertices, lib.left (s i).triangles (s j).triangles⟩) i ⟨(s i).vertices, (s j).triangles⟩

/-- sources/TriangleMesh.cpp 54-59, move assignment of variable `j` to variable `i`. -/
def moveAssign (lib : Lib) (i j : ℕ) (s : Store K) : Store K := moveTriangles lib i j (moveVertices lib i j s)

/-- sources/TriangleMesh.cpp 54-59, move assignment of a temporary mesh, which is not used afterwards. -/
def assignTemp (i : ℕ) (m : Mesh K) (s : Store K) : Store K := Function.update s i ⟨m.vertices, m.triangles⟩

/-- `std::swap` with the operations of sources/TriangleMesh.cpp 48-59: `tmp(move(a)); a = move(b); b = move(tmp)`. -/
def swap (lib : Lib) (i j : ℕ) (s : Store K) : Store K :=
  let c := construct i s
  assignTemp j c.1 (moveAssign lib i j c.2)

/-- The statements of a client on its meshes. -/
inductive Op where
  /-- variable `i` is constructed from `j` by a move (another variable: a mesh cannot be constructed from itself) -/
  | init (i j : ℕ)
  /-- move assignment -/
  | move (i j : ℕ)
  /-- include/Geom/TriangleMesh.h 64 and 67: copies -/
  | copy (i j : ℕ)
  /-- `std::swap` -/
  | swap (i j : ℕ)
  /-- `Clear` -/
  | clear (i : ℕ)

/-- One statement. -/
def Op.run (lib : Lib) (s : Store K) : Op → Store K
  | .init i j => let c := construct j s; Function.update c.2 i c.1
  | .move i j => moveAssign lib i j s
  | .copy i j => Function.update s i (s j)
  | .swap i j => TMesh.swap lib i j s
  | .clear i => Function.update s i (TMesh.clear (s i))

end Geom.TMesh
