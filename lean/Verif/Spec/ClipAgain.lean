import Verif.Spec.Cull
import Verif.Model.MeshModifier

/-
  Repeated clipping.
-/
set_option autoImplicit false

namespace Geom.TMesh.Spec
open Plane (Eqn Pl)

variable {K : Type} [Field K] [LinearOrder K]

/-- Clip the mesh, take the back part, clip it again, and so on: `n` times. -/
def clipBack (sz : ℕ) (zero : Vertex K) (nz : ℕ → ℕ → Bool) (eq : Eqn) (pl : Pl K) (eps : K) : ℕ → Mesh K → Res (Mesh K) :=
  iterRes fun m => (clipMesh sz zero nz eq pl eps m Mesh.empty Mesh.empty).map Prod.snd

end Geom.TMesh.Spec
