/-
Specification of pairs of surface codes.
-/
import Verif.Spec.Signed
import Verif.Model.LayoutLib

namespace SurfaceSim.Spec
open SurfaceSim LayoutLib

/-- `l` was made by the generator of rotated (or unrotated) surface codes, according to `code`. -/
def MadeBy (code : String) (dx dz : Int) (a : Args) (l : Layout) : Prop :=
  code = "rotated_surface_code" ∧ rotSurfaceCodeRectangle dx dz a = .ok l ∨
    code = "unrotated_surface_code" ∧ unrotSurfaceCodeRectangle dx dz a = .ok l

/-- The coordinates of the qubits of the two layouts differ by less than 99999. -/
def CoordsNear (lc lt : Layout) : Prop :=
  ∀ q q' u v u' v', lc.getCoords [q] = .ok [[u, v]] → lt.getCoords [q'] = .ok [[u', v']] → |u' - u| < 99999 ∧ |v' - v| < 99999

end SurfaceSim.Spec
