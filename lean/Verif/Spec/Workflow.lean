/-
The objects a user makes before calling an experiment (README.md, "Example").
-/
import Verif.Model.Detectors
import Verif.Model.Layout

namespace SurfaceSim.Spec
open SurfaceSim

/-- `data` and `anc` are the qubits of the layout, `inds` is `layout.qubit_inds()` (without negative indices), and
`Detectors(anc, frame, anc_coords=layout.anc_coords())` (or without `anc_coords`) returns the detectors `cfg`. -/
structure Prepares (l : Layout) (frame : String) (withCoords : Bool) (data anc : List String) (inds : Dict String Nat)
    (cfg : Detectors.Config) : Prop where
  dataQubits : l.getQubits [("role", .str "data")] = .ok data
  ancQubits : l.getQubits [("role", .str "anc")] = .ok anc
  qubitInds : l.qubitInds = inds.map fun kv => (kv.1, (kv.2 : Int))
  detectors : ∃ coords, l.ancCoords = .ok coords ∧ Detectors.Config.make anc frame (if withCoords then some coords else none) = .ok cfg

end SurfaceSim.Spec
