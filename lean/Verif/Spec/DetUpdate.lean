/-
Meaning of the dictionaries given to `update_from_dict`.
-/
import Verif.Spec.Detectors

namespace SurfaceSim.Spec
open Detectors

/-- The change of generators described by a dictionary: an ancilla in the dictionary becomes the product of the listed
ones, the others do not change. -/
def dictMat {cfg : Config} (d : Dict String (List String)) : cfg.Mat (ZMod 2) := fun new old =>
  match d.get? (cfg.label new) with
  | some olds => if cfg.label old ∈ olds then 1 else 0
  | none => if old = new then 1 else 0

/-- All labels in the dictionary are ancillas. -/
def KnownAncillas (cfg : Config) (d : Dict String (List String)) : Prop :=
  ∀ kv ∈ d, kv.1 ∈ cfg.anc ∧ ∀ old ∈ kv.2, old ∈ cfg.anc

end SurfaceSim.Spec
