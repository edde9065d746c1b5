/-
Specification of layouts: which setup dictionaries describe a layout, which layouts can be
reached through the public API, and when layouts do not overlap.
-/
import Verif.Model.Layout

namespace SurfaceSim

/-- The index given for a qubit in the setup, if any. -/
def QubitInfo.givenInd (info : QubitInfo) : Option Int :=
  match info.attrs.get? "ind" with
  | some (.int i) => some i
  | _ => none

/-- `infos` is the `layout` list of the setup `s`, it describes the qubits `labels`, and it meets
the documented requirements. -/
structure GoodSetup (s : LayoutSetup) (infos : List QubitInfo) (labels : List String) : Prop where
  layout : s.layout = some infos
  /-- every qubit has a label -/
  labelled : infos.map QubitInfo.qubit = labels.map some
  /-- labels are unique -/
  nodup : labels.Nodup
  /-- an index is an integer or `None` -/
  ind_typed : ∀ info ∈ infos, ∀ v, info.attrs.get? "ind" = some v → v = .none ∨ ∃ i, v = .int i
  /-- every qubit has neighbours, which are qubits of the layout -/
  neighbors : ∀ info ∈ infos, ∃ d, info.attrs.get? "neighbors" = some (.nbrs d) ∧
    ∀ dir q, (dir, some q) ∈ d → q ∈ labels
  /-- all indices or none, and they are unique -/
  inds : (∀ info ∈ infos, info.givenInd = none) ∨
    ((∀ info ∈ infos, info.givenInd ≠ none) ∧ (infos.map QubitInfo.givenInd).Nodup)
  /-- the logical qubits are the ones with logical operators -/
  logical : ∀ x, (x ∈ s.logQubits.getD [] ↔ x ∈ (s.logZ.getD []).keys) ∧
    (x ∈ s.logQubits.getD [] ↔ x ∈ (s.logX.getD []).keys)

/-- The dictionaries of a setup are dictionaries: an attribute occurs once, and a direction occurs
once among the neighbours. -/
def LayoutSetup.Genuine (s : LayoutSetup) : Prop :=
  ∀ infos, s.layout = some infos → ∀ info ∈ infos, info.attrs.keys.Nodup ∧ ∀ d,
    info.attrs.get? "neighbors" = some (.nbrs d) → d.keys.Nodup

/-- Layouts obtained from the constructor and from any calls of `set_param` that do not write
the index of a qubit. -/
inductive Reachable : Layout → Prop
  | init {s : LayoutSetup} {l : Layout} : s.Genuine → Layout.init s = .ok l → Reachable l
  | setParam {l l' : Layout} {key q : String} {v : Val} :
      Reachable l → key ≠ "ind" → l.setParam key q v = .ok l' → Reachable l'

/-- All qubits have coordinates. -/
def Layout.HasCoords (l : Layout) : Prop :=
  ∀ q ∈ l.graph.nodes.keys, ∃ c, l.param "coords" q = .ok (.coords c)

/-- Two layouts share no label, no index, no coordinates and no logical label. -/
structure Layout.DisjointFrom (l₁ l₂ : Layout) : Prop where
  labels : ∀ q, q ∈ l₁.graph.nodes.keys → q ∉ l₂.graph.nodes.keys
  inds : ∀ q₁ q₂ i, l₁.qubitInds.get? q₁ = some i → l₂.qubitInds.get? q₂ ≠ some i
  coords : ∀ q₁ q₂ c, l₁.param "coords" q₁ = .ok (.coords c) →
    l₂.param "coords" q₂ ≠ .ok (.coords c)
  logical : ∀ x, x ∈ l₁.logQubits → x ∉ l₂.logQubits

end SurfaceSim
