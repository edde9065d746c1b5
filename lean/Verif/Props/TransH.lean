/-
The transversal H gate of unrotated surface codes (C39).
-/
import Verif.Lemmas.NewStabDict
import Verif.Lemmas.UnrotHSigned
import Verif.Lemmas.Witness

namespace SurfaceSim.Props
open Spec NoiseModel Blocks LayoutLib LogGates

variable {l0 l l' l'' : Layout} {a : Args} {dx dz d : Int} {q : String}

/-- **C39** `set_trans_h` returns for every unrotated code with equal distances and every data qubit in a corner, that
is, with two neighbours. -/
theorem C39_returns (h : unrotSurfaceCodeRectangle d d a = .ok l0) (hw : WithParams l0 l) (hq : q ∈ dataOfLayout l)
    (h2 : (l.getNeighbors [q] none).length = 2) : ∃ l', unrotSetTransH q l = (.ok (), l') := by
  rw [dataOfLayout_grid (isUnrot_of_params h hw).grid] at hq
  exact unrotSetTransH_exists h hw hq h2

/-- **C39** `set_trans_h` changes nothing but the parameter of the gate. -/
theorem C39_only_stores (h : unrotSurfaceCodeRectangle dx dz a = .ok l0) (hw : WithParams l0 l)
    (e : unrotSetTransH q l = (.ok (), l')) :
    WithParams l l' ∧ ∀ p q', p ≠ "trans-h_" ++ a.label → l'.param p q' = l.param p q' :=
  have := unrotSetTransH_ok h hw e
  ⟨this.2.1, this.2.2.1⟩

/-- **C39** Whenever `set_trans_h` returns, the pairs that are swapped are a symmetric relation between different data
qubits, and all data qubits get an H. -/
theorem C39_pairs (h : unrotSurfaceCodeRectangle dx dz a = .ok l0) (hw : WithParams l0 l)
    (e : unrotSetTransH q l = (.ok (), l')) (hk : KeptGate ("trans-h_" ++ a.label) l' l'') :
    SymmetricPartners l'' ("trans-h_" ++ a.label) "swap" ∧
      ∀ d ∈ dataOfLayout l'', localAt l'' ("trans-h_" ++ a.label) d = some "H" := by
  obtain ⟨rfl, h1, -, p, ε, hq, hε, ht⟩ := unrotSetTransH_ok h hw e
  have hu := isUnrot_of_params h (WithParams.trans hw (WithParams.trans h1 hk.1))
  have ht := ht.congr hk.2
  have hs := ht.symTable hu.grid hε
  refine ⟨?_, fun d hd => ?_⟩
  · intro d hd e he
    rw [dataOfLayout_grid hu.grid] at hd ⊢
    exact hs.sym d hd e he
  · rw [dataOfLayout_grid hu.grid] at hd
    obtain ⟨s, hd⟩ := mem_dataOf.1 hd
    obtain ⟨d', -, h2⟩ := ht.data d s hd
    unfold localAt gateAt
    rw [h2]
    simp [Dict.get?]

/-- **C39** The stored new generator of each ancilla is one ancilla of the other type, and applying the table twice
gives the ancilla back. -/
theorem C39_involution (h : unrotSurfaceCodeRectangle dx dz a = .ok l0) (hw : WithParams l0 l)
    (e : unrotSetTransH q l = (.ok (), l')) (hk : KeptGate ("trans-h_" ++ a.label) l' l'') :
    Involutive [l''] ("trans-h_" ++ a.label) ∧
      (∀ x ∈ xOfLayout l'', ∃ z ∈ zOfLayout l'', newGen l'' ("trans-h_" ++ a.label) x = [z]) ∧
      ∀ z ∈ zOfLayout l'', ∃ x ∈ xOfLayout l'', newGen l'' ("trans-h_" ++ a.label) z = [x] := by
  obtain ⟨rfl, h1, -, p, ε, hq, hε, ht⟩ := unrotSetTransH_ok h hw e
  have hu := isUnrot_of_params h (WithParams.trans hw (WithParams.trans h1 hk.1))
  have ht := ht.congr hk.2
  refine ⟨ht.involutive hu hε, fun x hx => ?_, fun z hz => ?_⟩
  · rw [xOfLayout_grid hu.grid] at hx
    obtain ⟨s, hx⟩ := mem_xOf.1 hx
    obtain ⟨y, h2, h3⟩ := ht.newGen hx (by simp)
    exact ⟨y, by rw [zOfLayout_grid hu.grid]; exact mem_zOf.2 ⟨_, h2⟩, h3⟩
  · rw [zOfLayout_grid hu.grid] at hz
    obtain ⟨s, hz⟩ := mem_zOf.1 hz
    obtain ⟨y, h2, h3⟩ := ht.newGen hz (by simp)
    exact ⟨y, by rw [xOfLayout_grid hu.grid]; exact mem_xOf.2 ⟨_, h2⟩, h3⟩

/-- **C39** Whenever `set_trans_h` returns, the block `log_trans_h` maps every stabilizer to its stored new generator. -/
theorem C39_maps_stabilizers (h : unrotSurfaceCodeRectangle dx dz a = .ok l0) (hw : WithParams l0 l)
    (e : unrotSetTransH q l = (.ok (), l')) (hk : KeptGate ("trans-h_" ++ a.label) l' l'') (nm : NoiseModel)
    (hr : CanRun nm l'') (o : SetOrder) :
    AppliesGate nm [l''] ("trans-h_" ++ a.label) (sumGen (transHIter o nm l'')) := by
  obtain ⟨rfl, h1, -, p, ε, hq, hε, ht⟩ := unrotSetTransH_ok h hw e
  exact (ht.congr hk.2).applies (isUnrot_of_params h (WithParams.trans hw (WithParams.trans h1 hk.1))) hr o hε

/-- **C39** The images of the stabilizers have sign +, so eigenvalues +1 stay +1. -/
theorem C39_signs (h : unrotSurfaceCodeRectangle dx dz a = .ok l0) (hw : WithParams l0 l)
    (e : unrotSetTransH q l = (.ok (), l')) (hk : KeptGate ("trans-h_" ++ a.label) l' l'') (nm : NoiseModel)
    (hr : CanRun nm l'') (o : SetOrder) : ∀ x ∈ ancOfLayout l'',
    MapsSigned nm [l''] ("trans-h_" ++ a.label) (sumGen (transHIter o nm l'')) l'' x 0 := by
  obtain ⟨rfl, h1, -, p, ε, hq, hε, ht⟩ := unrotSetTransH_ok h hw e
  have hu := isUnrot_of_params h (WithParams.trans hw (WithParams.trans h1 hk.1))
  intro x hx
  rw [ancOfLayout_grid hu.grid] at hx
  exact (ht.congr hk.2).signed hu hr o hε hx

/-- **C39** The block exchanges the logical X and Z, up to stabilizers: it is a logical H. -/
theorem C39_maps_logicals (h : unrotSurfaceCodeRectangle dx dz a = .ok l0) (hw : WithParams l0 l)
    (e : unrotSetTransH q l = (.ok (), l')) (hk : KeptGate ("trans-h_" ++ a.label) l' l'') (nm : NoiseModel)
    (hr : CanRun nm l'') (o : SetOrder) (isX : Bool) :
    MapsLogical nm [l''] (sumGen (transHIter o nm l'')) l'' a.label isX [(l'', a.label, !isX)] := by
  obtain ⟨rfl, h1, -, p, ε, hq, hε, ht⟩ := unrotSetTransH_ok h hw e
  exact (ht.congr hk.2).mapsLogical (isUnrot_of_params h (WithParams.trans hw (WithParams.trans h1 hk.1))) hr o hε hq isX

/-- **C39** `log_trans_h` returns the circuit of the block and updates the detectors with the stored new generators of
all ancillas. -/
theorem C39_updates_detectors (h : unrotSurfaceCodeRectangle dx dz a = .ok l0) (hw : WithParams l0 l)
    (e : unrotSetTransH q l = (.ok (), l')) (hk : KeptGate ("trans-h_" ++ a.label) l' l'') (nm : NoiseModel)
    (o : SetOrder) (cfg : Detectors.Config) :
    ∃ D, (∀ x ∈ ancOfLayout l'', D.get? x = some (newGen l'' ("trans-h_" ++ a.label) x)) ∧
      (∀ x, x ∈ D.keys ↔ x ∈ ancOfLayout l'') ∧
      ∀ (m m' : MeasState) (s s' : Detectors.State cfg) (c : Circuit), transH o nm l'' (m, s) = (.ok c, (m', s')) ↔
        Detectors.updateFromDict D s = (.ok (), s') ∧ sumGen (transHIter o nm l'') m = (.ok c, m') := by
  obtain ⟨rfl, h1, -, p, ε, hq, hε, ht⟩ := unrotSetTransH_ok h hw e
  have hu := isUnrot_of_params h (WithParams.trans hw (WithParams.trans h1 hk.1))
  have ht := ht.congr hk.2
  obtain ⟨D, h2, h3, h4⟩ := newStabDict_grid hu.grid (label := "trans-h_" ++ a.label) fun x hx => by
    obtain ⟨s, k, hx, hk⟩ := mem_ancOf.1 hx
    obtain ⟨y, -, h⟩ := ht.anc x s k hx hk
    exact ⟨_, h⟩
  refine ⟨D, h3, h4, fun m m' s s' c => ?_⟩
  rw [← gateBlock_iff]
  unfold transH
  rw [firstLogical_of hu.log, PyM.bind_ok (PyM.ofExcept_apply _ _), h2, PyM.bind_ok (PyM.ofExcept_apply _ _)]
  rfl

/-- The unrotated code of distance 2 with the gate folded along the diagonal of D1. -/
def hExample : Layout := (unrotSetTransH "D1" (layoutOf (unrotSurfaceCode 2 unrotDefault))).2

/-- For instance the unrotated code of distance 2: X1 and Z1, X2 and Z2 are exchanged. -/
example (o : SetOrder) : ∃ (l l' : Layout), unrotSurfaceCode 2 unrotDefault = .ok l ∧ CanRun (noiselessFor l') l' ∧
    (l.getNeighbors ["D1"] none).length = 2 ∧ unrotSetTransH "D1" l = (.ok (), l') ∧
    newGen l' "trans-h_L0" "X1" = ["Z1"] ∧ newGen l' "trans-h_L0" "Z2" = ["X2"] ∧
    partnerAt l' "trans-h_L0" "swap" "D2" = some "D4" ∧ partnerAt l' "trans-h_L0" "swap" "D3" = none ∧
    AppliesGate (noiselessFor l') [l'] "trans-h_L0" (sumGen (transHIter o (noiselessFor l') l')) := by
  have h1 : unrotSurfaceCode 2 unrotDefault = .ok (layoutOf (unrotSurfaceCode 2 unrotDefault)) :=
    ok_layoutOf (by decide +kernel)
  have h2 : unrotSetTransH "D1" (layoutOf (unrotSurfaceCode 2 unrotDefault)) = (.ok (), hExample) :=
    Prod.ext (by decide +kernel) rfl
  have h3 := canRun_noiseless (l := hExample) (by decide +kernel)
  exact ⟨_, _, h1, h3, by decide +kernel, h2, by decide +kernel, by decide +kernel, by decide +kernel, by decide +kernel,
    C39_maps_stabilizers h1 .refl h2 ⟨.refl, fun _ => rfl⟩ _ h3 o⟩

end SurfaceSim.Props
