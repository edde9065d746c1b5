/-
The transversal S gate of unrotated surface codes (C40).
-/
import Verif.Lemmas.UnrotSSigned
import Verif.Lemmas.Witness

namespace SurfaceSim.Props
open Spec NoiseModel Blocks LayoutLib LogGates

variable {l0 l l' l'' : Layout} {a : Args} {dx dz d : Int} {q : String}

/-- **C40** `set_trans_s` returns for every unrotated code with equal distances and every data qubit in a corner, that
is, with two neighbours. -/
theorem C40_returns (h : unrotSurfaceCodeRectangle d d a = .ok l0) (hw : WithParams l0 l) (hq : q ∈ dataOfLayout l)
    (h2 : (l.getNeighbors [q] none).length = 2) : ∃ l', unrotSetTransS q l = (.ok (), l') := by
  rw [dataOfLayout_grid (isUnrot_of_params h hw).grid] at hq
  exact unrotSetTransS_exists h hw hq h2

/-- **C40** `set_trans_s` changes nothing but the parameter of the gate. -/
theorem C40_only_stores (h : unrotSurfaceCodeRectangle dx dz a = .ok l0) (hw : WithParams l0 l)
    (e : unrotSetTransS q l = (.ok (), l')) :
    WithParams l l' ∧ ∀ p q', p ≠ "trans-s_" ++ a.label → l'.param p q' = l.param p q' :=
  have := unrotSetTransS_ok h hw e
  ⟨this.2.1, this.2.2.1⟩

/-- Everything about the stored tables. -/
theorem trans_s_tables (h : unrotSurfaceCodeRectangle dx dz a = .ok l0) (hw : WithParams l0 l)
    (e : unrotSetTransS q l = (.ok (), l')) (hk : KeptGate ("trans-s_" ++ a.label) l' l'') :
    IsUnrot a dx dx l'' ∧ 1 ≤ dx ∧ ∃ p e1 e2 P G sw,
      (p.1 = 0 ∧ e1 = 1 ∨ p.1 = 2 * dx - 2 ∧ e1 = -1) ∧ (p.2 = 0 ∧ e2 = 1 ∨ p.2 = 2 * dx - 2 ∧ e2 = -1) ∧
      (e1 * e2 = 1 ∨ e1 * e2 = -1) ∧ USTable (unrotEntries a dx dx) p e1 e2 P G sw ∧
      STable l'' (unrotEntries a dx dx) ("trans-s_" ++ a.label) P G := by
  obtain ⟨rfl, h1, -, p, e1, e2, P, G, sw, hq, hc1, hc2, hus, hst⟩ := unrotSetTransS_ok h hw e
  have hu := isUnrot_of_params h (WithParams.trans hw (WithParams.trans h1 hk.1))
  have hd1 : 1 ≤ dz := by
    have := unrotEntry (r := p.1) (c := p.2) hq
    simp only [UnrotSite] at this
    omega
  refine ⟨hu, hd1, p, e1, e2, P, G, sw, hc1, hc2, ?_, hus, hst.congr (getNeighbors_params hk.1) hk.2⟩
  rcases hc1 with ⟨-, rfl⟩ | ⟨-, rfl⟩ <;> rcases hc2 with ⟨-, rfl⟩ | ⟨-, rfl⟩ <;> simp

/-- **C40** Whenever `set_trans_s` returns, each data qubit either has a local S or S_DAG and no partner, or no local
gate and a partner, and the partners are a symmetric relation between different data qubits. -/
theorem C40_pairs (h : unrotSurfaceCodeRectangle dx dz a = .ok l0) (hw : WithParams l0 l)
    (e : unrotSetTransS q l = (.ok (), l')) (hk : KeptGate ("trans-s_" ++ a.label) l' l'') :
    SymmetricPartners l'' ("trans-s_" ++ a.label) "cz" ∧
      ∀ d ∈ dataOfLayout l'',
        (localAt l'' ("trans-s_" ++ a.label) d = some "S" ∨ localAt l'' ("trans-s_" ++ a.label) d = some "S_DAG") ∧
          partnerAt l'' ("trans-s_" ++ a.label) "cz" d = none ∨
        localAt l'' ("trans-s_" ++ a.label) d = some "I" ∧ ∃ e, partnerAt l'' ("trans-s_" ++ a.label) "cz" d = some e := by
  obtain ⟨hu, -, p, e1, e2, P, G, sw, -, -, -, hus, hst⟩ := trans_s_tables h hw e hk
  have hP : ∀ d ∈ dataOf (unrotEntries a dx dx), partnerAt l'' ("trans-s_" ++ a.label) "cz" d = P d := by
    intro d hd
    unfold partnerAt gateAt
    rw [hst.sym.attrs d hd]
    cases h2 : P d <;> simp [Dict.get?, atomOf]
  have hG : ∀ d ∈ dataOf (unrotEntries a dx dx), localAt l'' ("trans-s_" ++ a.label) d = some (G d) := by
    intro d hd
    unfold localAt gateAt
    rw [hst.sym.attrs d hd]
    simp [Dict.get?]
  constructor
  · intro d hd e he
    rw [dataOfLayout_grid hu.grid] at hd ⊢
    rw [hP d hd] at he
    obtain ⟨h1, h2, h3⟩ := hst.sym.sym d hd e he
    exact ⟨h1, h2, by rw [hP e h1]; exact h3⟩
  · intro d hd
    rw [dataOfLayout_grid hu.grid] at hd
    rw [hP d hd, hG d hd]
    rcases hus.gate hu.grid hd with ⟨-, h2, h3⟩ | ⟨-, h2, h3⟩
    · exact Or.inl ⟨by simpa using h3, h2⟩
    · exact Or.inr ⟨by rw [h3], _, h2⟩

/-- **C40** The stored new generators: a Z ancilla is kept, an X ancilla is multiplied with at most one Z ancilla;
applying the table twice gives the ancilla back. -/
theorem C40_involution (h : unrotSurfaceCodeRectangle dx dz a = .ok l0) (hw : WithParams l0 l)
    (e : unrotSetTransS q l = (.ok (), l')) (hk : KeptGate ("trans-s_" ++ a.label) l' l'') :
    Involutive [l''] ("trans-s_" ++ a.label) ∧
      (∀ z ∈ zOfLayout l'', newGen l'' ("trans-s_" ++ a.label) z = [z]) ∧
      ∀ x ∈ xOfLayout l'', ∃ zs, zs.length ≤ 1 ∧ (∀ z ∈ zs, z ∈ zOfLayout l'') ∧
        newGen l'' ("trans-s_" ++ a.label) x = x :: zs := by
  obtain ⟨hu, -, p, e1, e2, P, G, sw, -, -, -, hus, hst⟩ := trans_s_tables h hw e hk
  refine ⟨hst.involutive hu.grid, fun z hz => ?_, fun x hx => ?_⟩
  · rw [zOfLayout_grid hu.grid] at hz
    exact newGen_of (hst.z z hz)
  · rw [xOfLayout_grid hu.grid] at hx
    rcases hst.x x hx with ⟨h1, -⟩ | ⟨z, hz, h1, -⟩
    · exact ⟨[], by simp, by simp, newGen_of h1⟩
    · exact ⟨[z], by simp, by simpa [zOfLayout_grid hu.grid] using hz, newGen_of h1⟩

/-- **C40** Whenever `set_trans_s` returns, the block `log_trans_s` maps every stabilizer to its stored new generator. -/
theorem C40_maps_stabilizers (h : unrotSurfaceCodeRectangle dx dz a = .ok l0) (hw : WithParams l0 l)
    (e : unrotSetTransS q l = (.ok (), l')) (hk : KeptGate ("trans-s_" ++ a.label) l' l'') (nm : NoiseModel)
    (hr : CanRun nm l'') (o : SetOrder) :
    AppliesGate nm [l''] ("trans-s_" ++ a.label) (sumGen (transSIter o nm l'')) := by
  obtain ⟨hu, -, p, e1, e2, P, G, sw, -, -, -, hus, hst⟩ := trans_s_tables h hw e hk
  exact hst.applies hu.grid hr o (Or.inr hu.code) (firstLogical_of hu.log)

/-- **C40** The images of the stabilizers have sign +, so eigenvalues +1 stay +1. -/
theorem C40_signs (h : unrotSurfaceCodeRectangle dx dz a = .ok l0) (hw : WithParams l0 l)
    (e : unrotSetTransS q l = (.ok (), l')) (hk : KeptGate ("trans-s_" ++ a.label) l' l'') (nm : NoiseModel)
    (hr : CanRun nm l'') (o : SetOrder) : ∀ x ∈ ancOfLayout l'',
    MapsSigned nm [l''] ("trans-s_" ++ a.label) (sumGen (transSIter o nm l'')) l'' x 0 := by
  obtain ⟨hu, -, p, e1, e2, P, G, sw, hc1, hc2, -, hus, hst⟩ := trans_s_tables h hw e hk
  intro x hx
  rw [ancOfLayout_grid hu.grid] at hx
  rcases anc_cases hx with hx | hz
  · have := hst.signedX hu.grid hr o (Or.inr hu.code) (firstLogical_of hu.log) hx
    rwa [hus.phase_x hu.grid hc1 hc2 hx] at this
  · exact hst.signedZ hu.grid hr o (Or.inr hu.code) (firstLogical_of hu.log) hz

/-- **C40** The block maps the logical X to the product of the logical X and Z, and keeps the logical Z, up to
stabilizers. -/
theorem C40_maps_logicals (h : unrotSurfaceCodeRectangle dx dz a = .ok l0) (hw : WithParams l0 l)
    (e : unrotSetTransS q l = (.ok (), l')) (hk : KeptGate ("trans-s_" ++ a.label) l' l'') (nm : NoiseModel)
    (hr : CanRun nm l'') (o : SetOrder) :
    MapsLogical nm [l''] (sumGen (transSIter o nm l'')) l'' a.label true [(l'', a.label, true), (l'', a.label, false)] ∧
      MapsLogical nm [l''] (sumGen (transSIter o nm l'')) l'' a.label false [(l'', a.label, false)] := by
  obtain ⟨hu, hd1, p, e1, e2, P, G, sw, hc1, hc2, hε, hus, hst⟩ := trans_s_tables h hw e hk
  have hX : l''.logX.get? a.label = some (logXList a dx (2 * dx - 1)) := by rw [hu.logX]; simp [Dict.get?]
  have hZ : l''.logZ.get? a.label = some (logZList a dx) := by rw [hu.logZ]; simp [Dict.get?]
  refine ⟨hst.mapsLogicalX hu.grid hr o (Or.inr hu.code) (firstLogical_of hu.log) hX hZ
    (fun e he => mem_dataOf.2 (unrot_logX_data hd1 he)) _ ?_ (hus.logical hu hd1 hc1 hc2),
    hst.mapsLogicalZ hu.grid hr o (Or.inr hu.code) (firstLogical_of hu.log) hZ
      fun e he => mem_dataOf.2 (unrot_logZ_data hd1 he)⟩
  split <;> simp

/-- **C40** With phases: the logical X is mapped to `i X Z`, which is the logical Y, and the logical Z to itself, so the
gate is a logical S and not its inverse. -/
theorem C40_logical_signs (h : unrotSurfaceCodeRectangle dx dz a = .ok l0) (hw : WithParams l0 l)
    (e : unrotSetTransS q l = (.ok (), l')) (hk : KeptGate ("trans-s_" ++ a.label) l' l'') (nm : NoiseModel)
    (hr : CanRun nm l'') (o : SetOrder) :
    MapsLogicalSigned nm [l''] (sumGen (transSIter o nm l'')) l'' a.label true
        [(l'', a.label, true), (l'', a.label, false)] 1 ∧
      MapsLogicalSigned nm [l''] (sumGen (transSIter o nm l'')) l'' a.label false [(l'', a.label, false)] 0 := by
  obtain ⟨hu, hd1, p, e1, e2, P, G, sw, hc1, hc2, hε, hus, hst⟩ := trans_s_tables h hw e hk
  have hX : l''.logX.get? a.label = some (logXList a dx (2 * dx - 1)) := by rw [hu.logX]; simp [Dict.get?]
  have hZ : l''.logZ.get? a.label = some (logZList a dx) := by rw [hu.logZ]; simp [Dict.get?]
  constructor
  · rw [← hus.phase_logical hu hd1 hc1 hc2]
    refine hst.signedLogicalX hu.grid hr o (Or.inr hu.code) (firstLogical_of hu.log) hX hZ (logXList_nodup a dx (by omega))
      (logZList_nodup a dx) (fun e he => mem_dataOf.2 (unrot_logX_data hd1 he))
      (fun e he => mem_dataOf.2 (unrot_logZ_data hd1 he)) _ ?_ (hus.logical hu hd1 hc1 hc2)
    split <;> simp
  · exact hst.signedLogicalZ hu.grid hr o (Or.inr hu.code) (firstLogical_of hu.log) hZ
      fun e he => mem_dataOf.2 (unrot_logZ_data hd1 he)

/-- **C40** `log_trans_s` returns the circuit of the block and updates the detectors with the stored new generators of
all ancillas. -/
theorem C40_updates_detectors (h : unrotSurfaceCodeRectangle dx dz a = .ok l0) (hw : WithParams l0 l)
    (e : unrotSetTransS q l = (.ok (), l')) (hk : KeptGate ("trans-s_" ++ a.label) l' l'') (nm : NoiseModel)
    (o : SetOrder) (cfg : Detectors.Config) :
    ∃ D, (∀ x ∈ ancOfLayout l'', D.get? x = some (newGen l'' ("trans-s_" ++ a.label) x)) ∧
      (∀ x, x ∈ D.keys ↔ x ∈ ancOfLayout l'') ∧
      ∀ (m m' : MeasState) (s s' : Detectors.State cfg) (c : Circuit), transS o nm l'' (m, s) = (.ok c, (m', s')) ↔
        Detectors.updateFromDict D s = (.ok (), s') ∧ sumGen (transSIter o nm l'') m = (.ok c, m') := by
  obtain ⟨hu, -, p, e1, e2, P, G, sw, -, -, -, hus, hst⟩ := trans_s_tables h hw e hk
  obtain ⟨D, h2, h3, h4⟩ := newStabDict_grid hu.grid (label := "trans-s_" ++ a.label) fun x hx => by
    rcases anc_cases hx with hx | hz
    · rcases hst.x x hx with ⟨h1, -⟩ | ⟨z, hz, h1, -⟩ <;> exact ⟨_, h1⟩
    · exact ⟨_, hst.z x hz⟩
  refine ⟨D, h3, h4, fun m m' s s' c => ?_⟩
  rw [← gateBlock_iff]
  unfold transS
  rw [firstLogical_of hu.log, PyM.bind_ok (PyM.ofExcept_apply _ _), h2, PyM.bind_ok (PyM.ofExcept_apply _ _)]
  rfl

/-- The unrotated code of distance 2 with the gate folded along the diagonal of D1. -/
def sExample : Layout := (unrotSetTransS "D1" (layoutOf (unrotSurfaceCode 2 unrotDefault))).2

/-- For instance the unrotated code of distance 2: the diagonal has S, S_DAG, S, and X1 is multiplied with Z1. -/
example (o : SetOrder) : ∃ (l l' : Layout), unrotSurfaceCode 2 unrotDefault = .ok l ∧ CanRun (noiselessFor l') l' ∧
    (l.getNeighbors ["D1"] none).length = 2 ∧ unrotSetTransS "D1" l = (.ok (), l') ∧
    newGen l' "trans-s_L0" "X1" = ["X1", "Z1"] ∧ newGen l' "trans-s_L0" "Z2" = ["Z2"] ∧
    partnerAt l' "trans-s_L0" "cz" "D2" = some "D4" ∧ localAt l' "trans-s_L0" "D3" = some "S_DAG" ∧
    localAt l' "trans-s_L0" "D5" = some "S" ∧
    AppliesGate (noiselessFor l') [l'] "trans-s_L0" (sumGen (transSIter o (noiselessFor l') l')) ∧
    MapsSigned (noiselessFor l') [l'] "trans-s_L0" (sumGen (transSIter o (noiselessFor l') l')) l' "X1" 0 := by
  have h1 : unrotSurfaceCode 2 unrotDefault = .ok (layoutOf (unrotSurfaceCode 2 unrotDefault)) :=
    ok_layoutOf (by decide +kernel)
  have h2 : unrotSetTransS "D1" (layoutOf (unrotSurfaceCode 2 unrotDefault)) = (.ok (), sExample) :=
    Prod.ext (by decide +kernel) rfl
  have h3 := canRun_noiseless (l := sExample) (by decide +kernel)
  exact ⟨_, _, h1, h3, by decide +kernel, h2, by decide +kernel, by decide +kernel, by decide +kernel, by decide +kernel,
    by decide +kernel, C40_maps_stabilizers h1 .refl h2 ⟨.refl, fun _ => rfl⟩ _ h3 o,
    C40_signs h1 .refl h2 ⟨.refl, fun _ => rfl⟩ _ h3 o "X1" (by decide +kernel)⟩

end SurfaceSim.Props
