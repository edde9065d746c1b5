/-
Between TICKs the transversal gates use every qubit of their layouts once (C28).
-/
import Verif.Lemmas.UsageTrans
import Verif.Lemmas.CnotCodes
import Verif.Props.TransS
import Verif.Props.TransSRot
import Verif.Props.TransH
import Verif.Props.TransCnot
import Verif.Props.Usage

namespace SurfaceSim.Props
open Spec NoiseModel Blocks LayoutLib LogGates

variable {l0 l l' l'' : Layout} {a : Args} {dx dz dx' dz' : Int} {q : String} {nm : NoiseModel} {p : Gate → Bool} {ex : Bool} {cfg : Detectors.Config}

/-- **C28** In `log_trans_s` of an unrotated code every qubit of the layout is used once between TICKs. -/
theorem C28_unrot_trans_s (h : unrotSurfaceCodeRectangle dx dz a = .ok l0) (hw : WithParams l0 l)
    (e : unrotSetTransS q l = (.ok (), l')) (hk : KeptGate ("trans-s_" ++ a.label) l' l'') (hu : Uses p ex nm) (o : SetOrder) :
    OncePerTick p ex nm.inds l'' true 2 true (transS (cfg := cfg) o nm l'') := by
  obtain ⟨hi, -, p, e1, e2, P, G, sw, -, -, -, -, hst⟩ := trans_s_tables h hw e hk
  obtain ⟨qs, h1, h2, h3⟩ := once_transS hu hi.grid o (Or.inr hi.code) (firstLogical_of hi.log) hst.sym
  exact ⟨qs, h1, h2, fun s c s' hs => by obtain ⟨m, m', hm⟩ := transS_circuit hs; exact h3 m c m' hm⟩

/-- **C28** Same for rotated codes. -/
theorem C28_rot_trans_s (h : rotSurfaceCodeRectangle dx dz a = .ok l0) (hw : WithParams l0 l)
    (e : rotSetTransS q l = (.ok (), l')) (hk : KeptGate ("trans-s_" ++ a.label) l' l'') (hu : Uses p ex nm) (o : SetOrder) :
    OncePerTick p ex nm.inds l'' true 2 true (transS (cfg := cfg) o nm l'') := by
  obtain ⟨hi, -, P, G, sw, -, hst⟩ := rot_trans_s_tables h hw e hk
  obtain ⟨qs, h1, h2, h3⟩ := once_transS hu hi.grid o (Or.inl hi.code) (firstLogical_of hi.log) hst.sym
  exact ⟨qs, h1, h2, fun s c s' hs => by obtain ⟨m, m', hm⟩ := transS_circuit hs; exact h3 m c m' hm⟩

/-- **C28** Same for `log_trans_h` of unrotated codes. -/
theorem C28_unrot_trans_h (h : unrotSurfaceCodeRectangle dx dz a = .ok l0) (hw : WithParams l0 l)
    (e : unrotSetTransH q l = (.ok (), l')) (hk : KeptGate ("trans-h_" ++ a.label) l' l'') (hu : Uses p ex nm) (o : SetOrder) :
    OncePerTick p ex nm.inds l'' true 2 true (transH (cfg := cfg) o nm l'') := by
  obtain ⟨rfl, h1, -, p, ε, hq, hε, ht⟩ := unrotSetTransH_ok h hw e
  have hi := isUnrot_of_params h (WithParams.trans hw (WithParams.trans h1 hk.1))
  obtain ⟨qs, h1, h2, h3⟩ := once_transH hu hi.grid o hi.code (firstLogical_of hi.log) ((ht.congr hk.2).symTable hi.grid hε)
  exact ⟨qs, h1, h2, fun s c s' hs => by obtain ⟨m, m', hm⟩ := transH_circuit hs; exact h3 m c m' hm⟩

/-- **C28** In `log_trans_cnot` every qubit of both layouts is used once between TICKs. -/
theorem C28_trans_cnot {code : String} {ac a_t : Args} {lc0 lt0 lc lt lc' lt' lc'' lt'' : Layout} {mt : Matcher} {o : SetOrder}
    (hc : MadeBy code dx dz ac lc0) (ht : MadeBy code dx' dz' a_t lt0) (hwc : WithParams lc0 lc)
    (hwt : WithParams lt0 lt) (hn : CoordsNear lc lt) (e : setTransCnot code mt o (lc, lt) = (.ok (), (lc', lt')))
    (hkc : KeptGate ("trans-cnot_" ++ ac.label ++ "_" ++ a_t.label) lc' lc'')
    (hkt : KeptGate ("trans-cnot_" ++ ac.label ++ "_" ++ a_t.label) lt' lt'') (hu : Uses p ex nm) (o' : SetOrder) :
    ∃ qc qt, lc''.getQubits [] = .ok qc ∧ lt''.getQubits [] = .ok qt ∧ (qc ++ qt).Nodup ∧
      ∀ s c s', transCnot (cfg := cfg) o' nm lc'' lt'' s = (.ok c, s') → EachOnce p ex ((qc ++ qt).map (ind nm.inds)) true 1 true c := by
  obtain ⟨Lc, Lt, dirs, oc, ot, hp, hT, htab, -⟩ := cnot_done hc ht hwc hwt hn e hkc hkt
  refine ⟨_, _, hT.c.getQubits_all, hT.t.getQubits_all, ?_, fun s c s' hs => ?_⟩
  · rw [List.nodup_append]
    exact ⟨hT.c.labels, hT.t.labels, fun a h1 b h2 he => hT.apart a h1 (he ▸ h2)⟩
  · obtain ⟨m, m', hm⟩ := transCnot_circuit hs
    exact once_transCnot hu hT o' (by rw [hp.codeC]; exact hp.isCode) (by rw [hp.codeT]; exact hp.isCode)
      (cnotLabel_of hp.logC hp.logT) htab hm

/-- C28: the S gate of the unrotated code of distance 2 with a circuit-level noise model and with an explicit one. -/
example (st : Setup) (o : SetOrder) : ∃ l l' : Layout, unrotSurfaceCode 2 unrotDefault = .ok l ∧ unrotSetTransS "D1" l = (.ok (), l') ∧
    OncePerTick acts true (noiselessFor l').inds l' true 2 true (transS (cfg := cfg) o (noiselessFor l') l') ∧
    OncePerTick acts false (noiselessFor l').inds l' true 2 true (transS (cfg := cfg) o (circuitNoise st (noiselessFor l').inds) l') := by
  have h1 : unrotSurfaceCode 2 unrotDefault = .ok (layoutOf (unrotSurfaceCode 2 unrotDefault)) :=
    ok_layoutOf (by decide +kernel)
  have h2 : unrotSetTransS "D1" (layoutOf (unrotSurfaceCode 2 unrotDefault)) = (.ok (), sExample) :=
    Prod.ext (by decide +kernel) rfl
  exact ⟨_, _, h1, h2, C28_unrot_trans_s h1 .refl h2 ⟨.refl, fun _ => rfl⟩ (uses_noiseless _) o,
    C28_unrot_trans_s h1 .refl h2 ⟨.refl, fun _ => rfl⟩ (uses_circuitNoise _ _) o⟩

/-- C28: the steps of this gate: the local gates, then the CZ gates; all 9 qubits in both. -/
example : ∃ c s', sumGen (transSIter .insertion (noiselessFor sExample) sExample) (.fresh (noiselessFor sExample).inds) = (.ok c, s') ∧
    (tickBlocks c).map (fun b => (used acts b).length) = [0, 9, 9, 0] :=
  ⟨_, _, ok_result (by decide +kernel), by decide +kernel⟩

end SurfaceSim.Props
