/-
The coordinates at the beginning of an experiment.
-/
import Verif.Lemmas.RotRounds
import Verif.Lemmas.UnrotRounds

namespace SurfaceSim
open Spec NoiseModel Blocks LayoutLib

/-- The coordinates stored in the layout are tuples of numbers. -/
def NumCoords (l : Layout) : Prop :=
  ∀ n ∈ l.graph.nodes, ∀ v, n.2.get? "coords" = some v → ∃ c, v = .coords c

theorem NumCoords.setParam {l l' : Layout} (h : NumCoords l) {key q : String} {v : Val}
    (hs : l.setParam key q v = .ok l') (hk : key ≠ "coords") : NumCoords l' := by
  unfold Layout.setParam at hs
  cases hq : l.graph.nodes.get? q with
  | none => rw [hq] at hs; simp at hs
  | some attrs =>
    rw [hq] at hs
    simp only [Except.ok.injEq] at hs
    subst hs
    intro n hn w hw
    rcases Layout.set_mem hn with rfl | hn
    · rw [Dict.get?_set_ne _ hk] at hw
      exact h _ (Dict.mem_of_get? hq) w hw
    · exact h n hn w hw

theorem NumCoords.params {l0 l : Layout} (h : NumCoords l0) (hw : WithParams l0 l) : NumCoords l := by
  induction hw with
  | refl => exact h
  | set _ hk hs ih =>
    simp only [List.mem_cons, List.not_mem_nil, or_false, not_or] at hk
    exact NumCoords.setParam ih hs hk.2.2.2.1

theorem numCoords_of_init {L : List (String × Site × Kind)} {dirs : List (Site × String)} {l : Layout}
    (hg : OnGrid l L dirs) (h : ∀ e ∈ L, ∃ c, l.param "coords" e.1 = .ok (.coords c)) : NumCoords l := by
  intro n hn v hv
  have h1 : n.1 ∈ L.map Prod.fst := by
    rw [← hg.keys]; exact List.mem_map.2 ⟨n, hn, rfl⟩
  obtain ⟨e, he, h2⟩ := List.mem_map.1 h1
  obtain ⟨c, hc⟩ := h e he
  rw [h2, Layout.param_node (Layout.inv_of_reachable hg.reach) hn, hv] at hc
  simp at hc
  exact ⟨c, hc⟩

theorem rot_numCoords {a : Args} {dx dz : Int} {l : Layout} (h : rotSurfaceCodeRectangle dx dz a = .ok l) :
    NumCoords l := by
  have := onGrid_of_init (rot_gridData a dx dz) (rot_infoData a dx dz) rfl (rot_init h).2.2
  refine numCoords_of_init this.1 fun e he => ?_
  obtain ⟨k, hk⟩ := List.mem_iff_getElem?.1 he
  exact ⟨_, (this.2 k e hk).1⟩

theorem unrot_numCoords {a : Args} {dx dz : Int} {l : Layout} (h : unrotSurfaceCodeRectangle dx dz a = .ok l) :
    NumCoords l := by
  have := onGrid_of_init (unrot_gridData a dx dz) (unrot_infoData a dx dz) rfl (unrot_init h).2.2
  refine numCoords_of_init this.1 fun e he => ?_
  obtain ⟨k, hk⟩ := List.mem_iff_getElem?.1 he
  exact ⟨_, (this.2 k e hk).1⟩

theorem coords_foldl {inds : Dict String Nat} (D : Dict String (List Rat)) (hD : ∀ kv ∈ D, kv.1 ∈ inds.keys) :
    ∀ c0 : Circuit, EvenPairs c0 → ops c0 = [] → ∃ c, D.foldl (fun (acc : Except Err Circuit) kv =>
      match acc with
      | .error e => .error e
      | .ok c =>
        match inds.get? kv.1 with
        | none => .error .keyError
        | some i => NoiseModel.appendOp c .QUBIT_COORDS [i] (kv.2.map Arg.num)) (.ok c0) = .ok c ∧ EvenPairs c ∧ ops c = [] := by
  induction D with
  | nil => intro c0 h1 h2; exact ⟨c0, rfl, h1, h2⟩
  | cons kv D ih =>
    intro c0 h1 h2
    obtain ⟨i, hi⟩ := Option.isSome_iff_exists.1 ((Dict.get?_isSome_iff _ _).2 (hD kv (by simp)))
    rw [List.foldl_cons]
    simp only [hi]
    have e : NoiseModel.appendOp c0 .QUBIT_COORDS [i] (kv.2.map Arg.num) =
        .ok (Circuit.append c0 ⟨.QUBIT_COORDS, [.qubit i], kv.2.map Arg.num⟩) := rfl
    rw [e]
    refine ih (fun kv' h => hD kv' (by simp [h])) _ ?_ ?_
    · exact (elems_circuit_append _ _ h1 (by simp [Gate.isTwoQubit])).2
    · rw [ops_append_even _ _ h1 (by simp [Gate.isTwoQubit]), h2]; rfl

theorem qubitCoords_one {nm : NoiseModel} {l : Layout} (hl : NumCoords l)
    (hk : ∀ n ∈ l.graph.nodes, n.1 ∈ nm.inds.keys) :
    ∃ D c, Blocks.coordDict l = .ok D ∧ NoiseModel.qubitCoords nm.inds D = .ok c ∧ EvenPairs c ∧ ops c = [] := by
  obtain ⟨D, hD, hDk⟩ : ∃ D, Blocks.coordDict l = .ok D ∧ ∀ kv ∈ D, kv.1 ∈ nm.inds.keys := by
    unfold Blocks.coordDict
    have hq : ∀ kv ∈ l.qubitCoords, kv.1 ∈ nm.inds.keys ∧ ∃ c, kv.2 = .coords c := by
      intro kv h
      obtain ⟨n, hn, h⟩ := List.mem_filterMap.1 h
      cases hv : n.2.get? "coords" with
      | none => rw [hv] at h; simp at h
      | some v =>
        rw [hv] at h
        simp at h
        subst h
        exact ⟨hk n hn, hl n hn v hv⟩
    refine ⟨_, mapExcept_ok _ _ (fun kv => (kv.1, match kv.2 with | .coords c => c | _ => [])) ?_, ?_⟩
    · intro kv h
      obtain ⟨c, hc⟩ := (hq kv h).2
      rw [hc]; rfl
    · intro kv h
      obtain ⟨kv', h', rfl⟩ := List.mem_map.1 h
      exact (hq kv' h').1
  obtain ⟨c, h1, h2, h3⟩ := coords_foldl D hDk [] (fun i hi => by simp at hi) rfl
  refine ⟨D, c, hD, ?_, h2, h3⟩
  have : NoiseModel.strictSuperset D.keys nm.inds.keys = false := by
    unfold NoiseModel.strictSuperset
    rw [Bool.and_eq_false_iff]
    right
    rw [List.any_eq_false]
    intro q hq
    obtain ⟨kv, h, rfl⟩ := List.mem_map.1 hq
    simpa using hDk kv h
  unfold NoiseModel.qubitCoords
  rw [this]
  exact h1

theorem qubitCoords_ok {nm : NoiseModel} {l : Layout} (hl : NumCoords l)
    (hk : ∀ n ∈ l.graph.nodes, n.1 ∈ nm.inds.keys) :
    ∃ c, Blocks.qubitCoords nm [l] = .ok c ∧ EvenPairs c ∧ ops c = [] := by
  obtain ⟨D, c, hD, h4, h2, h3⟩ := qubitCoords_one hl hk
  refine ⟨Circuit.concat [] c, ?_, ?_⟩
  · unfold Blocks.qubitCoords qubitCoordsLoop
    rw [hD]
    simp only [h4]
    rfl
  · have := ops_concat (a := []) (fun i hi => by simp at hi) h2
    exact ⟨this.2, by rw [this.1, h3]; rfl⟩

theorem qubitCoords_two {nm : NoiseModel} {l l' : Layout} (hl : NumCoords l)
    (hk : ∀ n ∈ l.graph.nodes, n.1 ∈ nm.inds.keys) (hl' : NumCoords l') (hk' : ∀ n ∈ l'.graph.nodes, n.1 ∈ nm.inds.keys) :
    ∃ c, Blocks.qubitCoords nm [l, l'] = .ok c ∧ EvenPairs c ∧ ops c = [] := by
  obtain ⟨D, c, hD, h4, h2, h3⟩ := qubitCoords_one hl hk
  obtain ⟨D', c', hD', h4', h2', h3'⟩ := qubitCoords_one hl' hk'
  have k := ops_concat (a := []) (fun i hi => by simp at hi) h2
  have k' := ops_concat k.2 h2'
  refine ⟨(Circuit.concat [] c).concat c', ?_, k'.2, by rw [k'.1, k.1, h3, h3']; rfl⟩
  unfold Blocks.qubitCoords qubitCoordsLoop
  rw [hD]
  simp only [h4]
  unfold qubitCoordsLoop
  rw [hD']
  simp only [h4']
  rfl

end SurfaceSim
