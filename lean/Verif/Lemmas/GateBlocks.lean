/-
The transversal S and H gates in experiments.
-/
import Verif.Lemmas.GateCodes
import Verif.Lemmas.SGate
import Verif.Lemmas.UnrotH

namespace SurfaceSim
open Spec NoiseModel Blocks Experiments LayoutLib LogGates

variable {cfg : Detectors.Config} {nm : NoiseModel} {l : Layout} {L : List (String × Site × Kind)}
  {dirs : List (Site × String)} {lab : String}

theorem pairs_of_does (hinj : IndsInj nm.inds) {b : Call1} {ops' : List (Op String)} (hb : Does nm.inds b ops')
    (hd : ∀ op ∈ ops', op.Distinct) (s : MeasState) (hist : List String) (hs : s.Tracks nm.inds hist) :
    ∃ c s', b s = (.ok c, s') ∧ PairsOk c := by
  obtain ⟨c, s', e, he, ho, -⟩ := hb.2 s hist hs
  exact ⟨c, s', e, pairsOk_of_ops hinj he ho hb.1 hd⟩

/-- The image of the logical operators under S. -/
def imageS : Bool → List Bool
  | true => [true, false]
  | false => [false]

theorem STable.gateBlock {P : String → Option String} {G : String → String} (hg : OnGrid l L dirs) (hr : CanRun nm l)
    (o : SetOrder) (hcode : l.code = "rotated_surface_code" ∨ l.code = "unrotated_surface_code")
    (hlab : firstLogical l = .ok lab) (ht : STable l L ("trans-s_" ++ lab) P G)
    (hX : MapsLogical nm [l] (sumGen (transSIter o nm l)) l lab true [(l, lab, true), (l, lab, false)])
    (hZ : MapsLogical nm [l] (sumGen (transSIter o nm l)) l lab false [(l, lab, false)]) :
    ∃ Z, GateBlock nm l L lab ("trans-s_" ++ lab) (sumGen (transSIter o nm l)) (fun x _ => x) Z imageS := by
  refine ⟨_, acts_transS hg hr o hcode hlab ht.sym, ?_, fun x z q hq => ⟨rfl, ?_⟩, fun x z x' z' h q hq => ⟨(h q hq).1, ?_⟩,
    fun _ _ _ _ => rfl, ht.applies hg hr o hcode hlab, fun k => ?_, Or.inl fun a ha => ?_⟩
  · obtain ⟨ps, sa, sb, -, -, -, k4, -, -, hb⟩ := does_transS hg hr o hcode hlab ht.sym
    refine pairs_of_does hr.inj hb fun op hop => ?_
    simp only [List.mem_append, List.mem_map] at hop
    rcases hop with (⟨d, -, rfl⟩ | ⟨d, -, rfl⟩) | ⟨p, hp, rfl⟩
    · trivial
    · trivial
    · exact ne_of_lt ((k4 p).1 hp).2.2
  · show z q + _ + _ = z q
    rw [add_assoc, CharTwo.add_self_eq_zero, add_zero]
  · show z q + _ = z' q + _
    rw [(h q hq).2, (h q hq).1]
    congr 1
    simp only [hq, if_true]
    congr 1
    cases hP : P q with
    | none => rfl
    | some e => exact (h e (ht.sym.sym q hq e hP).1).1
  · cases k
    · exact hZ
    · exact hX
  · rcases anc_cases ha with hx | hz
    · rcases ht.x a hx with ⟨h1, -⟩ | ⟨z, hz, h1, -⟩
      · exact ⟨[], newGen_of h1, by simp, by simp⟩
      · refine ⟨[z], newGen_of h1, ?_, ?_⟩
        · simp only [List.nodup_cons, List.mem_singleton, List.not_mem_nil, not_false_eq_true, List.nodup_nil, and_true]
          rintro rfl
          exact x_not_z hg hz hx
        · intro y hy
          rw [List.mem_singleton] at hy
          subst hy
          exact ⟨mem_anc_of_z hz, newGen_of (ht.z y hz)⟩
    · exact ⟨[], newGen_of (ht.z a hz), by simp, by simp⟩

/-- The dictionary of the gate, and the gate as updates of detectors and model. -/
theorem transS_iff (hg : OnGrid l L dirs) (o : SetOrder) (hlab : firstLogical l = .ok lab)
    (h : ∀ a ∈ ancOf L, ∃ g, l.param ("trans-s_" ++ lab) a = .ok (.gate [("new_stab_gen", .strs g)])) :
    ∃ D : Dict String (List String), D.keys.Nodup ∧ (∀ a ∈ ancOf L, D.get? a = some (newGen l ("trans-s_" ++ lab) a)) ∧
      (∀ a, a ∈ D.keys ↔ a ∈ ancOf L) ∧
      ∀ (m m' : MeasState) (s s' : Detectors.State cfg) (c : Circuit), transS o nm l (m, s) = (.ok c, (m', s')) ↔
        Detectors.updateFromDict D s = (.ok (), s') ∧ sumGen (transSIter o nm l) m = (.ok c, m') := by
  obtain ⟨D, h2, h3, h4⟩ := newStabDict_grid hg h
  rw [ancOfLayout_grid hg] at h3 h4
  refine ⟨D, newStabDict_nodup h2, h3, h4, fun m m' s s' c => ?_⟩
  rw [← gateBlock_iff]
  unfold transS
  rw [hlab, PyM.bind_ok (PyM.ofExcept_apply _ _), h2, PyM.bind_ok (PyM.ofExcept_apply _ _)]
  rfl

theorem transH_iff (hg : OnGrid l L dirs) (o : SetOrder) (hlab : firstLogical l = .ok lab)
    (h : ∀ a ∈ ancOf L, ∃ g, l.param ("trans-h_" ++ lab) a = .ok (.gate [("new_stab_gen", .strs g)])) :
    ∃ D : Dict String (List String), D.keys.Nodup ∧ (∀ a ∈ ancOf L, D.get? a = some (newGen l ("trans-h_" ++ lab) a)) ∧
      (∀ a, a ∈ D.keys ↔ a ∈ ancOf L) ∧
      ∀ (m m' : MeasState) (s s' : Detectors.State cfg) (c : Circuit), transH o nm l (m, s) = (.ok c, (m', s')) ↔
        Detectors.updateFromDict D s = (.ok (), s') ∧ sumGen (transHIter o nm l) m = (.ok c, m') := by
  obtain ⟨D, h2, h3, h4⟩ := newStabDict_grid hg h
  rw [ancOfLayout_grid hg] at h3 h4
  refine ⟨D, newStabDict_nodup h2, h3, h4, fun m m' s s' c => ?_⟩
  rw [← gateBlock_iff]
  unfold transH
  rw [hlab, PyM.bind_ok (PyM.ofExcept_apply _ _), h2, PyM.bind_ok (PyM.ofExcept_apply _ _)]
  rfl

theorem STable.stored {P : String → Option String} {G : String → String} (ht : STable l L ("trans-s_" ++ lab) P G)
    (a : String) (ha : a ∈ ancOf L) : ∃ g, l.param ("trans-s_" ++ lab) a = .ok (.gate [("new_stab_gen", .strs g)]) := by
  rcases anc_cases ha with hx | hz
  · rcases ht.x a hx with ⟨h1, -⟩ | ⟨z, hz, h1, -⟩ <;> exact ⟨_, h1⟩
  · exact ⟨_, ht.z a hz⟩

theorem HTable.gateBlock {a : Args} {dx : Int} {p : Site} {ε : Int} {q : String} (hu : IsUnrot a dx dx l)
    (hr : CanRun nm l) (o : SetOrder) (hε : ε = 1 ∨ ε = -1) (hq : (q, p, Kind.data) ∈ unrotEntries a dx dx)
    (ht : HTable l (unrotEntries a dx dx) ("trans-h_" ++ a.label) p ε) :
    GateBlock nm l (unrotEntries a dx dx) a.label ("trans-h_" ++ a.label) (sumGen (transHIter o nm l))
      (fun x z q => if q ∈ dataOf (unrotEntries a dx dx) then z (SurfaceSim.swapWith l ("trans-h_" ++ a.label) q) else x q)
      (fun x z q => if q ∈ dataOf (unrotEntries a dx dx) then x (SurfaceSim.swapWith l ("trans-h_" ++ a.label) q) else z q)
      fun k => [!k] := by
  have hg := hu.grid
  have hs := ht.symTable hg hε
  have hmem : ∀ q ∈ dataOf (unrotEntries a dx dx), SurfaceSim.swapWith l ("trans-h_" ++ a.label) q ∈ dataOf (unrotEntries a dx dx) := by
    intro q hq
    obtain ⟨s, hq⟩ := mem_dataOf.1 hq
    exact mem_dataOf.2 ⟨_, (ht.swapWith hq).1⟩
  have hinv : ∀ d ∈ dataOf (unrotEntries a dx dx),
      SurfaceSim.swapWith l ("trans-h_" ++ a.label) (SurfaceSim.swapWith l ("trans-h_" ++ a.label) d) = d := by
    intro d hd
    obtain ⟨s, hd⟩ := mem_dataOf.1 hd
    have h1 := (ht.swapWith (ht.swapWith hd).1).1
    rw [refl_refl hε] at h1
    exact (hg.unique' h1 hd).1
  refine ⟨acts_transH hg hr o hu.code (firstLogical_of hu.log) hs, ?_, fun x z q hq => ?_, fun x z x' z' h q hq => ?_,
    fun x z q hq => by simp [hq], ht.applies hu hr o hε, fun k => ht.mapsLogical hu hr o hε hq k, Or.inr fun x hx => ?_⟩
  · obtain ⟨ps, sa, -, -, k4, -, hb⟩ := does_transH hg hr o hu.code (firstLogical_of hu.log) hs
    refine pairs_of_does hr.inj hb fun op hop => ?_
    simp only [List.mem_append, List.mem_map] at hop
    rcases hop with ⟨d, -, rfl⟩ | ⟨p, hp, rfl⟩
    · trivial
    · exact ne_of_lt ((k4 p).1 hp).2.2
  · simp only [hq, hmem q hq, if_true, hinv q hq, and_self]
  · simp only [hq, if_true]
    exact ⟨(h _ (hmem q hq)).2, (h _ (hmem q hq)).1⟩
  · obtain ⟨s, k, hx, hk⟩ := mem_ancOf.1 hx
    obtain ⟨y, hy, h1⟩ := ht.newGen hx hk
    have hky : flipKind k ≠ .data := by cases k <;> simp [flipKind] at hk ⊢
    obtain ⟨x', hx', h2⟩ := ht.newGen hy hky
    rw [refl_refl hε] at hx'
    rw [(hg.unique' hx' hx).1] at h2
    exact ⟨y, mem_ancOf.2 ⟨_, _, hy, hky⟩, h1, h2⟩

theorem HTable.stored {a : Args} {dx : Int} {p : Site} {ε : Int}
    (ht : HTable l (unrotEntries a dx dx) ("trans-h_" ++ a.label) p ε) (x : String) (hx : x ∈ ancOf (unrotEntries a dx dx)) :
    ∃ g, l.param ("trans-h_" ++ a.label) x = .ok (.gate [("new_stab_gen", .strs g)]) := by
  obtain ⟨s, k, hx, hk⟩ := mem_ancOf.1 hx
  obtain ⟨y, -, h⟩ := ht.anc x s k hx hk
  exact ⟨_, h⟩

end SurfaceSim
