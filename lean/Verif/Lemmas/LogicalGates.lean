/-
Blocks that apply logical Pauli operators.
-/
import Verif.Spec.LogicalGates
import Verif.Lemmas.CommuteGrid
import Verif.Lemmas.MemoryGrid

namespace SurfaceSim
open Spec NoiseModel Blocks LayoutLib

variable {l : Layout} {a : Args} {dx dz : Int} {L : List (String × Site × Kind)} {dirs : List (Site × String)}

theorem countP_swap {A B : List String} (hA : A.Nodup) (hB : B.Nodup) (p : String → Bool) :
    A.countP (fun d => decide (d ∈ B ∧ p d = true)) = B.countP fun d => decide (d ∈ A ∧ p d = true) := by
  rw [List.countP_eq_length_filter, List.countP_eq_length_filter]
  refine List.Perm.length_eq ?_
  rw [List.perm_ext_iff_of_nodup (hA.filter _) (hB.filter _)]
  intro x
  simp only [List.mem_filter, decide_eq_true_eq]
  tauto

/-- The effect of Pauli gates on the value of an operator. -/
theorem anticommutes_pauli {inds : Dict String Nat} (hinj : IndsInj inds) {px pz S0 : List String}
    {τ0 : String → Bool} (hpx : px.Nodup) (hpz : pz.Nodup)
    (hx : ∀ d, d ∈ px ↔ d ∈ S0 ∧ τ0 d = true) (hz : ∀ d, d ∈ pz ↔ d ∈ S0 ∧ τ0 d = false)
    (hk : ∀ d ∈ S0, d ∈ inds.keys) {c : Circuit}
    (hc : ops c = (px.map Op.x ++ pz.map Op.z).map (Op.rename (ind inds))) (ρ : Nat → ZMod 2) (st : FState Nat) :
    (run ρ st (ops c)).recs = st.recs ∧ (run ρ st (ops c)).dets = st.dets ∧ (run ρ st (ops c)).obs = st.obs ∧
    (∀ q ∈ inds.keys, q ∉ S0 → (run ρ st (ops c)).x (ind inds q) = st.x (ind inds q) ∧
      (run ρ st (ops c)).z (ind inds q) = st.z (ind inds q)) ∧
    ∀ (S : List String) (τ : String → Bool), (∀ d ∈ S, d ∈ inds.keys) →
      anticommutes (ind inds) (run ρ st (ops c)) S τ = anticommutes (ind inds) st S τ +
        ((S.countP fun d => decide (d ∈ S0 ∧ decide (τ0 d ≠ τ d) = true) : Nat) : ZMod 2) := by
  have hag := run_renamed (L := px.map Op.x ++ pz.map Op.z) hinj (by
    intro op ho q hq
    rcases List.mem_append.1 ho with h | h
    · obtain ⟨d, hd, rfl⟩ := List.mem_map.1 h
      simp [Op.qubits] at hq
      exact hq ▸ hk d ((hx d).1 hd).1
    · obtain ⟨d, hd, rfl⟩ := List.mem_map.1 h
      simp [Op.qubits] at hq
      exact hq ▸ hk d ((hz d).1 hd).1) ρ st
  rw [← hc, run_append, run_x _ _ hpx, run_z _ _ hpz] at hag
  simp only [pullback] at hag
  refine ⟨hag.recs, hag.dets, hag.obs, fun q hq hqn => ⟨?_, ?_⟩, fun S τ hS => ?_⟩
  · rw [hag.x q hq]
    exact if_neg fun h => hqn ((hx q).1 h).1
  · rw [hag.z q hq]
    exact if_neg fun h => hqn ((hz q).1 h).1
  · unfold anticommutes
    have key : ∀ (S : List String) (v : String → ZMod 2) (p : String → Bool),
        (S.map fun d => v d + if p d then 1 else 0).sum = (S.map v).sum + ((S.countP p : Nat) : ZMod 2) := by
      intro S v p
      rw [List.sum_map_add]
      congr 1
      rw [sum_eq_count, mul_one]
    rw [← key]
    congr 1
    refine List.map_congr_left fun d hd => ?_
    rw [hag.x d (hS d hd), hag.z d (hS d hd)]
    simp only [hx, hz]
    cases τ d <;> cases τ0 d <;> by_cases h : d ∈ S0 <;> simp [h]

variable {lx lz : List String}

/-- A block of Pauli gates on the qubits `S0`, types `τ0`, that commutes with the stabilizers. -/
theorem appliesLogical_grid (hg : OnGrid l L dirs) {nm : NoiseModel} (hr : CanRun nm l) {b : Call1}
    {isX : String → String → Bool} {rot : String → Bool} (ht : Typed l L isX rot) (hc : CodeGrid l L lx lz)
    (hlx : lx.Nodup) (hlz : lz.Nodup) (hodd : overlap lx lz = 1 ∧ overlap lz lx = 1)
    {label : String} (hlx' : l.logX.get? label = some lx) (hlz' : l.logZ.get? label = some lz)
    (isXop : Bool) {px pz : List String} (hpx : px.Nodup) (hpz : pz.Nodup)
    (hx : ∀ d, d ∈ px ↔ d ∈ (if isXop then lx else lz) ∧ (if isXop then !rot d else rot d) = true)
    (hz : ∀ d, d ∈ pz ↔ d ∈ (if isXop then lx else lz) ∧ (if isXop then !rot d else rot d) = false)
    (hb : Does nm.inds b (px.map Op.x ++ pz.map Op.z)) :
    AppliesLogical nm l label b isX (fun d => !rot d) rot (if isXop then 0 else 1) (if isXop then 1 else 0) := by
  refine ⟨_, lx, lz, hg.getQubits_anc, hlx', hlz', fun s hist hs => ?_⟩
  obtain ⟨c, s', e, he, ho, hs'⟩ := hb.2 s hist hs
  have hm : measured (px.map Op.x ++ pz.map Op.z) = [] := by
    rw [measured_append, measured_map_none _ _ (by simp), measured_map_none _ _ (by simp)]; rfl
  rw [hm, List.append_nil] at hs'
  refine ⟨c, s', e, hs', he, fun ρ st => ?_⟩
  have hu := CanRun.usable hr hg
  have hdk : ∀ d ∈ dataOf L, d ∈ nm.inds.keys := by
    intro d hd
    obtain ⟨sd, hsd⟩ := mem_dataOf.1 hd
    exact hu.known _ _ _ hsd
  have hS0d : ∀ d ∈ (if isXop then lx else lz), d ∈ dataOf L := by
    intro d hd
    cases isXop
    · exact hc.subZ d (by simpa using hd)
    · exact hc.subX d (by simpa using hd)
  have hS0n : (if isXop then lx else lz).Nodup := by cases isXop <;> simpa
  obtain ⟨k1, k2, k3, k4, k5⟩ := anticommutes_pauli (c := c) (S0 := if isXop then lx else lz)
    (τ0 := fun d => if isXop then !rot d else rot d) hr.inj hpx hpz hx hz
    (fun d hd => hdk d (hS0d d hd)) ho ρ st
  have hcomm : CommutesAll l (ancOf L) isX (if isXop then lx else lz) (fun d => if isXop then !rot d else rot d) := by
    cases isXop
    · simpa using hc.logicalZ ht
    · simpa using hc.logicalX ht
  refine ⟨k1, k2, k3, fun y hy => ?_, fun y hy => ?_, ?_, ?_⟩
  · obtain ⟨sy, ky, hky, hyd⟩ := mem_ancOf.1 hy
    refine k4 y (hu.known _ _ _ hky) fun h => ?_
    obtain ⟨sd, hsd⟩ := mem_dataOf.1 (hS0d y h)
    exact hyd (hg.unique hky hsd).2
  · rw [k5 _ _ fun d hd => hdk d (nbrs_data hg hy hd)]
    have h1 := hcomm y hy
    rw [countP_swap (hg.neighbors_nodup y) hS0n]
    have h2 : ((if isXop then lx else lz).countP fun d => decide (d ∈ l.getNeighbors [y] none ∧
        decide ((if isXop then !rot d else rot d) ≠ isX y d) = true)) =
        (if isXop then lx else lz).countP fun d => decide (d ∈ l.getNeighbors [y] none ∧
          isX y d ≠ (if isXop then !rot d else rot d)) := by
      refine List.countP_congr fun d _ => ?_
      simp only [decide_eq_true_eq]
      constructor <;> rintro ⟨h, h'⟩ <;> exact ⟨h, fun e => h' e.symm⟩
    rw [h2, even_cast h1, add_zero]
  · rw [k5 _ _ fun d hd => hdk d (hc.subX d hd)]
    congr 1
    cases isXop
    · have : (lx.countP fun d => decide (d ∈ (if false then lx else lz) ∧
          decide ((if false then !rot d else rot d) ≠ !rot d) = true)) = overlap lx lz := by
        unfold overlap
        refine List.countP_congr fun d _ => ?_
        simp
      rw [this, hodd.1]; rfl
    · have : (lx.countP fun d => decide (d ∈ (if true then lx else lz) ∧
          decide ((if true then !rot d else rot d) ≠ !rot d) = true)) = 0 := by
        rw [List.countP_eq_zero]; intro d _; simp
      rw [this]; rfl
  · rw [k5 _ _ fun d hd => hdk d (hc.subZ d hd)]
    congr 1
    cases isXop
    · have : (lz.countP fun d => decide (d ∈ (if false then lx else lz) ∧
          decide ((if false then !rot d else rot d) ≠ rot d) = true)) = 0 := by
        rw [List.countP_eq_zero]; intro d _; simp
      rw [this]; rfl
    · have : (lz.countP fun d => decide (d ∈ (if true then lx else lz) ∧
          decide ((if true then !rot d else rot d) ≠ rot d) = true)) = overlap lz lx := by
        unfold overlap
        refine List.countP_congr fun d _ => ?_
        simp
      rw [this, hodd.2]; rfl

section
variable {nm : NoiseModel} {label : String}

theorem does_logX (hg : OnGrid l L dirs) (hr : CanRun nm l) (o : SetOrder) (h1 : l.logQubits = [label])
    (h2 : l.logX = [(label, lx)]) (h3 : l.logZ = [(label, lz)]) (hsub : ∀ d ∈ lx, d ∈ dataOf L) :
    Does nm.inds (logX o nm l) (lx.map Op.x ++ ([] : List String).map Op.z) := by
  have hk := grid_known hr hg
  have hkd : ∀ q ∈ dataOf L, q ∈ nm.inds.keys := fun q h => hk q (List.mem_append_left _ h)
  unfold logX logXIter ancQubits dataQubits
  rw [hg.getQubits_anc, hg.getQubits_data, logicalSupport_of h1 h2 h3 true]
  simp only [withE, if_true]
  have h1 := does_incoming hr.faithful _ hkd
  have h2 := (does_x hr.faithful lx fun q h => hkd q (hsub q h)).bind_concat
    (does_idle hr.faithful (o.ord (diff (setOf (ancOf L ++ dataOf L)) (setOf lx))) fun q h => by
      rw [mem_ord, mem_diff, mem_setOf] at h
      refine hk q ?_
      simpa [or_comm] using h.1)
  exact (Does.sumGen (Ls := [[], [], lx.map Op.x ++ [], []])
    (.cons h1 (.cons (Does.tick _) (.cons h2 (.cons (Does.tick _) .nil))))).congr (by simp)

theorem does_logZ (hg : OnGrid l L dirs) (hr : CanRun nm l) (o : SetOrder) (h1 : l.logQubits = [label])
    (h2 : l.logX = [(label, lx)]) (h3 : l.logZ = [(label, lz)]) (hsub : ∀ d ∈ lz, d ∈ dataOf L) :
    Does nm.inds (logZ o nm l) (([] : List String).map Op.x ++ lz.map Op.z) := by
  have hk := grid_known hr hg
  have hkd : ∀ q ∈ dataOf L, q ∈ nm.inds.keys := fun q h => hk q (List.mem_append_left _ h)
  unfold logZ logZIter ancQubits dataQubits
  rw [hg.getQubits_anc, hg.getQubits_data, logicalSupport_of h1 h2 h3 false]
  simp only [withE, Bool.false_eq_true, if_false]
  have h1 := does_incoming hr.faithful _ hkd
  have h2 := (does_z hr.faithful lz fun q h => hkd q (hsub q h)).bind_concat
    (does_idle hr.faithful (o.ord (diff (setOf (ancOf L ++ dataOf L)) (setOf lz))) fun q h => by
      rw [mem_ord, mem_diff, mem_setOf] at h
      refine hk q ?_
      simpa [or_comm] using h.1)
  exact (Does.sumGen (Ls := [[], [], lz.map Op.z ++ [], []])
    (.cons h1 (.cons (Does.tick _) (.cons h2 (.cons (Does.tick _) .nil))))).congr (by simp)

theorem does_logXXzzx (hg : OnGrid l L dirs) (hr : CanRun nm l) (o : SetOrder) (h1 : l.logQubits = [label])
    (h2 : l.logX = [(label, lx)]) (h3 : l.logZ = [(label, lz)]) (hsub : ∀ d ∈ lx, d ∈ dataOf L) :
    ∃ px pz : List String, px.Nodup ∧ pz.Nodup ∧ (∀ d, d ∈ px ↔ d ∈ lx ∧ d ∉ xzzxR l L false) ∧
      (∀ d, d ∈ pz ↔ d ∈ lx ∧ d ∈ xzzxR l L false) ∧
      Does nm.inds (logXXzzx o nm l) (px.map Op.x ++ pz.map Op.z) := by
  have hk := grid_known hr hg
  have hkd : ∀ q ∈ dataOf L, q ∈ nm.inds.keys := fun q h => hk q (List.mem_append_left _ h)
  have hka : ∀ q ∈ ancOf L, q ∈ nm.inds.keys := fun q h => hk q (List.mem_append_right _ h)
  refine ⟨o.ord (diff (setOf lx) (setOf (lx.filter (· ∈ xzzxR l L false)))),
    o.ord (setOf (lx.filter (· ∈ xzzxR l L false))), (ord_nodup o).2 ((setOf_nodup _).filter _),
    (ord_nodup o).2 (setOf_nodup _), fun d => ?_, fun d => ?_, ?_⟩
  · simp only [mem_ord, mem_diff, mem_setOf, List.mem_filter, decide_eq_true_eq]
    tauto
  · simp only [mem_ord, mem_setOf, List.mem_filter, decide_eq_true_eq]
  · unfold logXXzzx logXXzzxIter ancQubits dataQubits xzzxRot
    have hs := stabQubits_grid hg false
    unfold stabType at hs
    simp only [Bool.false_eq_true, if_false] at hs
    rw [hg.getQubits_anc, hg.getQubits_data, logicalSupport_of h1 h2 h3 true, hs]
    simp only [withE, if_true]
    have h1 := does_incoming hr.faithful _ hkd
    have h2 := ((does_x hr.faithful (o.ord (diff (setOf lx) (setOf (lx.filter (· ∈ xzzxR l L false))))) fun q h => by
        simp only [mem_ord, mem_diff, mem_setOf] at h
        exact hkd q (hsub q h.1)).bind_concat
      (does_z hr.faithful (o.ord (setOf (lx.filter (· ∈ xzzxR l L false)))) fun q h => by
        simp only [mem_ord, mem_setOf, List.mem_filter] at h
        exact hkd q (hsub q h.1))).bind_concat (does_idle hr.faithful (ancOf L) hka)
    exact (Does.sumGen (Ls := [[], [], _, []])
      (.cons h1 (.cons (Does.tick _) (.cons h2 (.cons (Does.tick _) .nil))))).congr (by simp)

theorem does_logZXzzx (hg : OnGrid l L dirs) (hr : CanRun nm l) (o : SetOrder) (h1 : l.logQubits = [label])
    (h2 : l.logX = [(label, lx)]) (h3 : l.logZ = [(label, lz)]) (hsub : ∀ d ∈ lz, d ∈ dataOf L) :
    ∃ px pz : List String, px.Nodup ∧ pz.Nodup ∧ (∀ d, d ∈ px ↔ d ∈ lz ∧ d ∈ xzzxR l L false) ∧
      (∀ d, d ∈ pz ↔ d ∈ lz ∧ d ∉ xzzxR l L false) ∧
      Does nm.inds (logZXzzx o nm l) (px.map Op.x ++ pz.map Op.z) := by
  have hk := grid_known hr hg
  have hkd : ∀ q ∈ dataOf L, q ∈ nm.inds.keys := fun q h => hk q (List.mem_append_left _ h)
  have hka : ∀ q ∈ ancOf L, q ∈ nm.inds.keys := fun q h => hk q (List.mem_append_right _ h)
  refine ⟨o.ord (setOf (lz.filter (· ∈ xzzxR l L false))),
    o.ord (diff (setOf lz) (setOf (lz.filter (· ∈ xzzxR l L false)))),
    (ord_nodup o).2 (setOf_nodup _), (ord_nodup o).2 ((setOf_nodup _).filter _), fun d => ?_, fun d => ?_, ?_⟩
  · simp only [mem_ord, mem_setOf, List.mem_filter, decide_eq_true_eq]
  · simp only [mem_ord, mem_diff, mem_setOf, List.mem_filter, decide_eq_true_eq]
    tauto
  · unfold logZXzzx logZXzzxIter ancQubits dataQubits xzzxRot
    have hs := stabQubits_grid hg false
    unfold stabType at hs
    simp only [Bool.false_eq_true, if_false] at hs
    rw [hg.getQubits_anc, hg.getQubits_data, logicalSupport_of h1 h2 h3 false, hs]
    simp only [withE, Bool.false_eq_true, if_false]
    have h1 := does_incoming hr.faithful _ hkd
    have h2 := ((does_x hr.faithful (o.ord (setOf (lz.filter (· ∈ xzzxR l L false)))) fun q h => by
        simp only [mem_ord, mem_setOf, List.mem_filter] at h
        exact hkd q (hsub q h.1)).bind_concat
      (does_z hr.faithful (o.ord (diff (setOf lz) (setOf (lz.filter (· ∈ xzzxR l L false))))) fun q h => by
        simp only [mem_ord, mem_diff, mem_setOf] at h
        exact hkd q (hsub q h.1))).bind_concat (does_idle hr.faithful (ancOf L) hka)
    exact (Does.sumGen (Ls := [[], [], _, []])
      (.cons h1 (.cons (Does.tick _) (.cons h2 (.cons (Does.tick _) .nil))))).congr (by simp)

end

end SurfaceSim
