/-
The rounds of rot_surface_code_xzzx_google.py: what memory experiments use.
-/
import Verif.Lemmas.GoogleEff

namespace SurfaceSim
open Spec NoiseModel Blocks LayoutLib

variable {nm : NoiseModel} {l : Layout} {L : List (String × Site × Kind)} {dirs : List (Site × String)}

theorem kick_sum {anc : List String} {sup : String → List String} {isX : String → String → Bool} {S : List String}
    {τ : String → Bool} {x x' z z' r : String → ZMod 2}
    (hr : ∀ d ∈ S, x' d = x d + total anc (fun a => d ∈ sup a ∧ isX a d = true) r ∧
      z' d = z d + total anc (fun a => d ∈ sup a ∧ isX a d = false) r)
    (hc : ∀ a ∈ anc, Even (S.countP fun d => decide (d ∈ sup a ∧ isX a d ≠ τ d))) :
    (S.map fun d => if τ d then z' d else x' d).sum = (S.map fun d => if τ d then z d else x d).sum := by
  have e1 : (S.map fun d => if τ d then z' d else x' d) =
      S.map fun d => (if τ d then z d else x d) +
        (anc.map fun a => if decide (d ∈ sup a ∧ isX a d ≠ τ d) then r a else 0).sum := by
    refine List.map_congr_left fun d hd => ?_
    obtain ⟨h1, h2⟩ := hr d hd
    rw [total_eq] at h1 h2
    cases ht : τ d
    · simp only [Bool.false_eq_true, if_false, h1]
      congr 3
      funext a
      cases isX a d <;> simp
    · simp only [if_true, h2]
      congr 3
      funext a
      cases isX a d <;> simp
  rw [e1, List.sum_map_add, sum_swap]
  have e2 : (anc.map fun a => (S.map fun d => if decide (d ∈ sup a ∧ isX a d ≠ τ d) then r a else 0).sum).sum = 0 := by
    refine List.sum_eq_zero ?_
    intro v hv
    obtain ⟨a, ha, rfl⟩ := List.mem_map.1 hv
    exact sum_even S _ _ (hc a ha)
  rw [e2, add_zero]

/-- Change of an operator by the fixed Pauli operator. -/
def shiftOf (px pz : String → ZMod 2) (S : List String) (τ : String → Bool) : ZMod 2 :=
  (S.map fun d => if τ d then pz d else px d).sum

theorem Spec.MeasuresStabsShifted.invariant {ι : String → Nat} {data anc : List String} {sup : String → List String}
    {isX : String → String → Bool} {κ px pz : String → ZMod 2} {st st' : FState Nat}
    (h : MeasuresStabsShifted ι data anc sup isX κ px pz st st') {S : List String} {τ : String → Bool}
    (hS : ∀ d ∈ S, d ∈ data)
    (hc : ∀ a ∈ anc, Even (S.countP fun d => decide (d ∈ sup a ∧ isX a d ≠ τ d))) :
    anticommutes ι st' S τ = anticommutes ι st S τ + shiftOf px pz S τ := by
  obtain ⟨r, hr⟩ := h.kicks
  have := kick_sum (x := fun d => px d + st.x (ι d)) (x' := fun d => st'.x (ι d)) (z := fun d => pz d + st.z (ι d))
    (z' := fun d => st'.z (ι d)) (fun d hd => hr d (hS d hd)) hc
  unfold anticommutes shiftOf
  rw [this, ← List.sum_map_add]
  congr 1
  refine List.map_congr_left fun d _ => ?_
  split <;> ring

theorem roundEff_shifted (hg : OnGrid l L dirs) {b : PyM MeasState Circuit} {isX : String → String → Bool}
    (h : RoundMeasuresShifted nm l b isX) {rot : String → Bool} (ht : Typed l L isX rot)
    {lx lz : List String} (hc : CodeGrid l L lx lz) (rb : Bool) {R : List String}
    (hR : ∀ d ∈ (if rb then lx else lz), decide (d ∈ R) = (if rb then !rot d else rot d)) :
    ∃ κ ε εL, RoundEff nm l (ancOf L) (if rb then lx else lz) isX R false true κ ε εL b := by
  obtain ⟨data, anc, κ, px, pz, hd, ha, h⟩ := h
  have h1 : data = dataOf L := by have := hg.getQubits_data; rw [hd] at this; exact Except.ok.inj this
  have h2 : anc = ancOf L := by have := hg.getQubits_anc; rw [ha] at this; exact Except.ok.inj this
  subst h1; subst h2
  refine ⟨κ, fun a => shiftOf px pz (l.getNeighbors [a] none) (isX a),
    shiftOf px pz (if rb then lx else lz) (fun d => decide (d ∈ R)), fun s hist hs => ?_⟩
  obtain ⟨c, s', e, p, t, mo, h⟩ := h s hist hs
  refine ⟨c, s', e, p, t, mo, fun ρ st => ?_⟩
  have m := h ρ st
  refine ⟨?_, ?_, ?_, ?_, m.dets, m.obs⟩
  · rw [m.recs]
    unfold ancOutcome
    simp only [Bool.false_eq_true, if_false, add_assoc]
  · intro x hx
    rw [m.ancilla x hx]
    rfl
  · intro x hx
    exact m.invariant (fun d hd => nbrs_data hg hx hd) (hc.stabs hg ht hx)
  · have e2 : shiftOf px pz (if rb then lx else lz) (fun d => decide (d ∈ R)) =
        shiftOf px pz (if rb then lx else lz) (fun d => if rb then !rot d else rot d) := by
      unfold shiftOf
      congr 1
      refine List.map_congr_left fun d hd => ?_
      simp only [hR d hd]
    rw [anticommutes_congr hR, anticommutes_congr hR, e2]
    cases rb
    · exact m.invariant hc.subZ (hc.logicalZ ht)
    · exact m.invariant hc.subX (hc.logicalX ht)

/-- Effect of the last round with the measurement of the data qubits. -/
def FinalEff (nm : NoiseModel) (l : Layout) (data anc stabs log : List String) (isX : String → String → Bool)
    (R : List String) (κ ε : String → ZMod 2) (εL : ZMod 2) (b : PyM MeasState Circuit) : Prop :=
  ∀ (s : MeasState) (hist : List String), s.Tracks nm.inds hist →
    ∃ c s', b s = (.ok c, s') ∧ PairsOk c ∧ s'.Tracks nm.inds (hist ++ (anc ++ data)) ∧
      measOrder c = (anc ++ data).map (ind nm.inds) ∧ ∀ (ρ : Nat → ZMod 2) (st : FState Nat), ∃ v : String → ZMod 2,
        let ι := ind nm.inds
        let st' := run ρ st (ops c)
        st'.recs = (data.map v).reverse ++ ((anc.map fun a => κ a + st.x (ι a) +
          anticommutes ι st (l.getNeighbors [a] none) (isX a)).reverse ++ st.recs) ∧
        (∀ a ∈ stabs, ((l.getNeighbors [a] none).map v).sum =
          anticommutes ι st (l.getNeighbors [a] none) (isX a) + ε a) ∧
        (log.map v).sum = anticommutes ι st log (fun d => decide (d ∈ R)) + εL ∧
        st'.dets = st.dets ∧ st'.obs = st.obs

/-- Rotating data qubits before or after the ancillas are measured. -/
theorem late_rotation {Q : Type} [DecidableEq Q] (ρ : Nat → ZMod 2) (st : FState Q) {S H T A D : List Q} (hS : S.Nodup)
    (hH : H.Nodup) (hT : T.Nodup) (hA : A.Nodup) (hD : D.Nodup) (hTm : ∀ q, q ∈ T ↔ q ∈ S ∨ q ∈ H)
    (hSA : ∀ q ∈ S, q ∈ A) (hHA : ∀ q ∈ H, q ∉ A) (hDA : ∀ q ∈ D, q ∉ A) :
    (run ρ st (T.map Op.h ++ A.map Op.m ++ D.map Op.m)).recs =
      (run ρ st (S.map Op.h ++ A.map Op.m ++ (H.map Op.h ++ D.map Op.m))).recs := by
  simp only [run_append, run_h _ _ hT, run_h _ _ hS, run_h _ _ hH, run_m _ _ hA, run_m _ _ hD]
  congr 1
  · congr 1
    refine List.map_congr_left fun d hd => ?_
    have h1 : d ∉ S := fun h => hDA d hd (hSA d h)
    simp [hTm, h1, hDA d hd]
  · congr 2
    refine List.map_congr_left fun q hq => ?_
    have h1 : q ∉ H := fun h => hHA q h hq
    simp [hTm, h1]

/-- A last round whose operations without the gates X measure the stabilizers, then rotate and measure the data. -/
theorem final_shifted (hr : CanRun nm l) (hg : OnGrid l L dirs) {b : PyM MeasState Circuit} {M : List (Op String)}
    {isX : String → String → Bool} {S H T R stabs log : List String}
    (hd : Does nm.inds b (M ++ (T.map Op.h ++ (ancOf L).map Op.m ++ (dataOf L).map Op.m)))
    (hS : S.Nodup) (hH : H.Nodup) (hT : T.Nodup) (hTm : ∀ q, q ∈ T ↔ q ∈ S ∨ q ∈ H) (hSA : ∀ q ∈ S, q ∈ ancOf L)
    (hHR : ∀ q, q ∈ H ↔ q ∈ R) (hR : ∀ q ∈ R, q ∈ dataOf L)
    (hquiet : ∀ op ∈ M, quiet op = true) (hmeas : measured M = [])
    (hdist : ∀ op ∈ withoutFlips M, op.Distinct)
    (hqub : ∀ op ∈ M, ∀ q ∈ op.qubits, q ∈ dataOf L ++ ancOf L)
    (hms : ∀ (ρ : Nat → ZMod 2) (st : FState Nat), MeasuresStabs (ind nm.inds) (dataOf L) (ancOf L)
      (fun x => l.getNeighbors [x] none) isX false st
      (run ρ st ((roundOps false (ancOf L) (withoutFlips M ++ S.map Op.h)).map (Op.rename (ind nm.inds)))))
    (hst : ∀ a ∈ stabs, a ∈ ancOf L ∧ ∀ d ∈ l.getNeighbors [a] none, isX a d = decide (d ∈ R))
    (hinv : ∀ st st' : FState Nat, MeasuresStabs (ind nm.inds) (dataOf L) (ancOf L)
      (fun x => l.getNeighbors [x] none) isX false st st' →
      (∀ a ∈ ancOf L, anticommutes (ind nm.inds) st' (l.getNeighbors [a] none) (isX a) =
        anticommutes (ind nm.inds) st (l.getNeighbors [a] none) (isX a)) ∧
      anticommutes (ind nm.inds) st' log (fun d => decide (d ∈ R)) =
        anticommutes (ind nm.inds) st log (fun d => decide (d ∈ R)))
    (hlog : ∀ d ∈ log, d ∈ dataOf L) :
    ∃ κ ε εL, FinalEff nm l (dataOf L) (ancOf L) stabs log isX R κ ε εL b := by
  have hu := CanRun.usable hr hg
  have kanc : ∀ q ∈ ancOf L, q ∈ nm.inds.keys := hu.labels (fun k => k ≠ .data)
  have kdat : ∀ q ∈ dataOf L, q ∈ nm.inds.keys := hu.labels (fun k => k = .data)
  have hnd := data_anc_nodup hg
  have hdisj : ∀ q ∈ dataOf L, q ∉ ancOf L := fun q h1 h2 => (List.nodup_append.1 hnd).2.2 q h1 q h2 rfl
  have hnd' : (ancOf L ++ dataOf L).Nodup := (List.perm_append_comm.nodup_iff).1 hnd
  set X := T.map Op.h ++ (ancOf L).map Op.m ++ (dataOf L).map Op.m with hX
  have hmeas' : measured (M ++ X) = ancOf L ++ dataOf L := by
    rw [measured_append, hmeas, hX, measured_append, measured_append, measured_map_none _ _ (by simp), measured_m,
      measured_m]
    rfl
  have hwX : withoutFlips X = X := by
    rw [hX, withoutFlips_append, withoutFlips_append, withoutFlips_map _ Op.h (fun _ => rfl),
      withoutFlips_map _ Op.m (fun _ => rfl), withoutFlips_map _ Op.m (fun _ => rfl)]
  have hq' : ∀ op ∈ M ++ X, quiet op = true := by
    intro op ho
    rcases List.mem_append.1 ho with ho | ho
    · exact hquiet op ho
    · rw [hX] at ho
      simp only [List.mem_append, List.mem_map] at ho
      cases op <;> first | rfl | simp at ho
  have hlen := length_recs 0 ((M ++ X).map (Op.rename (ind nm.inds))) (FState.init Nat)
  rw [measured_rename, hmeas'] at hlen
  obtain ⟨κ, hκ⟩ := exists_values hnd' (run 0 (FState.init Nat) ((M ++ X).map (Op.rename (ind nm.inds)))).recs
    (by simpa [FState.init] using hlen)
  refine ⟨κ, fun a => ((l.getNeighbors [a] none).map κ).sum, (log.map κ).sum, fun s hist hs => ?_⟩
  obtain ⟨c, s', e, he, ho, t⟩ := hd.2 s hist hs
  rw [hmeas'] at t
  refine ⟨c, s', e, pairsOk_of_ops hr.inj he ho hd.1 (distinct_of_withoutFlips ?_), t,
    by rw [measOrder_ops, ho, measured_rename, hmeas'], fun ρ st => ?_⟩
  · rw [withoutFlips_append, hwX]
    intro op h
    rcases List.mem_append.1 h with h | h
    · exact hdist op h
    · rw [hX] at h
      simp only [List.mem_append, List.mem_map] at h
      rcases h with (⟨_, -, rfl⟩ | ⟨_, -, rfl⟩) | ⟨_, -, rfl⟩ <;> trivial
  have hsh := shifted_run ρ _ (quiet_rename (ι := ind nm.inds) hq') (Shifted.start st)
  rw [withoutFlips_rename, withoutFlips_append, hwX] at hsh
  have hm := hms ρ st
  set st1 := run ρ st ((roundOps false (ancOf L) (withoutFlips M ++ S.map Op.h)).map (Op.rename (ind nm.inds))) with hst1
  -- the record of the operations without gates X
  have hk1 : ∀ op ∈ withoutFlips M ++ X, ∀ q ∈ op.qubits, q ∈ nm.inds.keys := by
    intro op h q hq
    refine hd.1 op ?_ q hq
    rcases List.mem_append.1 h with h | h
    · exact List.mem_append_left _ (List.mem_filter.1 h).1
    · exact List.mem_append_right _ h
  set Y := roundOps false (ancOf L) (withoutFlips M ++ S.map Op.h) ++ (H.map Op.h ++ (dataOf L).map Op.m) with hY
  have hYe : Y = withoutFlips M ++ (S.map Op.h ++ (ancOf L).map Op.m ++ (H.map Op.h ++ (dataOf L).map Op.m)) := by
    rw [hY]; unfold roundOps; simp
  have hk2 : ∀ op ∈ Y, ∀ q ∈ op.qubits, q ∈ nm.inds.keys := by
    rw [hYe]
    intro op h q hq
    rcases List.mem_append.1 h with h | h
    · exact hk1 op (List.mem_append_left _ h) q hq
    · simp only [List.mem_append, List.mem_map] at h
      rcases h with (⟨y, hy, rfl⟩ | ⟨y, hy, rfl⟩) | (⟨y, hy, rfl⟩ | ⟨y, hy, rfl⟩) <;>
        simp only [Op.qubits, List.mem_singleton] at hq <;> subst hq
      · exact kanc _ (hSA _ hy)
      · exact kanc _ hy
      · exact kdat _ (hR _ ((hHR _).1 hy))
      · exact kdat _ hy
  have a1 := run_renamed hr.inj hk1 ρ st
  have a2 := run_renamed hr.inj hk2 ρ st
  have hrec : (run ρ st ((withoutFlips M ++ X).map (Op.rename (ind nm.inds)))).recs =
      (run ρ st (Y.map (Op.rename (ind nm.inds)))).recs := by
    rw [a1.recs, a2.recs, hYe, run_append _ _ (withoutFlips M), run_append _ _ (withoutFlips M)]
    exact late_rotation ρ _ hS hH hT (at_anc hg).nodup (at_data hg).nodup hTm hSA
      (fun q hq => hdisj q (hR q ((hHR q).1 hq))) hdisj
  have hfin : ∀ op ∈ H.map Op.h ++ (dataOf L).map Op.m, ∀ q ∈ op.qubits, q ∈ nm.inds.keys := fun op h =>
    hk2 op (by rw [hY]; exact List.mem_append_right _ h)
  have a3 := run_renamed hr.inj hfin ρ st1
  rw [run_append, run_h _ _ hH, run_m _ _ (at_data hg).nodup] at a3
  have hrec2 : (run ρ st (Y.map (Op.rename (ind nm.inds)))).recs =
      ((dataOf L).map fun d => if decide (d ∈ R) then st1.z (ind nm.inds d) else st1.x (ind nm.inds d)).reverse ++
        (((ancOf L).map fun a => st.x (ind nm.inds a) +
          anticommutes (ind nm.inds) st (l.getNeighbors [a] none) (isX a)).reverse ++ st.recs) := by
    rw [hY, List.map_append, run_append, ← hst1, a3.recs]
    simp only [pullback]
    rw [hm.recs]
    congr 2
    refine List.map_congr_left fun d _ => ?_
    simp only [hHR, decide_eq_true_eq]
  obtain ⟨new, n1, n2, n3⟩ := hsh.recs
  rw [hrec, hrec2, ← List.append_assoc] at n1
  have hnew := List.append_cancel_right n1
  obtain ⟨i1, i2⟩ := hinv st st1 hm
  refine ⟨fun d => κ d + (if decide (d ∈ R) then st1.z (ind nm.inds d) else st1.x (ind nm.inds d)), ?_, ?_, ?_, ?_, ?_⟩
  · rw [ho, n3, hκ, ← hnew, ← List.append_assoc]
    congr 1
    have e1 : (((dataOf L).map fun d => if decide (d ∈ R) then st1.z (ind nm.inds d) else st1.x (ind nm.inds d)).reverse ++
        ((ancOf L).map fun a => st.x (ind nm.inds a) +
          anticommutes (ind nm.inds) st (l.getNeighbors [a] none) (isX a)).reverse) =
        ((ancOf L ++ dataOf L).map fun q => if q ∈ ancOf L then st.x (ind nm.inds q) +
          anticommutes (ind nm.inds) st (l.getNeighbors [q] none) (isX q) else
            if decide (q ∈ R) then st1.z (ind nm.inds q) else st1.x (ind nm.inds q)).reverse := by
      rw [List.map_append, List.reverse_append]
      congr 2
      · exact List.map_congr_left fun d hd => by rw [if_neg (hdisj d hd)]
      · exact List.map_congr_left fun d hd => by rw [if_pos hd]
    rw [e1, addLists_map, List.map_append, List.reverse_append]
    congr 2
    · exact List.map_congr_left fun d hd => by rw [if_neg (hdisj d hd)]
    · exact List.map_congr_left fun d hd => by rw [if_pos hd, add_assoc]
  · intro a ha
    rw [List.sum_map_add, add_comm, ← i1 a (hst a ha).1]
    congr 1
    unfold anticommutes
    congr 1
    exact List.map_congr_left fun d hd => by rw [(hst a ha).2 d hd]
  · rw [List.sum_map_add, add_comm, ← i2]
    rfl
  · rw [ho]; exact hsh.dets.1
  · rw [ho]; exact hsh.obs.1

variable {a : Args} {dx dz : Int}

theorem IsRot.google_round (h : IsRot a dx dz l) (hdx : 2 ≤ dx) (hdz : 2 ≤ dz) (hr : CanRun nm l) (o : SetOrder)
    (rb : Bool) : ∃ κ ε εL, RoundEff nm l (ancOf (rotEntries a dx dz)) (if rb then logXList a dx dz else logZList a dz)
      (xzzxType l) (xzzxR l (rotEntries a dx dz) rb) false true κ ε εL (sumGen (googleIter o nm l)) :=
  roundEff_shifted h.grid (google_measures h hr o) (h.typed_xzzx hdx hdz) (h.codeGrid (by omega) (by omega)) rb
    (h.xzzx_logR hdx hdz rb)

theorem IsRot.google_final (h : IsRot a dx dz l) (hdx : 2 ≤ dx) (hdz : 2 ≤ dz) (hr : CanRun nm l) (o : SetOrder)
    (rb : Bool) : ∃ κ ε εL, FinalEff nm l (dataOf (rotEntries a dx dz)) (ancOf (rotEntries a dx dz))
      (stabsOf (rotEntries a dx dz) rb) (if rb then logXList a dx dz else logZList a dz)
      (xzzxType l) (xzzxR l (rotEntries a dx dz) rb) κ ε εL (sumGen (googleFinalIter o nm l rb)) := by
  have hg := h.grid
  have hc := h.codeGrid (dx := dx) (dz := dz) (by omega) (by omega)
  have ht := h.typed_xzzx hdx hdz
  have hR : ∀ q ∈ xzzxR l (rotEntries a dx dz) rb, q ∈ dataOf (rotEntries a dx dz) := fun _ hq => xzzxR_data h.grid hq
  have hsub : ∀ d ∈ (if rb then logXList a dx dz else logZList a dz), d ∈ dataOf (rotEntries a dx dz) := by
    cases rb
    · exact hc.subZ
    · exact hc.subX
  refine final_shifted hr hg (googleFinal_does hr.faithful hg (CanRun.usable hr hg) o rb hR)
    (S := o.ord (Blocks.setOf (ancOf (rotEntries a dx dz)))) (H := o.ord (Blocks.setOf (xzzxR l (rotEntries a dx dz) rb)))
    ?_ ?_ ?_ ?_ ?_ ?_ hR (quiet_googleOps o l _) (google_measured h o) ?_ (googleOps_qubits h o)
    (google_flipless_measures h hr o) ?_ ?_ hsub
  · exact (ord_nodup o).2 (setOf_nodup _)
  · exact (ord_nodup o).2 (setOf_nodup _)
  · exact (ord_nodup o).2 (union_nodup _ (setOf_nodup _))
  · intro q
    rw [mem_ord, mem_ord, mem_ord, mem_union, mem_setOf, mem_setOf]
  · intro q hq
    exact mem_setOf.1 ((mem_ord o).1 hq)
  · intro q
    rw [mem_ord, mem_setOf]
  · intro op ho
    refine google_distinct h o op ?_
    unfold roundOps
    simp [ho]
  · intro x hx
    exact ⟨stabsOf_sub hx, h.xzzx_type hdx hdz rb x hx⟩
  · intro st st' m
    refine ⟨fun x hx => MeasuresStabs.invariant m (fun d hd => nbrs_data hg hx hd) (hc.stabs hg ht hx), ?_⟩
    have hlR := h.xzzx_logR hdx hdz rb
    rw [anticommutes_congr hlR, anticommutes_congr hlR]
    cases rb
    · exact MeasuresStabs.invariant m hc.subZ (hc.logicalZ ht)
    · exact MeasuresStabs.invariant m hc.subX (hc.logicalX ht)

end SurfaceSim
