/-
The effect of the transversal CNOT.
-/
import Verif.Lemmas.CnotTable
import Verif.Lemmas.UnrotHSigned

namespace SurfaceSim
open Spec NoiseModel Blocks LayoutLib LogGates

/-- The label of `L'` at the position of a label of `L`. -/
def tw (L L' : List (String × Site × Kind)) (q : String) : String := ((twins L L').get? q).getD q

section
variable {L L' : List (String × Site × Kind)}

theorem tw_spec (hL : (L.map Prod.fst).Nodup) (hs : L.map Prod.snd = L'.map Prod.snd) {q : String} {s : Site} {k : Kind}
    (hq : (q, s, k) ∈ L) : (tw L L' q, s, k) ∈ L' := by
  have hlen : (L.map Prod.fst).length = (L'.map Prod.fst).length := by
    have := congrArg List.length hs
    simpa using this
  have hkeys : (twins L L').keys = L.map Prod.fst := by
    unfold twins Dict.keys
    exact List.map_fst_zip hlen.le
  have : q ∈ (twins L L').keys := by rw [hkeys]; exact List.mem_map.2 ⟨_, hq, rfl⟩
  obtain ⟨q', hq'⟩ := Option.isSome_iff_exists.1 ((Dict.get?_isSome_iff _ _).2 this)
  obtain ⟨s', k', h1, h2⟩ := mem_twins hs (Dict.mem_of_get? hq')
  have : (s, k) = (s', k') := by
    have h3 := List.inj_on_of_nodup_map hL hq h1 rfl
    exact congrArg Prod.snd h3
  cases this
  unfold tw
  rw [hq']
  exact h2

end

section
variable {lc lt : Layout} {Lc Lt : List (String × Site × Kind)} {dirs : List (Site × String)} {nm : NoiseModel}

/-- Two layouts with the same sites and different labels. -/
structure Twins (lc lt : Layout) (Lc Lt : List (String × Site × Kind)) (dirs : List (Site × String)) : Prop where
  c : OnGrid lc Lc dirs
  t : OnGrid lt Lt dirs
  same : Lc.map Prod.snd = Lt.map Prod.snd
  apart : ∀ q ∈ Lc.map Prod.fst, q ∉ Lt.map Prod.fst

theorem Twins.symm (h : Twins lc lt Lc Lt dirs) : Twins lt lc Lt Lc dirs :=
  ⟨h.t, h.c, h.same.symm, fun q h1 h2 => h.apart q h2 h1⟩

theorem Twins.tw (h : Twins lc lt Lc Lt dirs) {q : String} {s : Site} {k : Kind} (hq : (q, s, k) ∈ Lc) :
    (SurfaceSim.tw Lc Lt q, s, k) ∈ Lt := tw_spec h.c.labels h.same hq

theorem Twins.tw_tw (h : Twins lc lt Lc Lt dirs) {q : String} {s : Site} {k : Kind} (hq : (q, s, k) ∈ Lc) :
    SurfaceSim.tw Lt Lc (SurfaceSim.tw Lc Lt q) = q :=
  (h.c.unique' (h.symm.tw (h.tw hq)) hq).1

theorem Twins.notT (h : Twins lc lt Lc Lt dirs) {q : String} {s : Site} {k : Kind} (hq : (q, s, k) ∈ Lc) {s' : Site} {k' : Kind} :
    (q, s', k') ∉ Lt := fun h' => h.apart q (List.mem_map.2 ⟨_, hq, rfl⟩) (List.mem_map.2 ⟨_, h', rfl⟩)

theorem Twins.notData (h : Twins lc lt Lc Lt dirs) {q : String} {s : Site} {k : Kind} (hq : (q, s, k) ∈ Lc) : q ∉ dataOf Lt :=
  fun h' => by obtain ⟨s', h'⟩ := mem_dataOf.1 h'; exact h.notT hq h'

theorem Twins.notAnc (h : Twins lc lt Lc Lt dirs) {q : String} {s : Site} {k : Kind} (hq : (q, s, k) ∈ Lc) : q ∉ ancOf Lt :=
  fun h' => by obtain ⟨s', k', h', -⟩ := mem_ancOf.1 h'; exact h.notT hq h'

theorem Twins.notX (h : Twins lc lt Lc Lt dirs) {q : String} {s : Site} {k : Kind} (hq : (q, s, k) ∈ Lc) : q ∉ xOf Lt :=
  fun h' => by obtain ⟨s', h'⟩ := mem_xOf.1 h'; exact h.notT hq h'

/-! ### corresponding sets of data qubits -/

/-- Sets of data qubits of the two layouts with the same sites. -/
structure TwinSets (Lc Lt : List (String × Site × Kind)) (S S' : List String) : Prop where
  nc : S.Nodup
  nt : S'.Nodup
  dc : ∀ q ∈ S, q ∈ dataOf Lc
  dt : ∀ q ∈ S', q ∈ dataOf Lt
  iff : ∀ s q q', (q, s, Kind.data) ∈ Lc → (q', s, Kind.data) ∈ Lt → (q ∈ S ↔ q' ∈ S')

theorem TwinSets.symm {S S' : List String} (h : TwinSets Lc Lt S S') : TwinSets Lt Lc S' S :=
  ⟨h.nt, h.nc, h.dt, h.dc, fun s q q' h1 h2 => (h.iff s q' q h2 h1).symm⟩

theorem TwinSets.perm {S S' : List String} (h : TwinSets Lc Lt S S') (hT : Twins lc lt Lc Lt dirs) :
    (S.map (SurfaceSim.tw Lc Lt)).Perm S' := by
  have hinj : ∀ a ∈ S, ∀ b ∈ S, SurfaceSim.tw Lc Lt a = SurfaceSim.tw Lc Lt b → a = b := by
    intro a ha b hb hab
    obtain ⟨s, ha⟩ := mem_dataOf.1 (h.dc a ha)
    obtain ⟨s', hb⟩ := mem_dataOf.1 (h.dc b hb)
    rw [← hT.tw_tw ha, hab, hT.tw_tw hb]
  rw [List.perm_ext_iff_of_nodup (List.Nodup.map_on hinj h.nc) h.nt]
  intro q'
  rw [List.mem_map]
  constructor
  · rintro ⟨q, hq, rfl⟩
    obtain ⟨s, hs⟩ := mem_dataOf.1 (h.dc q hq)
    exact (h.iff s q _ hs (hT.tw hs)).1 hq
  · intro hq'
    obtain ⟨s, hs⟩ := mem_dataOf.1 (h.dt q' hq')
    exact ⟨_, (h.iff s _ q' (hT.symm.tw hs) hs).2 hq', hT.symm.tw_tw hs⟩

theorem TwinSets.sum {S S' : List String} (h : TwinSets Lc Lt S S') (hT : Twins lc lt Lc Lt dirs) (f : String → ZMod 2) :
    (S.map fun d => f (SurfaceSim.tw Lc Lt d)).sum = (S'.map f).sum := by
  rw [← ((h.perm hT).map f).sum_eq, List.map_map]
  rfl

theorem TwinSets.atQ {S S' : List String} (h : TwinSets Lc Lt S S') (hT : Twins lc lt Lc Lt dirs) {q : String} :
    SurfaceSim.atQ S q = if q ∈ dataOf Lc then SurfaceSim.atQ S' (SurfaceSim.tw Lc Lt q) else 0 := by
  unfold SurfaceSim.atQ
  by_cases hq : q ∈ dataOf Lc
  · obtain ⟨s, hs⟩ := mem_dataOf.1 hq
    simp only [if_pos hq, h.iff s _ _ hs (hT.tw hs)]
  · rw [if_neg hq, if_neg fun h' => hq (h.dc q h')]

/-- The neighbours of corresponding ancillas. -/
theorem Twins.nbrs (h : Twins lc lt Lc Lt dirs) {a b : String} {s : Site} {k : Kind} (ha : (a, s, k) ∈ Lc) (hb : (b, s, k) ∈ Lt)
    (hk : k ≠ .data) : TwinSets Lc Lt (lc.getNeighbors [a] none) (lt.getNeighbors [b] none) := by
  refine ⟨h.c.neighbors_nodup a, h.t.neighbors_nodup b, fun q hq => nbr_data h.c (mem_ancOf.2 ⟨_, _, ha, hk⟩) hq,
    fun q hq => nbr_data h.t (mem_ancOf.2 ⟨_, _, hb, hk⟩) hq, fun s' q q' hq hq' => ?_⟩
  rw [h.c.mem_neighbors_anc ha hk, h.t.mem_neighbors_anc hb hk]
  constructor
  · rintro ⟨sh, dir, h1, h2⟩
    obtain ⟨rfl, -⟩ := h.c.unique hq h2
    exact ⟨sh, dir, h1, hq'⟩
  · rintro ⟨sh, dir, h1, h2⟩
    obtain ⟨rfl, -⟩ := h.t.unique hq' h2
    exact ⟨sh, dir, h1, hq⟩

theorem Twins.nbrs_nil (h : Twins lc lt Lc Lt dirs) {a : String} {s : Site} {k : Kind} (ha : (a, s, k) ∈ Lc) :
    lt.getNeighbors [a] none = [] := by
  refine List.eq_nil_iff_forall_not_mem.2 fun q hq => ?_
  obtain ⟨dir, s1, k1, -, -, -, h1, -⟩ := h.t.mem_neighbors.1 hq
  exact h.notT ha h1

theorem Twins.stabValue_c (h : Twins lc lt Lc Lt dirs) (ι : String → Nat) (st : FState Nat) {a : String} {s : Site} {k : Kind}
    (ha : (a, s, k) ∈ Lc) : stabValue ι [lc, lt] st a = stabSum lc Lc (fun q => st.x (ι q)) (fun q => st.z (ι q)) a := by
  unfold stabValue stabSum anticommutes
  simp [xOfLayout_grid h.c, xOfLayout_grid h.t, h.nbrs_nil ha, h.notX ha]

theorem Twins.stabValue_t (h : Twins lc lt Lc Lt dirs) (ι : String → Nat) (st : FState Nat) {a : String} {s : Site} {k : Kind}
    (ha : (a, s, k) ∈ Lt) : stabValue ι [lc, lt] st a = stabSum lt Lt (fun q => st.x (ι q)) (fun q => st.z (ι q)) a := by
  unfold stabValue stabSum anticommutes
  simp [xOfLayout_grid h.c, xOfLayout_grid h.t, h.symm.nbrs_nil ha, h.symm.notX ha]

theorem Twins.stabOp_c (h : Twins lc lt Lc Lt dirs) (ι : String → Nat) {a : String} {s : Site} {k : Kind}
    (ha : (a, s, k) ∈ Lc) : stabOp ι [lc, lt] a = pauliString ι (decide (k = .x)) (lc.getNeighbors [a] none) := by
  have hx : a ∈ xOf Lc ↔ k = .x := by
    rw [mem_xOf]
    constructor
    · rintro ⟨s', h'⟩; exact (h.c.unique ha h').2
    · rintro rfl; exact ⟨s, ha⟩
  unfold stabOp
  simp [xOfLayout_grid h.c, xOfLayout_grid h.t, h.nbrs_nil ha, h.notX ha, hx]

theorem Twins.stabOp_t (h : Twins lc lt Lc Lt dirs) (ι : String → Nat) {a : String} {s : Site} {k : Kind}
    (ha : (a, s, k) ∈ Lt) : stabOp ι [lc, lt] a = pauliString ι (decide (k = .x)) (lt.getNeighbors [a] none) := by
  have hx : a ∈ xOf Lt ↔ k = .x := by
    rw [mem_xOf]
    constructor
    · rintro ⟨s', h'⟩; exact (h.t.unique ha h').2
    · rintro rfl; exact ⟨s, ha⟩
  unfold stabOp
  simp [xOfLayout_grid h.c, xOfLayout_grid h.t, h.symm.nbrs_nil ha, h.symm.notX ha, hx]

/-! ### the block -/

theorem cnotLoop_ok {l : Layout} {label : String} {P : String → String} (ds : List String)
    (ha : ∀ d ∈ ds, l.param label d = .ok (.gate [("cnot", .str (P d))])) (ps : List (String × String)) (hps : ps.Nodup) :
    ∃ ps', Blocks.cnotLoop l label ds ps = .ok ps' ∧ ps'.Nodup ∧ ∀ p, p ∈ ps' ↔ p ∈ ps ∨ p.1 ∈ ds ∧ p.2 = P p.1 := by
  induction ds generalizing ps with
  | nil => exact ⟨ps, rfl, hps, by simp⟩
  | cons d ds ih =>
    unfold Blocks.cnotLoop gateAttrs
    simp only [ha d (by simp)]
    have hp : partner [("cnot", Atom.str (P d))] "cnot" = .ok (some (P d)) := by
      unfold partner Dict.getE Dict.get?
      simp
    simp only [hp]
    obtain ⟨ps', h1, h2, h3⟩ := ih (fun d' h => ha d' (by simp [h])) (add ps (d, P d)) (add_nodup hps)
    refine ⟨ps', h1, h2, fun p => ?_⟩
    rw [h3, mem_add, or_assoc]
    refine or_congr_right ?_
    rw [List.mem_cons]
    constructor
    · rintro (rfl | h)
      · simp
      · exact ⟨Or.inr h.1, h.2⟩
    · rintro ⟨h1 | h1, h2⟩
      · exact Or.inl (Prod.ext h1 (by rw [h2, h1]))
      · exact Or.inr ⟨h1, h2⟩

theorem CnotTable.param_c (h : Twins lc lt Lc Lt dirs) {label : String} (ht : CnotTable lc lt Lc Lt label) {d : String}
    (hd : d ∈ dataOf Lc) : lc.param label d = .ok (.gate [("cnot", .str (SurfaceSim.tw Lc Lt d))]) := by
  obtain ⟨s, hd⟩ := mem_dataOf.1 hd
  obtain ⟨e, h1, h2⟩ := ht.ctrl d s hd
  rw [h2, (h.t.unique' h1 (h.tw hd)).1]

theorem CnotTable.param_t (h : Twins lc lt Lc Lt dirs) {label : String} (ht : CnotTable lc lt Lc Lt label) {d : String}
    (hd : d ∈ dataOf Lt) : lt.param label d = .ok (.gate [("cnot", .str (SurfaceSim.tw Lt Lc d))]) := by
  obtain ⟨s, hd⟩ := mem_dataOf.1 hd
  obtain ⟨e, h1, h2⟩ := ht.targ d s hd
  rw [h2, (h.c.unique' h1 (h.symm.tw hd)).1]

/-- The operations of `log_trans_cnot`. -/
theorem does_transCnot (h : Twins lc lt Lc Lt dirs) (hrc : CanRun nm lc) (hrt : CanRun nm lt) (o : SetOrder)
    (hcc : lc.code = "rotated_surface_code" ∨ lc.code = "unrotated_surface_code")
    (hct : lt.code = "rotated_surface_code" ∨ lt.code = "unrotated_surface_code")
    {label : String} (hlab : cnotLabel lc lt = .ok label) (ht : CnotTable lc lt Lc Lt label) :
    ∃ ps : List (String × String), ps.Nodup ∧ (∀ p, p ∈ ps ↔ p.1 ∈ dataOf Lc ∧ p.2 = SurfaceSim.tw Lc Lt p.1) ∧
      Does nm.inds (sumGen (transCnotIter o nm lc lt)) (ps.map fun p => Op.cx p.1 p.2) := by
  have hkc := grid_known hrc h.c
  have hkt := grid_known hrt h.t
  have hkdc : ∀ q ∈ dataOf Lc, q ∈ nm.inds.keys := fun q h => hkc q (List.mem_append_left _ h)
  have hkdt : ∀ q ∈ dataOf Lt, q ∈ nm.inds.keys := fun q h => hkt q (List.mem_append_left _ h)
  have hallc : ∀ q ∈ Lc.map Prod.fst, q ∈ nm.inds.keys := hrc.known _ h.c.getQubits_all
  have hallt : ∀ q ∈ Lt.map Prod.fst, q ∈ nm.inds.keys := hrt.known _ h.t.getQubits_all
  obtain ⟨ps, e, k1, k2⟩ := cnotLoop_ok (l := lc) (label := label) (P := SurfaceSim.tw Lc Lt) (dataOf Lc)
    (fun d hd => ht.param_c h hd) [] (by simp)
  simp only [List.not_mem_nil, false_or] at k2
  have hps : ∀ p ∈ o.ord ps, p.1 ∈ nm.inds.keys ∧ p.2 ∈ nm.inds.keys ∧ ind nm.inds p.1 ≠ ind nm.inds p.2 := by
    intro p hp
    rw [mem_ord, k2] at hp
    obtain ⟨s, hs⟩ := mem_dataOf.1 hp.1
    have h2 := h.tw hs
    rw [← hp.2] at h2
    have h3 := hkdt p.2 (mem_dataOf.2 ⟨s, h2⟩)
    refine ⟨hkdc _ hp.1, h3, fun he => ?_⟩
    have := hrc.inj _ (hkdc _ hp.1) _ h3 he
    rw [← this] at h2
    exact h.notT hs h2
  have hb : Does nm.inds (sumGen (transCnotIter o nm lc lt)) ((o.ord ps).map fun p => Op.cx p.1 p.2) := by
    unfold transCnotIter dataQubits
    rw [if_neg (by rintro ⟨h1, h2⟩; rcases hcc with h | h <;> contradiction),
      if_neg (by rintro ⟨h1, h2⟩; rcases hct with h | h <;> contradiction), h.c.getQubits_data, h.c.getQubits_all,
      h.t.getQubits_data, h.t.getQubits_all, hlab]
    simp only [withE]
    rw [show dataOf Lc = labelsOf Lc _ from rfl] at e
    simp only [e]
    have d1 := (does_incoming hrc.faithful _ hkdc).bind_concat (does_incoming hrc.faithful _ hkdt)
    have d3 := (does_cx hrc.faithful _ hps).bind_concat
      (does_idle hrc.faithful (o.ord (diff (setOf (Lc.map Prod.fst ++ Lt.map Prod.fst)) (setOf (chain (o.ord ps))))) fun q h => by
        rw [mem_ord, mem_diff, mem_setOf, List.mem_append] at h
        exact h.1.elim (hallc q) (hallt q))
    exact (Does.sumGen (Ls := [[] ++ [], [], ((o.ord ps).map fun p => Op.cx p.1 p.2) ++ [], []])
      (.cons d1 (.cons (Does.tick _) (.cons d3 (.cons (Does.tick _) .nil))))).congr (by simp)
  exact ⟨o.ord ps, (ord_nodup o).2 k1, fun p => (mem_ord o).trans (k2 p), hb⟩

/-- Effect of the operations of `log_trans_cnot`. -/
theorem run_transCnot (h : Twins lc lt Lc Lt dirs) {ps : List (String × String)} (k1 : ps.Nodup)
    (k2 : ∀ p, p ∈ ps ↔ p.1 ∈ dataOf Lc ∧ p.2 = SurfaceSim.tw Lc Lt p.1) (ρ : Nat → ZMod 2) (st : FState String) :
    run ρ st (ps.map fun p => Op.cx p.1 p.2) =
      { st with x := fun q => st.x q + if q ∈ dataOf Lt then st.x (SurfaceSim.tw Lt Lc q) else 0,
                z := fun q => st.z q + if q ∈ dataOf Lc then st.z (SurfaceSim.tw Lc Lt q) else 0 } := by
  rw [run_cx ρ ps (fun q => decide (q ∈ dataOf Lc)) ?_ st]
  · congr 1
    · funext q
      congr 1
      by_cases hq : q ∈ dataOf Lt
      · rw [if_pos hq]
        obtain ⟨s, hs⟩ := mem_dataOf.1 hq
        refine (sumIf_unique k1 (a := (SurfaceSim.tw Lt Lc q, q)) ?_ rfl ?_)
        · exact (k2 _).2 ⟨mem_dataOf.2 ⟨s, h.symm.tw hs⟩, (h.symm.tw_tw hs).symm⟩
        · rintro ⟨c, t⟩ hb hbq
          simp only at hbq
          subst hbq
          obtain ⟨h1, h2⟩ := (k2 _).1 hb
          simp only at h1 h2
          obtain ⟨s', hs'⟩ := mem_dataOf.1 h1
          rw [h2, h.tw_tw hs']
      · rw [if_neg hq]
        refine sumIf_none ?_
        rintro ⟨c, t⟩ hb hbq
        simp only at hbq
        subst hbq
        obtain ⟨h1, h2⟩ := (k2 _).1 hb
        simp only at h1 h2
        obtain ⟨s', hs'⟩ := mem_dataOf.1 h1
        exact hq (h2 ▸ mem_dataOf.2 ⟨s', h.tw hs'⟩)
    · funext q
      congr 1
      by_cases hq : q ∈ dataOf Lc
      · rw [if_pos hq]
        refine (sumIf_unique k1 (a := (q, SurfaceSim.tw Lc Lt q)) ((k2 _).2 ⟨hq, rfl⟩) rfl ?_)
        rintro ⟨c, t⟩ hb hbq
        simp only at hbq
        subst hbq
        exact Prod.ext rfl ((k2 _).1 hb).2
      · rw [if_neg hq]
        refine sumIf_none ?_
        rintro ⟨c, t⟩ hb hbq
        simp only at hbq
        subst hbq
        exact hq ((k2 _).1 hb).1
  · intro e he
    obtain ⟨h1, h2⟩ := (k2 _).1 he
    refine ⟨by simpa using h1, ?_⟩
    obtain ⟨s, hs⟩ := mem_dataOf.1 h1
    rw [decide_eq_false_iff_not, h2]
    exact h.symm.notData (h.tw hs)

theorem conj_cx_ph {Q : Type} [DecidableEq Q] (L : List (Q × Q)) (P : Pauli Q) :
    (P.conjAll (L.map fun e => Op.cx e.1 e.2)).ph = P.ph := by
  induction L generalizing P with
  | nil => rfl
  | cons e L ih => rw [List.map_cons, conjAll_cons, ih]; rfl

variable {label : String} (h : Twins lc lt Lc Lt dirs) (hrc : CanRun nm lc) (hrt : CanRun nm lt) (o : SetOrder)
    (hcc : lc.code = "rotated_surface_code" ∨ lc.code = "unrotated_surface_code")
    (hct : lt.code = "rotated_surface_code" ∨ lt.code = "unrotated_surface_code")
    (hlab : cnotLabel lc lt = .ok label) (ht : CnotTable lc lt Lc Lt label)

include h hrc hrt hcc hct hlab ht

/-- Effect of `log_trans_cnot`. -/
theorem acts_transCnot : Acts nm (sumGen (transCnotIter o nm lc lt))
    (fun x _ q => x q + if q ∈ dataOf Lt then x (SurfaceSim.tw Lt Lc q) else 0)
    fun _ z q => z q + if q ∈ dataOf Lc then z (SurfaceSim.tw Lc Lt q) else 0 := by
  obtain ⟨ps, k1, k2, hb⟩ := does_transCnot h hrc hrt o hcc hct hlab ht
  exact acts_of_does hrc.inj hb fun ρ st => run_transCnot h k1 k2 ρ st

theorem applies_transCnot : AppliesGate nm [lc, lt] label (sumGen (transCnotIter o nm lc lt)) := by
  have hkc := grid_known hrc h.c
  have hkt := grid_known hrt h.t
  intro s hist hs
  obtain ⟨c, s', e, hs', he, hc⟩ := acts_transCnot h hrc hrt o hcc hct hlab ht s hist hs
  refine ⟨c, s', e, hs', he, fun ρ st => ?_⟩
  obtain ⟨h1, h2, h3, h4⟩ := hc ρ st
  refine ⟨h1, h2, h3, fun q hq hql => ?_, ?_⟩
  · have hqc := hql lc (by simp)
    have hqt := hql lt (by simp)
    rw [dataOfLayout_grid h.c] at hqc
    rw [dataOfLayout_grid h.t] at hqt
    rw [(h4 q hq).1, (h4 q hq).2]
    simp [hqc, hqt]
  · -- sums over neighbours
    have sC : ∀ {a b : String} {s : Site} {k : Kind}, (a, s, k) ∈ Lc → (b, s, k) ∈ Lt → k ≠ .data → ∀ f g : String → ZMod 2,
        (∀ d ∈ dataOf Lc, f d = g d + g (SurfaceSim.tw Lc Lt d)) → ((lc.getNeighbors [a] none).map f).sum =
          ((lc.getNeighbors [a] none).map g).sum + ((lt.getNeighbors [b] none).map g).sum := by
      intro a b s k ha hb hk f g hfg
      have hN := h.nbrs ha hb hk
      rw [← hN.sum h g, ← List.sum_map_add]
      congr 1
      exact List.map_congr_left fun d hd => hfg d (hN.dc d hd)
    have sT : ∀ {a b : String} {s : Site} {k : Kind}, (a, s, k) ∈ Lc → (b, s, k) ∈ Lt → k ≠ .data → ∀ f g : String → ZMod 2,
        (∀ d ∈ dataOf Lt, f d = g d + g (SurfaceSim.tw Lt Lc d)) → ((lt.getNeighbors [b] none).map f).sum =
          ((lt.getNeighbors [b] none).map g).sum + ((lc.getNeighbors [a] none).map g).sum := by
      intro a b s k ha hb hk f g hfg
      have hN := (h.nbrs ha hb hk).symm
      rw [← hN.sum h.symm g, ← List.sum_map_add]
      congr 1
      exact List.map_congr_left fun d hd => hfg d (hN.dc d hd)
    have hCx : ∀ d ∈ dataOf Lc, (run ρ st (ops c)).x (ind nm.inds d) = st.x (ind nm.inds d) := by
      intro d hd
      obtain ⟨s, hs⟩ := mem_dataOf.1 hd
      rw [(h4 d (hkc d (List.mem_append_left _ hd))).1]
      simp [h.notData hs]
    have hTz : ∀ d ∈ dataOf Lt, (run ρ st (ops c)).z (ind nm.inds d) = st.z (ind nm.inds d) := by
      intro d hd
      obtain ⟨s, hs⟩ := mem_dataOf.1 hd
      rw [(h4 d (hkt d (List.mem_append_left _ hd))).2]
      simp [h.symm.notData hs]
    have hCz : ∀ d ∈ dataOf Lc, (run ρ st (ops c)).z (ind nm.inds d) =
        st.z (ind nm.inds d) + st.z (ind nm.inds (SurfaceSim.tw Lc Lt d)) := by
      intro d hd
      rw [(h4 d (hkc d (List.mem_append_left _ hd))).2]
      simp [hd]
    have hTx : ∀ d ∈ dataOf Lt, (run ρ st (ops c)).x (ind nm.inds d) =
        st.x (ind nm.inds d) + st.x (ind nm.inds (SurfaceSim.tw Lt Lc d)) := by
      intro d hd
      rw [(h4 d (hkt d (List.mem_append_left _ hd))).1]
      simp [hd]
    intro l hl a ha
    simp only [List.mem_cons, List.not_mem_nil, or_false] at hl
    rcases hl with rfl | rfl
    · rw [ancOfLayout_grid h.c] at ha
      obtain ⟨s, k, has, hk⟩ := mem_ancOf.1 ha
      rw [h.stabValue_c _ _ has]
      unfold stabSum
      cases k with
      | data => exact absurd rfl hk
      | x =>
        obtain ⟨y, hy, hp⟩ := ht.xc a s has
        have hax : a ∈ xOf Lc := mem_xOf.2 ⟨s, has⟩
        have hyx : y ∈ xOf Lt := mem_xOf.2 ⟨s, hy⟩
        have hn : newGen l label a = [a, y] := by unfold newGen gateAt; rw [hp]; simp [Dict.get?]
        rw [hn]
        simp only [List.map_cons, List.map_nil, List.sum_cons, List.sum_nil, add_zero, h.stabValue_c _ _ has, h.stabValue_t _ _ hy,
          stabSum, hax, hyx, if_true]
        exact sC has hy hk _ (fun d => st.z (ind nm.inds d)) hCz
      | z =>
        have hax : a ∉ xOf Lc := fun h' => by
          obtain ⟨s', h'⟩ := mem_xOf.1 h'
          have := (h.c.unique has h').2
          simp at this
        have hn : newGen l label a = [a] := by unfold newGen gateAt; rw [ht.zc a s has]; simp [Dict.get?]
        rw [hn]
        simp only [List.map_cons, List.map_nil, List.sum_cons, List.sum_nil, add_zero, h.stabValue_c _ _ has, stabSum, hax, if_false]
        congr 1
        exact List.map_congr_left fun d hd => hCx d (nbr_data h.c ha hd)
    · rw [ancOfLayout_grid h.t] at ha
      obtain ⟨s, k, has, hk⟩ := mem_ancOf.1 ha
      rw [h.stabValue_t _ _ has]
      unfold stabSum
      cases k with
      | data => exact absurd rfl hk
      | z =>
        obtain ⟨y, hy, hp⟩ := ht.zt a s has
        have hax : a ∉ xOf Lt := fun h' => by
          obtain ⟨s', h'⟩ := mem_xOf.1 h'
          have := (h.t.unique has h').2
          simp at this
        have hyx : y ∉ xOf Lc := fun h' => by
          obtain ⟨s', h'⟩ := mem_xOf.1 h'
          have := (h.c.unique hy h').2
          simp at this
        have hn : newGen l label a = [a, y] := by unfold newGen gateAt; rw [hp]; simp [Dict.get?]
        rw [hn]
        simp only [List.map_cons, List.map_nil, List.sum_cons, List.sum_nil, add_zero, h.stabValue_c _ _ hy, h.stabValue_t _ _ has,
          stabSum, hax, hyx, if_false]
        exact sT hy has hk _ (fun d => st.x (ind nm.inds d)) hTx
      | x =>
        have hax : a ∈ xOf Lt := mem_xOf.2 ⟨s, has⟩
        have hn : newGen l label a = [a] := by unfold newGen gateAt; rw [ht.xt a s has]; simp [Dict.get?]
        rw [hn]
        simp only [List.map_cons, List.map_nil, List.sum_cons, List.sum_nil, add_zero, h.stabValue_t _ _ has, stabSum, hax, if_true]
        congr 1
        exact List.map_congr_left fun d hd => hTz d (nbr_data h.t ha hd)

/-- Products of X operators on the control are copied to the target, products of Z operators on the target to the
control; the others stay. -/
theorem mapsOp_transCnot (isX : Bool) {S : List String} (hS : ∀ q ∈ S, q ∈ dataOf Lc ++ dataOf Lt) {B : Pauli Nat}
    (h1 : B.ph = 0)
    (h2 : ∀ q ∈ nm.inds.keys, B.x (ind nm.inds q) = if isX then atQ S q + (if q ∈ dataOf Lt then atQ S (SurfaceSim.tw Lt Lc q) else 0) else 0)
    (h3 : ∀ q ∈ nm.inds.keys, B.z (ind nm.inds q) = if isX then 0 else atQ S q + (if q ∈ dataOf Lc then atQ S (SurfaceSim.tw Lc Lt q) else 0)) :
    MapsOp nm (sumGen (transCnotIter o nm lc lt)) (pauliString (ind nm.inds) isX S) B := by
  have hkc := grid_known hrc h.c
  have hkt := grid_known hrt h.t
  obtain ⟨ps, k1, k2, hb⟩ := does_transCnot h hrc hrt o hcc hct hlab ht
  refine mapsOp_of_does hrc.inj hb ?_ (pstr_agree hrc isX fun q hq => ?_) ?_ fun q hq => ?_
  · intro o ho
    obtain ⟨q, -, rfl⟩ := List.mem_map.1 ho
    simp
  · rcases List.mem_append.1 (hS q hq) with h | h
    · exact hkc q (List.mem_append_left _ h)
    · exact hkt q (List.mem_append_left _ h)
  · rw [h1, conj_cx_ph]
    unfold pstr; cases isX <;> rfl
  · rw [run_transCnot h k1 k2, h2 q hq, h3 q hq]
    cases isX <;> simp [pstr]

/-- X operators at `S` on the control become X operators at `S` and its twin `S'`. -/
theorem mapsOp_cnot_xc {S S' : List String} (hS : TwinSets Lc Lt S S') {B : Pauli Nat} (h1 : B.ph = 0)
    (h2 : ∀ n, B.x n = atQubits (ind nm.inds) S n + atQubits (ind nm.inds) S' n) (h3 : ∀ n, B.z n = 0) :
    MapsOp nm (sumGen (transCnotIter o nm lc lt)) (pauliString (ind nm.inds) true S) B := by
  have hkc := grid_known hrc h.c
  have hkt := grid_known hrt h.t
  refine mapsOp_transCnot h hrc hrt o hcc hct hlab ht true (fun q hq => by simp [hS.dc q hq]) h1 (fun q hq => ?_)
    fun q hq => by simp [h3]
  rw [h2, atQubits_ind hrc (fun q hq => hkc q (List.mem_append_left _ (hS.dc q hq))) hq,
    atQubits_ind hrc (fun q hq => hkt q (List.mem_append_left _ (hS.dt q hq))) hq, hS.symm.atQ h.symm]
  simp

theorem mapsOp_cnot_zt {S S' : List String} (hS : TwinSets Lc Lt S S') {B : Pauli Nat} (h1 : B.ph = 0)
    (h2 : ∀ n, B.z n = atQubits (ind nm.inds) S' n + atQubits (ind nm.inds) S n) (h3 : ∀ n, B.x n = 0) :
    MapsOp nm (sumGen (transCnotIter o nm lc lt)) (pauliString (ind nm.inds) false S') B := by
  have hkc := grid_known hrc h.c
  have hkt := grid_known hrt h.t
  refine mapsOp_transCnot h hrc hrt o hcc hct hlab ht false (fun q hq => by simp [hS.dt q hq]) h1 (fun q hq => by simp [h3])
    fun q hq => ?_
  rw [h2, atQubits_ind hrc (fun q hq => hkc q (List.mem_append_left _ (hS.dc q hq))) hq,
    atQubits_ind hrc (fun q hq => hkt q (List.mem_append_left _ (hS.dt q hq))) hq, hS.atQ h]
  simp

theorem mapsOp_cnot_zc {S : List String} (hS : ∀ q ∈ S, q ∈ dataOf Lc) {B : Pauli Nat} (h1 : B.ph = 0)
    (h2 : ∀ n, B.z n = atQubits (ind nm.inds) S n) (h3 : ∀ n, B.x n = 0) :
    MapsOp nm (sumGen (transCnotIter o nm lc lt)) (pauliString (ind nm.inds) false S) B := by
  have hkc := grid_known hrc h.c
  refine mapsOp_transCnot h hrc hrt o hcc hct hlab ht false (fun q hq => by simp [hS q hq]) h1 (fun q hq => by simp [h3])
    fun q hq => ?_
  rw [h2, atQubits_ind hrc (fun q hq => hkc q (List.mem_append_left _ (hS q hq))) hq]
  by_cases hq' : q ∈ dataOf Lc
  · obtain ⟨s, hs⟩ := mem_dataOf.1 hq'
    have : atQ S (SurfaceSim.tw Lc Lt q) = 0 := if_neg fun h' => h.symm.notData (h.tw hs) (hS _ h')
    simp [this]
  · simp [hq']

theorem mapsOp_cnot_xt {S : List String} (hS : ∀ q ∈ S, q ∈ dataOf Lt) {B : Pauli Nat} (h1 : B.ph = 0)
    (h2 : ∀ n, B.x n = atQubits (ind nm.inds) S n) (h3 : ∀ n, B.z n = 0) :
    MapsOp nm (sumGen (transCnotIter o nm lc lt)) (pauliString (ind nm.inds) true S) B := by
  have hkt := grid_known hrt h.t
  refine mapsOp_transCnot h hrc hrt o hcc hct hlab ht true (fun q hq => by simp [hS q hq]) h1 (fun q hq => ?_)
    fun q hq => by simp [h3]
  rw [h2, atQubits_ind hrc (fun q hq => hkt q (List.mem_append_left _ (hS q hq))) hq]
  by_cases hq' : q ∈ dataOf Lt
  · obtain ⟨s, hs⟩ := mem_dataOf.1 hq'
    have : atQ S (SurfaceSim.tw Lt Lc q) = 0 := if_neg fun h' => h.notData (h.symm.tw hs) (hS _ h')
    simp [this]
  · simp [hq']

/-- The signs of the images of the stabilizers. -/
theorem signed_transCnot {l : Layout} (hl : l = lc ∨ l = lt) {a : String} (ha : a ∈ ancOfLayout l) :
    MapsSigned nm [lc, lt] label (sumGen (transCnotIter o nm lc lt)) l a 0 := by
  unfold MapsSigned
  rcases hl with rfl | rfl
  · rw [ancOfLayout_grid h.c] at ha
    obtain ⟨s, k, has, hk⟩ := mem_ancOf.1 ha
    rw [h.stabOp_c _ has]
    cases k with
    | data => exact absurd rfl hk
    | x =>
      obtain ⟨y, hy, hp⟩ := ht.xc a s has
      have hn : newGen l label a = [a, y] := by unfold newGen gateAt; rw [hp]; simp [Dict.get?]
      rw [hn]
      refine mapsOp_cnot_xc h hrc hrt o hcc hct hlab ht (h.nbrs has hy hk) ?_ (fun n => ?_) fun n => ?_ <;>
        simp [xzProduct, Spec.Pauli.times, h.stabOp_c _ has, h.stabOp_t _ hy, pauliString]
    | z =>
      have hn : newGen l label a = [a] := by unfold newGen gateAt; rw [ht.zc a s has]; simp [Dict.get?]
      rw [hn]
      refine mapsOp_cnot_zc h hrc hrt o hcc hct hlab ht (fun q hq => nbr_data h.c ha hq) ?_ (fun n => ?_) fun n => ?_ <;>
        simp [xzProduct, Spec.Pauli.times, h.stabOp_c _ has, pauliString]
  · rw [ancOfLayout_grid h.t] at ha
    obtain ⟨s, k, has, hk⟩ := mem_ancOf.1 ha
    rw [h.stabOp_t _ has]
    cases k with
    | data => exact absurd rfl hk
    | z =>
      obtain ⟨y, hy, hp⟩ := ht.zt a s has
      have hn : newGen l label a = [a, y] := by unfold newGen gateAt; rw [hp]; simp [Dict.get?]
      rw [hn]
      refine mapsOp_cnot_zt h hrc hrt o hcc hct hlab ht (h.nbrs hy has hk) ?_ (fun n => ?_) fun n => ?_ <;>
        simp [xzProduct, Spec.Pauli.times, h.stabOp_t _ has, h.stabOp_c _ hy, pauliString]
    | x =>
      have hn : newGen l label a = [a] := by unfold newGen gateAt; rw [ht.xt a s has]; simp [Dict.get?]
      rw [hn]
      refine mapsOp_cnot_xt h hrc hrt o hcc hct hlab ht (fun q hq => nbr_data h.t ha hq) ?_ (fun n => ?_) fun n => ?_ <;>
        simp [xzProduct, Spec.Pauli.times, h.stabOp_t _ has, pauliString]

/-- The images of the logical operators. -/
theorem logicals_transCnot {A B : String} {Xc Zc Xt Zt : List String} (hXc : lc.logX.get? A = some Xc)
    (hZc : lc.logZ.get? A = some Zc) (hXt : lt.logX.get? B = some Xt) (hZt : lt.logZ.get? B = some Zt)
    (tX : TwinSets Lc Lt Xc Xt) (tZ : TwinSets Lc Lt Zc Zt) :
    MapsLogicalSigned nm [lc, lt] (sumGen (transCnotIter o nm lc lt)) lc A true [(lc, A, true), (lt, B, true)] 0 ∧
    MapsLogicalSigned nm [lc, lt] (sumGen (transCnotIter o nm lc lt)) lt B true [(lt, B, true)] 0 ∧
    MapsLogicalSigned nm [lc, lt] (sumGen (transCnotIter o nm lc lt)) lc A false [(lc, A, false)] 0 ∧
    MapsLogicalSigned nm [lc, lt] (sumGen (transCnotIter o nm lc lt)) lt B false [(lc, A, false), (lt, B, false)] 0 := by
  refine ⟨⟨[], by simp, ?_⟩, ⟨[], by simp, ?_⟩, ⟨[], by simp, ?_⟩, ⟨[], by simp, ?_⟩⟩
  · have : logicalOp (ind nm.inds) lc A true = pauliString (ind nm.inds) true Xc := by simp [logicalOp, hXc]
    rw [this]
    refine mapsOp_cnot_xc h hrc hrt o hcc hct hlab ht tX ?_ (fun n => ?_) fun n => ?_ <;>
      simp [xzProduct, Spec.Pauli.times, logicalOp, pauliString, hXc, hXt]
  · have : logicalOp (ind nm.inds) lt B true = pauliString (ind nm.inds) true Xt := by simp [logicalOp, hXt]
    rw [this]
    refine mapsOp_cnot_xt h hrc hrt o hcc hct hlab ht tX.dt ?_ (fun n => ?_) fun n => ?_ <;>
      simp [xzProduct, Spec.Pauli.times, logicalOp, pauliString, hXt]
  · have : logicalOp (ind nm.inds) lc A false = pauliString (ind nm.inds) false Zc := by simp [logicalOp, hZc]
    rw [this]
    refine mapsOp_cnot_zc h hrc hrt o hcc hct hlab ht tZ.dc ?_ (fun n => ?_) fun n => ?_ <;>
      simp [xzProduct, Spec.Pauli.times, logicalOp, pauliString, hZc]
  · have : logicalOp (ind nm.inds) lt B false = pauliString (ind nm.inds) false Zt := by simp [logicalOp, hZt]
    rw [this]
    refine mapsOp_cnot_zt h hrc hrt o hcc hct hlab ht tZ ?_ (fun n => ?_) fun n => ?_ <;>
      simp [xzProduct, Spec.Pauli.times, logicalOp, pauliString, hZc, hZt, add_comm]

/-- The values of the logical operators after the block. -/
theorem frame_transCnot {A B : String} {Xc Zc Xt Zt : List String} (hXc : lc.logX.get? A = some Xc)
    (hZc : lc.logZ.get? A = some Zc) (hXt : lt.logX.get? B = some Xt) (hZt : lt.logZ.get? B = some Zt)
    (tX : TwinSets Lc Lt Xc Xt) (tZ : TwinSets Lc Lt Zc Zt) :
    MapsLogical nm [lc, lt] (sumGen (transCnotIter o nm lc lt)) lc A true [(lc, A, true), (lt, B, true)] ∧
    MapsLogical nm [lc, lt] (sumGen (transCnotIter o nm lc lt)) lt B true [(lt, B, true)] ∧
    MapsLogical nm [lc, lt] (sumGen (transCnotIter o nm lc lt)) lc A false [(lc, A, false)] ∧
    MapsLogical nm [lc, lt] (sumGen (transCnotIter o nm lc lt)) lt B false [(lc, A, false), (lt, B, false)] := by
  have hkc := grid_known hrc h.c
  have hkt := grid_known hrt h.t
  have hact := acts_transCnot h hrc hrt o hcc hct hlab ht
  refine ⟨⟨[], by simp, fun s hist hs => ?_⟩, ⟨[], by simp, fun s hist hs => ?_⟩, ⟨[], by simp, fun s hist hs => ?_⟩,
    ⟨[], by simp, fun s hist hs => ?_⟩⟩ <;> obtain ⟨c, s', e, -, -, hc⟩ := hact s hist hs <;>
    refine ⟨c, s', e, fun ρ st => ?_⟩ <;> obtain ⟨-, -, -, h4⟩ := hc ρ st <;>
    simp only [logicalValue, anticommutes, hXc, hZc, hXt, hZt, if_true, if_false, Option.getD_some, List.map_cons, List.map_nil,
      List.sum_cons, List.sum_nil, add_zero, Bool.false_eq_true]
  · rw [← tX.sum h, ← List.sum_map_add]
    congr 1
    refine List.map_congr_left fun d hd => ?_
    have hd := tX.dc d hd
    rw [(h4 d (hkc d (List.mem_append_left _ hd))).2]
    simp [hd]
  · congr 1
    refine List.map_congr_left fun d hd => ?_
    have hd := tX.dt d hd
    obtain ⟨s, hs⟩ := mem_dataOf.1 hd
    rw [(h4 d (hkt d (List.mem_append_left _ hd))).2]
    simp [h.symm.notData hs]
  · congr 1
    refine List.map_congr_left fun d hd => ?_
    have hd := tZ.dc d hd
    obtain ⟨s, hs⟩ := mem_dataOf.1 hd
    rw [(h4 d (hkc d (List.mem_append_left _ hd))).1]
    simp [h.notData hs]
  · rw [add_comm, ← tZ.symm.sum h.symm, ← List.sum_map_add]
    congr 1
    refine List.map_congr_left fun d hd => ?_
    have hd := tZ.dt d hd
    rw [(h4 d (hkt d (List.mem_append_left _ hd))).1]
    simp [hd]

omit h hrc hrt hcc hct hlab ht

/-- The stored generators are an involution. -/
theorem CnotTable.involutive (h : Twins lc lt Lc Lt dirs) (ht : CnotTable lc lt Lc Lt label) : Involutive [lc, lt] label := by
  have gC : ∀ {a s}, (a, s, Kind.x) ∈ Lc → ∃ y, (y, s, Kind.x) ∈ Lt ∧ newGen lc label a = [a, y] := by
    intro a s has
    obtain ⟨y, hy, hp⟩ := ht.xc a s has
    exact ⟨y, hy, by unfold newGen gateAt; rw [hp]; simp [Dict.get?]⟩
  have gT : ∀ {a s}, (a, s, Kind.z) ∈ Lt → ∃ y, (y, s, Kind.z) ∈ Lc ∧ newGen lt label a = [a, y] := by
    intro a s has
    obtain ⟨y, hy, hp⟩ := ht.zt a s has
    exact ⟨y, hy, by unfold newGen gateAt; rw [hp]; simp [Dict.get?]⟩
  have gCz : ∀ {a s}, (a, s, Kind.z) ∈ Lc → newGen lc label a = [a] := by
    intro a s has
    unfold newGen gateAt; rw [ht.zc a s has]; simp [Dict.get?]
  have gTx : ∀ {a s}, (a, s, Kind.x) ∈ Lt → newGen lt label a = [a] := by
    intro a s has
    unfold newGen gateAt; rw [ht.xt a s has]; simp [Dict.get?]
  intro l hl a ha
  simp only [List.mem_cons, List.not_mem_nil, or_false] at hl
  rcases hl with rfl | rfl
  · rw [ancOfLayout_grid h.c] at ha
    obtain ⟨s, k, has, hk⟩ := mem_ancOf.1 ha
    cases k with
    | data => exact absurd rfl hk
    | x =>
      obtain ⟨y, hy, hn⟩ := gC has
      have hya : y ∈ ancOf Lt := mem_ancOf.2 ⟨_, _, hy, by simp⟩
      have hne : a ≠ y := fun he => h.notT has (he ▸ hy)
      have h1 : a ∉ ancOf Lt := h.notAnc has
      have h2 : y ∉ ancOf Lc := h.symm.notAnc hy
      refine ⟨by simp [hn, hne], ?_, fun q => ?_⟩
      · intro b hb
        simp only [hn, List.mem_cons, List.not_mem_nil, or_false] at hb
        rcases hb with rfl | rfl
        · exact ⟨l, by simp, by rw [ancOfLayout_grid h.c]; exact ha⟩
        · exact ⟨lt, by simp, by rw [ancOfLayout_grid h.t]; exact hya⟩
      · simp only [hn, List.flatMap_cons, List.flatMap_nil, ancOfLayout_grid h.c, ancOfLayout_grid h.t, ha, hya, h1, h2, if_true,
          if_false, gTx hy, List.append_nil, List.nil_append, List.cons_append, List.countP_cons, List.countP_nil, decide_eq_true_eq]
        by_cases hq : q = a
        · subst hq; simp [hne.symm]
        · by_cases hqy : q = y
          · subst hqy; simp [hne, hne.symm]
          · simp [Ne.symm hq, Ne.symm hqy, hq]
    | z =>
      have h1 : a ∉ ancOf Lt := h.notAnc has
      refine ⟨by simp [gCz has], ?_, fun q => ?_⟩
      · intro b hb
        simp only [gCz has, List.mem_cons, List.not_mem_nil, or_false] at hb
        subst hb
        exact ⟨l, by simp, by rw [ancOfLayout_grid h.c]; exact ha⟩
      · simp only [gCz has, List.flatMap_cons, List.flatMap_nil, ancOfLayout_grid h.c, ancOfLayout_grid h.t, ha, h1, if_true,
          if_false, List.append_nil, List.countP_cons, List.countP_nil, decide_eq_true_eq]
        by_cases hq : q = a
        · subst hq; simp
        · simp [Ne.symm hq, hq]
  · rw [ancOfLayout_grid h.t] at ha
    obtain ⟨s, k, has, hk⟩ := mem_ancOf.1 ha
    cases k with
    | data => exact absurd rfl hk
    | z =>
      obtain ⟨y, hy, hn⟩ := gT has
      have hya : y ∈ ancOf Lc := mem_ancOf.2 ⟨_, _, hy, by simp⟩
      have hne : a ≠ y := fun he => h.notT hy (he ▸ has)
      have h1 : a ∉ ancOf Lc := h.symm.notAnc has
      have h2 : y ∉ ancOf Lt := h.notAnc hy
      refine ⟨by simp [hn, hne], ?_, fun q => ?_⟩
      · intro b hb
        simp only [hn, List.mem_cons, List.not_mem_nil, or_false] at hb
        rcases hb with rfl | rfl
        · exact ⟨l, by simp, by rw [ancOfLayout_grid h.t]; exact ha⟩
        · exact ⟨lc, by simp, by rw [ancOfLayout_grid h.c]; exact hya⟩
      · simp only [hn, List.flatMap_cons, List.flatMap_nil, ancOfLayout_grid h.c, ancOfLayout_grid h.t, ha, hya, h1, h2, if_true,
          if_false, gCz hy, List.append_nil, List.nil_append, List.cons_append, List.countP_cons, List.countP_nil, decide_eq_true_eq]
        by_cases hq : q = a
        · subst hq; simp [hne.symm]
        · by_cases hqy : q = y
          · subst hqy; simp [hne, hne.symm]
          · simp [Ne.symm hq, Ne.symm hqy, hq]
    | x =>
      have h1 : a ∉ ancOf Lc := h.symm.notAnc has
      refine ⟨by simp [gTx has], ?_, fun q => ?_⟩
      · intro b hb
        simp only [gTx has, List.mem_cons, List.not_mem_nil, or_false] at hb
        subst hb
        exact ⟨l, by simp, by rw [ancOfLayout_grid h.t]; exact ha⟩
      · simp only [gTx has, List.flatMap_cons, List.flatMap_nil, ancOfLayout_grid h.c, ancOfLayout_grid h.t, ha, h1, if_true,
          if_false, List.append_nil, List.nil_append, List.countP_cons, List.countP_nil, decide_eq_true_eq]
        by_cases hq : q = a
        · subst hq; simp
        · simp [Ne.symm hq, hq]

end

end SurfaceSim
