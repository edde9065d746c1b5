/-
The rounds of rot_surface_code_xzzx_google.py: effect.
-/
import Verif.Lemmas.GoogleRounds
import Verif.Spec.Google

namespace SurfaceSim
open Spec NoiseModel Blocks LayoutLib

variable {a : Args} {dx dz : Int} {l : Layout} {nm : NoiseModel}

theorem measured_withoutFlips (L : List (Op String)) : measured (withoutFlips L) = measured L := by
  unfold measured withoutFlips
  rw [List.filterMap_filter]
  refine List.filterMap_congr fun op _ => ?_
  cases op <;> rfl

theorem distinct_of_withoutFlips {L : List (Op String)} (h : ∀ op ∈ withoutFlips L, op.Distinct) :
    ∀ op ∈ L, op.Distinct := by
  intro op ho
  cases hf : op.isFlip with
  | true => cases op <;> simp [Op.isFlip] at hf <;> trivial
  | false => exact h op (List.mem_filter.2 ⟨ho, by simp [hf]⟩)

theorem quiet_googleOps (o : SetOrder) (l : Layout) (L : List (String × Site × Kind)) :
    ∀ op ∈ googleOps o l L, quiet op = true := by
  intro op ho
  unfold googleOps at ho
  simp only [List.mem_append, List.mem_map] at ho
  cases op <;> first | rfl | simp at ho

theorem quiet_rename {ι : String → Nat} {L : List (Op String)} (h : ∀ op ∈ L, quiet op = true) :
    ∀ op ∈ L.map (Op.rename ι), quiet op = true := by
  intro op ho
  obtain ⟨op', h1, rfl⟩ := List.mem_map.1 ho
  have := h op' h1
  cases op' <;> first | rfl | simp [quiet] at this

theorem map_rename_r (ι : String → Nat) (A : List String) : (A.map Op.r).map (Op.rename ι) = (A.map ι).map Op.r := by
  simp [Op.rename]

/-- A round whose operations without the gates X measure the stabilizers and then reset the ancillas. -/
theorem measures_shifted {L : List (String × Site × Kind)} {dirs : List (Site × String)} (hr : CanRun nm l)
    (hg : OnGrid l L dirs) {b : PyM MeasState Circuit} {M R : List (Op String)} {isX : String → String → Bool}
    (hd : Does nm.inds b (M ++ (ancOf L).map Op.r))
    (hwf : withoutFlips (M ++ (ancOf L).map Op.r) = R ++ (ancOf L).map Op.r)
    (hquiet : ∀ op ∈ M ++ (ancOf L).map Op.r, quiet op = true)
    (hmeas : measured (M ++ (ancOf L).map Op.r) = ancOf L)
    (hdist : ∀ op ∈ withoutFlips (M ++ (ancOf L).map Op.r), op.Distinct)
    (hqub : ∀ op ∈ M ++ (ancOf L).map Op.r, ∀ q ∈ op.qubits, q ∈ dataOf L ++ ancOf L)
    (hms : ∀ (ρ : Nat → ZMod 2) (st : FState Nat), MeasuresStabs (ind nm.inds) (dataOf L) (ancOf L)
      (fun x => l.getNeighbors [x] none) isX false st (run ρ st (R.map (Op.rename (ind nm.inds))))) :
    RoundMeasuresShifted nm l b isX := by
  have hu := CanRun.usable hr hg
  have hlen := length_recs 0 ((M ++ (ancOf L).map Op.r).map (Op.rename (ind nm.inds))) (FState.init Nat)
  rw [measured_rename, hmeas] at hlen
  obtain ⟨κ, hκ⟩ := exists_values (at_anc hg).nodup
    (run 0 (FState.init Nat) ((M ++ (ancOf L).map Op.r).map (Op.rename (ind nm.inds)))).recs
    (by simpa [FState.init] using hlen)
  have kanc : ∀ q ∈ ancOf L, q ∈ nm.inds.keys := hu.labels (fun k => k ≠ .data)
  have kdat : ∀ q ∈ dataOf L, q ∈ nm.inds.keys := hu.labels (fun k => k = .data)
  have hnd : ((ancOf L).map (ind nm.inds)).Nodup :=
    (at_anc hg).nodup.map_on fun x hx y hy => hr.inj x (kanc x hx) y (kanc y hy)
  have hdisj : ∀ d ∈ dataOf L, ind nm.inds d ∉ (ancOf L).map (ind nm.inds) := by
    intro d hd hm
    obtain ⟨x, hx, he⟩ := List.mem_map.1 hm
    have := hr.inj x (kanc x hx) d (kdat d hd) he
    subst this
    exact (List.nodup_append.1 (data_anc_nodup hg)).2.2 x hd x hx rfl
  refine ⟨dataOf L, ancOf L, κ, fun d => (run 0 (FState.init Nat) ((M ++ (ancOf L).map Op.r).map
      (Op.rename (ind nm.inds)))).x (ind nm.inds d),
    fun d => (run 0 (FState.init Nat) ((M ++ (ancOf L).map Op.r).map (Op.rename (ind nm.inds)))).z (ind nm.inds d),
    hg.getQubits_data, hg.getQubits_anc, fun s hist ht => ?_⟩
  obtain ⟨c, s', e, he, ho, t⟩ := hd.2 s hist ht
  rw [hmeas] at t
  refine ⟨c, s', e, pairsOk_of_ops hr.inj he ho hd.1 (distinct_of_withoutFlips hdist), t,
    by rw [measOrder_ops, ho, measured_rename, hmeas], fun ρ st => ?_⟩
  have hsh := shifted_run ρ _ (quiet_rename (ι := ind nm.inds) hquiet) (Shifted.start st)
  rw [withoutFlips_rename, hwf, List.map_append (l₁ := R), run_append (l := R.map _), map_rename_r,
    run_r _ _ hnd] at hsh
  have hm := hms ρ st
  rw [ho]
  generalize run ρ st (R.map (Op.rename (ind nm.inds))) = st1 at hsh hm
  have hκ' := hκ
  generalize hδ : run 0 (FState.init Nat) ((M ++ (ancOf L).map Op.r).map (Op.rename (ind nm.inds))) = δ at hsh hκ'
  refine ⟨?_, fun x hx => ?_, ?_, hsh.dets.1, hsh.obs.1, fun n hn => ?_⟩
  · obtain ⟨new, h1, h2, h3⟩ := hsh.recs
    rw [h3]
    simp only [hm.recs] at h1
    rw [← List.append_cancel_right h1, hκ', addLists_map]
  · rw [List.map_append, run_append, map_rename_r, run_r _ _ hnd]
    simp only
    rw [if_pos (List.mem_map.2 ⟨x, hx, rfl⟩)]
  · obtain ⟨r, hr'⟩ := hm.kicks
    refine ⟨r, fun d hd => ?_⟩
    obtain ⟨k1, k2⟩ := hr' d hd
    rw [hsh.x, hsh.z]
    simp only [if_neg (hdisj d hd)]
    rw [k1, k2]
    constructor <;> ring
  · refine run_other ρ _ st n ?_
    intro op hop hq
    obtain ⟨op', h1, rfl⟩ := List.mem_map.1 hop
    have : ∃ q ∈ op'.qubits, ind nm.inds q = n := by
      revert hq
      cases op' <;> simp [Op.rename, Op.qubits] <;> tauto
    obtain ⟨q, hq2, rfl⟩ := this
    exact hn q (hqub _ h1 q hq2) rfl

section
variable (h : IsRot a dx dz l) (hr : CanRun nm l) (o : SetOrder)
include h

/-- The coherent part of the round without the gates X. -/
theorem google_round_flipless : withoutFlips (googleOps o l (rotEntries a dx dz) ++
      ((o.ord (Blocks.setOf (ancOf (rotEntries a dx dz)))).map Op.h ++ (dataOf (rotEntries a dx dz)).map Op.x ++
        (ancOf (rotEntries a dx dz)).map Op.m ++ (ancOf (rotEntries a dx dz)).map Op.r)) =
    roundOps false (ancOf (rotEntries a dx dz)) (withoutFlips (googleOps o l (rotEntries a dx dz)) ++
      (o.ord (Blocks.setOf (ancOf (rotEntries a dx dz)))).map Op.h) ++ (ancOf (rotEntries a dx dz)).map Op.r := by
  unfold roundOps
  simp only [withoutFlips_append, withoutFlips_x, withoutFlips_map _ Op.h (fun _ => rfl),
    withoutFlips_map _ Op.m (fun _ => rfl), withoutFlips_map _ Op.r (fun _ => rfl)]
  simp

include hr in
/-- The stabilizers are measured by the operations without gates X. -/
theorem google_flipless_measures (ρ : Nat → ZMod 2) (st : FState Nat) :
    MeasuresStabs (ind nm.inds) (dataOf (rotEntries a dx dz)) (ancOf (rotEntries a dx dz))
      (fun x => l.getNeighbors [x] none) (xzzxType l) false st
      (run ρ st ((roundOps false (ancOf (rotEntries a dx dz)) (withoutFlips (googleOps o l (rotEntries a dx dz)) ++
      (o.ord (Blocks.setOf (ancOf (rotEntries a dx dz)))).map Op.h)).map (Op.rename (ind nm.inds)))) := by
  have hg := h.grid
  obtain ⟨sh, h1, h2⟩ := rot_css_layers h
  refine measuresStabs_grid hg (CanRun.usable hr hg) (rot_google_coherent h o) h1 h2
    (sub_append4 ((at_xz hg).setOf.ord o).sub ((at_data hg).setOf.ord o).sub ((at_data hg).setOf.ord o).sub
      ((at_anc hg).setOf.ord o).sub) ?_ ρ st
  rw [withoutFlips_googleOps]

theorem google_distinct : ∀ op ∈ roundOps false (ancOf (rotEntries a dx dz))
    (withoutFlips (googleOps o l (rotEntries a dx dz)) ++
      (o.ord (Blocks.setOf (ancOf (rotEntries a dx dz)))).map Op.h), op.Distinct := by
  rw [withoutFlips_googleOps]
  exact distinct_roundOps (rot_google_coherent h o)

theorem google_measured : measured (googleOps o l (rotEntries a dx dz)) = [] := by
  have := measured_roundOps false [] (o.ord (Blocks.setOf (xOf (rotEntries a dx dz) ++ zOf (rotEntries a dx dz))))
    (o.ord (Blocks.setOf (dataOf (rotEntries a dx dz)))) (o.ord (Blocks.setOf (dataOf (rotEntries a dx dz)))) []
    (czPairs l (rotEntries a dx dz) "north_east" "north_east")
        (czPairs l (rotEntries a dx dz) "north_west" "south_east" ++ czPairs l (rotEntries a dx dz) "south_east" "north_west")
        (czPairs l (rotEntries a dx dz) "south_west" "south_west")
  rw [← withoutFlips_googleOps] at this
  simpa [roundOps, measured_withoutFlips] using this

theorem googleOps_qubits : ∀ op ∈ googleOps o l (rotEntries a dx dz), ∀ q ∈ op.qubits,
    q ∈ dataOf (rotEntries a dx dz) ++ ancOf (rotEntries a dx dz) := by
  have hg := h.grid
  obtain ⟨sh, h1, -⟩ := rot_css_layers h
  set L := rotEntries a dx dz with hL
  have kd : ∀ q ∈ o.ord (Blocks.setOf (dataOf L)), q ∈ dataOf L ++ ancOf L := fun q hq =>
    List.mem_append_left _ (mem_setOf.1 ((mem_ord o).1 hq))
  have ka : ∀ q ∈ o.ord (Blocks.setOf (xOf L ++ zOf L)), q ∈ dataOf L ++ ancOf L := fun q hq =>
    mem_data_or_anc.2 (((at_xz hg).setOf.ord o).sub q hq)
  have kq : ∀ q ∈ o.ord (Blocks.setOf (dataOf L ++ (xOf L ++ zOf L))), q ∈ dataOf L ++ ancOf L := fun q hq => by
    rcases List.mem_append.1 (mem_setOf.1 ((mem_ord o).1 hq)) with hq | hq
    · exact List.mem_append_left _ hq
    · exact mem_data_or_anc.2 ((at_xz hg).sub q hq)
  have kE : ∀ p ∈ czPairs l L "north_east" "north_east" ++ (czPairs l L "north_west" "south_east" ++
      czPairs l L "south_east" "north_west") ++ czPairs l L "south_west" "south_west",
      ∀ q, q = p.1 ∨ q = p.2 → q ∈ dataOf L ++ ancOf L := by
    intro p hp q hq
    obtain ⟨s, k, σ, h2, -, -, h3⟩ := (h1.mem p.1 p.2).1 hp
    rcases hq with rfl | rfl
    · exact mem_data_or_anc.2 ⟨_, _, h2⟩
    · exact mem_data_or_anc.2 ⟨_, _, h3⟩
  intro op ho q hq
  unfold googleOps at ho
  simp only [List.mem_append, List.mem_map] at ho
  simp only [List.mem_append] at kE ⊢
  simp only [List.mem_append] at kd ka kq
  rcases ho with (((((((((⟨y, hy, rfl⟩ | ⟨y, hy, rfl⟩) | ⟨y, hy, rfl⟩) | ⟨y, hy, rfl⟩) | ⟨y, hy, rfl⟩) | ⟨y, hy, rfl⟩) |
    ⟨y, hy, rfl⟩) | ⟨y, hy, rfl⟩) | ⟨y, hy, rfl⟩) | ⟨y, hy, rfl⟩) | ⟨y, hy, rfl⟩ <;>
    simp only [Op.qubits, List.mem_singleton, List.mem_cons, List.not_mem_nil, or_false] at hq
  · subst hq; exact ka _ hy
  · subst hq; exact kd _ hy
  · exact kE y (.inl (.inl hy)) q hq
  · subst hq; exact kd _ hy
  · subst hq; exact ka _ hy
  · exact kE y (.inl (.inr (.inl hy))) q hq
  · subst hq; exact kq _ hy
  · exact kE y (.inl (.inr (.inr hy))) q hq
  · subst hq; exact kd _ hy
  · subst hq; exact ka _ hy
  · exact kE y (.inr hy) q hq

include hr in
/-- The round measures the stabilizers up to fixed flips. -/
theorem google_measures : RoundMeasuresShifted nm l (sumGen (googleIter o nm l)) (xzzxType l) := by
  have hg := h.grid
  have hd := google_does hr.faithful hg (CanRun.usable hr hg) o
  rw [← List.append_assoc] at hd
  refine measures_shifted hr hg hd ?_ ?_ ?_ ?_ ?_ (google_flipless_measures h hr o)
  · rw [List.append_assoc]; exact google_round_flipless h o
  · intro op ho
    rw [List.append_assoc] at ho
    rcases List.mem_append.1 ho with ho | ho
    · exact quiet_googleOps o l _ op ho
    · simp only [List.mem_append, List.mem_map] at ho
      cases op <;> first | rfl | simp at ho
  · rw [← measured_withoutFlips, List.append_assoc, google_round_flipless h o, withoutFlips_googleOps, measured_append,
      measured_roundOps, measured_map_none _ _ (by simp), List.append_nil]
  · rw [List.append_assoc, google_round_flipless h o]
    intro op hop
    rcases List.mem_append.1 hop with hop | hop
    · exact google_distinct h o op hop
    · obtain ⟨q, -, rfl⟩ := List.mem_map.1 hop
      trivial
  · intro op h1 q hq
    rw [List.append_assoc] at h1
    rcases List.mem_append.1 h1 with h1 | h1
    · exact googleOps_qubits h o _ h1 q hq
    · simp only [List.mem_append, List.mem_map] at h1
      rcases h1 with ((⟨y, hy, rfl⟩ | ⟨y, hy, rfl⟩) | ⟨y, hy, rfl⟩) | ⟨y, hy, rfl⟩ <;>
        simp only [Op.qubits, List.mem_singleton] at hq <;> subst hq
      · exact List.mem_append_right _ (mem_setOf.1 ((mem_ord o).1 hy))
      · exact List.mem_append_left _ hy
      · exact List.mem_append_right _ hy
      · exact List.mem_append_right _ hy

end

end SurfaceSim
