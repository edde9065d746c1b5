/-
Qubits used by the other rounds, the initializations, the measurements and the logical gates.
-/
import Verif.Lemmas.UsageBlocks
import Verif.Lemmas.LogicalGates

namespace SurfaceSim
open Spec NoiseModel Blocks LayoutLib

variable {p : Gate → Bool}

variable {nm : NoiseModel} {ex : Bool} {l : Layout} {L : List (String × Site × Kind)} {dirs : List (Site × String)}

section
variable (hu : Uses p ex nm) (hg : OnGrid l L dirs) (o : SetOrder)
include hu hg

theorem alt_pipe {x0 x1 x2 x3 z0 z1 z2 z3 : String} {ξ0 ξ1 ξ2 ξ3 ζ0 ζ1 ζ2 ζ3 : Site}
    (hcode : l.code = "rotated_surface_code") (ho : l.interactionOrder = order4 x0 x1 x2 x3 z0 z1 z2 z3)
    (hx : (ξ0, x0) ∈ dirs ∧ (ξ1, x1) ∈ dirs ∧ (ξ2, x2) ∈ dirs ∧ (ξ3, x3) ∈ dirs)
    (hz : (ζ0, z0) ∈ dirs ∧ (ζ1, z1) ∈ dirs ∧ (ζ2, z2) ∈ dirs ∧ (ζ3, z3) ∈ dirs)
    (reset : Bool) (rotOf : List String → String → List String → List String)
    (n1 : (rotOf (dataOf L) "x_type" (xOf L)).Nodup) (n2 : (rotOf (dataOf L) "z_type" (zOf L)).Nodup)
    (h1 : ∀ q ∈ rotOf (dataOf L) "x_type" (xOf L), ∃ s k, (q, s, k) ∈ L)
    (h2 : ∀ q ∈ rotOf (dataOf L) "z_type" (zOf L), ∃ s k, (q, s, k) ∈ L) :
    AltOf p ex nm.inds l (12 + if reset then 1 else 0) (pipeIter o nm l reset rotOf) := by
  have hd : dataQubits l = .ok (dataOf L) := hg.getQubits_data
  have ha : ancQubits l = .ok (ancOf L) := hg.getQubits_anc
  have hxs : stabQubits l "x_type" = .ok (xOf L) := hg.getQubits_x
  have hzs : stabQubits l "z_type" = .ok (zOf L) := hg.getQubits_z
  have e1 : l.interactionOrder.keys.zipIdx = [("x_type", 0), ("z_type", 1)] := by rw [ho]; rfl
  have e2 : l.interactionOrder.getE "x_type" = .ok [x0, x1, x2, x3] := by rw [ho]; rfl
  have e3 : l.interactionOrder.getE "z_type" = .ok [z0, z1, z2, z3] := by rw [ho]; rfl
  generalize hm : (12 + if reset then 1 else 0) = m
  unfold pipeIter pipeBody
  rw [if_neg (by simp [hcode]), hd, ha, e1]
  simp only [withE, List.flatMap_cons, List.flatMap_nil, hxs, hzs, e2, e3, if_true]
  rw [if_neg (by decide), if_neg (by decide)]
  simp only [List.append_assoc, List.nil_append, List.append_nil, List.cons_append]
  have hM := (hu.m (ancOf L)).plus (hu.i (dataOf L))
  have oA := once_anc_data (ex := ex) hg
  have oAll : Once ex (L.map Prod.fst) (o.ord (allOf L)) :=
    once_full ((ord_nodup o).2 allOf_nodup) hg.labels fun q => by rw [mem_ord]; exact mem_allOf'
  have cz := fun stabs dir => (hu.cz (chain (l.getNeighborPairs stabs (some dir)))).plus
    (hu.i (o.ord (diff (allOf L) (setOf (chain (l.getNeighborPairs stabs (some dir)))))))
  have ox : ∀ {σ : Site} {dir : String}, (σ, dir) ∈ dirs → Once ex (L.map Prod.fst) _ :=
    fun hd => once_pairs hg o (p := fun k => decide (k = .x)) (by simp) hd
  have oz : ∀ {σ : Site} {dir : String}, (σ, dir) ∈ dirs → Once ex (L.map Prod.fst) _ :=
    fun hd => once_pairs hg o (p := fun k => decide (k = .z)) (by simp) hd
  have oR1 : Once ex (L.map Prod.fst) _ := once_rot hg o n1 h1
  have oR2 : Once ex (L.map Prod.fst) _ := once_rot hg o n2 h2
  subst hm
  exact altOf_head hu hg reset
    ((((((((((((Alt.nil.cons hM oA).cons (hu.rotLayer o _ _) oR2).cons (cz (zOf L) z3) (oz hz.2.2.2)).cons (cz (zOf L) z2) (oz hz.2.2.1)).cons
      (cz (zOf L) z1) (oz hz.2.1)).cons (cz (zOf L) z0) (oz hz.1)).cons (hu.h _) oAll).cons (cz (xOf L) x3) (ox hx.2.2.2)).cons
      (cz (xOf L) x2) (ox hx.2.2.1)).cons (cz (xOf L) x1) (ox hx.2.1)).cons (cz (xOf L) x0) (ox hx.1)).cons (hu.rotLayer o _ _) oR1)

/-- The XZZX round with a step g that uses every qubit once. -/
theorem alt_xzzx {x0 x1 x2 x3 z0 z1 z2 z3 : String} {ξ0 ξ1 ξ2 ζ0 ζ1 ζ2 : Site}
    (hcode : l.code = "rotated_surface_code") (ho : l.interactionOrder = order4 x0 x1 x2 x3 z0 z1 z2 z3)
    (hx : (ξ0, x0) ∈ dirs ∧ (ξ1, x1) ∈ dirs ∧ (ξ2, x2) ∈ dirs)
    (hz : (ζ0, z0) ∈ dirs ∧ (ζ1, z1) ∈ dirs ∧ (ζ2, z2) ∈ dirs)
    (hi : ∀ a s a' s', (a, s, Kind.x) ∈ L → (a', s', Kind.z) ∈ L →
      s + ξ0 ≠ s' + ζ0 ∧ s + ξ1 ≠ s' + ζ1 ∧ s + ξ2 ≠ s' + ζ2) (reset : Bool)
    {stepG : List String → Call1} {u : List String} (h3 : DoesUse p nm.inds (stepG (allOf L)) (.qs u))
    (o3 : Once ex (L.map Prod.fst) u) :
    AltOf p ex nm.inds l (9 + if reset then 1 else 0) (xzzxIterWith stepG o nm l reset) := by
  have hd : dataQubits l = .ok (dataOf L) := hg.getQubits_data
  have ha : ancQubits l = .ok (ancOf L) := hg.getQubits_anc
  have hx' : stabQubits l "x_type" = .ok (xOf L) := hg.getQubits_x
  have hz' : stabQubits l "z_type" = .ok (zOf L) := hg.getQubits_z
  generalize hm : (9 + if reset then 1 else 0) = m
  unfold xzzxIterWith
  rw [if_neg (by simp [hcode]), hd, ha, hx']
  simp only [withE]
  have hr : rotSet l (ancOf L) (xOf L) = .ok (cssRotSet l L x0 x3) := by
    simp [rotSet, orderDir, ho, order4, Dict.getE, pyIndex, cssRotSet]
  have hR : DoesUse p nm.inds (xzzxRotLayer o nm l (allOf L) (ancOf L) (xOf L)) (.qs (o.ord (xzzxRotSet l L x0 x3) ++
      idl ex (o.ord (diff (allOf L) (xzzxRotSet l L x0 x3))))) := by
    intro s c s' h
    unfold xzzxRotLayer at h
    rw [hr, hz', PyM.bind_ok (PyM.ofExcept_apply _ _), PyM.bind_ok (PyM.ofExcept_apply _ _)] at h
    exact hu.rotLayer o _ _ _ _ _ h
  obtain ⟨R0, r0, h0⟩ := use_czLayer hu hg o ho 0 (by decide)
  obtain ⟨R1, r1, h1⟩ := use_czLayer hu hg o ho 1 (by decide)
  obtain ⟨R2, r2, h2⟩ := use_czLayer hu hg o ho 2 (by decide)
  have hH := (hu.h (dataOf L)).plus (hu.i (ancOf L))
  have hM := (hu.m (ancOf L)).plus (hu.i (dataOf L))
  have oR : Once ex (L.map Prod.fst) _ := once_rot hg o (rot := xzzxRotSet l L x0 x3)
    (symmDiff_nodup (cssRotSet_nodup hg x0 x3) (setOf_nodup _)) fun q h => by
      rcases mem_symmDiff.1 h with ⟨h, -⟩ | ⟨h, -⟩
      · exact cssRotSet_known hg h
      · exact diagonal_known hg (mem_setOf.1 h)
  have o0 : Once ex (L.map Prod.fst) _ := once_cz hg o hx.1 hz.1 (fun a s a' s' e e' => (hi a s a' s' e e').1) r0
  have o1 : Once ex (L.map Prod.fst) _ := once_cz hg o hx.2.1 hz.2.1 (fun a s a' s' e e' => (hi a s a' s' e e').2.1) r1
  have o2 : Once ex (L.map Prod.fst) _ := once_cz hg o hx.2.2 hz.2.2 (fun a s a' s' e e' => (hi a s a' s' e e').2.2) r2
  have oD := once_data_anc (ex := ex) hg
  have oA := once_anc_data (ex := ex) hg
  subst hm
  exact altOf_head hu hg reset
    (((((((((Alt.nil.cons hM oA).cons hR oR).cons h3 o3).cons hH oD).cons h2 o2).cons h1 o1).cons hH oD).cons h0 o0).cons hR oR)

/-! ### Google's round -/

omit hu in
theorem mem_xz {q : String} : q ∈ xOf L ++ zOf L ↔ q ∈ ancOf L := by
  rw [List.mem_append, mem_xOf, mem_zOf, mem_ancOf]
  constructor
  · rintro (⟨s, h⟩ | ⟨s, h⟩)
    · exact ⟨s, _, h, by decide⟩
    · exact ⟨s, _, h, by decide⟩
  · rintro ⟨s, k, h, hk⟩
    cases k
    · exact absurd rfl hk
    · exact .inl ⟨s, h⟩
    · exact .inr ⟨s, h⟩

omit hu in
theorem xz_pairs_nodup {σ : Site} {dir : String} (hd : (σ, dir) ∈ dirs) :
    (chain (l.getNeighborPairs (xOf L ++ zOf L) (some dir))).Nodup := by
  refine chain_nodup hg (Layout.getNeighborPairs_nodup (Layout.inv_of_reachable hg.reach) _ _) (sh := fun _ => σ) ?_ ?_
  · intro a d h
    obtain ⟨h1, s, k, s', k', τ, h2, h3, h4, h5, h6⟩ := hg.mem_pairs.1 h
    rw [mem_xz hg] at h1
    have hk : k ≠ .data := by
      obtain ⟨s1, k1, h1, hk⟩ := mem_ancOf.1 h1
      rwa [(hg.unique h2 h1).2]
    refine ⟨s, k, h2, hk, ?_⟩
    rw [hg.shifts _ _ _ h4 hd] at h5
    have : k' = .data := by
      by_contra hne
      exact hk (h6.2 hne)
    rw [← h5, ← this]
    exact h3
  · intro a s k a' s' k' _ _ _ _ he
    simpa using he

omit hu in
theorem google_all {q : String} : q ∈ setOf (dataOf L ++ (xOf L ++ zOf L)) ↔ q ∈ L.map Prod.fst := by
  rw [mem_setOf, List.mem_append, mem_xz hg, ← List.mem_append, mem_data_or_anc, mem_labels]

theorem steps_googleCz {ps : List (String × String)} (hn : (chain ps).Nodup) (hk : ∀ q ∈ chain ps, q ∈ L.map Prod.fst)
    {post : Bool} {g : Gen} {n : Nat} (h : Steps p ex post nm.inds (L.map Prod.fst) g n) :
    Steps p ex post nm.inds (L.map Prod.fst) (googleCz o nm (setOf (dataOf L ++ (xOf L ++ zOf L))) ps ++ g) (n + 1) :=
  h.cons2 (hu.cz _) (hu.i _) (once_rest o hn hg.labels (setOf_nodup _) (fun _ => google_all hg) hk fun _ => mem_setOf)

theorem steps_googleCoherent {σ0 σ1 σ2 σ3 : Site} (h0 : (σ0, "north_east") ∈ dirs) (h1 : (σ1, "north_west") ∈ dirs)
    (h2 : (σ2, "south_east") ∈ dirs) (h3 : (σ3, "south_west") ∈ dirs)
    (hi : ∀ a s a' s', (a, s, Kind.x) ∈ L → (a', s', Kind.z) ∈ L → s + σ1 ≠ s' + σ2 ∧ s + σ2 ≠ s' + σ1)
    {post : Bool} {g : Gen} {n : Nat} (h : Steps p ex post nm.inds (L.map Prod.fst) g n) :
    ∃ g', googleCoherent o nm l ++ g = nm.incomingNoise (dataOf L) :: Blocks.tick :: g' ∧
      Steps p ex post nm.inds (L.map Prod.fst) g' (n + 8) := by
  have hd : dataQubits l = .ok (dataOf L) := hg.getQubits_data
  have hx : stabQubits l "x_type" = .ok (xOf L) := hg.getQubits_x
  have hz : stabQubits l "z_type" = .ok (zOf L) := hg.getQubits_z
  have oAD : Once ex (L.map Prod.fst) (o.ord (setOf (xOf L ++ zOf L)) ++ o.ord (setOf (dataOf L))) := by
    refine once_full ?_ hg.labels fun q => ?_
    · rw [List.nodup_append]
      refine ⟨(ord_nodup o).2 (setOf_nodup _), (ord_nodup o).2 (setOf_nodup _), ?_⟩
      rintro a h1 b h2 rfl
      rw [mem_ord, mem_setOf] at h1 h2
      rw [mem_xz hg] at h1
      have := (List.nodup_append.1 (data_anc_nodup hg)).2.2
      exact this a h2 a h1 rfl
    · rw [List.mem_append, mem_ord, mem_ord, mem_setOf, mem_setOf, mem_xz hg, Or.comm, ← List.mem_append, mem_data_or_anc,
        mem_labels]
  have oDA : Once ex (L.map Prod.fst) (o.ord (setOf (dataOf L)) ++ o.ord (setOf (xOf L ++ zOf L))) := by
    have e : Once ex (L.map Prod.fst) (o.ord (setOf (xOf L ++ zOf L)) ++ o.ord (setOf (dataOf L))) := oAD
    cases ex
    · exact (List.perm_append_comm.subperm_right).1 e
    · exact List.perm_append_comm.trans e
  have oQ : Once ex (L.map Prod.fst) (o.ord (setOf (dataOf L ++ (xOf L ++ zOf L)))) :=
    once_full ((ord_nodup o).2 (setOf_nodup _)) hg.labels fun q => by rw [mem_ord]; exact google_all hg
  have kp : ∀ qs dir, ∀ q ∈ chain (l.getNeighborPairs qs (some dir)), q ∈ L.map Prod.fst := fun _ _ _ h => pairs_known hg h
  have kc : ∀ d d', ∀ q ∈ chain (czPairs l L d d'), q ∈ L.map Prod.fst := by
    intro d d' q h
    unfold czPairs at h
    rw [chain_append, List.mem_append] at h
    rcases h with h | h <;> exact pairs_known hg h
  have n1 := czPairs_nodup hg h1 h2 fun a s a' s' e e' => (hi a s a' s' e e').1
  have n2 := czPairs_nodup hg h2 h1 fun a s a' s' e e' => (hi a s a' s' e e').2
  refine ⟨_, ?_, ((steps_googleCz hu hg o (xz_pairs_nodup hg h0) (kp _ _)
    ((steps_googleCz hu hg o n1 (kc _ _) ((steps_googleCz hu hg o n2 (kc _ _) ((steps_googleCz hu hg o
      (xz_pairs_nodup hg h3) (kp _ _) h).cons2 (hu.h _) (hu.x _) oDA)).cons (hu.x _) oQ)).cons2 (hu.h _) (hu.x _) oDA)).cons2
      (hu.h _) (hu.x _) oAD)⟩
  unfold googleCoherent
  rw [hd, hx, hz]
  simp only [withE, List.append_assoc, List.cons_append, List.nil_append]
  rfl

theorem once_google {σ0 σ1 σ2 σ3 : Site} (h0 : (σ0, "north_east") ∈ dirs) (h1 : (σ1, "north_west") ∈ dirs)
    (h2 : (σ2, "south_east") ∈ dirs) (h3 : (σ3, "south_west") ∈ dirs)
    (hi : ∀ a s a' s', (a, s, Kind.x) ∈ L → (a', s', Kind.z) ∈ L → s + σ1 ≠ s' + σ2 ∧ s + σ2 ≠ s' + σ1) :
    OncePerTick p ex nm.inds l true 11 true (sumGen (googleIter o nm l)) := by
  refine ⟨_, hg.getQubits_all, hg.labels, fun s c s' hs => ?_⟩
  have hd : dataQubits l = .ok (dataOf L) := hg.getQubits_data
  have ha : ancQubits l = .ok (ancOf L) := hg.getQubits_anc
  unfold googleIter at hs
  rw [hd, ha] at hs
  simp only [withE] at hs
  have oA := once_anc_data (ex := ex) hg
  have oH : Once ex (L.map Prod.fst) (o.ord (setOf (ancOf L)) ++ dataOf L) := by
    refine once_full ?_ hg.labels fun q => ?_
    · rw [List.nodup_append]
      refine ⟨(ord_nodup o).2 (setOf_nodup _), (at_data hg).nodup, ?_⟩
      rintro a h1 b h2 rfl
      rw [mem_ord, mem_setOf] at h1
      exact (List.nodup_append.1 (data_anc_nodup hg)).2.2 a h2 a h1 rfl
    · rw [List.mem_append, mem_ord, mem_setOf, Or.comm, ← List.mem_append, mem_data_or_anc, mem_labels]
  obtain ⟨g', e, hg'⟩ := steps_googleCoherent hu hg o h0 h1 h2 h3 hi
    (((Steps.nil.cons2 (hu.r _) (hu.i _) oA).cons2 (hu.m _) (hu.i _) oA).cons2 (hu.h _) (hu.x _) oH)
  rw [e] at hs
  exact hg'.eachOnce (hu.inc _) hs

theorem once_googleFinal {σ0 σ1 σ2 σ3 : Site} (h0 : (σ0, "north_east") ∈ dirs) (h1 : (σ1, "north_west") ∈ dirs)
    (h2 : (σ2, "south_east") ∈ dirs) (h3 : (σ3, "south_west") ∈ dirs)
    (hi : ∀ a s a' s', (a, s, Kind.x) ∈ L → (a', s', Kind.z) ∈ L → s + σ1 ≠ s' + σ2 ∧ s + σ2 ≠ s' + σ1) (rot : Bool) :
    OncePerTick p ex nm.inds l true 10 false (sumGen (googleFinalIter o nm l rot)) := by
  refine ⟨_, hg.getQubits_all, hg.labels, fun s c s' hs => ?_⟩
  have hd : dataQubits l = .ok (dataOf L) := hg.getQubits_data
  have ha : ancQubits l = .ok (ancOf L) := hg.getQubits_anc
  unfold googleFinalIter at hs
  rw [hd, ha, stabQubits_grid hg rot] at hs
  simp only [withE] at hs
  have oM : Once ex (L.map Prod.fst) (ancOf L ++ dataOf L) :=
    once_full (List.nodup_append_comm.1 (data_anc_nodup hg)) hg.labels fun q => by
      rw [List.mem_append, Or.comm, ← List.mem_append, mem_data_or_anc, mem_labels]
  have oR := once_rot (ex := ex) hg o (union_nodup (diagonalNeighbors l (stabsOf L rot)) (setOf_nodup (ancOf L))) fun q h => by
    rw [mem_union, mem_setOf] at h
    rcases h with h | h
    · obtain ⟨s, k, h, -⟩ := mem_ancOf.1 h; exact ⟨s, k, h⟩
    · exact diagonal_known hg h
  obtain ⟨g', e, hg'⟩ := steps_googleCoherent hu hg o h0 h1 h2 h3 hi
    ((Steps.last (hu.m _) (hu.m _) oM).cons2 (hu.h _) (hu.i _) oR)
  unfold allOf at e
  rw [e] at hs
  exact hg'.eachOnce (hu.inc _) hs

/-! ### initialization -/

theorem steps_initHead {dataInit : Dict String Int} (hk : ∀ q v, (q, v) ∈ dataInit → v ≠ 0 → ∃ s k, (q, s, k) ∈ L)
    {g : Gen} {n : Nat} (h : Steps p ex true nm.inds (L.map Prod.fst) g n) :
    Steps p ex true nm.inds (L.map Prod.fst) (initHead o nm (allOf L) dataInit ++ g) (n + 2) := by
  have oAll : Once ex (L.map Prod.fst) (o.ord (allOf L)) :=
    once_full ((ord_nodup o).2 allOf_nodup) hg.labels fun q => by rw [mem_ord]; exact mem_allOf'
  have hex : ∀ q ∈ excited dataInit, ∃ s k, (q, s, k) ∈ L := by
    intro q hq
    unfold excited at hq
    rw [mem_setOf, List.mem_map] at hq
    obtain ⟨⟨q, v⟩, h1, rfl⟩ := hq
    rw [List.mem_filter] at h1
    exact hk q v h1.1 (by simpa using h1.2)
  have hn : (excited dataInit).Nodup := setOf_nodup _
  have oE : Once ex (L.map Prod.fst) _ := once_rot hg o hn hex
  have hX : DoesUse p nm.inds (if (excited dataInit).isEmpty then pure [] else nm.xGate (o.ord (excited dataInit)))
      (.qs (o.ord (excited dataInit))) := by
    split
    · rename_i h
      have h0 : excited dataInit = [] := by simpa using h
      rw [h0]
      intro s c s' h
      simp only [pure, PyM.pure, Prod.mk.injEq, Except.ok.injEq] at h
      rw [← h.1]
      refine ⟨by simp, ?_⟩
      have : o.ord ([] : List String) = [] := by
        rw [List.eq_nil_iff_forall_not_mem]
        intro q hq
        simpa using (mem_ord o).1 hq
      rw [this]; rfl
    · exact hu.x _
  exact (h.cons (hX.plus (hu.i _)) oE).cons (hu.r _) oAll

theorem once_init {dataInit : Dict String Int} (hk : ∀ q v, (q, v) ∈ dataInit → v ≠ 0 → ∃ s k, (q, s, k) ∈ L)
    (rot : Bool) :
    OncePerTick p ex nm.inds l false (if rot then 3 else 2) true (sumGen (initIter o nm l dataInit rot)) := by
  refine ⟨_, hg.getQubits_all, hg.labels, fun s c s' hs => ?_⟩
  have hd : dataQubits l = .ok (dataOf L) := hg.getQubits_data
  have ha : ancQubits l = .ok (ancOf L) := hg.getQubits_anc
  unfold initIter at hs
  rw [hd, ha] at hs
  simp only [withE] at hs
  cases rot
  · exact (steps_initHead hu hg o hk Steps.nil).eachOnce' hs
  · exact (steps_initHead hu hg o hk (Steps.nil.cons ((hu.h (dataOf L)).plus (hu.i (ancOf L))) (once_data_anc hg))).eachOnce' hs

theorem once_initXzzx (hcode : l.code = "rotated_surface_code") {dataInit : Dict String Int}
    (hk : ∀ q v, (q, v) ∈ dataInit → v ≠ 0 → ∃ s k, (q, s, k) ∈ L) (rot : Bool) :
    OncePerTick p ex nm.inds l false 3 true (sumGen (initXzzxIter o nm l dataInit rot)) := by
  refine ⟨_, hg.getQubits_all, hg.labels, fun s c s' hs => ?_⟩
  have hd : dataQubits l = .ok (dataOf L) := hg.getQubits_data
  have ha : ancQubits l = .ok (ancOf L) := hg.getQubits_anc
  unfold initXzzxIter at hs
  rw [if_neg (by simp [hcode]), hd, ha, stabQubits_grid hg rot] at hs
  simp only [withE] at hs
  exact (steps_initHead hu hg o hk (Steps.nil.cons (hu.rotLayer o (allOf L) _) (once_rot hg o (setOf_nodup _)
    fun q h => diagonal_known hg (mem_setOf.1 h)))).eachOnce' hs

/-! ### measurement -/

theorem alt_logMeas (rot : Bool) :
    AltOf p ex nm.inds l (if rot then 2 else 1) (logMeasIter nm l rot) := by
  have hd : dataQubits l = .ok (dataOf L) := hg.getQubits_data
  have ha : ancQubits l = .ok (ancOf L) := hg.getQubits_anc
  unfold logMeasIter
  rw [hd, ha]
  simp only [withE]
  have oD := once_data_anc (ex := ex) hg
  cases rot
  · exact altOf_head hu hg false (Alt.nil.cons ((hu.m (dataOf L)).plus (hu.i (ancOf L))) oD)
  · exact altOf_head hu hg false ((Alt.nil.cons ((hu.m (dataOf L)).plus (hu.i (ancOf L))) oD).cons
      ((hu.h (dataOf L)).plus (hu.i (ancOf L))) oD)

theorem alt_logMeasXzzx (rot : Bool) :
    AltOf p ex nm.inds l 2 (logMeasXzzxIter o nm l rot) := by
  have hd : dataQubits l = .ok (dataOf L) := hg.getQubits_data
  have ha : ancQubits l = .ok (ancOf L) := hg.getQubits_anc
  unfold logMeasXzzxIter
  rw [hd, ha, stabQubits_grid hg rot]
  simp only [withE]
  have oD := once_data_anc (ex := ex) hg
  exact altOf_head hu hg false ((Alt.nil.cons ((hu.m (dataOf L)).plus (hu.i (ancOf L))) oD).cons
      (hu.rotLayer o (allOf L) _) (once_rot hg o (setOf_nodup _) fun q h => diagonal_known hg (mem_setOf.1 h)))

/-! ### logical Pauli operators -/

theorem once_log {f : List String → Call1} (hf : ∀ qs, DoesUse p nm.inds (f qs) (.qs qs)) {log : List String}
    (hn : log.Nodup) (hs : ∀ q ∈ log, q ∈ dataOf L) {s s' : MeasState} {c : Circuit}
    (h : sumGen [nm.incomingNoise (dataOf L), Blocks.tick,
      plus (f log) (nm.idle (o.ord (diff (setOf (ancOf L ++ dataOf L)) (setOf log)))), Blocks.tick] s = (.ok c, s')) :
    EachOnce p ex ((L.map Prod.fst).map (ind nm.inds)) true 1 true c := by
  refine (Steps.nil.cons ((hf log).plus (hu.i _)) ?_).eachOnce (hu.inc _) h
  refine once_rest o hn hg.labels (setOf_nodup _) (fun q => ?_) (fun q h => ?_) fun q => mem_setOf
  · rw [mem_setOf, List.mem_append, Or.comm, ← List.mem_append, mem_data_or_anc, mem_labels]
  · obtain ⟨s, h⟩ := mem_dataOf.1 (hs q h)
    exact mem_labels.2 ⟨_, _, h⟩

theorem once_logX {log : List String} (hl : logicalSupport l true = .ok log) (hn : log.Nodup)
    (hsub : ∀ q ∈ log, q ∈ dataOf L) : OncePerTick p ex nm.inds l true 1 true (logX o nm l) := by
  refine ⟨_, hg.getQubits_all, hg.labels, fun s c s' hs => ?_⟩
  have hd : dataQubits l = .ok (dataOf L) := hg.getQubits_data
  have ha : ancQubits l = .ok (ancOf L) := hg.getQubits_anc
  unfold logX logXIter at hs
  rw [hd, ha, hl] at hs
  simp only [withE] at hs
  exact once_log hu hg o hu.x hn hsub hs

theorem once_logZ {log : List String} (hl : logicalSupport l false = .ok log) (hn : log.Nodup)
    (hsub : ∀ q ∈ log, q ∈ dataOf L) : OncePerTick p ex nm.inds l true 1 true (logZ o nm l) := by
  refine ⟨_, hg.getQubits_all, hg.labels, fun s c s' hs => ?_⟩
  have hd : dataQubits l = .ok (dataOf L) := hg.getQubits_data
  have ha : ancQubits l = .ok (ancOf L) := hg.getQubits_anc
  unfold logZ logZIter at hs
  rw [hd, ha, hl] at hs
  simp only [withE] at hs
  exact once_log hu hg o hu.z hn hsub hs

end

/-! ### API -/

theorem once_activate {cfg : Detectors.Config} {g : Gen} {inds : Dict String Nat} {pre post : Bool} {n : Nat}
    (h : OncePerTick p ex inds l pre n post (sumGen g)) :
    OncePerTick p ex inds l pre n post (activateAndSum (cfg := cfg) l g) := by
  obtain ⟨qs, h1, h2, h3⟩ := h
  refine ⟨qs, h1, h2, ?_⟩
  intro s c s' hr
  unfold activateAndSum at hr
  obtain ⟨anc, s1, -, hr⟩ := PyM.bind_eq_ok hr
  obtain ⟨_, s2, -, hr⟩ := PyM.bind_eq_ok hr
  unfold onModel at hr
  simp only [Prod.mk.injEq] at hr
  exact h3 _ _ _ (Prod.ext hr.1 rfl)

theorem once_finish (hm : Marks p) {cfg : Detectors.Config} {rot reset : Bool} {sel : List String} {c0 c : Circuit} {s s' : Sim cfg}
    {qs : List Nat} {pre post : Bool} {n : Nat} (h : EachOnce p ex qs pre n post c0)
    (hr : finishMeas l rot reset sel c0 s = (.ok c, s')) : EachOnce p ex qs pre n post c := by
  unfold finishMeas at hr
  obtain ⟨stabs, s1, -, hr⟩ := PyM.bind_eq_ok hr
  obtain ⟨supp, s2, -, hr⟩ := PyM.bind_eq_ok hr
  obtain ⟨d, s3, e3, hr⟩ := PyM.bind_eq_ok hr
  obtain ⟨log, s4, -, hr⟩ := PyM.bind_eq_ok hr
  obtain ⟨obs, s5, e5, hr⟩ := PyM.bind_eq_ok hr
  obtain ⟨anc, s6, -, hr⟩ := PyM.bind_eq_ok hr
  obtain ⟨_, s7, -, hr⟩ := PyM.bind_eq_ok hr
  simp only [pure, PyM.pure, Prod.mk.injEq, Except.ok.injEq] at hr
  rw [← hr.1]
  unfold onDets at e3
  simp only [Prod.mk.injEq] at e3
  unfold onModel at e5
  simp only [Prod.mk.injEq] at e5
  exact (h.declare hm fun i hi => .inl (buildFromData_gates (Prod.ext e3.1 rfl) i hi)).declare1 hm
    (observable_gate (Prod.ext e5.1 rfl)).2

theorem once_measBlock (hm : Marks p) {cfg : Detectors.Config} {rot reset : Bool} {sel : Option (List String)}
    (h : OncePerTick p ex nm.inds l true (if rot then 2 else 1) true (sumGen (logMeasIter nm l rot))) :
    OncePerTick p ex nm.inds l true (if rot then 2 else 1) true (logMeas (cfg := cfg) nm l rot reset sel) := by
  obtain ⟨qs, h1, h2, h3⟩ := h
  refine ⟨qs, h1, h2, ?_⟩
  intro s c s' hr
  unfold logMeas at hr
  obtain ⟨sel, s1, -, hr⟩ := PyM.bind_eq_ok hr
  obtain ⟨c0, s2, e2, hr⟩ := PyM.bind_eq_ok hr
  unfold onModel at e2
  simp only [Prod.mk.injEq] at e2
  exact once_finish hm (h3 _ _ _ (Prod.ext e2.1 rfl)) hr

theorem once_measXzzxBlock (hm : Marks p) {cfg : Detectors.Config} {rot reset : Bool} {sel : Option (List String)} {o : SetOrder}
    (h : OncePerTick p ex nm.inds l true 2 true (sumGen (logMeasXzzxIter o nm l rot))) :
    OncePerTick p ex nm.inds l true 2 true (logMeasXzzx (cfg := cfg) o nm l rot reset sel) := by
  obtain ⟨qs, h1, h2, h3⟩ := h
  refine ⟨qs, h1, h2, ?_⟩
  intro s c s' hr
  unfold logMeasXzzx at hr
  split at hr
  · simp [PyM.raise] at hr
  · obtain ⟨sel, s1, -, hr⟩ := PyM.bind_eq_ok hr
    obtain ⟨c0, s2, e2, hr⟩ := PyM.bind_eq_ok hr
    unfold onModel at e2
    simp only [Prod.mk.injEq] at e2
    exact once_finish hm (h3 _ _ _ (Prod.ext e2.1 rfl)) hr

theorem once_googleRound (hm : Marks p) {cfg : Detectors.Config} {o : SetOrder} {pre post : Bool} {n : Nat} {sel : Option (List String)}
    (h : OncePerTick p ex nm.inds l pre n post (sumGen (googleIter o nm l))) :
    OncePerTick p ex nm.inds l pre n post (googleRound (cfg := cfg) o nm l sel) := by
  obtain ⟨qs, h1, h2, h3⟩ := h
  refine ⟨qs, h1, h2, ?_⟩
  intro s c s' hr
  unfold googleRound at hr
  split at hr
  · simp [PyM.raise] at hr
  · obtain ⟨c0, s1, e1, hr⟩ := PyM.bind_eq_ok hr
    obtain ⟨d, s3, e3, hr⟩ := PyM.bind_eq_ok hr
    simp only [pure, PyM.pure, Prod.mk.injEq, Except.ok.injEq] at hr
    rw [← hr.1]
    unfold onModel at e1
    simp only [Prod.mk.injEq] at e1
    unfold onDets at e3
    simp only [Prod.mk.injEq] at e3
    exact (h3 _ _ _ (Prod.ext e1.1 rfl)).declare hm fun i hi => .inl (buildFromAnc_gates (Prod.ext e3.1 rfl) i hi)

theorem once_googleFinalBlock (hm : Marks p) {cfg : Detectors.Config} {o : SetOrder} {pre post : Bool} {n : Nat} {sel : Option (List String)}
    {rot : Bool} (h : OncePerTick p ex nm.inds l pre n post (sumGen (googleFinalIter o nm l rot))) :
    OncePerTick p ex nm.inds l pre n post (googleFinal (cfg := cfg) o nm l sel rot) := by
  obtain ⟨qs, h1, h2, h3⟩ := h
  refine ⟨qs, h1, h2, ?_⟩
  intro s c s' hr
  unfold googleFinal at hr
  split at hr
  · simp [PyM.raise] at hr
  · obtain ⟨sel', s0, -, hr⟩ := PyM.bind_eq_ok hr
    obtain ⟨c0, s1, e1, hr⟩ := PyM.bind_eq_ok hr
    obtain ⟨d, s3, e3, hr⟩ := PyM.bind_eq_ok hr
    unfold onModel at e1
    simp only [Prod.mk.injEq] at e1
    unfold onDets at e3
    simp only [Prod.mk.injEq] at e3
    exact once_finish hm ((h3 _ _ _ (Prod.ext e1.1 rfl)).declare hm fun i hi =>
      .inl (buildFromAnc_gates (Prod.ext e3.1 rfl) i hi)) hr

end SurfaceSim
