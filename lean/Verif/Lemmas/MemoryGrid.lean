/-
Memory experiments on the generated layouts.
-/
import Verif.Lemmas.MemoryRun
import Verif.Lemmas.Coords
import Verif.Lemmas.CommuteGrid

namespace SurfaceSim
open Spec NoiseModel Blocks LayoutLib

variable {nm : NoiseModel} {l : Layout} {L : List (String × Site × Kind)} {dirs : List (Site × String)}

/-- The stabilizers of the type of the basis. -/
def stabsOf (L : List (String × Site × Kind)) (rb : Bool) : List String := if rb then xOf L else zOf L

theorem stabQubits_grid (hg : OnGrid l L dirs) (rb : Bool) : stabQubits l (stabType rb) = .ok (stabsOf L rb) := by
  cases rb
  · exact hg.getQubits_z
  · exact hg.getQubits_x

theorem stabsOf_sub {rb : Bool} {x : String} (h : x ∈ stabsOf L rb) : x ∈ ancOf L := by
  unfold stabsOf at h
  split at h
  · obtain ⟨s, h⟩ := mem_xOf.1 h; exact mem_ancOf.2 ⟨s, _, h, by simp⟩
  · obtain ⟨s, h⟩ := mem_zOf.1 h; exact mem_ancOf.2 ⟨s, _, h, by simp⟩

theorem data_anc_nodup (hg : OnGrid l L dirs) : (dataOf L ++ ancOf L).Nodup := by
  rw [List.nodup_append]
  refine ⟨?_, ?_, ?_⟩
  · exact (at_data hg).nodup
  · exact (at_anc hg).nodup
  · rintro q hq _ hq' rfl
    obtain ⟨s, h⟩ := mem_dataOf.1 hq
    obtain ⟨s', k, h', hk⟩ := mem_ancOf.1 hq'
    have := (hg.unique h h').2
    exact hk this.symm

theorem memCode_grid (hg : OnGrid l L dirs) (hr : CanRun nm l) (hc : NumCoords l) {rb : Bool} {log : List String}
    (hlog : logicalSupport l rb = .ok log) (hsub : ∀ d ∈ log, d ∈ dataOf L) {isX : String → String → Bool}
    {R : List String} (hR : ∀ d ∈ R, d ∈ dataOf L)
    (ht : ∀ x ∈ stabsOf L rb, ∀ d ∈ l.getNeighbors [x] none, isX x d = decide (d ∈ R)) :
    MemCode nm l rb (dataOf L) (ancOf L) (stabsOf L rb) log isX R where
  reach := hg.reach
  can := hr
  qData := hg.getQubits_data
  qAnc := hg.getQubits_anc
  qStabs := stabQubits_grid hg rb
  all := by
    refine ⟨_, hg.getQubits_all, hg.labels, fun q => ?_⟩
    rw [mem_data_or_anc]
    simp
  nodup := data_anc_nodup hg
  sup := fun x hx d hd => nbrs_data hg hx hd
  supN := fun x => hg.neighbors_nodup x
  stabsSub := fun x hx => stabsOf_sub hx
  qLog := hlog
  logSub := hsub
  rot := hR
  type := ht
  coords := by
    refine qubitCoords_ok hc fun n hn => hr.known _ hg.getQubits_all _ ?_
    rw [← hg.keys]
    exact List.mem_map.2 ⟨n, hn, rfl⟩

theorem anticommutes_congr {ι : String → Nat} {st : FState Nat} {S : List String} {τ τ' : String → Bool}
    (h : ∀ d ∈ S, τ d = τ' d) : anticommutes ι st S τ = anticommutes ι st S τ' := by
  unfold anticommutes
  congr 1
  refine List.map_congr_left fun d hd => ?_
  rw [h d hd]

theorem roundEff_grid (hg : OnGrid l L dirs) {b : Call1} {isX : String → String → Bool} {reset : Bool}
    (h : RoundMeasures nm l b isX reset) {rot : String → Bool} (ht : Typed l L isX rot)
    {lx lz : List String} (hc : CodeGrid l L lx lz) (rb : Bool) {R : List String}
    (hR : ∀ d ∈ (if rb then lx else lz), decide (d ∈ R) = (if rb then !rot d else rot d)) :
    RoundEff nm l (ancOf L) (if rb then lx else lz) isX R reset false 0 0 0 b := by
  obtain ⟨data, anc, hd, ha, h⟩ := h
  have h1 : data = dataOf L := by have := hg.getQubits_data; rw [hd] at this; exact Except.ok.inj this
  have h2 : anc = ancOf L := by have := hg.getQubits_anc; rw [ha] at this; exact Except.ok.inj this
  subst h1; subst h2
  intro s hist hs
  obtain ⟨c, s', e, p, t, mo, h⟩ := h s hist hs
  refine ⟨c, s', e, p, t, mo, fun ρ st => ?_⟩
  have m := h ρ st
  refine ⟨?_, ?_, ?_, ?_, m.dets, m.obs⟩
  · rw [m.recs]
    simp only [Pi.zero_apply, zero_add]
    rfl
  · intro x hx
    rw [m.ancilla x hx]
    simp only [Pi.zero_apply, zero_add, Bool.false_eq_true, if_false]
    rfl
  · intro x hx
    rw [Pi.zero_apply, add_zero]
    exact MeasuresStabs.invariant m (fun d hd => nbrs_data hg hx hd) (hc.stabs hg ht hx)
  · rw [add_zero, anticommutes_congr hR, anticommutes_congr hR]
    cases rb
    · exact MeasuresStabs.invariant m hc.subZ (hc.logicalZ ht)
    · exact MeasuresStabs.invariant m hc.subX (hc.logicalX ht)

/-! ### initialization and measurement -/

theorem mem_excited {dataInit : Dict String Int} {q : String} : q ∈ excited dataInit ↔ isOne dataInit q = 1 := by
  unfold excited isOne
  rw [mem_setOf, List.mem_map]
  constructor
  · rintro ⟨kv, h, rfl⟩
    rw [List.mem_filter] at h
    rw [if_pos]
    rw [List.any_eq_true]
    exact ⟨kv, h.1, by simpa using h.2⟩
  · intro h
    split at h
    · rename_i h'
      obtain ⟨kv, h1, h2⟩ := List.any_eq_true.1 h'
      simp only [decide_eq_true_eq] at h2
      exact ⟨kv, List.mem_filter.2 ⟨h1, by simpa using h2.2⟩, h2.1⟩
    · simp at h

section
variable (hn : Faithful nm) (o : SetOrder) {data anc : List String} (hk : ∀ q ∈ data ++ anc, q ∈ nm.inds.keys)
  {dataInit : Dict String Int} (hd : ∀ q, isOne dataInit q = 1 → q ∈ nm.inds.keys)
include hn hk

include hd in
theorem does_initHead : List.Forall₂ (Does nm.inds) (initHead o nm (setOf (data ++ anc)) dataInit)
    [(o.ord (setOf (data ++ anc))).map Op.r, [], (o.ord (excited dataInit)).map Op.x, []] := by
  have hall : ∀ q ∈ o.ord (setOf (data ++ anc)), q ∈ nm.inds.keys := fun q h => hk q (mem_setOf.1 ((mem_ord o).1 h))
  refine .cons (does_r hn _ hall) (.cons (Does.tick _) (.cons ?_ (.cons (Does.tick _) .nil)))
  have hi := does_idle hn (o.ord (diff (setOf (data ++ anc)) (excited dataInit)))
    (fun q h => hk q (mem_setOf.1 (mem_diff.1 ((mem_ord o).1 h)).1))
  by_cases he : (excited dataInit).isEmpty = true
  · have he' : excited dataInit = [] := by simpa using he
    simp only [he, if_true]
    refine ((Does.pure_nil nm.inds).bind_concat hi).congr ?_
    have : o.ord (excited dataInit) = [] := by
      rw [he']
      exact List.eq_nil_iff_forall_not_mem.2 fun q h => by simpa using (mem_ord o).1 h
    rw [this]; rfl
  · simp only [he, Bool.false_eq_true, if_false]
    exact ((does_x hn _ fun q h => hd q (mem_excited.1 ((mem_ord o).1 h))).bind_concat hi).congr (by simp)

include hd in
theorem initEff_of {R H : List String} {g : Gen} (hH : H.Nodup) (hH' : ∀ q, q ∈ H ↔ q ∈ R)
    (hg : ∃ Ls, List.Forall₂ (Does nm.inds) g Ls ∧ Ls.flatten = H.map Op.h) :
    InitEff nm data anc R dataInit (sumGen (initHead o nm (setOf (data ++ anc)) dataInit ++ g)) := by
  obtain ⟨Ls, h1, h2⟩ := hg
  refine ⟨o.ord (setOf (data ++ anc)), o.ord (excited dataInit), H, (ord_nodup o).2 (setOf_nodup _), ?_,
    (ord_nodup o).2 (setOf_nodup _), ?_, hH, hH', ?_⟩
  · intro q; rw [mem_ord, mem_setOf]
  · intro q; rw [mem_ord, mem_excited]
  · refine (Does.sumGen (List.rel_append (does_initHead hn o hk hd) h1)).congr ?_
    simp [h2]

end

section
variable (hr : CanRun nm l) (hg : OnGrid l L dirs) (o : SetOrder) {dataInit : Dict String Int}
  (hd : ∀ q, isOne dataInit q = 1 → q ∈ nm.inds.keys)
include hr hg

theorem grid_known : ∀ q ∈ dataOf L ++ ancOf L, q ∈ nm.inds.keys := by
  intro q hq
  obtain ⟨s, k, h⟩ := mem_data_or_anc.1 hq
  exact (CanRun.usable hr hg).known q s k h

include hd in
theorem initEff_css (rb : Bool) :
    InitEff nm (dataOf L) (ancOf L) (if rb then dataOf L else []) dataInit (sumGen (initIter o nm l dataInit rb)) := by
  have hk := grid_known hr hg
  unfold initIter ancQubits dataQubits
  rw [hg.getQubits_anc, hg.getQubits_data]
  simp only [withE]
  cases rb
  · simp only [Bool.false_eq_true, if_false]
    exact initEff_of hr.faithful o hk hd (H := []) (by simp) (by simp) ⟨[], .nil, rfl⟩
  · simp only [if_true]
    refine initEff_of hr.faithful o hk hd (H := dataOf L) (at_data hg).nodup (by simp) ⟨[(dataOf L).map Op.h, []], ?_, by simp⟩
    refine .cons ?_ (.cons (Does.tick _) .nil)
    exact ((does_h hr.faithful _ fun q h => hk q (List.mem_append_left _ h)).bind_concat
      (does_idle hr.faithful _ fun q h => hk q (List.mem_append_right _ h))).congr (by simp)

theorem measEff_css (rb : Bool) :
    MeasEff nm (dataOf L) (if rb then dataOf L else []) (sumGen (logMeasIter nm l rb)) := by
  have hk := grid_known hr hg
  have hkd : ∀ q ∈ dataOf L, q ∈ nm.inds.keys := fun q h => hk q (List.mem_append_left _ h)
  have hka : ∀ q ∈ ancOf L, q ∈ nm.inds.keys := fun q h => hk q (List.mem_append_right _ h)
  unfold logMeasIter ancQubits dataQubits
  rw [hg.getQubits_anc, hg.getQubits_data]
  simp only [withE]
  have h1 := does_incoming hr.faithful _ hkd
  have h2 := (does_m hr.faithful _ hkd).bind_concat (does_idle hr.faithful _ hka)
  have h3 := (does_h hr.faithful _ hkd).bind_concat (does_idle hr.faithful _ hka)
  cases rb
  · simp only [Bool.false_eq_true, if_false]
    refine ⟨[], by simp, by simp, (Does.sumGen (Ls := [[], [], (dataOf L).map Op.m ++ [], []]) ?_).congr (by simp)⟩
    exact .cons h1 (.cons (Does.tick _) (.cons h2 (.cons (Does.tick _) .nil)))
  · simp only [if_true]
    refine ⟨dataOf L, (at_data hg).nodup, by simp,
      (Does.sumGen (Ls := [[], [], (dataOf L).map Op.h ++ [], [], (dataOf L).map Op.m ++ [], []]) ?_).congr (by simp)⟩
    exact .cons h1 (.cons (Does.tick _) (.cons h3 (.cons (Does.tick _) (.cons h2 (.cons (Does.tick _) .nil)))))

/-- The data qubits that are rotated in the XZZX blocks. -/
def xzzxR (l : Layout) (L : List (String × Site × Kind)) (rb : Bool) : List String := diagonalNeighbors l (stabsOf L rb)

include hd in
theorem initEff_xzzx (hcode : l.code = "rotated_surface_code") (rb : Bool)
    (hR : ∀ q ∈ xzzxR l L rb, q ∈ dataOf L) :
    InitEff nm (dataOf L) (ancOf L) (xzzxR l L rb) dataInit (sumGen (initXzzxIter o nm l dataInit rb)) := by
  have hk := grid_known hr hg
  unfold initXzzxIter ancQubits dataQubits
  rw [hg.getQubits_anc, hg.getQubits_data, stabQubits_grid hg]
  simp only [withE, hcode, ne_eq, not_true_eq_false, if_false]
  refine initEff_of hr.faithful o hk hd (H := o.ord (setOf (xzzxR l L rb))) ((ord_nodup o).2 (setOf_nodup _))
    (by intro q; rw [mem_ord, mem_setOf]) ⟨[(o.ord (setOf (xzzxR l L rb))).map Op.h, []], ?_, by simp⟩
  refine .cons ?_ (.cons (Does.tick _) .nil)
  exact does_rotLayer hr.faithful o _ _ (fun q h => hk q (mem_setOf.1 h))
    (fun q h => hk q (List.mem_append_left _ (hR q (mem_setOf.1 h))))

theorem measEff_xzzx (rb : Bool) (hR : ∀ q ∈ xzzxR l L rb, q ∈ dataOf L) :
    MeasEff nm (dataOf L) (xzzxR l L rb) (sumGen (logMeasXzzxIter o nm l rb)) := by
  have hk := grid_known hr hg
  have hkd : ∀ q ∈ dataOf L, q ∈ nm.inds.keys := fun q h => hk q (List.mem_append_left _ h)
  have hka : ∀ q ∈ ancOf L, q ∈ nm.inds.keys := fun q h => hk q (List.mem_append_right _ h)
  unfold logMeasXzzxIter ancQubits dataQubits
  rw [hg.getQubits_anc, hg.getQubits_data, stabQubits_grid hg]
  simp only [withE]
  have h1 := does_incoming hr.faithful _ hkd
  have h2 := (does_m hr.faithful _ hkd).bind_concat (does_idle hr.faithful _ hka)
  have h3 := does_rotLayer hr.faithful o (setOf (dataOf L ++ ancOf L)) (setOf (xzzxR l L rb))
    (fun q h => hk q (mem_setOf.1 h)) (fun q h => hkd q (hR q (mem_setOf.1 h)))
  refine ⟨o.ord (setOf (xzzxR l L rb)), (ord_nodup o).2 (setOf_nodup _), by intro q; rw [mem_ord, mem_setOf],
    (Does.sumGen (Ls := [[], [], (o.ord (setOf (xzzxR l L rb))).map Op.h, [], (dataOf L).map Op.m ++ [], []]) ?_).congr
      (by simp)⟩
  exact .cons h1 (.cons (Does.tick _) (.cons h3 (.cons (Does.tick _) (.cons h2 (.cons (Does.tick _) .nil)))))

end

/-! ### the codes -/

variable {a : Args} {dx dz : Int}

theorem css_type (hg : OnGrid l L dirs) (rb : Bool) : ∀ x ∈ stabsOf L rb, ∀ d ∈ l.getNeighbors [x] none,
    cssType L x d = decide (d ∈ (if rb then dataOf L else [])) := by
  intro x hx d hd
  have hdata := nbrs_data hg (stabsOf_sub hx) hd
  have ht := typed_css hg
  cases rb
  · obtain ⟨s, h⟩ := mem_zOf.1 hx
    simp [ht.z x s d h hd]
  · obtain ⟨s, h⟩ := mem_xOf.1 hx
    simp [ht.x x s d h hd, hdata]

theorem mem_diagonal (hg : OnGrid l L dirs) {xs : List String} {d : String} :
    d ∈ diagonalNeighbors l xs ↔ ∃ x ∈ xs, xzzxType l x d = true := by
  have key : ∀ dir : String, d ∈ l.getNeighbors xs (some dir) ↔ ∃ x ∈ xs, d ∈ l.getNeighbors [x] (some dir) := by
    intro dir
    simp only [grid_neighbors hg, List.mem_singleton, exists_eq_left]
  unfold diagonalNeighbors xzzxType
  simp only [List.mem_append, key, decide_eq_true_eq]
  constructor
  · rintro (⟨x, h1, h2⟩ | ⟨x, h1, h2⟩)
    · exact ⟨x, h1, Or.inl h2⟩
    · exact ⟨x, h1, Or.inr h2⟩
  · rintro ⟨x, h1, h2 | h2⟩
    · exact Or.inl ⟨x, h1, h2⟩
    · exact Or.inr ⟨x, h1, h2⟩

theorem xzzxType_nbr (hg : OnGrid l L dirs) {x d : String} (hx : x ∈ ancOf L) (h : xzzxType l x d = true) :
    d ∈ l.getNeighbors [x] none := by
  obtain ⟨s, k, hk, hkd⟩ := mem_ancOf.1 hx
  have key : ∀ dir, d ∈ l.getNeighbors [x] (some dir) → d ∈ l.getNeighbors [x] none := by
    intro dir h
    rw [grid_neighbors hg] at h
    simp only [List.mem_singleton, exists_eq_left] at h
    obtain ⟨s1, k1, s', k', sh, h1, h2, h3, h4, h5⟩ := h
    obtain ⟨rfl, rfl⟩ := hg.unique hk h1
    refine (hg.mem_neighbors_anc hk hkd).2 ⟨sh, dir, h3, ?_⟩
    rw [← h4]
    have : k' = .data := by
      by_contra hc; exact hkd (h5.2 hc)
    rw [← this]; exact h2
  unfold xzzxType at h
  simp only [decide_eq_true_eq] at h
  rcases h with h | h <;> exact key _ h

theorem IsRot.mem_xzzxR (h : IsRot a dx dz l) (hdx : 2 ≤ dx) (hdz : 2 ≤ dz) (rb : Bool) {d : String}
    (hd : d ∈ dataOf (rotEntries a dx dz)) :
    d ∈ xzzxR l (rotEntries a dx dz) rb ↔ (xzzxRotated l (zOf (rotEntries a dx dz)) d = !rb) := by
  have hg := h.grid
  have ht := h.typed_xzzx hdx hdz
  unfold xzzxR
  rw [mem_diagonal hg]
  cases rb
  · unfold xzzxRotated stabsOf
    simp
  · simp only [stabsOf, if_true, Bool.not_true]
    constructor
    · rintro ⟨x, hx, hxd⟩
      obtain ⟨s, hs⟩ := mem_xOf.1 hx
      have := ht.x x s d hs (xzzxType_nbr hg (mem_ancOf.2 ⟨s, _, hs, by simp⟩) hxd)
      rw [hxd] at this
      simpa using this.symm
    · intro hrot
      obtain ⟨s, hs⟩ := mem_dataOf.1 hd
      obtain ⟨x, s', hx, hn⟩ := h.around hdx hdz (k := .x) (by simp) d s hs
      refine ⟨x, mem_xOf.2 ⟨s', hx⟩, ?_⟩
      rw [ht.x x s' d hx hn, hrot]; rfl

theorem xzzxR_data (hg : OnGrid l L dirs) {rb : Bool} {d : String} (hd : d ∈ xzzxR l L rb) : d ∈ dataOf L := by
  obtain ⟨x, hx, hxd⟩ := (mem_diagonal hg).1 hd
  exact nbrs_data hg (stabsOf_sub hx) (xzzxType_nbr hg (stabsOf_sub hx) hxd)

theorem IsRot.xzzx_type (h : IsRot a dx dz l) (hdx : 2 ≤ dx) (hdz : 2 ≤ dz) (rb : Bool) :
    ∀ x ∈ stabsOf (rotEntries a dx dz) rb, ∀ d ∈ l.getNeighbors [x] none,
      xzzxType l x d = decide (d ∈ xzzxR l (rotEntries a dx dz) rb) := by
  intro x hx d hd
  have hg := h.grid
  have ht := h.typed_xzzx hdx hdz
  have hdata := nbrs_data hg (stabsOf_sub hx) hd
  rw [Bool.eq_iff_iff, decide_eq_true_eq, h.mem_xzzxR hdx hdz rb hdata]
  cases rb
  · obtain ⟨s, hs⟩ := mem_zOf.1 hx
    rw [ht.z x s d hs hd]; rfl
  · obtain ⟨s, hs⟩ := mem_xOf.1 hx
    rw [ht.x x s d hs hd]; simp

theorem logicalSupport_of {label : String} {lx lz : List String} (h1 : l.logQubits = [label])
    (h2 : l.logX = [(label, lx)]) (h3 : l.logZ = [(label, lz)]) (rb : Bool) :
    logicalSupport l rb = .ok (if rb then lx else lz) := by
  unfold logicalSupport firstLogical
  rw [h1, h2, h3]
  cases rb <;> simp [pyIndex, Dict.getE, Dict.get?]

end SurfaceSim
