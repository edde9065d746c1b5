/-
Qubits used by the transversal gates between TICKs.
-/
import Verif.Lemmas.UsageRounds
import Verif.Lemmas.SGate
import Verif.Lemmas.CnotBlock

namespace SurfaceSim
open Spec NoiseModel Blocks LogGates

variable {p : Gate → Bool}

/-- Pairs without common members. -/
theorem chain_nodup_of {ps : List (String × String)} (hN : ps.Nodup) (h1 : ∀ p ∈ ps, p.1 ≠ p.2)
    (h2 : ∀ p ∈ ps, ∀ p' ∈ ps, ∀ q, (q = p.1 ∨ q = p.2) → (q = p'.1 ∨ q = p'.2) → p = p') : (chain ps).Nodup := by
  unfold chain
  rw [List.nodup_flatMap]
  refine ⟨fun p hp => by simpa using h1 p hp, hN.imp_of_mem fun {p p'} hp hp' hne q hq hq' => hne ?_⟩
  exact h2 p hp p' hp' q (by simpa using hq) (by simpa using hq')

theorem chain_nodup_sym {ps : List (String × String)} {data : List String} {P : String → Option String} (hN : ps.Nodup)
    (hm : ∀ p, p ∈ ps ↔ p.1 ∈ data ∧ P p.1 = some p.2 ∧ p.1 < p.2)
    (hs : ∀ d ∈ data, ∀ e, P d = some e → e ∈ data ∧ e ≠ d ∧ P e = some d) : (chain ps).Nodup := by
  refine chain_nodup_of hN (fun p hp => ne_of_lt ((hm p).1 hp).2.2) ?_
  rintro ⟨a, b⟩ hp ⟨a', b'⟩ hp' q hq hq'
  obtain ⟨k1, k2, k3⟩ := (hm _).1 hp
  obtain ⟨k1', k2', k3'⟩ := (hm _).1 hp'
  have s := (hs _ k1 _ k2).2.2
  have s' := (hs _ k1' _ k2').2.2
  simp only at k2 k3 k2' k3' s s' hq hq'
  rcases hq with rfl | rfl <;> rcases hq' with rfl | rfl
  · rw [k2] at k2'
    simp only [Option.some.injEq] at k2'
    rw [k2']
  · rw [k2] at s'
    simp only [Option.some.injEq] at s'
    subst s'
    exact absurd k3 (lt_asymm k3')
  · rw [s] at k2'
    simp only [Option.some.injEq] at k2'
    subst k2'
    exact absurd k3 (lt_asymm k3')
  · rw [s] at s'
    simp only [Option.some.injEq] at s'
    rw [s']

theorem chain_ord_nodup {ps : List (String × String)} (o : SetOrder) (h : (chain ps).Nodup) : (chain (o.ord ps)).Nodup :=
  ((o.perm ps).flatMap_right _).nodup_iff.2 h

section
variable {l : Layout} {L : List (String × Site × Kind)} {dirs : List (Site × String)} {nm : NoiseModel} {ex : Bool}
  (hu : Uses p ex nm) (hg : OnGrid l L dirs) (o : SetOrder)
include hu hg

theorem once_transS (hcode : l.code = "rotated_surface_code" ∨ l.code = "unrotated_surface_code") {lab : String}
    (hlab : firstLogical l = .ok lab) {P : String → Option String} {G : String → String}
    (ht : SymTable l (dataOf L) ("trans-s_" ++ lab) "cz" P G) :
    OncePerTick p ex nm.inds l true 2 true (sumGen (transSIter o nm l)) := by
  refine ⟨_, hg.getQubits_all, hg.labels, fun s c s' hs => ?_⟩
  have hd : dataQubits l = .ok (dataOf L) := hg.getQubits_data
  obtain ⟨ps, a, b, e, k1, k2, k3, k4, k5, k6⟩ := transLoop_ok (g1 := "S") (g2 := "S_DAG") (by decide) (dataOf L) ht.attrs [] [] []
    (by simp) (by simp) (by simp)
  simp only [List.not_mem_nil, false_or] at k4 k5 k6
  have k4' : ∀ p, p ∈ ps ↔ p.1 ∈ dataOf L ∧ P p.1 = some p.2 ∧ p.1 < p.2 := fun p => (k4 p).trans (ht.mem_pairs p)
  have hc : ¬ (l.code ≠ "rotated_surface_code" ∧ l.code ≠ "unrotated_surface_code") := by tauto
  unfold transSIter at hs
  rw [if_neg hc, hd, hg.getQubits_all, hlab] at hs
  simp only [withE, e] at hs
  have hall : ∀ q, q ∈ setOf (L.map Prod.fst) ↔ q ∈ L.map Prod.fst := fun q => mem_setOf
  have hdata : ∀ q ∈ dataOf L, q ∈ L.map Prod.fst := by
    intro q hq
    obtain ⟨s, h⟩ := mem_dataOf.1 hq
    exact mem_labels.2 ⟨_, _, h⟩
  refine ((Steps.nil.cons ((hu.cz _).plus (hu.i _)) ?_).cons (((hu.s _).plus (hu.sdag _)).plus (hu.i _)) ?_).eachOnce (hu.inc _) hs
  · refine once_rest o (chain_ord_nodup o (chain_nodup_sym k1 k4' ht.sym)) hg.labels (setOf_nodup _) hall (fun q hq => ?_) fun q =>
      mem_setOf
    obtain ⟨p, hp, hq⟩ := mem_chain.1 hq
    rw [mem_ord] at hp
    obtain ⟨h1, h2, -⟩ := (k4' p).1 hp
    rcases hq with rfl | rfl
    · exact hdata _ h1
    · exact hdata _ (ht.sym _ h1 _ h2).1
  · have hdd : diff (diff (setOf (L.map Prod.fst)) a) b = diff (setOf (L.map Prod.fst)) (a ++ b) := by
      unfold diff
      rw [List.filter_filter]
      refine List.filter_congr fun x _ => ?_
      simp only [List.mem_append]
      by_cases h1 : x ∈ a <;> by_cases h2 : x ∈ b <;> simp [h1, h2]
    rw [hdd]
    refine once_rest o ?_ hg.labels (setOf_nodup _) hall (fun q hq => ?_) fun q => ?_
    · rw [List.nodup_append]
      refine ⟨(ord_nodup o).2 k2, (ord_nodup o).2 k3, ?_⟩
      rintro x h1 y h2 rfl
      rw [mem_ord] at h1 h2
      exact ((k6 x).1 h2).2.1 ((k5 x).1 h1).2
    · rw [List.mem_append, mem_ord, mem_ord, k5, k6] at hq
      exact hdata q (by tauto)
    · rw [List.mem_append, List.mem_append, mem_ord, mem_ord]

theorem once_transH (hcode : l.code = "unrotated_surface_code") {lab : String}
    (hlab : firstLogical l = .ok lab) {P : String → Option String} {G : String → String}
    (ht : SymTable l (dataOf L) ("trans-h_" ++ lab) "swap" P G) :
    OncePerTick p ex nm.inds l true 2 true (sumGen (transHIter o nm l)) := by
  refine ⟨_, hg.getQubits_all, hg.labels, fun s c s' hs => ?_⟩
  have hd : dataQubits l = .ok (dataOf L) := hg.getQubits_data
  obtain ⟨ps, a, b, e, k1, k2, k3, k4, k5, k6⟩ := transLoop_ok (g1 := "H") (g2 := "H") (by decide) (dataOf L) ht.attrs [] [] []
    (by simp) (by simp) (by simp)
  simp only [List.not_mem_nil, false_or] at k4 k5 k6
  have k4' : ∀ p, p ∈ ps ↔ p.1 ∈ dataOf L ∧ P p.1 = some p.2 ∧ p.1 < p.2 := fun p => (k4 p).trans (ht.mem_pairs p)
  unfold transHIter at hs
  rw [if_neg (not_not.2 hcode), hd, hg.getQubits_all, hlab] at hs
  simp only [withE, e] at hs
  have hall : ∀ q, q ∈ setOf (L.map Prod.fst) ↔ q ∈ L.map Prod.fst := fun q => mem_setOf
  have hdata : ∀ q ∈ dataOf L, q ∈ L.map Prod.fst := by
    intro q hq
    obtain ⟨s, h⟩ := mem_dataOf.1 hq
    exact mem_labels.2 ⟨_, _, h⟩
  refine ((Steps.nil.cons ((hu.sw _).plus (hu.i _)) ?_).cons ((hu.h _).plus (hu.i _)) ?_).eachOnce (hu.inc _) hs
  · refine once_rest o (chain_ord_nodup o (chain_nodup_sym k1 k4' ht.sym)) hg.labels (setOf_nodup _) hall (fun q hq => ?_) fun q =>
      mem_setOf
    obtain ⟨p, hp, hq⟩ := mem_chain.1 hq
    rw [mem_ord] at hp
    obtain ⟨h1, h2, -⟩ := (k4' p).1 hp
    rcases hq with rfl | rfl
    · exact hdata _ h1
    · exact hdata _ (ht.sym _ h1 _ h2).1
  · exact once_rest o ((ord_nodup o).2 k2) hg.labels (setOf_nodup _) hall (fun q hq => hdata q (((k5 q).1 ((mem_ord o).1 hq)).1))
      fun q => (mem_ord o).symm

end

/-- `log_trans_s`, `log_trans_h` and `log_trans_cnot` return the circuit of the iterator. -/
theorem transS_circuit {cfg : Detectors.Config} {o : SetOrder} {nm : NoiseModel} {l : Layout} {s s' : Sim cfg} {c : Circuit}
    (h : transS o nm l s = (.ok c, s')) : ∃ m m', sumGen (transSIter o nm l) m = (.ok c, m') := by
  unfold transS at h
  obtain ⟨_, _, -, h⟩ := PyM.bind_eq_ok h
  obtain ⟨_, _, -, h⟩ := PyM.bind_eq_ok h
  obtain ⟨_, _, -, h⟩ := PyM.bind_eq_ok h
  unfold onModel at h
  simp only [Prod.mk.injEq] at h
  exact ⟨_, _, Prod.ext h.1 rfl⟩

theorem transH_circuit {cfg : Detectors.Config} {o : SetOrder} {nm : NoiseModel} {l : Layout} {s s' : Sim cfg} {c : Circuit}
    (h : transH o nm l s = (.ok c, s')) : ∃ m m', sumGen (transHIter o nm l) m = (.ok c, m') := by
  unfold transH at h
  obtain ⟨_, _, -, h⟩ := PyM.bind_eq_ok h
  obtain ⟨_, _, -, h⟩ := PyM.bind_eq_ok h
  obtain ⟨_, _, -, h⟩ := PyM.bind_eq_ok h
  unfold onModel at h
  simp only [Prod.mk.injEq] at h
  exact ⟨_, _, Prod.ext h.1 rfl⟩

theorem transCnot_circuit {cfg : Detectors.Config} {o : SetOrder} {nm : NoiseModel} {lc lt : Layout} {s s' : Sim cfg} {c : Circuit}
    (h : transCnot o nm lc lt s = (.ok c, s')) : ∃ m m', sumGen (transCnotIter o nm lc lt) m = (.ok c, m') := by
  unfold transCnot at h
  obtain ⟨_, _, -, h⟩ := PyM.bind_eq_ok h
  obtain ⟨_, _, -, h⟩ := PyM.bind_eq_ok h
  obtain ⟨_, _, -, h⟩ := PyM.bind_eq_ok h
  obtain ⟨_, _, -, h⟩ := PyM.bind_eq_ok h
  unfold onModel at h
  simp only [Prod.mk.injEq] at h
  exact ⟨_, _, Prod.ext h.1 rfl⟩

theorem once_transCnot {nm : NoiseModel} {ex : Bool} (hu : Uses p ex nm) {lc lt : Layout} {Lc Lt : List (String × Site × Kind)}
    {dirs : List (Site × String)} (h : Twins lc lt Lc Lt dirs) (o : SetOrder)
    (hcc : lc.code = "rotated_surface_code" ∨ lc.code = "unrotated_surface_code")
    (hct : lt.code = "rotated_surface_code" ∨ lt.code = "unrotated_surface_code") {label : String}
    (hlab : cnotLabel lc lt = .ok label) (ht : CnotTable lc lt Lc Lt label) {s s' : MeasState} {c : Circuit}
    (hs : sumGen (transCnotIter o nm lc lt) s = (.ok c, s')) :
    EachOnce p ex ((Lc.map Prod.fst ++ Lt.map Prod.fst).map (ind nm.inds)) true 1 true c := by
  have hdc : dataQubits lc = .ok (dataOf Lc) := h.c.getQubits_data
  have hdt : dataQubits lt = .ok (dataOf Lt) := h.t.getQubits_data
  obtain ⟨ps, e, k1, k2⟩ := cnotLoop_ok (l := lc) (label := label) (P := SurfaceSim.tw Lc Lt) (dataOf Lc)
    (fun d hd => ht.param_c h hd) [] (by simp)
  simp only [List.not_mem_nil, false_or] at k2
  unfold transCnotIter at hs
  rw [if_neg (by tauto), if_neg (by tauto), hdc, hdt, h.c.getQubits_all, h.t.getQubits_all, hlab] at hs
  simp only [withE, e] at hs
  have mem1 : ∀ p ∈ ps, p.1 ∈ dataOf Lc ∧ p.2 ∈ dataOf Lt ∧ SurfaceSim.tw Lt Lc p.2 = p.1 := by
    intro p hp
    obtain ⟨h1, h2⟩ := (k2 p).1 hp
    obtain ⟨s, h1'⟩ := mem_dataOf.1 h1
    refine ⟨h1, mem_dataOf.2 ⟨s, ?_⟩, ?_⟩
    · rw [h2]
      exact h.tw h1'
    · rw [h2, h.tw_tw h1']
  have all1 : ∀ q ∈ dataOf Lc, q ∈ Lc.map Prod.fst := by
    intro q hq
    obtain ⟨s, h⟩ := mem_dataOf.1 hq
    exact mem_labels.2 ⟨_, _, h⟩
  have all2 : ∀ q ∈ dataOf Lt, q ∈ Lt.map Prod.fst := by
    intro q hq
    obtain ⟨s, h⟩ := mem_dataOf.1 hq
    exact mem_labels.2 ⟨_, _, h⟩
  have hnd : (Lc.map Prod.fst ++ Lt.map Prod.fst).Nodup := by
    rw [List.nodup_append]
    exact ⟨h.c.labels, h.t.labels, fun a h1 b h2 he => h.apart a h1 (he ▸ h2)⟩
  refine (Steps.nil.cons ((hu.cx _).plus (hu.i _)) ?_).eachOnce ((hu.inc _).plus (hu.inc _)) hs
  refine once_rest o (chain_ord_nodup o (chain_nodup_of k1 (fun p hp he => ?_) ?_)) hnd (setOf_nodup _) (fun q => mem_setOf)
    (fun q hq => ?_) fun q => mem_setOf
  · obtain ⟨h1, h2, -⟩ := mem1 p hp
    exact h.apart _ (all1 _ h1) (he ▸ all2 _ h2)
  · intro p hp p' hp' q hq hq'
    obtain ⟨h1, h2, h3⟩ := mem1 p hp
    obtain ⟨h1', h2', h3'⟩ := mem1 p' hp'
    rcases hq with rfl | rfl <;> rcases hq' with hq' | hq'
    · exact Prod.ext hq' (by rw [((k2 p).1 hp).2, ((k2 p').1 hp').2, hq'])
    · exact absurd (all2 _ h2') (hq' ▸ h.apart _ (all1 _ h1))
    · exact absurd (all2 _ h2) (hq' ▸ h.apart _ (all1 _ h1'))
    · exact Prod.ext (by rw [← h3, ← h3', hq']) hq'
  · obtain ⟨p, hp, hq⟩ := mem_chain.1 hq
    rw [mem_ord] at hp
    obtain ⟨h1, h2, -⟩ := mem1 p hp
    rw [List.mem_append]
    rcases hq with rfl | rfl
    · exact Or.inl (all1 _ h1)
    · exact Or.inr (all2 _ h2)

end SurfaceSim
