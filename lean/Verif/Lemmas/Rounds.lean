/-
The QEC rounds as lists of operations on labels.
-/
import Verif.Lemmas.Does
import Verif.Props.Layout

namespace SurfaceSim
open Spec NoiseModel Blocks

theorem mem_ord {α : Type} (o : SetOrder) {l : List α} {a : α} : a ∈ o.ord l ↔ a ∈ l :=
  (o.perm l).mem_iff

theorem ord_nodup {α : Type} (o : SetOrder) {l : List α} : (o.ord l).Nodup ↔ l.Nodup :=
  (o.perm l).nodup_iff

theorem mem_diff {α : Type} [DecidableEq α] {a b : List α} {x : α} : x ∈ diff a b ↔ x ∈ a ∧ x ∉ b := by
  simp [diff]

theorem mem_setOf {α : Type} [DecidableEq α] {l : List α} {x : α} : x ∈ setOf l ↔ x ∈ l := by
  simp [Blocks.setOf, Layout.mem_dedup]

theorem mem_union {α : Type} [DecidableEq α] {a b : List α} {x : α} : x ∈ union a b ↔ x ∈ a ∨ x ∈ b := by
  by_cases h : x ∈ a <;> simp [union, mem_setOf, h]

theorem setOf_nodup {α : Type} [DecidableEq α] (l : List α) : (setOf l).Nodup := Layout.nodup_dedup l

theorem union_nodup {α : Type} [DecidableEq α] {a : List α} (b : List α) (ha : a.Nodup) :
    (union a b).Nodup := by
  unfold union
  refine List.Nodup.append ha ((setOf_nodup b).filter _) ?_
  intro x h1 h2
  simp [mem_setOf] at h2
  exact h2.2 h1

theorem symmDiff_nodup {α : Type} [DecidableEq α] {a b : List α} (ha : a.Nodup) (hb : b.Nodup) :
    (symmDiff a b).Nodup := by
  unfold Blocks.symmDiff
  refine List.Nodup.append (ha.filter _) (hb.filter _) ?_
  intro x h1 h2
  exact (mem_diff.1 h2).2 (mem_diff.1 h1).1

theorem mem_symmDiff {α : Type} [DecidableEq α] {a b : List α} {x : α} :
    x ∈ symmDiff a b ↔ (x ∈ a ∧ x ∉ b) ∨ (x ∈ b ∧ x ∉ a) := by
  simp [Blocks.symmDiff, mem_diff]

theorem mem_chain {ps : List (String × String)} {q : String} :
    q ∈ chain ps ↔ ∃ p ∈ ps, q = p.1 ∨ q = p.2 := by
  simp [chain]

/-- A list of pairs the model can act on. -/
def GoodPairs (inds : Dict String Nat) (ps : List (String × String)) : Prop :=
  ∀ p ∈ ps, p.1 ∈ inds.keys ∧ p.2 ∈ inds.keys ∧ ind inds p.1 ≠ ind inds p.2

variable {nm : NoiseModel} (hn : Faithful nm)
include hn

theorem does_rotLayer (o : SetOrder) (qubits rot : List String) (hq : ∀ q ∈ qubits, q ∈ nm.inds.keys)
    (hr : ∀ q ∈ rot, q ∈ nm.inds.keys) :
    Does nm.inds (rotLayer o nm qubits rot) ((o.ord rot).map Op.h) :=
  ((does_h hn _ fun q h => hr q ((mem_ord o).1 h)).bind_concat
    (does_idle hn _ fun q h => hq q (mem_diff.1 ((mem_ord o).1 h)).1)).congr (by simp)

theorem czLoop_does (l : Layout) (k : Nat) (sts : List String) (sf : String → List String)
    (df : String → String) (h1 : ∀ st ∈ sts, stabQubits l st = .ok (sf st))
    (h2 : ∀ st ∈ sts, orderDir l st k = .ok (df st))
    (h3 : ∀ st ∈ sts, GoodPairs nm.inds (l.getNeighborPairs (sf st) (some (df st))))
    (c : Circuit) (acc : List String) (s : MeasState) (hist : List String) (hc : EvenPairs c)
    (ht : s.Tracks nm.inds hist) :
    ∃ c' s', czLoop nm l k sts c acc s = (.ok (c', sts.foldl (fun a st =>
        union a (chain (l.getNeighborPairs (sf st) (some (df st))))) acc), s') ∧ EvenPairs c' ∧
      ops c' = ops c ++ ((sts.flatMap fun st => l.getNeighborPairs (sf st) (some (df st))).map
        fun p => Op.cz p.1 p.2).map (Op.rename (ind nm.inds)) ∧ s'.Tracks nm.inds hist := by
  induction sts generalizing c acc s with
  | nil => exact ⟨c, s, rfl, hc, by simp, ht⟩
  | cons st sts ih =>
    obtain ⟨-, hd⟩ := does_cz hn _ (h3 st (by simp))
    obtain ⟨d, s1, e1, p1, o1, t1⟩ := hd s hist ht
    obtain ⟨k1, k2⟩ := ops_concat hc p1
    rw [measured_map_pair_none _ _ (by simp), List.append_nil] at t1
    obtain ⟨c', s', e2, p2, o2, t2⟩ := ih (fun a ha => h1 a (by simp [ha])) (fun a ha => h2 a (by simp [ha]))
      (fun a ha => h3 a (by simp [ha])) (c.concat d)
      (union acc (chain (l.getNeighborPairs (sf st) (some (df st))))) s1 k2 t1
    refine ⟨c', s', ?_, p2, ?_, t2⟩
    · simp only [czLoop, h1 st (by simp), h2 st (by simp)]
      rw [PyM.bind_ok (PyM.ofExcept_apply _ _), PyM.bind_ok (PyM.ofExcept_apply _ _), PyM.bind_ok e1, e2]
      rfl
    · rw [o2, k1, o1]
      simp [List.flatMap_cons, List.map_append]

theorem does_czLayer (o : SetOrder) (l : Layout) (qubits : List String) (k : Nat)
    (hq : ∀ q ∈ qubits, q ∈ nm.inds.keys) (sf : String → List String)
    (df : String → String) (h1 : ∀ st ∈ l.interactionOrder.keys, stabQubits l st = .ok (sf st))
    (h2 : ∀ st ∈ l.interactionOrder.keys, orderDir l st k = .ok (df st))
    (h3 : ∀ st ∈ l.interactionOrder.keys, GoodPairs nm.inds (l.getNeighborPairs (sf st) (some (df st)))) :
    Does nm.inds (czLayer o nm l qubits k)
      ((l.interactionOrder.keys.flatMap fun st => l.getNeighborPairs (sf st) (some (df st))).map
        fun p => Op.cz p.1 p.2) := by
  refine ⟨?_, fun s hist ht => ?_⟩
  · intro op ho q hqo
    obtain ⟨p, hp, rfl⟩ := List.mem_map.1 ho
    obtain ⟨st, hst, hp⟩ := List.mem_flatMap.1 hp
    have := h3 st hst p hp
    simp [Op.qubits] at hqo
    rcases hqo with rfl | rfl
    · exact this.1
    · exact this.2.1
  · obtain ⟨c, s1, e1, p1, o1, t1⟩ := czLoop_does hn l k _ sf df h1 h2 h3 [] [] s hist evenPairs_nil ht
    obtain ⟨-, hi⟩ := does_idle hn (o.ord (diff qubits (l.interactionOrder.keys.foldl (fun a st =>
        union a (chain (l.getNeighborPairs (sf st) (some (df st))))) [])))
        fun q h => hq q (mem_diff.1 ((mem_ord o).1 h)).1
    obtain ⟨d, s2, e2, p2, o2, t2⟩ := hi s1 hist t1
    obtain ⟨k1, k2⟩ := ops_concat p1 p2
    refine ⟨c.concat d, s2, ?_, k2, ?_, ?_⟩
    · simp only [czLayer]
      rw [PyM.bind_ok e1, PyM.bind_ok e2]
      rfl
    · rw [k1, o1, o2]; simp
    · rw [measured_map_pair_none _ _ (by simp)]; simpa using t2

theorem does_roundHead (data anc : List String) (reset : Bool) (hd : ∀ q ∈ data, q ∈ nm.inds.keys)
    (ha : ∀ q ∈ anc, q ∈ nm.inds.keys) :
    List.Forall₂ (Does nm.inds) (roundHead nm data anc reset)
      ([[], []] ++ if reset then [anc.map Op.r, []] else []) := by
  cases reset
  · exact .cons (does_incoming hn _ hd) (.cons (.tick _) .nil)
  · refine .cons (does_incoming hn _ hd) (.cons (.tick _) (.cons ?_ (.cons (.tick _) .nil)))
    exact ((does_r hn _ ha).bind_concat (does_idle hn _ hd)).congr (by simp)

end SurfaceSim
