/-
Experiments with transversal CNOT gates between two layouts: preparation.
-/
import Verif.Lemmas.CnotValues
import Verif.Lemmas.MergeInit
import Verif.Props.RepeatedCnot

namespace SurfaceSim
open Spec NoiseModel Blocks Experiments LayoutLib LogGates

/-- Everything that `m` can return satisfies `Q`, and if `R` then it does return. -/
def Gives {σ α : Type} (R : Prop) (m : PyM σ α) (s : σ) (Q : α → σ → Prop) : Prop :=
  (∀ a s', m s = (.ok a, s') → Q a s') ∧ (R → ∃ a s', m s = (.ok a, s'))

section
variable {σ α β : Type} {R : Prop}

theorem Gives.of_ok {m : PyM σ α} {s s' : σ} {a : α} {Q : α → σ → Prop} (h : m s = (.ok a, s')) (hq : Q a s') :
    Gives R m s Q :=
  ⟨fun a' s'' h' => by cases h.symm.trans h'; exact hq, fun _ => ⟨a, s', h⟩⟩

theorem Gives.mono {m : PyM σ α} {s : σ} {Q Q' : α → σ → Prop} (h : Gives R m s Q) (hq : ∀ a s', Q a s' → Q' a s') :
    Gives R m s Q' :=
  ⟨fun a s' h' => hq a s' (h.1 a s' h'), h.2⟩

theorem Gives.bind {m : PyM σ α} {s : σ} {Q : α → σ → Prop} {f : α → PyM σ β} {Q' : β → σ → Prop} (h : Gives R m s Q)
    (hf : ∀ a s', Q a s' → Gives R (f a) s' Q') : Gives R (m >>= f) s Q' := by
  refine ⟨fun b s'' h' => ?_, fun hR => ?_⟩
  · obtain ⟨a, s', h1, h2⟩ := PyM.bind_eq_ok h'
    exact (hf a s' (h.1 a s' h1)).1 b s'' h2
  · obtain ⟨a, s', h1⟩ := h.2 hR
    obtain ⟨b, s'', h2⟩ := (hf a s' (h.1 a s' h1)).2 hR
    exact ⟨b, s'', by rw [PyM.bind_ok h1]; exact h2⟩

theorem Gives.bind_ok {m : PyM σ α} {s s' : σ} {a : α} {f : α → PyM σ β} {Q : β → σ → Prop} (h : m s = (.ok a, s'))
    (hf : Gives R (f a) s' Q) : Gives R (m >>= f) s Q := by
  constructor
  · intro b s'' h'
    rw [PyM.bind_ok h] at h'
    exact hf.1 b s'' h'
  · intro hR
    rw [PyM.bind_ok h]
    exact hf.2 hR

theorem Gives.pure {s : σ} {a : α} {Q : α → σ → Prop} (hq : Q a s) : Gives R (pure a : PyM σ α) s Q :=
  .of_ok rfl hq

end

theorem Gives.addTo {cfg : Detectors.Config} {R : Prop} {e : Circuit} {g : PyM (Sim cfg) Circuit} {s : Sim cfg}
    {Q : Circuit → Sim cfg → Prop} (h : Gives R g s fun c s' => Q (e.concat c) s') : Gives R (addTo e g) s Q :=
  h.bind fun _ _ hq => .pure hq

theorem isOne_filter (dataInit : Dict String Int) (qs : List String) (q : String) :
    isOne (dataInit.filter fun kv => decide (kv.1 ∈ qs)) q = if q ∈ qs then isOne dataInit q else 0 := by
  unfold isOne
  by_cases h : q ∈ qs
  · rw [if_pos h]
    congr 1
    rw [eq_iff_iff, List.any_eq_true, List.any_eq_true]
    constructor
    · rintro ⟨kv, h1, h2⟩
      exact ⟨kv, (List.mem_filter.1 h1).1, h2⟩
    · rintro ⟨kv, h1, h2⟩
      have h3 : kv.1 = q := (of_decide_eq_true h2).1
      exact ⟨kv, List.mem_filter.2 ⟨h1, by rw [h3]; simpa using h⟩, h2⟩
  · rw [if_neg h, if_neg]
    rw [List.any_eq_true]
    rintro ⟨kv, h1, h2⟩
    have h3 : kv.1 = q := (of_decide_eq_true h2).1
    have h4 := (List.mem_filter.1 h1).2
    rw [h3] at h4
    exact h (by simpa using h4)

variable {cfg : Detectors.Config} {nm : NoiseModel} {lc lt : Layout} {Lc Lt : List (String × Site × Kind)}
  {dirs : List (Site × String)} {code A B : String} {Xc Zc Xt Zt : List String}

theorem mem_grid_label {L : List (String × Site × Kind)} {q : String} : q ∈ dataOf L ++ ancOf L ↔ q ∈ L.map Prod.fst := by
  rw [mem_data_or_anc]
  simp

theorem activateAndSum_ok {l : Layout} {g : Gen} {anc : List String} (ha : l.getQubits [("role", .str "anc")] = .ok anc)
    {s : Sim cfg} {d : Detectors.State cfg} {c : Circuit} {s1 : MeasState}
    (hd : Detectors.activate anc s.2 = (.ok (), d)) (hg : sumGen g s.1 = (.ok c, s1)) :
    activateAndSum l g s = (.ok c, (s1, d)) := by
  unfold activateAndSum
  have h1 : PyM.ofExcept (ancQubits l) s = (.ok anc, s) := by
    unfold ancQubits; rw [ha]; rfl
  rw [PyM.bind_ok h1]
  have h2 : onDets (cfg := cfg) (fun _ => Detectors.activate anc) s = (.ok (), (s.1, d)) := by
    show ((Detectors.activate anc s.2).1, s.1, (Detectors.activate anc s.2).2) = _
    rw [hd]
  rw [PyM.bind_ok h2]
  unfold onModel
  simp only [hg]

/-- The frame after the merged initialization of two layouts. -/
theorem merged_init_frame (h : Twins lc lt Lc Lt dirs) (hrc : CanRun nm lc) (hrt : CanRun nm lt) (nt : NoTicks nm)
    (o : SetOrder) (dataInit : Dict String Int) (rb : Bool) {s : MeasState} {hist : List String} (ht : s.Tracks nm.inds hist) :
    ∃ c₁ s₁ c₂ s₂, sumGen (initIter o nm lc (dataInit.filter fun kv => decide (kv.1 ∈ Lc.map Prod.fst)) rb) s = (.ok c₁, s₁) ∧
      sumGen (initIter o nm lt (dataInit.filter fun kv => decide (kv.1 ∈ Lt.map Prod.fst)) rb) s₁ = (.ok c₂, s₂) ∧
      s₂.Tracks nm.inds hist ∧ ∀ m, CircuitOps.mergeCircuits [c₁, c₂] true = .ok m → PairsOk m ∧ measOrder m = [] ∧
        ∀ ζ ρ : Nat → ZMod 2,
          let st := run ρ (FState.start ζ) (ops m)
          st.recs = [] ∧ st.dets = [] ∧ st.obs = [] ∧
          (∀ a ∈ ancOf Lc ++ ancOf Lt, st.x (ind nm.inds a) = isOne dataInit a) ∧
          ∀ S : List String, (∀ d ∈ S, d ∈ dataOf Lc ++ dataOf Lt) →
            anticommutes (ind nm.inds) st S (fun d => decide (d ∈ if rb then dataOf Lc ++ dataOf Lt else [])) =
              bits dataInit S := by
  have kc := grid_known hrc h.c
  have kt := grid_known hrt h.t
  have hone : ∀ {L : List (String × Site × Kind)} {q : String},
      isOne (dataInit.filter fun kv => decide (kv.1 ∈ L.map Prod.fst)) q = 1 → q ∈ L.map Prod.fst := by
    intro L q hq
    rw [isOne_filter] at hq
    by_contra hn
    rw [if_neg hn] at hq
    exact absurd hq (by decide)
  obtain ⟨c₁, s₁, c₂, s₂, e1, e2, t2, -, hm⟩ := merged_init hrc hrt nt h.c h.t o
    (fun q hq => kc q (mem_grid_label.2 (hone hq))) (fun q hq => kt q (mem_grid_label.2 (hone hq))) rb ht
  refine ⟨c₁, s₁, c₂, s₂, e1, e2, t2, fun m hmm => ?_⟩
  obtain ⟨hev, A, E, H, hA, hE, hH, ho⟩ := hm m hmm
  set dI := dataInit.filter fun kv => decide (kv.1 ∈ Lc.map Prod.fst ++ Lt.map Prod.fst) with hdI
  have hin : ∀ q, q ∈ (dataOf Lc ++ dataOf Lt) ++ (ancOf Lc ++ ancOf Lt) ↔ q ∈ Lc.map Prod.fst ∨ q ∈ Lt.map Prod.fst := by
    intro q
    rw [← mem_grid_label, ← mem_grid_label]
    simp only [List.mem_append]
    tauto
  have hkn : ∀ q ∈ (dataOf Lc ++ dataOf Lt) ++ (ancOf Lc ++ ancOf Lt), q ∈ nm.inds.keys := by
    intro q hq
    rcases (hin q).1 hq with h1 | h1
    · exact kc q (mem_grid_label.2 h1)
    · exact kt q (mem_grid_label.2 h1)
  have hAm : ∀ q, q ∈ A ↔ q ∈ (dataOf Lc ++ dataOf Lt) ++ (ancOf Lc ++ ancOf Lt) := by
    intro q
    rw [hin, hA.mem_iff, List.mem_append, mem_ord, mem_ord, mem_setOf, mem_setOf, mem_grid_label, mem_grid_label]
  have hAn : A.Nodup := by
    rw [hA.nodup_iff, List.nodup_append]
    refine ⟨(ord_nodup o).2 (setOf_nodup _), (ord_nodup o).2 (setOf_nodup _), ?_⟩
    rintro q h1 _ h2 rfl
    rw [mem_ord, mem_setOf, mem_grid_label] at h1 h2
    exact h.apart q h1 h2
  have hEm : ∀ q, q ∈ E ↔ isOne dI q = 1 := by
    intro q
    rw [hE.mem_iff, List.mem_append, mem_ord, mem_ord, mem_excited, mem_excited, hdI, isOne_filter, isOne_filter, isOne_filter]
    by_cases h1 : q ∈ Lc.map Prod.fst
    · have h2 := h.apart q h1
      have h3 : q ∈ Lc.map Prod.fst ++ Lt.map Prod.fst := List.mem_append_left _ h1
      rw [if_pos h1, if_neg h2, if_pos h3]
      simp
    · rw [if_neg h1]
      by_cases h2 : q ∈ Lt.map Prod.fst
      · have h3 : q ∈ Lc.map Prod.fst ++ Lt.map Prod.fst := List.mem_append_right _ h2
        rw [if_pos h2, if_pos h3]
        simp
      · have h3 : q ∉ Lc.map Prod.fst ++ Lt.map Prod.fst := fun h => (List.mem_append.1 h).elim h1 h2
        rw [if_neg h2, if_neg h3]
        simp
  have hEn : E.Nodup := by
    rw [hE.nodup_iff, List.nodup_append]
    refine ⟨(ord_nodup o).2 (setOf_nodup _), (ord_nodup o).2 (setOf_nodup _), ?_⟩
    rintro q h1 _ h2 rfl
    rw [mem_ord, mem_excited] at h1 h2
    exact h.apart q (hone h1) (hone h2)
  have dn : (dataOf Lc ++ dataOf Lt).Nodup := by
    rw [List.nodup_append]
    refine ⟨(at_data h.c).nodup, (at_data h.t).nodup, ?_⟩
    rintro q h1 _ h2 rfl
    exact h.apart q (mem_grid_label.1 (List.mem_append_left _ h1)) (mem_grid_label.1 (List.mem_append_left _ h2))
  have hHm : ∀ q, q ∈ H ↔ q ∈ (if rb then dataOf Lc ++ dataOf Lt else []) := fun q => hH.mem_iff
  have hHn : H.Nodup := by
    rw [hH.nodup_iff]
    cases rb
    · exact List.nodup_nil
    · exact dn
  have hdisj : ∀ q ∈ dataOf Lc ++ dataOf Lt, q ∉ ancOf Lc ++ ancOf Lt := by
    intro q hd ha
    rcases List.mem_append.1 hd with hd | hd <;> rcases List.mem_append.1 ha with ha | ha
    · exact (List.nodup_append.1 (data_anc_nodup h.c)).2.2 q hd q ha rfl
    · exact h.apart q (mem_grid_label.1 (List.mem_append_left _ hd)) (mem_grid_label.1 (List.mem_append_right _ ha))
    · exact h.apart q (mem_grid_label.1 (List.mem_append_right _ ha)) (mem_grid_label.1 (List.mem_append_left _ hd))
    · exact (List.nodup_append.1 (data_anc_nodup h.t)).2.2 q hd q ha rfl
  have hR : ∀ d ∈ (if rb then dataOf Lc ++ dataOf Lt else []), d ∈ dataOf Lc ++ dataOf Lt := by
    cases rb
    · simp
    · exact fun d hd => hd
  have hops : ∀ op ∈ A.map Op.r ++ E.map Op.x ++ H.map Op.h, ∀ q ∈ op.qubits, q ∈ nm.inds.keys := by
    intro op hop q hq
    simp only [List.mem_append, List.mem_map] at hop
    rcases hop with (⟨a, ha, rfl⟩ | ⟨a, ha, rfl⟩) | ⟨a, ha, rfl⟩
    · obtain rfl : q = a := by simpa [Op.qubits] using hq
      exact hkn q ((hAm q).1 ha)
    · obtain rfl : q = a := by simpa [Op.qubits] using hq
      have h1 := (hEm q).1 ha
      rw [hdI, isOne_filter] at h1
      by_contra hn
      rw [if_neg fun h2 => hn (hkn q ((hin q).2 (List.mem_append.1 h2)))] at h1
      exact absurd h1 (by decide)
    · obtain rfl : q = a := by simpa [Op.qubits] using hq
      exact hkn q (List.mem_append_left _ (hR q ((hHm q).1 ha)))
  obtain ⟨h1, h2, h3⟩ := init_frame hrc.inj hkn hdisj hR hAn hAm hEn hEm hHn hHm hops hev ho
  refine ⟨h1, h2, fun ζ ρ => ?_⟩
  have hsame : ∀ q, q ∈ (dataOf Lc ++ dataOf Lt) ++ (ancOf Lc ++ ancOf Lt) → isOne dI q = isOne dataInit q := by
    intro q hq
    rw [hdI, isOne_filter, if_pos (List.mem_append.2 ((hin q).1 hq))]
  obtain ⟨k1, k2, k3, k4, k5⟩ := h3 ζ ρ
  refine ⟨k1, k2, k3, fun a ha => by rw [k4 a ha, hsame a (List.mem_append_right _ ha)], fun S hS => ?_⟩
  rw [k5 S hS]
  unfold bits
  congr 1
  exact List.map_congr_left fun d hd => hsame d (List.mem_append_left _ (hS d hd))

end SurfaceSim
