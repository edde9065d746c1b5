/-
From coherent layers of gates to the specification of rounds.
-/
import Verif.Spec.Round
import Verif.Lemmas.Does
import Verif.Lemmas.Layers

namespace SurfaceSim
open Spec

theorem Op.rename_qubits {Q R : Type} (f : Q → R) (op : Op Q) : (op.rename f).qubits = op.qubits.map f := by
  cases op <;> simp [Op.rename, Op.qubits]

/-- The state on labels. -/
def pullback (ι : String → Nat) (st : FState Nat) : FState String :=
  { x := fun q => st.x (ι q), z := fun q => st.z (ι q), recs := st.recs, dets := st.dets, obs := st.obs,
    rnd := st.rnd }

theorem agree_pullback (ι : String → Nat) (S : String → Prop) (st : FState Nat) :
    Agree ι S (pullback ι st) st :=
  ⟨fun _ _ => rfl, fun _ _ => rfl, rfl, rfl, rfl, rfl⟩

/-- Operations of a round: resets, coherent part, measurements. -/
def roundOps (reset : Bool) (anc : List String) (M : List (Op String)) : List (Op String) :=
  (if reset then anc.map Op.r else []) ++ M ++ anc.map Op.m

theorem sum_perm_of_mem {l m : List String} (hl : l.Nodup) (hm : m.Nodup) (h : ∀ q, q ∈ l ↔ q ∈ m)
    (f : String → ZMod 2) : (l.map f).sum = (m.map f).sum :=
  (((List.perm_ext_iff_of_nodup hl hm).2 h).map f).sum_eq

theorem pick_eq {E : List (String × String)} (hE : E.Nodup) {sup : List String} (hs : sup.Nodup) (a : String)
    (h : ∀ d, (a, d) ∈ E ↔ d ∈ sup) (v : String → ZMod 2) : pick E v a = (sup.map v).sum := by
  have e1 : pick E v a = (((E.filter fun e => decide (e.1 = a)).map Prod.snd).map v).sum := by
    unfold pick sumIf
    clear hE h
    induction E with
    | nil => simp
    | cons e E ih =>
      by_cases h : e.1 = a
      · simp [h, ih]
      · simp [h, ih]
  rw [e1]
  refine sum_perm_of_mem ?_ hs ?_ v
  · refine List.Nodup.map_on ?_ (hE.filter _)
    rintro ⟨x, y⟩ hx ⟨x', y'⟩ hx' he
    simp only [List.mem_filter, decide_eq_true_eq] at hx hx'
    simp only at he
    rw [hx.2, hx'.2, he]
  · intro q
    rw [← h q]
    simp [List.mem_filter]

theorem kick_eq {E : List (String × String)} (hE : E.Nodup) {anc : List String} (ha : anc.Nodup)
    {sup : String → List String} (h : ∀ a d, (a, d) ∈ E ↔ a ∈ anc ∧ d ∈ sup a) (d : String)
    (τ : String → Bool) (b : Bool) (r : String → ZMod 2) :
    sumIf E (fun e => e.2 = d ∧ τ e.1 = b) (fun e => r e.1) =
      total anc (fun a => d ∈ sup a ∧ τ a = b) r := by
  have e1 : sumIf E (fun e => e.2 = d ∧ τ e.1 = b) (fun e => r e.1) =
      (((E.filter fun e => decide (e.2 = d ∧ τ e.1 = b)).map Prod.fst).map r).sum := by
    unfold sumIf
    clear hE h
    induction E with
    | nil => simp
    | cons e E ih =>
      by_cases h : e.2 = d ∧ τ e.1 = b
      · simp only [List.map_cons, h, and_self, if_true, List.sum_cons, ih]
        rw [List.filter_cons_of_pos (by simp [h])]
        simp
      · simp only [List.map_cons, h, if_false, List.sum_cons, ih]
        rw [List.filter_cons_of_neg (by simpa using h)]
        simp
  rw [e1]
  unfold total
  refine sum_perm_of_mem ?_ (ha.filter _) ?_ r
  · refine List.Nodup.map_on ?_ (hE.filter _)
    rintro ⟨x, y⟩ hx ⟨x', y'⟩ hx' he
    simp only [List.mem_filter, decide_eq_true_eq] at hx hx'
    simp only at he
    rw [hx.2.1, hx'.2.1, he]
  · intro q
    simp only [List.mem_map, List.mem_filter, decide_eq_true_eq]
    constructor
    · rintro ⟨⟨x, y⟩, ⟨h1, rfl, h3⟩, rfl⟩
      obtain ⟨k1, k2⟩ := (h x y).1 h1
      exact ⟨k1, k2, h3⟩
    · rintro ⟨h1, h2, h3⟩
      exact ⟨(q, d), ⟨(h q d).2 ⟨h1, h2⟩, rfl, h3⟩, rfl⟩

/-- Rounds made of coherent layers meet the specification. -/
theorem MeasuresStabs.ofCoherent {inds : Dict String Nat} (hinj : IndsInj inds)
    {data anc : List String} {sup : String → List String} {isX : String → String → Bool} {reset : Bool}
    {S0 S1 S2 S3 : List String} {E0 E1 E2 : List (String × String)}
    (hc : Coherent (fun q => decide (q ∈ anc)) isX S0 S1 S2 S3 E0 E1 E2)
    (hanc : anc.Nodup) (hsupN : ∀ a, (sup a).Nodup)
    (hEN : (E0 ++ E1 ++ E2).Nodup)
    (hE : ∀ a d, (a, d) ∈ E0 ++ E1 ++ E2 ↔ a ∈ anc ∧ d ∈ sup a)
    (hsup : ∀ a ∈ anc, ∀ d ∈ sup a, d ∈ data) (hda : ∀ d ∈ data, d ∉ anc)
    (hS : ∀ q ∈ S0 ++ S1 ++ S2 ++ S3, q ∈ data ++ anc)
    (hk : ∀ q ∈ data ++ anc, q ∈ inds.keys) {L : List (Op Nat)}
    (hL : L = (roundOps reset anc (coherentOps S0 S1 S2 S3 E0 E1 E2)).map (Op.rename (ind inds)))
    (ρ : Nat → ZMod 2) (st : FState Nat) :
    MeasuresStabs (ind inds) data anc sup isX reset st (run ρ st L) := by
  subst hL
  have hEq : ∀ e ∈ E0 ++ E1 ++ E2, e.1 ∈ data ++ anc ∧ e.2 ∈ data ++ anc := by
    rintro ⟨a, d⟩ he
    obtain ⟨h1, h2⟩ := (hE a d).1 he
    exact ⟨List.mem_append_right _ h1, List.mem_append_left _ (hsup a h1 d h2)⟩
  have hq : ∀ op ∈ roundOps reset anc (coherentOps S0 S1 S2 S3 E0 E1 E2), ∀ q ∈ op.qubits,
      q ∈ data ++ anc := by
    have hh : ∀ S : List String, (∀ q ∈ S, q ∈ data ++ anc) → ∀ op ∈ S.map Op.h, ∀ q ∈ op.qubits,
        q ∈ data ++ anc := by
      intro S hS op ho q hq
      obtain ⟨x, hx, rfl⟩ := List.mem_map.1 ho
      simp [Op.qubits] at hq
      exact hq ▸ hS x hx
    have hcz : ∀ E : List (String × String), (∀ e ∈ E, e.1 ∈ data ++ anc ∧ e.2 ∈ data ++ anc) →
        ∀ op ∈ E.map (fun e => Op.cz e.1 e.2), ∀ q ∈ op.qubits, q ∈ data ++ anc := by
      intro E hE op ho q hq
      obtain ⟨x, hx, rfl⟩ := List.mem_map.1 ho
      simp only [Op.qubits, List.mem_cons, List.not_mem_nil, or_false] at hq
      rcases hq with rfl | rfl
      · exact (hE x hx).1
      · exact (hE x hx).2
    intro op ho
    unfold roundOps coherentOps at ho
    simp only [List.mem_append] at ho
    rcases ho with (ho | ((((((ho | ho) | ho) | ho) | ho) | ho) | ho)) | ho
    · intro q hq
      cases reset
      · simp at ho
      · obtain ⟨x, hx, rfl⟩ := List.mem_map.1 (by simpa using ho)
        simp [Op.qubits] at hq
        exact List.mem_append_right _ (hq ▸ hx)
    · exact hh S0 (fun q h => hS q (by simp [h])) op ho
    · exact hcz E0 (fun e h => hEq e (by simp [h])) op ho
    · exact hh S1 (fun q h => hS q (by simp [h])) op ho
    · exact hcz E1 (fun e h => hEq e (by simp [h])) op ho
    · exact hh S2 (fun q h => hS q (by simp [h])) op ho
    · exact hcz E2 (fun e h => hEq e (by simp [h])) op ho
    · exact hh S3 (fun q h => hS q (by simp [h])) op ho
    · intro q hq
      obtain ⟨x, hx, rfl⟩ := List.mem_map.1 ho
      simp [Op.qubits] at hq
      exact List.mem_append_right _ (hq ▸ hx)
  -- the same round on labels
  set st0 := pullback (ind inds) st with hst0
  have hag := (agree_pullback (ind inds) (· ∈ inds.keys) st).run (fun a b ha hb => hinj a ha b hb) ρ
    (roundOps reset anc (coherentOps S0 S1 S2 S3 E0 E1 E2)) (fun op ho q hqo => hk q (hq op ho q hqo))
  -- after the resets
  obtain ⟨st1, h1, hx1, hz1, hr1, hd1, ho1⟩ : ∃ st1, st1 = run ρ st0 (if reset then anc.map Op.r else []) ∧
      (∀ q, st1.x q = if q ∈ anc ∧ reset = true then 0 else st0.x q) ∧
      (∀ q, q ∉ anc → st1.z q = st0.z q) ∧ st1.recs = st0.recs ∧ st1.dets = st0.dets ∧
      st1.obs = st0.obs := by
    refine ⟨_, rfl, ?_⟩
    cases reset
    · simp
    · simp only [if_true]
      rw [run_r ρ anc hanc]
      simp only [and_true, true_and]
      refine ⟨?_, fun q hq => by simp [hq]⟩
      intro q; trivial
  obtain ⟨hr2, hd2, ho2, -, hA, hD⟩ := hc.run ρ st1
  have hrun : run ρ st0 (roundOps reset anc (coherentOps S0 S1 S2 S3 E0 E1 E2)) =
      run ρ (run ρ st1 (coherentOps S0 S1 S2 S3 E0 E1 E2)) (anc.map Op.m) := by
    rw [h1, ← run_append, ← run_append, roundOps, List.append_assoc]
  rw [hrun, run_m ρ anc hanc] at hag
  -- outcomes
  have hout : ∀ a ∈ anc, (run ρ st1 (coherentOps S0 S1 S2 S3 E0 E1 E2)).x a =
      ancOutcome (ind inds) reset st sup isX a := by
    intro a ha
    rw [(hA a (by simpa using ha)).2, pick_eq hEN (hsupN a) a (fun d => by rw [hE]; simp [ha]), hx1 a]
    unfold ancOutcome anticommutes
    congr 1
    · cases reset <;> simp [ha, hst0, pullback]
    · congr 1
      refine List.map_congr_left fun d hd => ?_
      have hdn := hda d (hsup a ha d hd)
      rw [hz1 d hdn, hx1 d]
      simp [hdn, hst0, pullback]
  refine ⟨?_, ?_, ⟨st1.z, ?_⟩, ?_, ?_, ?_⟩
  · rw [hag.recs]
    simp only
    rw [hr2, hr1, List.map_congr_left hout]
    rfl
  · intro a ha
    rw [hag.x a (hk a (List.mem_append_right _ ha))]
    exact hout a ha
  · intro d hd
    have hdn := hda d hd
    have hdk := hk d (List.mem_append_left _ hd)
    obtain ⟨k1, k2⟩ := hD d (by simpa using hdn)
    rw [hag.x d hdk, hag.z d hdk]
    simp only [hdn, if_false]
    rw [k1, k2, kick_eq hEN hanc hE d (fun a => isX a d) true, kick_eq hEN hanc hE d (fun a => isX a d) false,
      hx1 d, hz1 d hdn]
    simp [hdn, hst0, pullback]
  · rw [hag.dets]
    exact hd2.trans hd1
  · rw [hag.obs]
    exact ho2.trans ho1
  · intro n hn
    refine run_other ρ _ st n ?_
    intro op ho
    obtain ⟨op', ho', rfl⟩ := List.mem_map.1 ho
    rw [Op.rename_qubits]
    intro hm
    obtain ⟨q, hqm, rfl⟩ := List.mem_map.1 hm
    exact hn q (hq op' ho' q hqm) rfl

end SurfaceSim
