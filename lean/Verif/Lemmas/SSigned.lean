/-
Signs of the images of stabilizers under the transversal S gate.
-/
import Verif.Lemmas.Signed
import Verif.Lemmas.SGate

namespace SurfaceSim
open Spec NoiseModel Blocks LayoutLib LogGates

section
variable {l : Layout} {L : List (String × Site × Kind)} {dirs : List (Site × String)} {lab : String}
  {P : String → Option String} {G : String → String} {nm : NoiseModel}

/-- Phase of a local gate. -/
def localPhase (G : String → String) (d : String) : ZMod 4 := if G d = "S" then 1 else if G d = "S_DAG" then -1 else 0

/-- 1 at the given qubits. -/
def atQ (S : List String) (q : String) : ZMod 2 := if q ∈ S then 1 else 0

/-- 1 at the first qubit of a pair inside `S`. -/
def pairTerm (P : String → Option String) (S : List String) (d : String) : ZMod 4 :=
  match P d with
  | some e => if e ∈ S ∧ d < e then 1 else 0
  | none => 0

/-- Phase of the image of a product of X operators. -/
def imagePhase (P : String → Option String) (G : String → String) (S : List String) : ZMod 4 :=
  (S.map (localPhase G)).sum + 2 * (S.map (pairTerm P S)).sum

theorem atQubits_ind (hr : CanRun nm l) {S : List String} (hS : ∀ q ∈ S, q ∈ nm.inds.keys) {q : String} (hq : q ∈ nm.inds.keys) :
    atQubits (ind nm.inds) S (ind nm.inds q) = atQ S q := by
  unfold atQubits atQ
  congr 1
  rw [List.mem_map, eq_iff_iff]
  constructor
  · rintro ⟨e, he, h⟩
    exact hr.inj _ (hS e he) _ hq h ▸ he
  · exact fun h => ⟨q, h, rfl⟩

theorem sum_sub4 {S D : List String} (hS : S.Nodup) (hD : D.Nodup) (h : ∀ q ∈ S, q ∈ D) (f : String → ZMod 4) :
    (D.map fun q => if q ∈ S then f q else 0).sum = (S.map f).sum := by
  have h1 : (D.filter (· ∈ S)).Perm S := by
    rw [List.perm_ext_iff_of_nodup (hD.filter _) hS]
    intro q
    simp only [List.mem_filter, decide_eq_true_eq, and_iff_right_iff_imp]
    exact h q
  rw [← (h1.map f).sum_eq]
  clear h1 h hS hD
  induction D with
  | nil => rfl
  | cons q D ih => by_cases hq : q ∈ S <;> simp [List.filter_cons, hq, ih]

theorem quarter_atQ (S : List String) (q : String) : quarter (atQ S q) = if q ∈ S then 1 else 0 := by
  unfold quarter atQ; by_cases h : q ∈ S <;> simp [h]

theorem quarter_mul_atQ (S : List String) (q e : String) : quarter (atQ S q * atQ S e) = if q ∈ S ∧ e ∈ S then 1 else 0 := by
  unfold quarter atQ; by_cases h : q ∈ S <;> by_cases h' : e ∈ S <;> simp [h, h']

/-- The image of a product of X operators at data qubits, on labels. -/
theorem conj_transS (hg : OnGrid l L dirs) (hs : ∀ d ∈ dataOf L, ∀ e, P d = some e → e ∈ dataOf L ∧ e ≠ d ∧ P e = some d)
    {ps : List (String × String)} {sa sb : List String} (k1 : ps.Nodup) (k2 : sa.Nodup)
    (k3 : sb.Nodup) (k4 : ∀ p, p ∈ ps ↔ p.1 ∈ dataOf L ∧ P p.1 = some p.2 ∧ p.1 < p.2)
    (k5 : ∀ d, d ∈ sa ↔ d ∈ dataOf L ∧ G d = "S") (k6 : ∀ d, d ∈ sb ↔ d ∈ dataOf L ∧ G d ≠ "S" ∧ G d = "S_DAG")
    {S : List String} (hS : S.Nodup) (hSd : ∀ d ∈ S, d ∈ dataOf L) (z : String → ZMod 2) :
    let P' := (⟨0, atQ S, z⟩ : Pauli String).conjAll (sa.map Op.s ++ sb.map Op.sdag ++ ps.map fun p => Op.cz p.1 p.2)
    P'.ph = imagePhase P G S ∧ P'.x = atQ S := by
  intro P'
  have hD : (dataOf L).Nodup := hg.labelsOf_nodup _
  simp only [P', conjAll_append, conj_s sa k2, conj_sdag sb k3]
  obtain ⟨h1, h2⟩ := conj_cz_ph ps ⟨0 + (sa.map fun q => quarter (atQ S q)).sum - (sb.map fun q => quarter (atQ S q)).sum,
    atQ S, fun q => z q + (if q ∈ sa then atQ S q else 0) + if q ∈ sb then atQ S q else 0⟩
  rw [h1, h2]
  refine ⟨?_, rfl⟩
  simp only [quarter_atQ, quarter_mul_atQ, zero_add]
  unfold imagePhase
  congr 1
  · -- local gates
    have ha : (sa.map fun q => if q ∈ S then (1 : ZMod 4) else 0).sum = (S.map fun q => if q ∈ sa then (1 : ZMod 4) else 0).sum := by
      rw [← sum_sub4 hS hD hSd, ← sum_sub4 k2 hD fun q hq => ((k5 q).1 hq).1]
      congr 1
      refine List.map_congr_left fun q _ => ?_
      by_cases h1 : q ∈ sa <;> by_cases h2 : q ∈ S <;> simp [h1, h2]
    have hb : (sb.map fun q => if q ∈ S then (1 : ZMod 4) else 0).sum = (S.map fun q => if q ∈ sb then (1 : ZMod 4) else 0).sum := by
      rw [← sum_sub4 hS hD hSd, ← sum_sub4 k3 hD fun q hq => ((k6 q).1 hq).1]
      congr 1
      refine List.map_congr_left fun q _ => ?_
      by_cases h1 : q ∈ sb <;> by_cases h2 : q ∈ S <;> simp [h1, h2]
    have hsub : ∀ (T : List String) (f g : String → ZMod 4), (T.map f).sum - (T.map g).sum = (T.map fun q => f q - g q).sum := by
      intro T f g
      induction T with
      | nil => simp
      | cons q T ih => simp only [List.map_cons, List.sum_cons, ← ih]; ring
    rw [ha, hb, hsub]
    congr 1
    refine List.map_congr_left fun q hq => ?_
    have e1 : q ∈ sa ↔ G q = "S" := (k5 q).trans (and_iff_right (hSd q hq))
    have e2 : q ∈ sb ↔ G q ≠ "S" ∧ G q = "S_DAG" := (k6 q).trans (and_iff_right (hSd q hq))
    simp only [e1, e2, localPhase]
    by_cases h1 : G q = "S"
    · simp [h1]
    · by_cases h2 : G q = "S_DAG" <;> simp [h1, h2]
  · congr 1
    have hp : (ps.filter fun e => e.1 ∈ S ∧ e.2 ∈ S).Perm
        ((S.filter fun d => ∃ e ∈ S, P d = some e ∧ d < e).map fun d => (d, (P d).getD d)) := by
      rw [List.perm_ext_iff_of_nodup (k1.filter _)]
      · rintro ⟨d, e⟩
        simp only [List.mem_filter, k4, decide_eq_true_eq, List.mem_map, Prod.mk.injEq]
        constructor
        · rintro ⟨⟨h1, h2, h3⟩, h4, h5⟩
          exact ⟨d, ⟨h4, e, h5, h2, h3⟩, rfl, by simp [h2]⟩
        · rintro ⟨d', ⟨h4, e', h5, h2, h3⟩, rfl, rfl⟩
          simp only [h2, Option.getD_some]
          exact ⟨⟨hSd _ h4, trivial, h3⟩, h4, h5⟩
      · refine List.Nodup.map_on ?_ (hS.filter _)
        intro x _ y _ h
        exact (Prod.mk.inj h).1
    have e1 : (ps.map fun e => if e.1 ∈ S ∧ e.2 ∈ S then (1 : ZMod 4) else 0).sum =
        ((ps.filter fun e => e.1 ∈ S ∧ e.2 ∈ S).map fun _ => (1 : ZMod 4)).sum := by
      clear hp h1 h2 k1 k4 P'
      induction ps with
      | nil => rfl
      | cons e ps ih => by_cases he : e.1 ∈ S ∧ e.2 ∈ S <;> simp [List.filter_cons, he, ih]
    rw [e1, (hp.map _).sum_eq, List.map_map]
    have e2 : ∀ S' : List String, ((S'.filter fun d => ∃ e ∈ S, P d = some e ∧ d < e).map
        ((fun _ => (1 : ZMod 4)) ∘ fun d => (d, (P d).getD d))).sum =
        (S'.map (pairTerm P S)).sum := by
      intro S'
      induction S' with
      | nil => rfl
      | cons d S' ih =>
        rw [List.filter_cons]
        cases hP : P d with
        | none =>
          rw [if_neg (by simp), ih]
          simp [hP, pairTerm]
        | some e =>
          by_cases he : e ∈ S ∧ d < e
          · rw [if_pos (decide_eq_true ⟨e, he.1, rfl, he.2⟩), List.map_cons, List.sum_cons, ih]
            simp only [List.map_cons, List.sum_cons, pairTerm, hP, if_pos he, Function.comp_apply]
          · rw [if_neg (by simp only [Option.some.injEq, decide_eq_true_eq]; rintro ⟨e', h1, rfl, h2⟩; exact he ⟨h1, h2⟩), ih]
            simp only [List.map_cons, List.sum_cons, pairTerm, hP, if_neg he, zero_add]
    exact e2 S

/-- From the operations to the image of an operator. -/
theorem mapsOp_of_does {b : Call1} {ops' : List (Op String)} (hinj : IndsInj nm.inds) (hb : Does nm.inds b ops')
    (hu : ∀ o ∈ ops', (∃ q, o = .h q) ∨ (∃ q, o = .s q) ∨ (∃ q, o = .sdag q) ∨ (∃ a b, o = .cz a b) ∨ (∃ a b, o = .cx a b) ∨
      ∃ a b, o = .swap a b) {A : Pauli String} {B B' : Pauli Nat}
    (hA : PAgree (ind nm.inds) (· ∈ nm.inds.keys) A B) (hph : (A.conjAll ops').ph = B'.ph)
    (hxz : ∀ q ∈ nm.inds.keys,
      (run (fun _ => 0) { FState.init String with x := A.x, z := A.z } ops').x q = B'.x (ind nm.inds q) ∧
      (run (fun _ => 0) { FState.init String with x := A.x, z := A.z } ops').z q = B'.z (ind nm.inds q)) : MapsOp nm b B B' := by
  intro s hist hs
  obtain ⟨c, s', e, -, ho, -⟩ := hb.2 s hist hs
  refine ⟨c, s', e, ?_⟩
  rw [ho]
  have h1 := hA.conjAll (fun a b ha hb => hinj a ha b hb) ops' hb.1
  obtain ⟨h2, h3⟩ := conjAll_frame (fun _ => 0) ops' A { FState.init String with x := A.x, z := A.z } rfl rfl hu
  refine ⟨h1.ph.trans hph, fun q hq => ?_⟩
  rw [h1.x q hq, h1.z q hq, h2, h3]
  exact hxz q hq

/-- A product of X (Z) operators at labels. -/
def pstr (isX : Bool) (S : List String) : Pauli String :=
  if isX then ⟨0, atQ S, fun _ => 0⟩ else ⟨0, fun _ => 0, atQ S⟩

theorem pstr_agree (hr : CanRun nm l) (isX : Bool) {S : List String} (hS : ∀ q ∈ S, q ∈ nm.inds.keys) :
    PAgree (ind nm.inds) (· ∈ nm.inds.keys) (pstr isX S) (pauliString (ind nm.inds) isX S) := by
  unfold pstr pauliString
  cases isX
  · exact ⟨rfl, fun _ _ => rfl, fun q hq => atQubits_ind hr hS hq⟩
  · exact ⟨rfl, fun q hq => atQubits_ind hr hS hq, fun _ _ => rfl⟩

/-- Only the qubit `q`. -/
def delta (q e : String) : ZMod 2 := if e = q then 1 else 0

theorem sum_delta {S : List String} (hS : S.Nodup) (q : String) : (S.map (delta q)).sum = atQ S q := by
  unfold delta atQ
  induction S with
  | nil => rfl
  | cons e S ih =>
    have h := List.nodup_cons.1 hS
    rw [List.map_cons, List.sum_cons, ih h.2]
    by_cases he : e = q
    · subst he; simp [h.1]
    · simp [he, Ne.symm he]

theorem sum_sTerm (hs : ∀ d ∈ dataOf L, ∀ e, P d = some e → e ∈ dataOf L ∧ e ≠ d ∧ P e = some d) {S : List String}
    (hS : S.Nodup) (hSd : ∀ d ∈ S, d ∈ dataOf L) {q : String} (hq : q ∈ dataOf L) :
    (S.map (sTerm P G (delta q))).sum = (if G q = "S" ∨ G q = "S_DAG" then atQ S q else 0) + (match P q with
      | some e => atQ S e
      | none => 0) := by
  unfold sTerm
  rw [List.sum_map_add]
  congr 1
  · by_cases hG : G q = "S" ∨ G q = "S_DAG"
    · rw [if_pos hG, ← sum_delta hS]
      congr 1
      refine List.map_congr_left fun d _ => ?_
      unfold delta
      by_cases h : d = q
      · subst h; simp [hG]
      · simp [h]
    · rw [if_neg hG]
      refine (congrArg List.sum (List.map_congr_left (g := fun _ => 0) fun d _ => ?_)).trans (by simp)
      unfold delta
      by_cases h : d = q
      · subst h; simp [hG]
      · simp [h]
  · cases hP : P q with
    | none =>
      refine (congrArg List.sum (List.map_congr_left (g := fun _ => 0) fun d hd => ?_)).trans (by simp)
      cases hd' : P d with
      | none => rfl
      | some e =>
        have := (hs d (hSd d hd) e hd').2.2
        simp only [delta]
        rw [if_neg]
        rintro rfl
        rw [this] at hP
        cases hP
    | some e =>
      have he := hs q hq e hP
      simp only
      rw [← sum_delta hS]
      congr 1
      refine List.map_congr_left fun d hd => ?_
      unfold delta
      cases hd' : P d with
      | none =>
        simp only
        rw [if_neg]
        rintro rfl
        rw [he.2.2] at hd'
        cases hd'
      | some e' =>
        have := (hs d (hSd d hd) e' hd').2.2
        simp only
        congr 1
        rw [eq_iff_iff]
        constructor
        · rintro rfl
          rw [this] at hP
          exact Option.some.inj hP
        · rintro rfl
          rw [he.2.2] at hd'
          exact (Option.some.inj hd').symm

/-- The image of a product of X operators under `log_trans_s`. -/
theorem mapsOp_transS (hg : OnGrid l L dirs) (hr : CanRun nm l) (o : SetOrder)
    (hcode : l.code = "rotated_surface_code" ∨ l.code = "unrotated_surface_code") (hlab : firstLogical l = .ok lab)
    (ht : SymTable l (dataOf L) ("trans-s_" ++ lab) "cz" P G) {S : List String} (hS : S.Nodup) (hSd : ∀ d ∈ S, d ∈ dataOf L)
    {B : Pauli Nat} (h1 : B.ph = imagePhase P G S) (h2 : ∀ q ∈ nm.inds.keys, B.x (ind nm.inds q) = atQ S q)
    (h3 : ∀ q ∈ nm.inds.keys, B.z (ind nm.inds q) = if q ∈ dataOf L then (S.map (sTerm P G (delta q))).sum else 0) :
    MapsOp nm (sumGen (transSIter o nm l)) (pauliString (ind nm.inds) true S) B := by
  have hk := grid_known hr hg
  have hkd : ∀ q ∈ dataOf L, q ∈ nm.inds.keys := fun q h => hk q (List.mem_append_left _ h)
  obtain ⟨ps, sa, sb, k1, k2, k3, k4, k5, k6, hb⟩ := does_transS hg hr o hcode hlab ht
  refine mapsOp_of_does hr.inj hb ?_ (pstr_agree hr true fun q hq => hkd q (hSd q hq)) ?_ fun q hq => ?_
  · intro o ho
    simp only [List.mem_append, List.mem_map] at ho
    rcases ho with (⟨q, -, rfl⟩ | ⟨q, -, rfl⟩) | ⟨q, -, rfl⟩ <;> simp
  · rw [h1]
    exact (conj_transS hg ht.sym k1 k2 k3 k4 k5 k6 hS hSd _).1
  · rw [run_transS ht.sym k1 k2 k3 k4 k5 k6, h2 q hq, h3 q hq]
    refine ⟨rfl, ?_⟩
    by_cases hqd : q ∈ dataOf L
    · rw [if_pos hqd, sum_sTerm ht.sym hS hSd hqd]
      simp only [pstr, if_true, if_pos hqd, zero_add]
      rfl
    · simp only [pstr, if_true, if_neg hqd, zero_add]

/-- Products of Z operators do not change. -/
theorem mapsOp_transS_z (hg : OnGrid l L dirs) (hr : CanRun nm l) (o : SetOrder)
    (hcode : l.code = "rotated_surface_code" ∨ l.code = "unrotated_surface_code") (hlab : firstLogical l = .ok lab)
    (ht : SymTable l (dataOf L) ("trans-s_" ++ lab) "cz" P G) {S : List String} (hSd : ∀ d ∈ S, d ∈ dataOf L)
    {B : Pauli Nat} (h1 : B.ph = 0) (h2 : ∀ q ∈ nm.inds.keys, B.x (ind nm.inds q) = 0)
    (h3 : ∀ q ∈ nm.inds.keys, B.z (ind nm.inds q) = atQ S q) :
    MapsOp nm (sumGen (transSIter o nm l)) (pauliString (ind nm.inds) false S) B := by
  have hk := grid_known hr hg
  have hkd : ∀ q ∈ dataOf L, q ∈ nm.inds.keys := fun q h => hk q (List.mem_append_left _ h)
  obtain ⟨ps, sa, sb, k1, k2, k3, k4, k5, k6, hb⟩ := does_transS hg hr o hcode hlab ht
  refine mapsOp_of_does hr.inj hb ?_ (pstr_agree hr false fun q hq => hkd q (hSd q hq)) ?_ fun q hq => ?_
  · intro o ho
    simp only [List.mem_append, List.mem_map] at ho
    rcases ho with (⟨q, -, rfl⟩ | ⟨q, -, rfl⟩) | ⟨q, -, rfl⟩ <;> simp
  · have := (conj_transS (S := []) hg ht.sym k1 k2 k3 k4 k5 k6 List.nodup_nil (by simp) (atQ S)).1
    rw [h1]
    refine Eq.trans ?_ (this.trans (by simp [imagePhase]))
    congr 3
  · rw [run_transS ht.sym k1 k2 k3 k4 k5 k6, h2 q hq, h3 q hq]
    refine ⟨rfl, ?_⟩
    simp only [pstr, Bool.false_eq_true, if_false]
    by_cases hqd : q ∈ dataOf L
    · rw [if_pos hqd]
      cases P q <;> simp
    · simp [hqd]

theorem stabOp_grid (hg : OnGrid l L dirs) (ι : String → Nat) (a : String) :
    stabOp ι [l] a = pauliString ι (decide (a ∈ xOf L)) (l.getNeighbors [a] none) := by
  unfold stabOp
  simp [xOfLayout_grid hg]

/-- The image of a stabilizer, with its phase. -/
theorem STable.signedX (hg : OnGrid l L dirs) (hr : CanRun nm l) (o : SetOrder)
    (hcode : l.code = "rotated_surface_code" ∨ l.code = "unrotated_surface_code") (hlab : firstLogical l = .ok lab)
    (ht : STable l L ("trans-s_" ++ lab) P G) {x : String} (hx : x ∈ xOf L) :
    MapsSigned nm [l] ("trans-s_" ++ lab) (sumGen (transSIter o nm l)) l x (imagePhase P G (l.getNeighbors [x] none)) := by
  have hk := grid_known hr hg
  have hkd : ∀ q ∈ dataOf L, q ∈ nm.inds.keys := fun q h => hk q (List.mem_append_left _ h)
  have hN : ∀ d ∈ l.getNeighbors [x] none, d ∈ dataOf L := fun d hd => nbr_data hg (mem_anc_of_x hx) hd
  unfold MapsSigned
  rw [stabOp_grid hg, decide_eq_true hx]
  refine mapsOp_transS hg hr o hcode hlab ht.sym (hg.neighbors_nodup x) hN ?_ ?_ ?_
  all_goals
    rcases ht.x x hx with ⟨h1, h2⟩ | ⟨z, hz, h1, h2⟩ <;> rw [newGen_of h1]
  · simp [xzProduct, Spec.Pauli.times, stabOp_grid hg, hx, pauliString]
  · simp [xzProduct, Spec.Pauli.times, stabOp_grid hg, hx, pauliString, x_not_z hg hz]
  · intro q hq
    simp [xzProduct, Spec.Pauli.times, stabOp_grid hg, hx, pauliString, atQubits_ind hr (fun q hq => hkd q (hN q hq)) hq]
  · intro q hq
    simp [xzProduct, Spec.Pauli.times, stabOp_grid hg, hx, pauliString, atQubits_ind hr (fun q hq => hkd q (hN q hq)) hq,
      x_not_z hg hz]
  · intro q hq
    rw [h2]
    simp [xzProduct, Spec.Pauli.times, stabOp_grid hg, hx, pauliString]
  · intro q hq
    have hNz : ∀ d ∈ l.getNeighbors [z] none, d ∈ dataOf L := fun d hd => nbr_data hg (mem_anc_of_z hz) hd
    rw [h2, sum_delta (hg.neighbors_nodup z)]
    simp only [xzProduct, Spec.Pauli.times, stabOp_grid hg, hx, pauliString, x_not_z hg hz, List.map_cons, List.map_nil,
      List.sum_cons, List.sum_nil, decide_true, decide_false, if_true, Bool.false_eq_true, if_false, zero_add, add_zero,
      atQubits_ind hr (fun q hq => hkd q (hNz q hq)) hq]
    by_cases hqd : q ∈ dataOf L
    · rw [if_pos hqd]
    · rw [if_neg hqd]
      unfold atQ
      rw [if_neg fun h => hqd (hNz q h)]

theorem STable.signedZ (hg : OnGrid l L dirs) (hr : CanRun nm l) (o : SetOrder)
    (hcode : l.code = "rotated_surface_code" ∨ l.code = "unrotated_surface_code") (hlab : firstLogical l = .ok lab)
    (ht : STable l L ("trans-s_" ++ lab) P G) {z : String} (hz : z ∈ zOf L) :
    MapsSigned nm [l] ("trans-s_" ++ lab) (sumGen (transSIter o nm l)) l z 0 := by
  have hk := grid_known hr hg
  have hkd : ∀ q ∈ dataOf L, q ∈ nm.inds.keys := fun q h => hk q (List.mem_append_left _ h)
  have hN : ∀ d ∈ l.getNeighbors [z] none, d ∈ dataOf L := fun d hd => nbr_data hg (mem_anc_of_z hz) hd
  unfold MapsSigned
  rw [stabOp_grid hg, decide_eq_false (x_not_z hg hz), newGen_of (ht.z z hz)]
  refine mapsOp_transS_z hg hr o hcode hlab ht.sym hN ?_ ?_ ?_
  · simp [xzProduct, Spec.Pauli.times, stabOp_grid hg, pauliString, x_not_z hg hz]
  · intro q hq
    simp [xzProduct, Spec.Pauli.times, stabOp_grid hg, pauliString, x_not_z hg hz]
  · intro q hq
    simp [xzProduct, Spec.Pauli.times, stabOp_grid hg, pauliString, x_not_z hg hz,
      atQubits_ind hr (fun q hq => hkd q (hN q hq)) hq]

/-- The image of the logical X, with its phase. -/
theorem STable.signedLogicalX (hg : OnGrid l L dirs) (hr : CanRun nm l) (o : SetOrder)
    (hcode : l.code = "rotated_surface_code" ∨ l.code = "unrotated_surface_code") (hlab : firstLogical l = .ok lab)
    (ht : STable l L ("trans-s_" ++ lab) P G) {X Z : List String} (hX : l.logX.get? lab = some X) (hZ : l.logZ.get? lab = some Z)
    (hXn : X.Nodup) (hZn : Z.Nodup) (hXd : ∀ d ∈ X, d ∈ dataOf L) (hZd : ∀ d ∈ Z, d ∈ dataOf L) (T : List String)
    (hT : ∀ z ∈ T, z ∈ zOf L)
    (h : ∀ f, (X.map (sTerm P G f)).sum = (Z.map f).sum + (T.map fun z => ((l.getNeighbors [z] none).map f).sum).sum) :
    MapsLogicalSigned nm [l] (sumGen (transSIter o nm l)) l lab true [(l, lab, true), (l, lab, false)] (imagePhase P G X) := by
  have hk := grid_known hr hg
  have hkd : ∀ q ∈ dataOf L, q ∈ nm.inds.keys := fun q h => hk q (List.mem_append_left _ h)
  have hNz : ∀ z ∈ T, ∀ d ∈ l.getNeighbors [z] none, d ∈ dataOf L := fun z hz d hd => nbr_data hg (mem_anc_of_z (hT z hz)) hd
  refine ⟨T, fun z hz => ⟨l, by simp, by rw [ancOfLayout_grid hg]; exact mem_anc_of_z (hT z hz)⟩, ?_⟩
  have eT : T.map (stabOp (ind nm.inds) [l]) = T.map fun z => pauliString (ind nm.inds) false (l.getNeighbors [z] none) :=
    List.map_congr_left fun z hz => by rw [stabOp_grid hg, decide_eq_false (x_not_z hg (hT z hz))]
  unfold logicalOp
  simp only [if_true, hX, Option.getD_some]
  rw [eT]
  refine mapsOp_transS hg hr o hcode hlab ht.sym hXn hXd ?_ ?_ ?_
  · simp [xzProduct, Spec.Pauli.times, pauliString, hX, hZ, Function.comp_def]
  · intro q hq
    simp [xzProduct, Spec.Pauli.times, pauliString, hX, hZ, Function.comp_def, atQubits_ind hr (fun q hq => hkd q (hXd q hq)) hq]
  · intro q hq
    simp only [xzProduct, Spec.Pauli.times, pauliString, List.map_cons, List.map_nil, List.map_append, List.sum_append,
      List.sum_cons, List.sum_nil, if_true, Bool.false_eq_true, if_false, zero_add, add_zero, hZ, Option.getD_some,
      atQubits_ind hr (fun q hq => hkd q (hZd q hq)) hq, List.map_map, Function.comp_def, h, sum_delta hZn,
      sum_delta (hg.neighbors_nodup _)]
    have e : (T.map fun z => atQubits (ind nm.inds) (l.getNeighbors [z] none) (ind nm.inds q)).sum =
        (T.map fun z => atQ (l.getNeighbors [z] none) q).sum := by
      congr 1
      exact List.map_congr_left fun z hz => atQubits_ind hr (fun q hq => hkd q (hNz z hz q hq)) hq
    rw [e]
    by_cases hqd : q ∈ dataOf L
    · rw [if_pos hqd]
    · rw [if_neg hqd]
      have e1 : atQ Z q = 0 := if_neg fun h => hqd (hZd q h)
      have e2 : (T.map fun z => atQ (l.getNeighbors [z] none) q) = T.map fun _ => 0 :=
        List.map_congr_left fun z hz => if_neg fun h => hqd (hNz z hz q h)
      rw [e1, e2]
      simp

theorem STable.signedLogicalZ (hg : OnGrid l L dirs) (hr : CanRun nm l) (o : SetOrder)
    (hcode : l.code = "rotated_surface_code" ∨ l.code = "unrotated_surface_code") (hlab : firstLogical l = .ok lab)
    (ht : STable l L ("trans-s_" ++ lab) P G) {Z : List String} (hZ : l.logZ.get? lab = some Z)
    (hZd : ∀ d ∈ Z, d ∈ dataOf L) :
    MapsLogicalSigned nm [l] (sumGen (transSIter o nm l)) l lab false [(l, lab, false)] 0 := by
  have hk := grid_known hr hg
  have hkd : ∀ q ∈ dataOf L, q ∈ nm.inds.keys := fun q h => hk q (List.mem_append_left _ h)
  refine ⟨[], by simp, ?_⟩
  unfold logicalOp
  simp only [Bool.false_eq_true, if_false, hZ, Option.getD_some]
  refine mapsOp_transS_z hg hr o hcode hlab ht.sym hZd ?_ ?_ ?_
  · simp [xzProduct, Spec.Pauli.times, pauliString, hZ]
  · intro q hq
    simp [xzProduct, Spec.Pauli.times, pauliString, hZ]
  · intro q hq
    simp [xzProduct, Spec.Pauli.times, pauliString, hZ, atQubits_ind hr (fun q hq => hkd q (hZd q hq)) hq]

end

end SurfaceSim
