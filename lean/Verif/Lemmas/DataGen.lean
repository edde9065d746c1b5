/-
Arrays of outcomes (`Model/DataGen.lean`).
-/
import Verif.Spec.DataGen
import Verif.Lemmas.Memory

namespace SurfaceSim
open Spec DataGen

theorem measOrder_withoutNoise (c : Circuit) : measOrder c.withoutNoise = measOrder c := by
  unfold measOrder Circuit.withoutNoise
  induction c with
  | nil => rfl
  | cons i c ih =>
    rw [List.filter_cons, List.flatMap_cons]
    by_cases hn : i.gate.isNoise = true
    · have hm : i.gate.isMeas = false := by
        revert hn; cases i.gate <;> simp [Gate.isNoise, Gate.isMeas]
      simp only [hn, Bool.not_true, Bool.false_eq_true, if_false, hm, List.nil_append]
      exact ih
    · simp only [hn, Bool.not_false, if_true, List.map_cons, List.flatMap_cons]
      rw [ih]
      congr 1
      by_cases hm : i.gate.isMeas = true
      · simp [hm, Instr.qubits]
      · simp [hm]

/-- Blocks of equal length. -/
theorem flatMap_blocks {α : Type} (f : Nat → List α) (m n : Nat) (h : ∀ i < n, (f i).length = m) :
    ((List.range n).flatMap f).length = n * m ∧
    ∀ i < n, ∀ j < m, ((List.range n).flatMap f)[i * m + j]? = (f i)[j]? := by
  induction n with
  | zero => simp
  | succ n ih =>
    obtain ⟨h1, h2⟩ := ih fun i hi => h i (by omega)
    rw [List.range_succ, List.flatMap_append]
    refine ⟨by simp [h1, h n (by omega), Nat.succ_mul], fun i hi j hj => ?_⟩
    by_cases hin : i < n
    · rw [List.getElem?_append_left, h2 i hin j hj]
      rw [h1]
      have : (i + 1) * m ≤ n * m := Nat.mul_le_mul_right _ (by omega)
      rw [Nat.succ_mul] at this; omega
    · obtain rfl : i = n := by omega
      rw [List.getElem?_append_right (by omega), h1]
      simp

namespace DataGen.NdArray

theorem rows_get {n w : Nat} {data : List Bool} (hd : data.length = n * w) (i : Nat) (hi : i < n) :
    ((data.drop (i * w)).take w).length = w ∧ ∀ j < w, ((data.drop (i * w)).take w)[j]? = data[i * w + j]? := by
  have : (i + 1) * w ≤ n * w := Nat.mul_le_mul_right _ (by omega)
  rw [Nat.succ_mul] at this
  refine ⟨by simp; omega, fun j hj => ?_⟩
  rw [List.getElem?_take, if_pos hj, List.getElem?_drop]

theorem split_left {n w k : Nat} {data : List Bool} (hd : data.length = n * w) (hk : k ≤ w) :
    ((rows n w data).flatMap (·.take k)).length = n * k ∧
    ∀ i < n, ∀ j < k, ((rows n w data).flatMap (·.take k))[i * k + j]? = data[i * w + j]? := by
  unfold rows
  rw [List.flatMap_map]
  obtain ⟨h1, h2⟩ := flatMap_blocks (fun i => ((data.drop (i * w)).take w).take k) k n fun i hi => by
    rw [List.length_take, (rows_get hd i hi).1]; omega
  refine ⟨h1, fun i hi j hj => ?_⟩
  rw [h2 i hi j hj, List.getElem?_take, if_pos hj, (rows_get hd i hi).2 j (by omega)]

theorem split_right {n w k : Nat} {data : List Bool} (hd : data.length = n * w) (hk : k ≤ w) :
    ((rows n w data).flatMap (·.drop k)).length = n * (w - k) ∧
    ∀ i < n, ∀ j < w - k, ((rows n w data).flatMap (·.drop k))[i * (w - k) + j]? = data[i * w + (k + j)]? := by
  unfold rows
  rw [List.flatMap_map]
  obtain ⟨h1, h2⟩ := flatMap_blocks (fun i => ((data.drop (i * w)).take w).drop k) (w - k) n fun i hi => by
    rw [List.length_drop, (rows_get hd i hi).1]
  refine ⟨h1, fun i hi j hj => ?_⟩
  rw [h2 i hi j hj, List.getElem?_drop, (rows_get hd i hi).2 _ (by omega)]

theorem get2 {n w : Nat} {data : List Bool} {i j : Nat} (hi : i < n) (hj : j < w) :
    get? ⟨[n, w], data⟩ [i, j] = data[i * w + j]? := by
  simp [get?, offset, hi, hj]

theorem get3 {n m w : Nat} {data : List Bool} {i r j : Nat} (hi : i < n) (hr : r < m) (hj : j < w) :
    get? ⟨[n, m, w], data⟩ [i, r, j] = data[i * (m * w) + (r * w + j)]? := by
  simp [get?, offset, hi, hj, hr]

theorem get1 {w : Nat} {data : List Bool} {j : Nat} (hj : j < w) : get? ⟨[w], data⟩ [j] = data[j]? := by
  simp [get?, offset, hj]

end DataGen.NdArray

open NdArray

variable {sample : Sampler} {l : Layout} {c : Circuit} {shots n : Nat} {seed : Option Int} {anc data : List String}

/-- The dataset of an experiment whose record has the length that `sample_memory_experiment` expects. -/
def datasetOf (sample : Sampler) (c : Circuit) (shots n : Nat) (seed : Option Int) (anc data : List String) : Dataset :=
  ⟨seed, List.range shots, List.range' 1 n, anc, data,
    ⟨[shots, n, anc.length], (rows shots (n * anc.length + data.length) (sample c seed shots).data).flatMap
      (·.take (n * anc.length))⟩,
    ⟨[shots, data.length], (rows shots (n * anc.length + data.length) (sample c seed shots).data).flatMap
      (·.drop (n * anc.length))⟩,
    ⟨[n, anc.length], (sample c.withoutNoise seed 1).data.take (n * anc.length)⟩,
    ⟨[data.length], (sample c.withoutNoise seed 1).data.drop (n * anc.length)⟩⟩

theorem sampleMemory_eq (hs : SamplesRecords sample) (ha : l.getQubits [("role", .str "anc")] = .ok anc)
    (hd : l.getQubits [("role", .str "data")] = .ok data) (hlen : (measOrder c).length = n * anc.length + data.length)
    (h0 : 0 < shots) (h1 : (measOrder c).length ≠ 1) :
    sampleMemory sample l c shots n seed = .ok (datasetOf sample c shots n seed anc data) := by
  obtain ⟨s1, s2⟩ := hs c seed shots
  obtain ⟨t1, t2⟩ := hs c.withoutNoise seed 1
  rw [measOrder_withoutNoise, hlen] at t1 t2
  rw [hlen] at s1 s2 h1
  unfold sampleMemory
  rw [ha, hd]
  simp only [bind, Except.bind, reshapeRows]
  rw [if_neg (by omega), s2, Nat.mul_mod_right, if_pos rfl, Nat.mul_div_cancel_left _ h0]
  simp only [split1, reshape]
  obtain ⟨u1, -⟩ := split_left (k := n * anc.length) s2 (by omega)
  rw [u1, if_pos (by simp)]
  have hsq : (sample c.withoutNoise seed 1).squeeze.shape = [n * anc.length + data.length] := by
    unfold squeeze
    rw [t1]
    simp [h1]
  simp only [split0, hsq]
  rw [if_pos (by simp [squeeze]; omega)]
  unfold mkDataset datasetOf
  dsimp only
  rw [if_pos (by simp)]
  simp [squeeze]

/-- What goes wrong for a record of another length. -/
theorem sampleMemory_error (hs : SamplesRecords sample) (ha : l.getQubits [("role", .str "anc")] = .ok anc)
    (hd : l.getQubits [("role", .str "data")] = .ok data) (hlen : (measOrder c).length ≠ n * anc.length + data.length)
    (h1 : (measOrder c).length ≠ 1) : sampleMemory sample l c shots n seed = .error .valueError := by
  obtain ⟨s1, s2⟩ := hs c seed shots
  obtain ⟨t1, t2⟩ := hs c.withoutNoise seed 1
  rw [measOrder_withoutNoise] at t1 t2
  unfold sampleMemory
  rw [ha, hd]
  simp only [bind, Except.bind, reshapeRows]
  by_cases h0 : shots = 0
  · rw [if_pos h0]
  rw [if_neg h0, s2, Nat.mul_mod_right, if_pos rfl, Nat.mul_div_cancel_left _ (by omega)]
  simp only [split1, reshape]
  generalize (measOrder c).length = m at *
  by_cases hle : n * anc.length ≤ m
  · obtain ⟨u1, -⟩ := split_left (k := n * anc.length) s2 hle
    rw [u1, if_pos (by simp)]
    have hsq : (sample c.withoutNoise seed 1).squeeze.shape = [m] := by
      unfold squeeze
      rw [t1]
      simp [h1]
    simp only [split0, hsq]
    rw [if_pos (by simp [squeeze]; omega)]
    unfold mkDataset
    dsimp only
    rw [if_neg]
    rintro ⟨-, h, -⟩
    simp at h
    omega
  · rw [if_neg]
    intro h
    have : ((rows shots m (sample c seed shots).data).flatMap (·.take (n * anc.length))).length = shots * m := by
      unfold rows
      rw [List.flatMap_map]
      refine (flatMap_blocks _ m shots fun i hi => ?_).1
      rw [List.length_take, (rows_get s2 i hi).1]; omega
    rw [this] at h
    simp only [List.prod_cons, List.prod_nil, Nat.mul_one] at h
    have := Nat.eq_of_mul_eq_mul_left (by omega) h
    omega

theorem sampleMemory_single (hs : SamplesRecords sample) (ha : l.getQubits [("role", .str "anc")] = .ok anc)
    (hd : l.getQubits [("role", .str "data")] = .ok data) (hlen : (measOrder c).length = n * anc.length + data.length)
    (h0 : 0 < shots) (h1 : (measOrder c).length = 1) : sampleMemory sample l c shots n seed = .error .indexError := by
  obtain ⟨s1, s2⟩ := hs c seed shots
  obtain ⟨t1, t2⟩ := hs c.withoutNoise seed 1
  rw [measOrder_withoutNoise] at t1 t2
  unfold sampleMemory
  rw [ha, hd]
  simp only [bind, Except.bind, reshapeRows]
  rw [if_neg (by omega), s2, Nat.mul_mod_right, if_pos rfl, Nat.mul_div_cancel_left _ h0]
  simp only [split1, reshape]
  generalize (measOrder c).length = m at *
  obtain ⟨u1, -⟩ := split_left (k := n * anc.length) s2 (by omega)
  rw [u1, if_pos (by simp)]
  have hsq : (sample c.withoutNoise seed 1).squeeze.shape = [] := by
    unfold squeeze
    rw [t1]
    simp [h1]
  simp only [split0, hsq]

/-! ### which measurement an entry of the record is -/

theorem count_map_inj {inds : Dict String Nat} (hi : IndsInj inds) {L : List String} (hL : ∀ q ∈ L, q ∈ inds.keys)
    {a : String} (ha : a ∈ inds.keys) : (L.map (ind inds)).count (ind inds a) = L.count a := by
  induction L with
  | nil => rfl
  | cons q L ih =>
    rw [List.map_cons, List.count_cons, List.count_cons, ih fun q hq => hL q (List.mem_cons_of_mem _ hq)]
    congr 1
    by_cases h : q = a
    · simp [h]
    · have : ind inds q ≠ ind inds a := fun h' => h (hi q (hL q (by simp)) a ha h')
      simp [h, this]

theorem isMeasurement_of {inds : Dict String Nat} (hi : IndsInj inds) {P Q : List String} {a : String}
    (hk : ∀ q ∈ P ++ a :: Q, q ∈ inds.keys) (h : measOrder c = (P ++ a :: Q).map (ind inds)) :
    IsMeasurement c (ind inds a) (P.count a + 1) P.length := by
  unfold IsMeasurement
  rw [h]
  refine ⟨by simp, ?_⟩
  rw [← List.map_take]
  have : (P ++ a :: Q).take (P.length + 1) = P ++ [a] := by simp [List.take_append]
  rw [this, count_map_inj hi (fun q hq => hk q (by simp at hq ⊢; tauto)) (hk a (by simp))]
  simp

theorem isMeasurement_withoutNoise {q r k : Nat} (h : IsMeasurement c q r k) : IsMeasurement c.withoutNoise q r k := by
  unfold IsMeasurement at *
  rwa [measOrder_withoutNoise]

theorem idxOf_split {U V : List String} {a : String} (h : a ∉ U) : (U ++ a :: V).idxOf a = U.length := by
  rw [List.idxOf_append_of_notMem h]
  simp

theorem length_histOf (anc : List String) (r : Nat) : (histOf anc r).length = r * anc.length := by
  unfold histOf
  simp

theorem histOf_add (anc : List String) (r m : Nat) : histOf anc (r + m) = histOf anc r ++ histOf anc m := by
  unfold histOf
  rw [List.replicate_add, List.flatten_append]

theorem holds_datasetOf {inds : Dict String Nat} (hs : SamplesRecords sample) (hi : IndsInj inds)
    (hk : ∀ q ∈ anc ++ data, q ∈ inds.keys) (hda : (data ++ anc).Nodup)
    (h : measOrder c = ((List.replicate n anc).flatten ++ data).map (ind inds)) :
    HoldsOutcomes sample inds c shots n seed anc data (datasetOf sample c shots n seed anc data) := by
  have hlen : (measOrder c).length = n * anc.length + data.length := by rw [h]; simp
  obtain ⟨s1, s2⟩ := hs c seed shots
  obtain ⟨t1, t2⟩ := hs c.withoutNoise seed 1
  rw [measOrder_withoutNoise, hlen] at t1 t2
  rw [hlen] at s1 s2
  have hsam : sample c seed shots = ⟨[shots, n * anc.length + data.length], (sample c seed shots).data⟩ := by rw [← s1]
  have hsam' : sample c.withoutNoise seed 1 =
    ⟨[1, n * anc.length + data.length], (sample c.withoutNoise seed 1).data⟩ := by rw [← t1]
  obtain ⟨-, u⟩ := split_left (k := n * anc.length) s2 (by omega)
  obtain ⟨-, v⟩ := split_right (k := n * anc.length) s2 (by omega)
  rw [Nat.add_sub_cancel_left] at v
  have hbound : ∀ i < shots, ∀ k < n * anc.length + data.length,
      i * (n * anc.length + data.length) + k < (sample c seed shots).data.length := by
    intro i hi k hk
    have : (i + 1) * (n * anc.length + data.length) ≤ shots * (n * anc.length + data.length) :=
      Nat.mul_le_mul_right _ (by omega)
    rw [Nat.succ_mul] at this
    omega
  have hidx : ∀ i < shots, (List.range shots).idxOf i = i := by
    intro i hi
    have := (List.nodup_range (n := shots)).idxOf_getElem i (by simpa using hi)
    simpa using this
  have hidx' : ∀ r, r < n → (List.range' 1 n).idxOf (r + 1) = r := by
    intro r hr
    have := (List.nodup_range' (s := 1) (n := n) (step := 1)).idxOf_getElem r (by simpa using hr)
    simpa [Nat.add_comm] using this
  refine ⟨rfl, rfl, ?_, rfl, rfl, fun a ha r hr1 hr2 => ?_, fun q hq => ?_⟩
  · show List.range' 1 n = _
    rw [List.range'_eq_map_range]
    simp [Nat.add_comm]
  · obtain ⟨U, V, hUV, hU⟩ := List.eq_append_cons_of_mem ha
    obtain ⟨r, rfl⟩ : ∃ t, r = t + 1 := ⟨r - 1, by omega⟩
    have hsplit : (List.replicate n anc).flatten ++ data =
        (histOf anc r ++ U) ++ a :: (V ++ (histOf anc (n - r - 1) ++ data)) := by
      have e : (List.replicate n anc).flatten = histOf anc (r + (1 + (n - r - 1))) := by
        unfold histOf; congr 2; omega
      rw [e, histOf_add, histOf_add]
      have : histOf anc 1 = U ++ a :: V := by unfold histOf; simp [hUV]
      rw [this]
      simp
    have hm := isMeasurement_of (c := c) hi (P := histOf anc r ++ U) (a := a)
      (Q := V ++ (histOf anc (n - r - 1) ++ data)) (by
        intro q hq
        rw [← hsplit] at hq
        apply hk
        simp at hq ⊢
        tauto) (by rw [h, hsplit])
    have hancN : anc.Nodup := (List.nodup_append.1 hda).2.1
    rw [List.count_append, count_histOf hancN ha, List.count_eq_zero.2 hU, Nat.add_zero, List.length_append,
      length_histOf] at hm
    have hUlt : U.length < anc.length := by rw [hUV]; simp
    have hlt : r * anc.length + U.length < n * anc.length := by
      have : (r + 1) * anc.length ≤ n * anc.length := Nat.mul_le_mul_right _ (by omega)
      rw [Nat.succ_mul] at this; omega
    have hix : anc.idxOf a = U.length := by rw [hUV]; exact idxOf_split hU
    refine ⟨_, hm, isMeasurement_withoutNoise hm, fun i hi' => ?_, ?_⟩
    · have hb := hbound i hi' (r * anc.length + U.length) (by omega)
      obtain ⟨b, hb'⟩ : ∃ b, _ = some b := ⟨_, List.getElem?_eq_getElem hb⟩
      refine ⟨b, ?_, ?_⟩
      · rw [hsam, get2 hi' (by omega)]
        exact hb'
      · show get? ⟨[shots, n, anc.length], _⟩ [(List.range shots).idxOf i, (List.range' 1 n).idxOf (r + 1), anc.idxOf a] = _
        rw [hidx i hi', hidx' r (by omega), hix, get3 hi' (by omega) hUlt, u i hi' _ hlt]
        exact hb'
    · have hb : r * anc.length + U.length < (sample c.withoutNoise seed 1).data.length := by omega
      obtain ⟨b, hb'⟩ : ∃ b, _ = some b := ⟨_, List.getElem?_eq_getElem hb⟩
      refine ⟨b, ?_, ?_⟩
      · rw [hsam', get2 (by omega) (by omega), Nat.zero_mul, Nat.zero_add]
        exact hb'
      · show get? ⟨[n, anc.length], _⟩ [(List.range' 1 n).idxOf (r + 1), anc.idxOf a] = _
        rw [hidx' r (by omega), hix, get2 (by omega) hUlt, List.getElem?_take, if_pos hlt]
        exact hb'
  · obtain ⟨U, V, hUV, hU⟩ := List.eq_append_cons_of_mem hq
    have hsplit : (List.replicate n anc).flatten ++ data = (histOf anc n ++ U) ++ q :: V := by
      unfold histOf
      rw [hUV]
      simp
    have hm := isMeasurement_of (c := c) hi (P := histOf anc n ++ U) (a := q) (Q := V) (by
        intro q hq
        rw [← hsplit] at hq
        apply hk
        simp at hq ⊢
        tauto) (by rw [h, hsplit])
    have hqa : q ∉ histOf anc n := by
      intro hmem
      have : q ∈ anc := by
        unfold histOf at hmem
        simp at hmem
        tauto
      exact (List.nodup_append.1 hda).2.2 q hq q this rfl
    rw [List.count_append, List.count_eq_zero.2 hqa, List.count_eq_zero.2 hU, List.length_append,
      length_histOf] at hm
    have hUlt : U.length < data.length := by rw [hUV]; simp
    have hix : data.idxOf q = U.length := by rw [hUV]; exact idxOf_split hU
    refine ⟨_, hm, isMeasurement_withoutNoise hm, fun i hi' => ?_, ?_⟩
    · have hb := hbound i hi' (n * anc.length + U.length) (by omega)
      obtain ⟨b, hb'⟩ : ∃ b, _ = some b := ⟨_, List.getElem?_eq_getElem hb⟩
      refine ⟨b, ?_, ?_⟩
      · rw [hsam, get2 hi' (by omega)]
        exact hb'
      · show get? ⟨[shots, data.length], _⟩ [(List.range shots).idxOf i, data.idxOf q] = _
        rw [hidx i hi', hix, get2 hi' hUlt, v i hi' _ hUlt]
        exact hb'
    · have hb : n * anc.length + U.length < (sample c.withoutNoise seed 1).data.length := by omega
      obtain ⟨b, hb'⟩ : ∃ b, _ = some b := ⟨_, List.getElem?_eq_getElem hb⟩
      refine ⟨b, ?_, ?_⟩
      · rw [hsam', get2 (by omega) (by omega), Nat.zero_mul, Nat.zero_add]
        exact hb'
      · show get? ⟨[data.length], _⟩ [data.idxOf q] = _
        rw [hix, get1 hUlt, List.getElem?_drop]
        exact hb'

end SurfaceSim
