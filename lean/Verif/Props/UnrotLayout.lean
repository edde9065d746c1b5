/-
Properties of the generated unrotated surface code layouts (C16-C18).
-/
import Verif.Lemmas.UnrotCount
import Verif.Props.RotLayout

namespace SurfaceSim
open LayoutLib

/-- A number is the label of a data qubit exactly when it is in the range of data qubit ids. -/
theorem LayoutLib.unrot_data_label_iff {a : Args} {dx dz : Int} (hx : 1 ≤ dx) (hz : 1 ≤ dz) (i : Int) :
    "D" ++ Int.repr i ∈ labelsOf (unrotEntries a dx dz) (fun k => k = .data) ↔
      a.initData ≤ i ∧ i < a.initData + (dx * dz + (dx - 1) * (dz - 1)) := by
  have htot : dx * dz + (dx - 1) * (dz - 1) = (dx - 1) * (2 * dz - 1) + dz := by ring
  rw [mem_labelsOf, htot]
  constructor
  · rintro ⟨⟨r, c⟩, k, h, hk⟩
    simp only [decide_eq_true_eq] at hk
    subst hk
    obtain ⟨he, hs⟩ := mem_unrotEntries_data.1 h
    unfold unrotDataLabel at he
    rw [label_int_inj] at he
    simp only [UnrotSite] at hs
    simp only at he
    have h1 : 0 ≤ r / 2 := by omega
    have h4 : 0 ≤ (r / 2) * (2 * dz - 1) := mul_nonneg h1 (by omega)
    rcases Int.emod_two_eq_zero_or_one r with hr | hr
    · rw [unrotIndex_even hr] at he
      have h3 : (r / 2) * (2 * dz - 1) ≤ (dx - 1) * (2 * dz - 1) :=
        mul_le_mul_of_nonneg_right (by omega) (by omega)
      constructor <;> omega
    · rw [unrotIndex_odd hr (by omega)] at he
      have h3 : (r / 2 + 1) * (2 * dz - 1) ≤ (dx - 1) * (2 * dz - 1) :=
        mul_le_mul_of_nonneg_right (by omega) (by omega)
      rw [add_mul] at h3
      constructor <;> omega
  · rintro ⟨h1, h2⟩
    have hm := Int.emod_nonneg (i - a.initData) (show 2 * dz - 1 ≠ 0 by omega)
    have hm' := Int.emod_lt_of_pos (i - a.initData) (show 0 < 2 * dz - 1 by omega)
    have hd := Int.ediv_nonneg (show 0 ≤ i - a.initData by omega) (show 0 ≤ 2 * dz - 1 by omega)
    have he := Int.mul_ediv_add_emod (i - a.initData) (2 * dz - 1)
    have hd' : (i - a.initData) / (2 * dz - 1) < dx := by
      rw [Int.ediv_lt_iff_lt_mul (by omega)]
      have : dx * (2 * dz - 1) = (dx - 1) * (2 * dz - 1) + dz + (dz - 1) := by ring
      omega
    generalize (i - a.initData) / (2 * dz - 1) = p at *
    generalize (i - a.initData) % (2 * dz - 1) = m at *
    rw [mul_comm] at he
    by_cases hlt : m < dz
    · refine ⟨(2 * p, 2 * m), .data, mem_unrotEntries_data.2 ⟨?_, ?_⟩, by simp⟩
      · unfold unrotDataLabel
        rw [label_int_inj]
        simp only
        rw [unrotIndex_even (by omega), show 2 * p / 2 = p by omega, show 2 * m / 2 = m by omega]
        omega
      · simp only [UnrotSite]; omega
    · have hp : p < dx - 1 := by
        by_contra hc
        have : p = dx - 1 := by omega
        subst this
        omega
      refine ⟨(2 * p + 1, 2 * (m - dz) + 1), .data, mem_unrotEntries_data.2 ⟨?_, ?_⟩, by simp⟩
      · unfold unrotDataLabel
        rw [label_int_inj]
        simp only
        rw [unrotIndex_odd (by omega) (by omega), show (2 * p + 1) / 2 = p by omega,
          show (2 * (m - dz) + 1) / 2 = m - dz by omega]
        omega
      · simp only [UnrotSite]; omega

/-- **C16** For every pair of distances the generator returns a layout with `dx*dz+(dx-1)*(dz-1)` data
qubits and one ancilla less, with distinct labels, distinct coordinates and consecutive indices.  The data
qubits are `D{init_data}, ..., D{init_data+n-1}` with `n` their number, the ancillas are numbered consecutively, and the
first data qubit is at the initial point. -/
theorem C16_generated (dx dz : Int) (hx : 1 ≤ dx) (hz : 1 ≤ dz) (a : Args) :
    ∃ l all data anc xs zs, unrotSurfaceCodeRectangle dx dz a = .ok l ∧ Reachable l ∧
      l.getQubits [] = .ok all ∧ all.Nodup ∧
      l.getQubits [("role", .str "data")] = .ok data ∧ l.getQubits [("role", .str "anc")] = .ok anc ∧
      l.getQubits [("role", .str "anc"), ("stab_type", .str "x_type")] = .ok xs ∧
      l.getQubits [("role", .str "anc"), ("stab_type", .str "z_type")] = .ok zs ∧
      (data ++ anc).Perm all ∧ (data.length : Int) = dx * dz + (dx - 1) * (dz - 1) ∧ (anc.length : Int) = dx * dz + (dx - 1) * (dz - 1) - 1 ∧
      (∀ i, "D" ++ Int.repr i ∈ data ↔ a.initData ≤ i ∧ i < a.initData + (dx * dz + (dx - 1) * (dz - 1))) ∧
      xs = (List.range xs.length).map (fun (k : Nat) => "X" ++ Int.repr (a.initX + k)) ∧
      zs = (List.range zs.length).map (fun (k : Nat) => "Z" ++ Int.repr (a.initZ + k)) ∧
      l.getInds all = .ok ((List.range all.length).map fun (k : Nat) => a.initInd + k) ∧
      (∀ q ∈ all, ∃ r c, l.param "coords" q = .ok (.coords [r, c])) ∧
      (∀ q ∈ all, ∀ q' ∈ all, l.param "coords" q = l.param "coords" q' → q = q') ∧
      l.param "coords" ("D" ++ Int.repr a.initData) =
        .ok (.coords [a.initPoint.1, a.initPoint.2]) ∧
      l.logQubits = [a.label] ∧ l.distanceX = dx ∧ l.distanceZ = dz ∧
      (dx = dz → l.distance = dx) := by
  obtain ⟨l, hl, hi⟩ := unrot_ok a (show 0 ≤ dx by omega) (show 0 ≤ dz by omega)
  obtain ⟨hg, hco⟩ := onGrid_of_init (unrot_gridData a dx dz) (unrot_infoData a dx dz) rfl hi
  have hcoord : ∀ q s k, (q, s, k) ∈ unrotEntries a dx dz →
      l.param "coords" q = .ok (.coords (unrotCoord a s)) := by
    intro q s k h
    obtain ⟨i, hi⟩ := List.mem_iff_getElem?.1 h
    exact (hco i _ hi).1
  refine ⟨l, _, _, _, _, _, hl, hg.reach, hg.getQubits_all, hg.labels, hg.getQubits_data,
    hg.getQubits_anc, hg.getQubits_x, hg.getQubits_z, hg.perm, ?_, ?_,
    unrot_data_label_iff hx hz, ?_, ?_, ?_, ?_, ?_, ?_, ?_⟩
  · unfold unrotEntries
    rw [labelsOf_length]
    exact unrot_data_count hx hz
  · unfold unrotEntries
    rw [labelsOf_length]
    exact unrot_anc_count hx hz
  · conv_rhs => rw [show unrotEntries a dx dz = labelSites (unrotDataLabel a dz) (unrotSites dx dz) a.initX a.initZ from rfl]
    rw [labelsOf_length]
    exact labelSites_xlabels _ _ _
  · conv_rhs => rw [show unrotEntries a dx dz = labelSites (unrotDataLabel a dz) (unrotSites dx dz) a.initX a.initZ from rfl]
    rw [labelsOf_length]
    exact labelSites_zlabels _ _ _
  · rw [List.length_map]
    exact getInds_of_entries fun k e he => (hco k e he).2
  · intro q hq
    obtain ⟨⟨q, s, k⟩, he, rfl⟩ := List.mem_map.1 hq
    exact ⟨_, _, hcoord q s k he⟩
  · intro q hq q' hq' hc
    obtain ⟨⟨q, s, k⟩, he, rfl⟩ := List.mem_map.1 hq
    obtain ⟨⟨q', s', k'⟩, he', rfl⟩ := List.mem_map.1 hq'
    simp only at hc ⊢
    rw [hcoord _ _ _ he, hcoord _ _ _ he'] at hc
    simp only [unrotCoord, Except.ok.injEq, Val.coords.injEq, List.cons.injEq, add_left_inj,
      Int.cast_inj, and_true] at hc
    have : s = s' := Prod.ext hc.1 hc.2
    subst this
    exact (hg.unique' he he').1
  · have hd : ("D" ++ Int.repr a.initData, (0, 0), Kind.data) ∈ unrotEntries a dx dz := by
      refine mem_unrotEntries_data.2 ⟨?_, by simp only [UnrotSite]; omega⟩
      unfold unrotDataLabel unrotDataIndex
      rw [label_int_inj]
      norm_num
    rw [hcoord _ _ _ hd]
    simp [unrotCoord]
  · obtain ⟨-, -, -, -, h1, h2, h3, h4, -⟩ := (Layout.init_ok_iff _ _).1 hi
    refine ⟨h1, h4, h3, ?_⟩
    rintro rfl
    rw [h2]
    simp [unrotSetup]

/-- **C16** A negative distance is rejected. -/
theorem C16_rejected (dx dz : Int) (a : Args) :
    (dx < 0 ∨ dz < 0) ↔ unrotSurfaceCodeRectangle dx dz a = .error .valueError := by
  constructor
  · intro h
    unfold unrotSurfaceCodeRectangle checkDistance
    by_cases hx : dx < 0
    · simp [hx]
    · simp [hx, show dz < 0 by omega]
  · intro h
    by_contra hc
    obtain ⟨l, hl, -⟩ := unrot_ok a (show 0 ≤ dx by omega) (show 0 ≤ dz by omega)
    rw [hl] at h
    simp at h

example : ((unrotSurfaceCodeRectangle 2 3 ⟨"L7", (1/2, 4), 5, 2, 3, 10⟩).bind fun l => l.getQubits []) =
    .ok ["D5", "X3", "D6", "X4", "D7", "Z2", "D8", "Z3", "D9", "Z4", "D10", "X5", "D11", "X6", "D12"] := by decide +kernel

/-- **C17** The neighbour relation is symmetric with opposite directions. -/
theorem C17_symmetric (dx dz : Int) (a : Args) (l : Layout)
    (h : unrotSurfaceCodeRectangle dx dz a = .ok l) (q q' d : String) :
    (q, q') ∈ l.getNeighborPairs [q] (some d) ↔ (q', q) ∈ l.getNeighborPairs [q'] (some (opposite d)) := by
  have hg := unrot_onGrid h
  rw [hg.nbr, hg.nbr]
  constructor
  · rintro ⟨s, k, s', k', sh, h1, h2, hd, rfl, hk⟩
    refine ⟨s + sh, k', s, k, -sh, h2, h1, ?_, by rw [add_neg_cancel_right], ?_⟩
    · rcases mem_unrotNames.1 hd with ⟨rfl, rfl⟩ | ⟨rfl, rfl⟩ | ⟨rfl, rfl⟩ | ⟨rfl, rfl⟩ <;> decide
    · by_cases hkd : k = .data <;> by_cases hkd' : k' = .data <;> simp_all
  · rintro ⟨s, k, s', k', sh, h1, h2, hd, rfl, hk⟩
    refine ⟨s + sh, k', s, k, -sh, h2, h1, ?_, by rw [add_neg_cancel_right], ?_⟩
    · rw [mem_unrotNames] at hd ⊢
      unfold opposite at hd
      split at hd <;> simp_all
    · by_cases hkd : k = .data <;> by_cases hkd' : k' = .data <;> simp_all

/-- **C17** Neighbours are a data qubit and an ancilla at distance one, in the direction
named. -/
theorem C17_edges (dx dz : Int) (a : Args) (l : Layout)
    (h : unrotSurfaceCodeRectangle dx dz a = .ok l) (q q' d : String)
    (hq : (q, q') ∈ l.getNeighborPairs [q] (some d)) :
    ((l.param "role" q = .ok (.str "data") ∧ l.param "role" q' = .ok (.str "anc")) ∨
      (l.param "role" q = .ok (.str "anc") ∧ l.param "role" q' = .ok (.str "data"))) ∧
    ∃ r c dr dc, l.param "coords" q = .ok (.coords [r, c]) ∧
      l.param "coords" q' = .ok (.coords [r + dr, c + dc]) ∧
      (d, dr, dc) ∈ [("north", 0, 1), ("south", 0, -1), ("east", 1, 0), ("west", -1, 0)] := by
  obtain ⟨-, -, hi⟩ := unrot_init h
  obtain ⟨hg, hco⟩ := onGrid_of_init (unrot_gridData a dx dz) (unrot_infoData a dx dz) rfl hi
  have hinv := Layout.inv_of_reachable hg.reach
  have hcoord : ∀ q s k, (q, s, k) ∈ unrotEntries a dx dz →
      l.param "coords" q = .ok (.coords (unrotCoord a s)) := by
    intro q s k h
    obtain ⟨i, hi⟩ := List.mem_iff_getElem?.1 h
    exact (hco i _ hi).1
  have hrole : ∀ q s k, (q, s, k) ∈ unrotEntries a dx dz → l.param "role" q = .ok (roleOf k) := by
    intro q s k h
    obtain ⟨attrs, hn, h1, -⟩ := hg.attrs q s k h
    have := Layout.param_node hinv hn "role"
    rw [this, h1]; rfl
  obtain ⟨s, k, s', k', sh, h1, h2, hd, rfl, hk⟩ := (hg.nbr _ _ _).1 hq
  refine ⟨?_, ?_⟩
  · rw [hrole _ _ _ h1, hrole _ _ _ h2]
    cases k <;> cases k' <;> simp_all [roleOf]
  · refine ⟨_, _, (sh.1 : Rat), (sh.2 : Rat), hcoord _ _ _ h1, ?_, ?_⟩
    · rw [hcoord _ _ _ h2]
      simp only [unrotCoord, Prod.fst_add, Prod.snd_add, Int.cast_add, Except.ok.injEq,
        Val.coords.injEq, List.cons.injEq, and_true]
      constructor <;> ring
    · rcases mem_unrotNames.1 hd with ⟨rfl, rfl⟩ | ⟨rfl, rfl⟩ | ⟨rfl, rfl⟩ | ⟨rfl, rfl⟩ <;> simp

/-- **C17** Every ancilla has three or four neighbours. -/
theorem C17_degree (dx dz : Int) (hx : 2 ≤ dx) (hz : 2 ≤ dz) (a : Args) (l : Layout)
    (h : unrotSurfaceCodeRectangle dx dz a = .ok l) (anc : List String)
    (ha : l.getQubits [("role", .str "anc")] = .ok anc) (x : String) (hxa : x ∈ anc) :
    (l.getNeighbors [x] none).length = 3 ∨ (l.getNeighbors [x] none).length = 4 := by
  have hg := unrot_onGrid h
  rw [hg.getQubits_anc] at ha
  simp only [Except.ok.injEq] at ha
  subst ha
  obtain ⟨⟨r, c⟩, k, he, hk⟩ := mem_labelsOf.1 hxa
  simp only [ne_eq, decide_not, Bool.not_eq_true', decide_eq_false_iff_not] at hk
  have hs := unrotEntry he
  have key : ∀ T : List Site, T.Nodup → (∀ t ∈ T, UnrotSite dx dz t.1 t.2 .data) →
      (∀ r0 c0, UnrotSite dx dz r0 c0 .data →
        (((r0 = r ∧ (c0 = c + 1 ∨ c0 = c - 1)) ∨ ((r0 = r + 1 ∨ r0 = r - 1) ∧ c0 = c))
        ↔ (r0, c0) ∈ T)) → (l.getNeighbors [x] none).length = T.length := by
    intro T hT hTd hiff
    rw [← List.countP_true]
    refine hg.countP_sites (hg.neighbors_nodup x) (fun q hq => neighbors_data hg he hk hq) T hT
      (fun t ht => exists_unrotEntry (hTd t ht)) ?_
    rintro q ⟨r0, c0⟩ hq
    rw [unrotN hg he hk hq]
    simpa using hiff r0 c0 (unrotEntry hq)
  have four : (0 < r ∧ r < 2 * dx - 2 ∧ 0 < c ∧ c < 2 * dz - 2) →
      (l.getNeighbors [x] none).length = 4 := by
    intro hin
    refine key [(r, c + 1), (r, c - 1), (r + 1, c), (r - 1, c)] (by simp; omega) ?_ ?_
    · simp only [List.mem_cons, List.not_mem_nil, or_false]
      rintro t (rfl | rfl | rfl | rfl) <;> cases k <;> simp only [UnrotSite] at hs ⊢ <;>
        first | omega | exact absurd rfl hk
    · intro r0 c0 g
      simp only [UnrotSite] at g
      simp only [List.mem_cons, List.not_mem_nil, or_false, Prod.mk.injEq]
      omega
  cases k with
  | data => exact absurd rfl hk
  | x =>
    simp only [UnrotSite] at hs
    by_cases h0 : r = 0
    · left
      refine key [(r, c + 1), (r, c - 1), (r + 1, c)] (by simp; omega) ?_ ?_
      · simp only [List.mem_cons, List.not_mem_nil, or_false]
        rintro t (rfl | rfl | rfl) <;> simp only [UnrotSite] <;> omega
      · intro r0 c0 g
        simp only [UnrotSite] at g
        simp only [List.mem_cons, List.not_mem_nil, or_false, Prod.mk.injEq]
        omega
    by_cases h1 : r = 2 * dx - 2
    · left
      refine key [(r, c + 1), (r, c - 1), (r - 1, c)] (by simp; omega) ?_ ?_
      · simp only [List.mem_cons, List.not_mem_nil, or_false]
        rintro t (rfl | rfl | rfl) <;> simp only [UnrotSite] <;> omega
      · intro r0 c0 g
        simp only [UnrotSite] at g
        simp only [List.mem_cons, List.not_mem_nil, or_false, Prod.mk.injEq]
        omega
    · exact Or.inr (four (by omega))
  | z =>
    simp only [UnrotSite] at hs
    by_cases h0 : c = 0
    · left
      refine key [(r, c + 1), (r + 1, c), (r - 1, c)] (by simp; omega) ?_ ?_
      · simp only [List.mem_cons, List.not_mem_nil, or_false]
        rintro t (rfl | rfl | rfl) <;> simp only [UnrotSite] <;> omega
      · intro r0 c0 g
        simp only [UnrotSite] at g
        simp only [List.mem_cons, List.not_mem_nil, or_false, Prod.mk.injEq]
        omega
    by_cases h1 : c = 2 * dz - 2
    · left
      refine key [(r, c - 1), (r + 1, c), (r - 1, c)] (by simp; omega) ?_ ?_
      · simp only [List.mem_cons, List.not_mem_nil, or_false]
        rintro t (rfl | rfl | rfl) <;> simp only [UnrotSite] <;> omega
      · intro r0 c0 g
        simp only [UnrotSite] at g
        simp only [List.mem_cons, List.not_mem_nil, or_false, Prod.mk.injEq]
        omega
    · exact Or.inr (four (by omega))

example : ((unrotSurfaceCodeRectangle 3 3 unrotDefault).bind fun l =>
    .ok (l.getNeighborPairs ["X2"] (some "south"), l.getNeighborPairs ["D2"] (some "north"))) =
    .ok ([("X2", "D2")], [("D2", "X2")]) := by decide +kernel

/-- The code of a generated layout. -/
theorem LayoutLib.unrot_codeOf {dx dz : Int} {a : Args} {l : Layout}
    (h : unrotSurfaceCodeRectangle dx dz a = .ok l) :
    CodeOf l a.label (labelsOf (unrotEntries a dx dz) fun k => k = .data)
      (labelsOf (unrotEntries a dx dz) fun k => k = .x) (labelsOf (unrotEntries a dx dz) fun k => k = .z)
      (logXList a dx (2 * dz - 1)) (logZList a dz) ∧ l.distanceX = dx ∧ l.distanceZ = dz := by
  have hg := unrot_onGrid h
  have hl : l.logX = [(a.label, logXList a dx (2 * dz - 1))] ∧ l.logZ = [(a.label, logZList a dz)] ∧
      l.distanceX = dx ∧ l.distanceZ = dz := by
    obtain ⟨-, -, hi⟩ := unrot_init h
    obtain ⟨-, -, -, -, -, -, h3, h4, h5, h6, -⟩ := (Layout.init_ok_iff _ _).1 hi
    exact ⟨h6, h5, h4, h3⟩
  obtain ⟨h1, h2, h3, h4⟩ := hl
  exact ⟨⟨hg.getQubits_data, hg.getQubits_x, hg.getQubits_z, by rw [h1]; simp, by rw [h2]; simp⟩, h3, h4⟩

/-- **C17** Every X-type and every Z-type stabilizer share no or two data qubits. -/
theorem C17_commute (dx dz : Int) (a : Args) (l : Layout)
    (h : unrotSurfaceCodeRectangle dx dz a = .ok l) (xs zs : List String)
    (hx : l.getQubits [("role", .str "anc"), ("stab_type", .str "x_type")] = .ok xs)
    (hz : l.getQubits [("role", .str "anc"), ("stab_type", .str "z_type")] = .ok zs)
    (x z : String) (hxx : x ∈ xs) (hzz : z ∈ zs) :
    overlap (l.getNeighbors [x] none) (l.getNeighbors [z] none) = 0 ∨
    overlap (l.getNeighbors [x] none) (l.getNeighbors [z] none) = 2 := by
  have hg := unrot_onGrid h
  rw [hg.getQubits_x] at hx
  rw [hg.getQubits_z] at hz
  simp only [Except.ok.injEq] at hx hz
  subst hx; subst hz
  obtain ⟨s, k, he, hk⟩ := mem_labelsOf.1 hxx
  obtain ⟨s', k', he', hk'⟩ := mem_labelsOf.1 hzz
  simp only [decide_eq_true_eq] at hk hk'
  subst hk; subst hk'
  exact unrot_overlap hg he he'

example : ((unrotSurfaceCodeRectangle 3 3 unrotDefault).bind fun l =>
    .ok (overlap (l.getNeighbors ["X1"] none) (l.getNeighbors ["Z1"] none),
      overlap (l.getNeighbors ["X1"] none) (l.getNeighbors ["Z4"] none))) = .ok (2, 0) := by
  decide +kernel

/-- **C17** The logical operators of a generated layout consist of distinct data qubits, have weights
`distance_x` and `distance_z`, commute with all stabilizers and anticommute with each other. -/
theorem C17_logicals (dx dz : Int) (hx : 1 ≤ dx) (hz : 1 ≤ dz) (a : Args) (l : Layout)
    (h : unrotSurfaceCodeRectangle dx dz a = .ok l) :
    ∃ data xs zs lx lz, CodeOf l a.label data xs zs lx lz ∧ lx.Nodup ∧ lz.Nodup ∧
      (∀ q ∈ lx, q ∈ data) ∧ (∀ q ∈ lz, q ∈ data) ∧
      (lx.length : Int) = l.distanceX ∧ (lz.length : Int) = l.distanceZ ∧
      IsLogical l xs lx lz ∧ IsLogical l zs lz lx := by
  have hg := unrot_onGrid h
  obtain ⟨hc, h3, h4⟩ := unrot_codeOf h
  have ho := unrot_logs_overlap hg hx hz
  refine ⟨_, _, _, _, _, hc, logXList_nodup a dx (by omega), logZList_nodup a dz, ?_, ?_, ?_, ?_,
    ⟨?_, ?_⟩, ?_, ?_⟩
  · intro q hq
    obtain ⟨s, hs⟩ := unrot_logX_data (dz := dz) hz hq
    exact mem_labelsOf.2 ⟨s, _, hs, by simp⟩
  · intro q hq
    obtain ⟨s, hs⟩ := unrot_logZ_data (dx := dx) hx hq
    exact mem_labelsOf.2 ⟨s, _, hs, by simp⟩
  · rw [h3]; simp [logXList]; omega
  · rw [h4]; simp [logZList]; omega
  · intro x hx'
    obtain ⟨s, k, he, hk⟩ := mem_labelsOf.1 hx'
    simp only [decide_eq_true_eq] at hk
    subst hk
    rcases unrot_overlap_logZ hg hx he with h | h <;> rw [h] <;> decide
  · rw [ho.2]; decide
  · intro z hz'
    obtain ⟨s, k, he, hk⟩ := mem_labelsOf.1 hz'
    simp only [decide_eq_true_eq] at hk
    subst hk
    rcases unrot_overlap_logX hg hz he with h | h <;> rw [h] <;> decide
  · rw [ho.1]; decide

/-- **C18** `distance_z` is the smallest weight of a logical Z operator (one that commutes with the
X-type stabilizers and anticommutes with the logical X) and `distance_x` the smallest weight of a
logical X operator. -/
theorem C18_distance (dx dz : Int) (hx : 1 ≤ dx) (hz : 1 ≤ dz) (a : Args) (l : Layout)
    (h : unrotSurfaceCodeRectangle dx dz a = .ok l) :
    ∃ data xs zs lx lz, CodeOf l a.label data xs zs lx lz ∧
      (∀ S, (∀ q ∈ S, q ∈ data) → IsLogical l xs lx S → l.distanceZ ≤ S.length) ∧
      (∀ S, (∀ q ∈ S, q ∈ data) → IsLogical l zs lz S → l.distanceX ≤ S.length) ∧
      (∃ S, (∀ q ∈ S, q ∈ data) ∧ IsLogical l xs lx S ∧ l.distanceZ = S.length) ∧
      (∃ S, (∀ q ∈ S, q ∈ data) ∧ IsLogical l zs lz S ∧ l.distanceX = S.length) := by
  have hg := unrot_onGrid h
  obtain ⟨hc, h3, h4⟩ := unrot_codeOf h
  obtain ⟨_, _, _, _, _, hc', -, -, h5, h6, h7, h8, h9, h10⟩ := C17_logicals dx dz hx hz a l h
  have e1 := hc.data.symm.trans hc'.data
  have e2 := hc.xs.symm.trans hc'.xs
  have e3 := hc.zs.symm.trans hc'.zs
  have e4 := hc.lx.symm.trans hc'.lx
  have e5 := hc.lz.symm.trans hc'.lz
  simp only [Except.ok.injEq, Option.some.injEq] at e1 e2 e3 e4 e5
  subst e1 e2 e3 e4 e5
  refine ⟨_, _, _, _, _, hc, ?_, ?_, ⟨_, h6, h9, h8.symm⟩, ⟨_, h5, h10, h7.symm⟩⟩
  · rintro S hS ⟨h1, h2⟩
    rw [h4]
    refine unrot_col_bound hg (fun q hq => ?_) (fun x s hs => h1 x (mem_labelsOf.2 ⟨s, _, hs, by simp⟩)) h2
    obtain ⟨s, k, he, hk⟩ := mem_labelsOf.1 (hS q hq)
    simp only [decide_eq_true_eq] at hk
    subst hk
    exact ⟨s, he⟩
  · rintro S hS ⟨h1, h2⟩
    rw [h3]
    refine unrot_row_bound hg hx (fun q hq => ?_) (fun x s hs => h1 x (mem_labelsOf.2 ⟨s, _, hs, by simp⟩)) h2
    obtain ⟨s, k, he, hk⟩ := mem_labelsOf.1 (hS q hq)
    simp only [decide_eq_true_eq] at hk
    subst hk
    exact ⟨s, he⟩

/-- The square code of distance three has a layout, and other logical operators are longer. -/
example : ((unrotSurfaceCode 3 unrotDefault).bind fun l =>
    .ok (l.distanceZ, overlap ["D1", "D4", "D7"] (l.getNeighbors ["X1"] none),
      overlap ["D1", "D5", "D6"] (l.getNeighbors ["X1"] none))) = .ok (3, 2, 1) := by
  decide +kernel

end SurfaceSim
