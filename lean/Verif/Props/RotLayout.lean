/-
Properties of the generated rotated surface code layouts (C11-C15).
-/
import Verif.Lemmas.RotCount

namespace SurfaceSim
open LayoutLib

/-- A number is the label of a data qubit exactly when it is in the range of data qubit ids. -/
theorem LayoutLib.rot_data_label_iff {a : Args} {dx dz : Int} (hz : 1 ≤ dz) (i : Int) :
    "D" ++ Int.repr i ∈ labelsOf (rotEntries a dx dz) (fun k => k = .data) ↔
      a.initData ≤ i ∧ i < a.initData + dx * dz := by
  rw [mem_labelsOf]
  constructor
  · rintro ⟨⟨r, c⟩, k, h, hk⟩
    simp only [decide_eq_true_eq] at hk
    subst hk
    obtain ⟨he, hs⟩ := mem_rotEntries_data.1 h
    unfold rotDataLabel rotDataIndex at he
    rw [label_int_inj] at he
    simp only [RotSite] at hs
    simp only at he
    have h1 : 0 ≤ r / 2 := by omega
    have h2 : r / 2 + 1 ≤ dx := by omega
    have h3 : (r / 2) * dz + dz ≤ dx * dz := by nlinarith
    have h4 : 0 ≤ (r / 2) * dz := by positivity
    constructor <;> omega
  · rintro ⟨h1, h2⟩
    have hm := Int.emod_nonneg (i - a.initData) (show dz ≠ 0 by omega)
    have hm' := Int.emod_lt_of_pos (i - a.initData) (show 0 < dz by omega)
    have hd := Int.ediv_nonneg (show 0 ≤ i - a.initData by omega) (show 0 ≤ dz by omega)
    have hd' : (i - a.initData) / dz < dx := by
      rw [Int.ediv_lt_iff_lt_mul (by omega)]; omega
    have he := Int.mul_ediv_add_emod (i - a.initData) dz
    refine ⟨(2 * ((i - a.initData) / dz) + 1, 2 * ((i - a.initData) % dz) + 1), .data,
      mem_rotEntries_data.2 ⟨?_, ?_⟩, by simp⟩
    · unfold rotDataLabel rotDataIndex
      rw [label_int_inj]
      have e1 : (2 * ((i - a.initData) / dz) + 1) / 2 = (i - a.initData) / dz := by omega
      have e2 : (2 * ((i - a.initData) % dz) + 1) / 2 = (i - a.initData) % dz := by omega
      simp only [e1, e2]
      linarith [mul_comm dz ((i - a.initData) / dz)]
    · simp only [RotSite]; omega

theorem OnGrid.perm {l : Layout} {L : List (String × Site × Kind)} {dirs : List (Site × String)}
    (_ : OnGrid l L dirs) :
    (labelsOf L (fun k => k = .data) ++ labelsOf L (fun k => k ≠ .data)).Perm (L.map Prod.fst) := by
  unfold labelsOf
  rw [← List.map_append]
  have h1 := List.filter_append_perm (fun e : String × Site × Kind => decide (e.2.2 = .data)) L
  simp only [ne_eq, decide_not]
  exact h1.map _

theorem LayoutLib.getInds_of_entries {l : Layout} {L : List (String × Site × Kind)} {i0 : Int}
    (h : ∀ (k : Nat) e, L[k]? = some e → l.getInds [e.1] = .ok [i0 + k]) :
    l.getInds (L.map Prod.fst) = .ok ((List.range L.length).map fun (k : Nat) => i0 + k) := by
  unfold Layout.getInds at h ⊢
  rw [mapExcept_ok_iff, List.forall₂_map_left_iff, List.forall₂_map_right_iff]
  rw [List.forall₂_iff_get]
  refine ⟨by simp, fun i h1 h2 => ?_⟩
  have := h i (L.get ⟨i, h1⟩) (by simp)
  rw [mapExcept_ok_iff] at this
  cases this with
  | cons h _ => simpa using h

/-- **C11** For every pair of distances the generator returns a layout with `dx*dz` data qubits and
`dx*dz - 1` ancillas with distinct labels, distinct coordinates and consecutive indices.  The data
qubits are `D{init_data}, ..., D{init_data+dx*dz-1}`, the ancillas are numbered consecutively, and the
first data qubit is at the initial point. -/
theorem C11_generated (dx dz : Int) (hx : 1 ≤ dx) (hz : 1 ≤ dz) (a : Args) :
    ∃ l all data anc xs zs, rotSurfaceCodeRectangle dx dz a = .ok l ∧ Reachable l ∧
      l.getQubits [] = .ok all ∧ all.Nodup ∧
      l.getQubits [("role", .str "data")] = .ok data ∧ l.getQubits [("role", .str "anc")] = .ok anc ∧
      l.getQubits [("role", .str "anc"), ("stab_type", .str "x_type")] = .ok xs ∧
      l.getQubits [("role", .str "anc"), ("stab_type", .str "z_type")] = .ok zs ∧
      (data ++ anc).Perm all ∧ (data.length : Int) = dx * dz ∧ (anc.length : Int) = dx * dz - 1 ∧
      (∀ i, "D" ++ Int.repr i ∈ data ↔ a.initData ≤ i ∧ i < a.initData + dx * dz) ∧
      xs = (List.range xs.length).map (fun (k : Nat) => "X" ++ Int.repr (a.initX + k)) ∧
      zs = (List.range zs.length).map (fun (k : Nat) => "Z" ++ Int.repr (a.initZ + k)) ∧
      l.getInds all = .ok ((List.range all.length).map fun (k : Nat) => a.initInd + k) ∧
      (∀ q ∈ all, ∃ r c, l.param "coords" q = .ok (.coords [r, c])) ∧
      (∀ q ∈ all, ∀ q' ∈ all, l.param "coords" q = l.param "coords" q' → q = q') ∧
      l.param "coords" ("D" ++ Int.repr a.initData) =
        .ok (.coords [a.initPoint.1, a.initPoint.2]) ∧
      l.logQubits = [a.label] ∧ l.distanceX = dx ∧ l.distanceZ = dz ∧
      (dx = dz → l.distance = dx) := by
  obtain ⟨l, hl, hi⟩ := rot_ok a (show 0 ≤ dx by omega) (show 0 ≤ dz by omega)
  obtain ⟨hg, hco⟩ := onGrid_of_init (rot_gridData a dx dz) (rot_infoData a dx dz) rfl hi
  have hcoord : ∀ q s k, (q, s, k) ∈ rotEntries a dx dz →
      l.param "coords" q = .ok (.coords (rotCoord a s)) := by
    intro q s k h
    obtain ⟨i, hi⟩ := List.mem_iff_getElem?.1 h
    exact (hco i _ hi).1
  refine ⟨l, _, _, _, _, _, hl, hg.reach, hg.getQubits_all, hg.labels, hg.getQubits_data,
    hg.getQubits_anc, hg.getQubits_x, hg.getQubits_z, hg.perm, ?_, ?_,
    rot_data_label_iff hz, ?_, ?_, ?_, ?_, ?_, ?_, ?_⟩
  · unfold rotEntries
    rw [labelsOf_length]
    refine (rot_counts hx hz fun k => decide (k = .data)).trans ?_
    simp
  · unfold rotEntries
    rw [labelsOf_length]
    refine (rot_counts hx hz fun k => decide (k ≠ .data)).trans ?_
    have := rot_anc_count hx hz
    simpa using this
  · conv_rhs => rw [show rotEntries a dx dz = labelSites (rotDataLabel a dz) (rotSites dx dz) a.initX a.initZ from rfl]
    rw [labelsOf_length]
    exact labelSites_xlabels _ _ _
  · conv_rhs => rw [show rotEntries a dx dz = labelSites (rotDataLabel a dz) (rotSites dx dz) a.initX a.initZ from rfl]
    rw [labelsOf_length]
    exact labelSites_zlabels _ _ _
  · rw [List.length_map]
    exact getInds_of_entries fun k e he => (hco k e he).2
  · intro q hq
    obtain ⟨⟨q, s, k⟩, he, rfl⟩ := List.mem_map.1 hq
    exact ⟨_, _, hcoord q s k he⟩
  · intro q hq q' hq' hc
    obtain ⟨⟨q, s, k⟩, he, rfl⟩ := List.mem_map.1 hq
    obtain ⟨⟨q', s', k'⟩, he', rfl⟩ := List.mem_map.1 hq'
    simp only at hc ⊢
    rw [hcoord _ _ _ he, hcoord _ _ _ he'] at hc
    simp only [rotCoord, Except.ok.injEq, Val.coords.injEq, List.cons.injEq, add_left_inj,
      Int.cast_inj, and_true] at hc
    have : s = s' := Prod.ext hc.1 hc.2
    subst this
    exact (hg.unique' he he').1
  · have hd : ("D" ++ Int.repr a.initData, (1, 1), Kind.data) ∈ rotEntries a dx dz := by
      refine mem_rotEntries_data.2 ⟨?_, by simp only [RotSite]; omega⟩
      unfold rotDataLabel rotDataIndex
      rw [label_int_inj]
      norm_num
    rw [hcoord _ _ _ hd]
    simp [rotCoord]
  · obtain ⟨-, -, -, -, h1, h2, h3, h4, -⟩ := (Layout.init_ok_iff _ _).1 hi
    refine ⟨h1, h4, h3, ?_⟩
    rintro rfl
    rw [h2]
    simp [rotSetup]

/-- **C11** A negative distance is rejected. -/
theorem C11_rejected (dx dz : Int) (a : Args) :
    (dx < 0 ∨ dz < 0) ↔ rotSurfaceCodeRectangle dx dz a = .error .valueError := by
  constructor
  · intro h
    unfold rotSurfaceCodeRectangle checkDistance
    by_cases hx : dx < 0
    · simp [hx]
    · simp [hx, show dz < 0 by omega]
  · intro h
    by_contra hc
    obtain ⟨l, hl, -⟩ := rot_ok a (show 0 ≤ dx by omega) (show 0 ≤ dz by omega)
    rw [hl] at h
    simp at h

example : ((rotSurfaceCodeRectangle 2 3 ⟨"L7", (1/2, 4), 5, 2, 3, 10⟩).bind fun l => l.getQubits []) =
    .ok ["D5", "D6", "D7", "D8", "D9", "D10", "X3", "X4", "X5", "Z2", "Z3"] := by decide +kernel

/-- **C12** The neighbour relation is symmetric with opposite directions. -/
theorem C12_symmetric (dx dz : Int) (a : Args) (l : Layout)
    (h : rotSurfaceCodeRectangle dx dz a = .ok l) (q q' d : String) :
    (q, q') ∈ l.getNeighborPairs [q] (some d) ↔ (q', q) ∈ l.getNeighborPairs [q'] (some (opposite d)) := by
  have hg := rot_onGrid h
  rw [hg.nbr, hg.nbr]
  constructor
  · rintro ⟨s, k, s', k', sh, h1, h2, hd, rfl, hk⟩
    refine ⟨s + sh, k', s, k, -sh, h2, h1, ?_, by rw [add_neg_cancel_right], ?_⟩
    · rcases mem_rotNames.1 hd with ⟨rfl, rfl⟩ | ⟨rfl, rfl⟩ | ⟨rfl, rfl⟩ | ⟨rfl, rfl⟩ <;> decide
    · by_cases hkd : k = .data <;> by_cases hkd' : k' = .data <;> simp_all
  · rintro ⟨s, k, s', k', sh, h1, h2, hd, rfl, hk⟩
    refine ⟨s + sh, k', s, k, -sh, h2, h1, ?_, by rw [add_neg_cancel_right], ?_⟩
    · rw [mem_rotNames] at hd ⊢
      unfold opposite at hd
      split at hd <;> simp_all
    · by_cases hkd : k = .data <;> by_cases hkd' : k' = .data <;> simp_all

/-- **C12** Neighbours are a data qubit and an ancilla at diagonal distance one, in the direction
named. -/
theorem C12_edges (dx dz : Int) (a : Args) (l : Layout)
    (h : rotSurfaceCodeRectangle dx dz a = .ok l) (q q' d : String)
    (hq : (q, q') ∈ l.getNeighborPairs [q] (some d)) :
    ((l.param "role" q = .ok (.str "data") ∧ l.param "role" q' = .ok (.str "anc")) ∨
      (l.param "role" q = .ok (.str "anc") ∧ l.param "role" q' = .ok (.str "data"))) ∧
    ∃ r c dr dc, l.param "coords" q = .ok (.coords [r, c]) ∧
      l.param "coords" q' = .ok (.coords [r + dr, c + dc]) ∧
      (d, dr, dc) ∈ [("north_east", 1, 1), ("north_west", 1, -1), ("south_east", -1, 1),
        ("south_west", -1, -1)] := by
  obtain ⟨-, -, hi⟩ := rot_init h
  obtain ⟨hg, hco⟩ := onGrid_of_init (rot_gridData a dx dz) (rot_infoData a dx dz) rfl hi
  have hinv := Layout.inv_of_reachable hg.reach
  have hcoord : ∀ q s k, (q, s, k) ∈ rotEntries a dx dz →
      l.param "coords" q = .ok (.coords (rotCoord a s)) := by
    intro q s k h
    obtain ⟨i, hi⟩ := List.mem_iff_getElem?.1 h
    exact (hco i _ hi).1
  have hrole : ∀ q s k, (q, s, k) ∈ rotEntries a dx dz → l.param "role" q = .ok (roleOf k) := by
    intro q s k h
    obtain ⟨attrs, hn, h1, -⟩ := hg.attrs q s k h
    have := Layout.param_node hinv hn "role"
    rw [this, h1]; rfl
  obtain ⟨s, k, s', k', sh, h1, h2, hd, rfl, hk⟩ := (hg.nbr _ _ _).1 hq
  refine ⟨?_, ?_⟩
  · rw [hrole _ _ _ h1, hrole _ _ _ h2]
    cases k <;> cases k' <;> simp_all [roleOf]
  · refine ⟨_, _, (sh.1 : Rat), (sh.2 : Rat), hcoord _ _ _ h1, ?_, ?_⟩
    · rw [hcoord _ _ _ h2]
      simp only [rotCoord, Prod.fst_add, Prod.snd_add, Int.cast_add, Except.ok.injEq,
        Val.coords.injEq, List.cons.injEq, and_true]
      constructor <;> ring
    · rcases mem_rotNames.1 hd with ⟨rfl, rfl⟩ | ⟨rfl, rfl⟩ | ⟨rfl, rfl⟩ | ⟨rfl, rfl⟩ <;> simp

/-- **C12** Every ancilla has two or four neighbours. -/
theorem C12_degree (dx dz : Int) (hx : 1 ≤ dx) (hz : 1 ≤ dz) (a : Args) (l : Layout)
    (h : rotSurfaceCodeRectangle dx dz a = .ok l) (anc : List String)
    (ha : l.getQubits [("role", .str "anc")] = .ok anc) (x : String) (hxa : x ∈ anc) :
    (l.getNeighbors [x] none).length = 2 ∨ (l.getNeighbors [x] none).length = 4 := by
  have hg := rot_onGrid h
  rw [hg.getQubits_anc] at ha
  simp only [Except.ok.injEq] at ha
  subst ha
  obtain ⟨⟨r, c⟩, k, he, hk⟩ := mem_labelsOf.1 hxa
  simp only [ne_eq, decide_not, Bool.not_eq_true', decide_eq_false_iff_not] at hk
  have hs := rotEntry he
  have key : ∀ T : List Site, T.Nodup → (∀ t ∈ T, RotSite dx dz t.1 t.2 .data) →
      (∀ r0 c0, RotSite dx dz r0 c0 .data → (((r0 = r + 1 ∨ r0 = r - 1) ∧ (c0 = c + 1 ∨ c0 = c - 1))
        ↔ (r0, c0) ∈ T)) → (l.getNeighbors [x] none).length = T.length := by
    intro T hT hTd hiff
    rw [← List.countP_true]
    refine hg.countP_sites (hg.neighbors_nodup x) (fun q hq => neighbors_data hg he hk hq) T hT
      (fun t ht => exists_rotEntry (hTd t ht)) ?_
    rintro q ⟨r0, c0⟩ hq
    rw [rotN hg he hk hq]
    simpa using hiff r0 c0 (rotEntry hq)
  cases k with
  | data => exact absurd rfl hk
  | x =>
    simp only [RotSite] at hs
    by_cases h0 : r = 0
    · left
      refine key [(r + 1, c + 1), (r + 1, c - 1)] (by simp; omega) ?_ ?_
      · simp only [List.mem_cons, List.not_mem_nil, or_false]
        rintro t (rfl | rfl) <;> simp only [RotSite] <;> omega
      · intro r0 c0 g
        simp only [RotSite] at g
        simp only [List.mem_cons, List.not_mem_nil, or_false, Prod.mk.injEq]
        omega
    by_cases h1 : r = 2 * dx
    · left
      refine key [(r - 1, c + 1), (r - 1, c - 1)] (by simp; omega) ?_ ?_
      · simp only [List.mem_cons, List.not_mem_nil, or_false]
        rintro t (rfl | rfl) <;> simp only [RotSite] <;> omega
      · intro r0 c0 g
        simp only [RotSite] at g
        simp only [List.mem_cons, List.not_mem_nil, or_false, Prod.mk.injEq]
        omega
    · right
      refine key [(r + 1, c + 1), (r + 1, c - 1), (r - 1, c + 1), (r - 1, c - 1)]
        (by simp; omega) ?_ ?_
      · simp only [List.mem_cons, List.not_mem_nil, or_false]
        rintro t (rfl | rfl | rfl | rfl) <;> simp only [RotSite] <;> omega
      · intro r0 c0 g
        simp only [RotSite] at g
        simp only [List.mem_cons, List.not_mem_nil, or_false, Prod.mk.injEq]
        omega
  | z =>
    simp only [RotSite] at hs
    by_cases h0 : c = 0
    · left
      refine key [(r + 1, c + 1), (r - 1, c + 1)] (by simp; omega) ?_ ?_
      · simp only [List.mem_cons, List.not_mem_nil, or_false]
        rintro t (rfl | rfl) <;> simp only [RotSite] <;> omega
      · intro r0 c0 g
        simp only [RotSite] at g
        simp only [List.mem_cons, List.not_mem_nil, or_false, Prod.mk.injEq]
        omega
    by_cases h1 : c = 2 * dz
    · left
      refine key [(r + 1, c - 1), (r - 1, c - 1)] (by simp; omega) ?_ ?_
      · simp only [List.mem_cons, List.not_mem_nil, or_false]
        rintro t (rfl | rfl) <;> simp only [RotSite] <;> omega
      · intro r0 c0 g
        simp only [RotSite] at g
        simp only [List.mem_cons, List.not_mem_nil, or_false, Prod.mk.injEq]
        omega
    · right
      refine key [(r + 1, c + 1), (r + 1, c - 1), (r - 1, c + 1), (r - 1, c - 1)]
        (by simp; omega) ?_ ?_
      · simp only [List.mem_cons, List.not_mem_nil, or_false]
        rintro t (rfl | rfl | rfl | rfl) <;> simp only [RotSite] <;> omega
      · intro r0 c0 g
        simp only [RotSite] at g
        simp only [List.mem_cons, List.not_mem_nil, or_false, Prod.mk.injEq]
        omega

example : ((rotSurfaceCodeRectangle 3 3 rotDefault).bind fun l =>
    .ok (l.getNeighborPairs ["X2"] (some "south_west"), l.getNeighborPairs ["D2"] (some "north_east"))) =
    .ok ([("X2", "D2")], [("D2", "X2")]) := by decide +kernel

/-- The code of a generated layout. -/
theorem LayoutLib.rot_codeOf {dx dz : Int} {a : Args} {l : Layout}
    (h : rotSurfaceCodeRectangle dx dz a = .ok l) :
    CodeOf l a.label (labelsOf (rotEntries a dx dz) fun k => k = .data)
      (labelsOf (rotEntries a dx dz) fun k => k = .x) (labelsOf (rotEntries a dx dz) fun k => k = .z)
      (logXList a dx dz) (logZList a dz) ∧ l.distanceX = dx ∧ l.distanceZ = dz := by
  have hg := rot_onGrid h
  have hl : l.logX = [(a.label, logXList a dx dz)] ∧ l.logZ = [(a.label, logZList a dz)] ∧
      l.distanceX = dx ∧ l.distanceZ = dz := by
    obtain ⟨-, -, hi⟩ := rot_init h
    obtain ⟨-, -, -, -, -, -, h3, h4, h5, h6, -⟩ := (Layout.init_ok_iff _ _).1 hi
    exact ⟨h6, h5, h4, h3⟩
  obtain ⟨h1, h2, h3, h4⟩ := hl
  exact ⟨⟨hg.getQubits_data, hg.getQubits_x, hg.getQubits_z, by rw [h1]; simp, by rw [h2]; simp⟩, h3, h4⟩

/-- **C13** Every X-type and every Z-type stabilizer share no or two data qubits. -/
theorem C13_commute (dx dz : Int) (a : Args) (l : Layout)
    (h : rotSurfaceCodeRectangle dx dz a = .ok l) (xs zs : List String)
    (hx : l.getQubits [("role", .str "anc"), ("stab_type", .str "x_type")] = .ok xs)
    (hz : l.getQubits [("role", .str "anc"), ("stab_type", .str "z_type")] = .ok zs)
    (x z : String) (hxx : x ∈ xs) (hzz : z ∈ zs) :
    overlap (l.getNeighbors [x] none) (l.getNeighbors [z] none) = 0 ∨
    overlap (l.getNeighbors [x] none) (l.getNeighbors [z] none) = 2 := by
  have hg := rot_onGrid h
  rw [hg.getQubits_x] at hx
  rw [hg.getQubits_z] at hz
  simp only [Except.ok.injEq] at hx hz
  subst hx; subst hz
  obtain ⟨s, k, he, hk⟩ := mem_labelsOf.1 hxx
  obtain ⟨s', k', he', hk'⟩ := mem_labelsOf.1 hzz
  simp only [decide_eq_true_eq] at hk hk'
  subst hk; subst hk'
  exact rot_overlap hg he he'

example : ((rotSurfaceCodeRectangle 3 3 rotDefault).bind fun l =>
    .ok (overlap (l.getNeighbors ["X2"] none) (l.getNeighbors ["Z1"] none),
      overlap (l.getNeighbors ["X1"] none) (l.getNeighbors ["Z4"] none))) = .ok (2, 0) := by
  decide +kernel

/-- **C14** The logical operators of a generated layout consist of distinct data qubits, have weights
`distance_x` and `distance_z`, commute with all stabilizers and anticommute with each other. -/
theorem C14_logicals (dx dz : Int) (hx : 1 ≤ dx) (hz : 1 ≤ dz) (a : Args) (l : Layout)
    (h : rotSurfaceCodeRectangle dx dz a = .ok l) :
    ∃ data xs zs lx lz, CodeOf l a.label data xs zs lx lz ∧ lx.Nodup ∧ lz.Nodup ∧
      (∀ q ∈ lx, q ∈ data) ∧ (∀ q ∈ lz, q ∈ data) ∧
      (lx.length : Int) = l.distanceX ∧ (lz.length : Int) = l.distanceZ ∧
      IsLogical l xs lx lz ∧ IsLogical l zs lz lx := by
  have hg := rot_onGrid h
  obtain ⟨hc, h3, h4⟩ := rot_codeOf h
  have ho := rot_logs_overlap hg hx hz
  refine ⟨_, _, _, _, _, hc, logXList_nodup a dx (by omega), logZList_nodup a dz, ?_, ?_, ?_, ?_,
    ⟨?_, ?_⟩, ?_, ?_⟩
  · intro q hq
    obtain ⟨s, hs⟩ := rot_logX_data (dz := dz) hz hq
    exact mem_labelsOf.2 ⟨s, _, hs, by simp⟩
  · intro q hq
    obtain ⟨s, hs⟩ := rot_logZ_data (dx := dx) hx hq
    exact mem_labelsOf.2 ⟨s, _, hs, by simp⟩
  · rw [h3]; simp [logXList]; omega
  · rw [h4]; simp [logZList]; omega
  · intro x hx'
    obtain ⟨s, k, he, hk⟩ := mem_labelsOf.1 hx'
    simp only [decide_eq_true_eq] at hk
    subst hk
    rcases rot_overlap_logZ hg hx he with h | h <;> rw [h] <;> decide
  · rw [ho.2]; decide
  · intro z hz'
    obtain ⟨s, k, he, hk⟩ := mem_labelsOf.1 hz'
    simp only [decide_eq_true_eq] at hk
    subst hk
    rcases rot_overlap_logX hg hz he with h | h <;> rw [h] <;> decide
  · rw [ho.1]; decide

/-- **C15** `distance_z` is the smallest weight of a logical Z operator (one that commutes with the
X-type stabilizers and anticommutes with the logical X) and `distance_x` the smallest weight of a
logical X operator. -/
theorem C15_distance (dx dz : Int) (hx : 1 ≤ dx) (hz : 1 ≤ dz) (a : Args) (l : Layout)
    (h : rotSurfaceCodeRectangle dx dz a = .ok l) :
    ∃ data xs zs lx lz, CodeOf l a.label data xs zs lx lz ∧
      (∀ S, (∀ q ∈ S, q ∈ data) → IsLogical l xs lx S → l.distanceZ ≤ S.length) ∧
      (∀ S, (∀ q ∈ S, q ∈ data) → IsLogical l zs lz S → l.distanceX ≤ S.length) ∧
      (∃ S, (∀ q ∈ S, q ∈ data) ∧ IsLogical l xs lx S ∧ l.distanceZ = S.length) ∧
      (∃ S, (∀ q ∈ S, q ∈ data) ∧ IsLogical l zs lz S ∧ l.distanceX = S.length) := by
  have hg := rot_onGrid h
  obtain ⟨hc, h3, h4⟩ := rot_codeOf h
  obtain ⟨_, _, _, _, _, hc', -, -, h5, h6, h7, h8, h9, h10⟩ := C14_logicals dx dz hx hz a l h
  have e1 := hc.data.symm.trans hc'.data
  have e2 := hc.xs.symm.trans hc'.xs
  have e3 := hc.zs.symm.trans hc'.zs
  have e4 := hc.lx.symm.trans hc'.lx
  have e5 := hc.lz.symm.trans hc'.lz
  simp only [Except.ok.injEq, Option.some.injEq] at e1 e2 e3 e4 e5
  subst e1 e2 e3 e4 e5
  refine ⟨_, _, _, _, _, hc, ?_, ?_, ⟨_, h6, h9, h8.symm⟩, ⟨_, h5, h10, h7.symm⟩⟩
  · rintro S hS ⟨h1, h2⟩
    rw [h4]
    refine rot_col_bound hg (fun q hq => ?_) (fun x s hs => h1 x (mem_labelsOf.2 ⟨s, _, hs, by simp⟩)) h2
    obtain ⟨s, k, he, hk⟩ := mem_labelsOf.1 (hS q hq)
    simp only [decide_eq_true_eq] at hk
    subst hk
    exact ⟨s, he⟩
  · rintro S hS ⟨h1, h2⟩
    rw [h3]
    refine rot_row_bound hg hx (fun q hq => ?_) (fun x s hs => h1 x (mem_labelsOf.2 ⟨s, _, hs, by simp⟩)) h2
    obtain ⟨s, k, he, hk⟩ := mem_labelsOf.1 (hS q hq)
    simp only [decide_eq_true_eq] at hk
    subst hk
    exact ⟨s, he⟩

/-- The square code of distance three has a layout, and other logical operators are longer. -/
example : ((rotSurfaceCode 3 rotDefault).bind fun l =>
    .ok (l.distanceZ, overlap ["D1", "D2", "D6"] (l.getNeighbors ["X1"] none),
      overlap ["D1", "D5", "D6"] (l.getNeighbors ["X1"] none))) = .ok (3, 2, 1) := by
  decide +kernel

end SurfaceSim
