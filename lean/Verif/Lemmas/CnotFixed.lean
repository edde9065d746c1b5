/-
Experiments with transversal CNOT gates between two layouts: the values.
-/
import Verif.Lemmas.CnotExp
import Verif.Spec.CnotExp

namespace SurfaceSim
open Spec NoiseModel Blocks Experiments LayoutLib LogGates

variable {cfg : Detectors.Config} {nm : NoiseModel} {lc lt : Layout} {Lc Lt : List (String × Site × Kind)}
  {dirs : List (Site × String)} {reset : Bool} {code A B label : String} {Xc Zc Xt Zt : List String}

theorem stabs_grid {l : Layout} {L : List (String × Site × Kind)} (hg : OnGrid l L dirs) (rb : Bool) :
    l.getQubits [("role", .str "anc"), ("stab_type", .str (if rb then "x_type" else "z_type"))] = .ok (stabsOf L rb) := by
  have := stabQubits_grid hg rb
  unfold stabQubits stabType at this
  cases rb <;> exact this

/-- The experiment with CNOT gates between the codes on two grids. -/
theorem cnot_fixed (h : Twins lc lt Lc Lt dirs) (gc : GridCode code lc Lc A Xc Zc) (gt : GridCode code lt Lt B Xt Zt)
    (hrc : CanRun nm lc) (hrt : CanRun nm lt) (nt : NoTicks nm) (um : UniformMeas nm)
    (isCode : code = "rotated_surface_code" ∨ code = "unrotated_surface_code")
    (hlab : cnotLabel lc lt = .ok label) (ht : CnotTable lc lt Lc Lt label) (tX : TwinSets Lc Lt Xc Xt) (tZ : TwinSets Lc Lt Zc Zt)
    {dataInit : Dict String Int} {ancDetectors : Option (List String)} (hargs : PairArgs cfg lc lt ancDetectors)
    (hargs' : GateArgs cfg [lc, lt] dataInit) (o o' : SetOrder) (rb gauge : Bool) (n m : Nat) (s : Sim cfg) :
    Gives (MergesOk code o o' nm lc lt Lc Lt dataInit rb reset)
      (repeatedCnot (cfg := cfg) (cssIter code o nm) o' nm lc lt n m dataInit "constant" rb reset ancDetectors gauge) s
      fun c _ => FixedPairValues cfg nm lc lt (n * m) dataInit rb gauge ancDetectors
        (bits dataInit (if rb then Xc else Zc) + if rb then n * bits dataInit Xt else 0)
        (bits dataInit (if rb then Xt else Zt) + if rb then 0 else n * bits dataInit Zc) c := by
  have hn := hargs.config.1
  have hall : ∀ q, q ∈ cfg.anc ↔ q ∈ ancOf Lc ++ ancOf Lt := by
    intro q
    rw [List.mem_append]
    constructor
    · intro hq
      obtain ⟨l, hl, hq⟩ := hargs'.anc q hq
      simp only [List.mem_cons, List.not_mem_nil, or_false] at hl
      rcases hl with rfl | rfl
      · rw [ancOfLayout_grid h.c] at hq
        exact Or.inl hq
      · rw [ancOfLayout_grid h.t] at hq
        exact Or.inr hq
    · rintro (hq | hq)
      · exact hargs.anc lc (by simp) q (by rw [ancOfLayout_grid h.c]; exact hq)
      · exact hargs.anc lt (by simp) q (by rw [ancOfLayout_grid h.t]; exact hq)
  have hz : ∀ a ∈ ancOf Lc ++ ancOf Lt, isOne dataInit a = 0 := by
    intro q hq
    rcases List.mem_append.1 hq with hq | hq
    · exact hargs'.init lc (by simp) q (by rw [ancOfLayout_grid h.c]; exact hq)
    · exact hargs'.init lt (by simp) q (by rw [ancOfLayout_grid h.t]; exact hq)
  have hsel : ∀ sel, ancDetectors = some sel → ∀ a ∈ sel, a ∈ ancOf Lc ++ ancOf Lt := by
    intro sel hs q hq
    obtain ⟨l, hl, hq⟩ := hargs.sel sel hs q hq
    simp only [List.mem_cons, List.not_mem_nil, or_false] at hl
    rw [List.mem_append]
    rcases hl with rfl | rfl
    · rw [ancOfLayout_grid h.c] at hq
      exact Or.inl hq
    · rw [ancOfLayout_grid h.t] at hq
      exact Or.inr hq
  have hgood := goodTable_cnot h ht
  have gX : ∀ {l : Layout} {L : List (String × Site × Kind)} {lab : String} {lx lz : List String}, GridCode code l L lab lx lz →
      l.logX.get? lab = some lx ∧ l.logZ.get? lab = some lz := by
    intro l L lab lx lz g
    rw [g.logX, g.logZ]
    simp [Dict.get?]
  have hgate := gateG_transCnot (cfg := cfg) h hrc hrt o' (by rw [gc.name]; exact isCode) (by rw [gt.name]; exact isCode)
    hlab ht (gX gc).1 (gX gc).2 (gX gt).1 (gX gt).2 tX tZ hn hall
  rw [Props.C42_constant]
  refine (cnot_values h gc gt hrc hrt nt um hargs.config hargs'.frame (clean_genMat hn hall hgood) hall hz o o' hgate
    (fun w i => gateMap_mulVec hn hall hgood w i) ancDetectors hsel rb reset gauge n m s).mono fun c _ hc => ?_
  obtain ⟨h1, h2, h3⟩ := hc
  refine ⟨dataOf Lc, ancOf Lc, stabsOf Lc rb, dataOf Lt, ancOf Lt, stabsOf Lt rb, h.c.getQubits_data, h.c.getQubits_anc,
    stabs_grid h.c rb, h.t.getQubits_data, h.t.getQubits_anc, stabs_grid h.t rb, h1, h2, fun ζ ρ => ?_⟩
  obtain ⟨st0, hst0, hdet, hobs⟩ := h3 ζ ρ
  obtain ⟨b1, b2, b3, b4⟩ := pairValues_basis (nm := nm) h gc gt st0 rb
  have hval : ∀ S : List String, (∀ d ∈ S, d ∈ dataOf Lc ++ dataOf Lt) →
      anticommutes (ind nm.inds) st0 S (fun _ => rb) = bits dataInit S := by
    intro S hS
    rw [← hst0 S hS]
    refine anticommutes_congr fun d hd => ?_
    have := hS d hd
    cases rb
    · rfl
    · simpa using this
  have hfirst : ∀ a ∈ stabsOf Lc rb ++ stabsOf Lt rb, (pairValues nm lc lt Lc Lt A B st0).2 a =
      bits dataInit (if a ∈ ancOf Lc then lc.getNeighbors [a] none else lt.getNeighbors [a] none) := by
    intro a ha
    rcases List.mem_append.1 ha with ha | ha
    · rw [b1 a ha, if_pos (stabsOf_sub ha)]
      exact hval _ fun d hd => List.mem_append_left _ (nbrs_data h.c (stabsOf_sub ha) hd)
    · rw [b2 a ha, if_neg]
      · exact hval _ fun d hd => List.mem_append_right _ (nbrs_data h.t (stabsOf_sub ha) hd)
      · intro hc
        exact (List.nodup_append.1 (anc_two_nodup h)).2.2 a hc a (stabsOf_sub ha) rfl
  constructor
  · cases gauge
    · simp only [Bool.false_eq_true, if_false]
      rw [hdet]
      unfold gateDetectors
      congr 1
      refine List.map_congr_left fun a _ => ?_
      simp only [Bool.false_eq_true, false_or]
      split
      · rename_i h
        exact hfirst a h.2
      · rfl
    · simp only [if_true]
      rw [hdet]
      unfold gateDetectors
      refine ⟨by simp, fun i hi => ?_⟩
      by_cases hil : i < cfg.anc.length
      · rw [List.getElem?_append_left (by simpa using hil), List.getElem?_append_left (by simpa using hil),
          List.getElem?_map, List.getElem?_map]
        obtain ⟨a, hai⟩ : ∃ a, cfg.anc[i]? = some a := ⟨_, List.getElem?_eq_getElem hil⟩
        rw [hai]
        have haa : a ∈ ancOf Lc ++ ancOf Lt := (hall a).1 (List.mem_of_getElem? hai)
        have hi := hi (by omega) a hai
        simp only [Option.map_some, true_or, and_true]
        congr 1
        by_cases hs : a ∈ ancDetectors.getD (ancOf Lc ++ ancOf Lt)
        · have hs' := hi hs haa
          simp only [hs, hs', true_and, if_true]
          exact hfirst a hs'
        · simp only [hs, false_and, if_false]
      · rw [List.getElem?_append_right (by simpa using hil), List.getElem?_append_right (by simpa using hil)]
        simp
  · obtain ⟨i1, i2, i3, i4⟩ := iterate_cnot (gen := pairGen lc lt Lc label) (anc := ancOf Lc ++ ancOf Lt) n
      (pairValues nm lc lt Lc Lt A B st0)
    have vXc := hval Xc fun d hd => List.mem_append_left _ (gc.grid.subX d hd)
    have vZc := hval Zc fun d hd => List.mem_append_left _ (gc.grid.subZ d hd)
    have vXt := hval Xt fun d hd => List.mem_append_right _ (gt.grid.subX d hd)
    have vZt := hval Zt fun d hd => List.mem_append_right _ (gt.grid.subZ d hd)
    rw [hobs]
    cases rb
    · simp only [Bool.false_eq_true, if_false] at b3 b4 ⊢
      rw [i1, i3, b3, b4, vZc, vZt, add_zero]
    · simp only [if_true] at b3 b4 ⊢
      rw [i4, i2, b3, b4, vXc, vXt, add_zero]

end SurfaceSim
