/-
`set_trans_cnot` for pairs of generated codes.
-/
import Verif.Lemmas.CnotBlock
import Verif.Spec.TwoCodes
import Verif.Props.MergeRounds
import Verif.Lemmas.MemoryCodes

namespace SurfaceSim
open Spec NoiseModel Blocks LayoutLib LogGates

theorem labelSites_snd (f : Site → String) (S : List (Site × Kind)) (xi zi : Int) :
    (labelSites f S xi zi).map Prod.snd = S := by
  induction S generalizing xi zi with
  | nil => rfl
  | cons e S ih =>
    obtain ⟨s, k⟩ := e
    cases k <;> simp [labelSites, ih]

theorem twinSets_of {lc lt : Layout} {Lc Lt : List (String × Site × Kind)} {dirs : List (Site × String)}
    (_ : Twins lc lt Lc Lt dirs) {S S' : List String} {P : Site → Prop} (nc : S.Nodup) (nt : S'.Nodup)
    (dc : ∀ q ∈ S, ∃ s, (q, s, Kind.data) ∈ Lc) (dt : ∀ q ∈ S', ∃ s, (q, s, Kind.data) ∈ Lt)
    (ic : ∀ q s, (q, s, Kind.data) ∈ Lc → (q ∈ S ↔ P s)) (it : ∀ q s, (q, s, Kind.data) ∈ Lt → (q ∈ S' ↔ P s)) :
    TwinSets Lc Lt S S' :=
  ⟨nc, nt, fun q hq => mem_dataOf.2 (dc q hq), fun q hq => mem_dataOf.2 (dt q hq),
    fun s q q' h h' => (ic q s h).trans (it q' s h').symm⟩

/-- A generated code with `distance_z ≥ 2`. -/
structure GridCode (code : String) (l : Layout) (L : List (String × Site × Kind)) (lab : String) (lx lz : List String) :
    Prop where
  num : NumCoords l
  name : l.code = code
  log : l.logQubits = [lab]
  logX : l.logX = [(lab, lx)]
  logZ : l.logZ = [(lab, lz)]
  grid : CodeGrid l L lx lz
  order : ∃ x0 x1 x2 x3 z0 z1 z2 z3, l.interactionOrder = order4 x0 x1 x2 x3 z0 z1 z2 z3
  data : dataOf L ≠ []
  anc : ancOf L ≠ []
  round : ∀ nm, CanRun nm l → ∀ o reset, RoundMeasures nm l (sumGen (cssIter code o nm l reset)) (cssType L) reset

theorem rot_gridCode {dx dz : Int} {a : Args} {l0 l : Layout} (h : rotSurfaceCodeRectangle dx dz a = .ok l0)
    (hw : WithParams l0 l) (hx : 1 ≤ dx) (hz : 2 ≤ dz) :
    ∃ lx lz, GridCode "rotated_surface_code" l (rotEntries a dx dz) a.label lx lz := by
  have hi := isRot_of_params h hw
  have hne := Props.rot_nonempty (a := a) hx hz
  exact ⟨_, _, (rot_numCoords h).params hw, hi.code, hi.log, hi.logX, hi.logZ, hi.codeGrid (by omega) (by omega),
    ⟨_, _, _, _, _, _, _, _, hi.order⟩, hne.1, hne.2, fun nm hr o reset => hi.css hz hr o reset⟩

theorem unrot_gridCode {dx dz : Int} {a : Args} {l0 l : Layout} (h : unrotSurfaceCodeRectangle dx dz a = .ok l0)
    (hw : WithParams l0 l) (hx : 1 ≤ dx) (hz : 2 ≤ dz) :
    ∃ lx lz, GridCode "unrotated_surface_code" l (unrotEntries a dx dz) a.label lx lz := by
  have hi := isUnrot_of_params h hw
  have hne := Props.unrot_nonempty (a := a) hx hz
  exact ⟨_, _, (unrot_numCoords h).params hw, hi.code, hi.log, hi.logX, hi.logZ, hi.codeGrid (by omega) (by omega),
    ⟨_, _, _, _, _, _, _, _, hi.order⟩, hne.1, hne.2, fun nm hr o reset => hi.css hz hr o reset⟩

/-- Two codes of the same family and distances. -/
structure Pair (code : String) (dx dz : Int) (ac a_t : Args) (lc lt : Layout) (Lc Lt : List (String × Site × Kind))
    (dirs : List (Site × String)) (oc ot : Vec) : Prop where
  c : Placed lc Lc dirs oc
  t : Placed lt Lt dirs ot
  same : Lc.map Prod.snd = Lt.map Prod.snd
  codeC : lc.code = code
  codeT : lt.code = code
  isCode : code = "rotated_surface_code" ∨ code = "unrotated_surface_code"
  logC : lc.logQubits = [ac.label]
  logT : lt.logQubits = [a_t.label]
  distX : lc.distanceX = lt.distanceX
  distZ : lc.distanceZ = lt.distanceZ
  order : lc.interactionOrder = lt.interactionOrder
  full : 1 ≤ dx → 1 ≤ dz → Lc ≠ []
  logicals : 1 ≤ dx → 1 ≤ dz → Twins lc lt Lc Lt dirs → ∃ Xc Zc Xt Zt, lc.logX.get? ac.label = some Xc ∧
    lc.logZ.get? ac.label = some Zc ∧ lt.logX.get? a_t.label = some Xt ∧ lt.logZ.get? a_t.label = some Zt ∧
    TwinSets Lc Lt Xc Xt ∧ TwinSets Lc Lt Zc Zt
  codes : 1 ≤ dx → 2 ≤ dz → (∃ lx lz, GridCode code lc Lc ac.label lx lz) ∧ ∃ lx lz, GridCode code lt Lt a_t.label lx lz
  shape : (code = "rotated_surface_code" ∧ Lc = rotEntries ac dx dz ∧ Lt = rotEntries a_t dx dz ∧ IsRot ac dx dz lc ∧
      IsRot a_t dx dz lt) ∨
    (code = "unrotated_surface_code" ∧ Lc = unrotEntries ac dx dz ∧ Lt = unrotEntries a_t dx dz ∧ IsUnrot ac dx dz lc ∧
      IsUnrot a_t dx dz lt)

variable {code : String} {dx dz : Int} {ac a_t : Args} {lc0 lt0 : Layout}

theorem pair_of_made (hc : MadeBy code dx dz ac lc0) (ht : MadeBy code dx dz a_t lt0) : ∃ Lc Lt dirs oc ot,
    ∀ lc lt, WithParams lc0 lc → WithParams lt0 lt → Pair code dx dz ac a_t lc lt Lc Lt dirs oc ot := by
  rcases hc with ⟨rfl, hc⟩ | ⟨rfl, hc⟩
  · rcases ht with ⟨-, ht⟩ | ⟨h, -⟩
    · refine ⟨rotEntries ac dx dz, rotEntries a_t dx dz, names rotDirs, (ac.initPoint.1 - 1, ac.initPoint.2 - 1),
        (a_t.initPoint.1 - 1, a_t.initPoint.2 - 1), fun lc lt hwc hwt => ?_⟩
      have ic := isRot_of_params hc hwc
      have it := isRot_of_params ht hwt
      refine ⟨(rot_placed hc).params hwc, (rot_placed ht).params hwt, ?_, ic.code, it.code, Or.inl rfl, ic.log, it.log, ?_, ?_, ic.order.trans it.order.symm, ?_, ?_,
        fun h1 h2 => ⟨rot_gridCode hc hwc h1 h2, rot_gridCode ht hwt h1 h2⟩, Or.inl ⟨rfl, rfl, rfl, ic, it⟩⟩
      · unfold rotEntries; rw [labelSites_snd, labelSites_snd]
      · rw [(distances_params hwc).1, (distances_params hwt).1, (rot_distances hc).1, (rot_distances ht).1]
      · rw [(distances_params hwc).2, (distances_params hwt).2, (rot_distances hc).2, (rot_distances ht).2]
      · intro h1 h2 h3
        obtain ⟨s, hs⟩ := rot_logZ_data (a := ac) (dx := dx) (dz := dz) (q := "D" ++ Int.repr (0 + ac.initData)) h1 (by
          unfold logZList; exact List.mem_map.2 ⟨0, by rw [List.mem_range]; omega, by simp⟩)
        simp [h3] at hs
      · intro h1 h2 hT
        refine ⟨_, _, _, _, by rw [ic.logX]; simp [Dict.get?]; rfl, by rw [ic.logZ]; simp [Dict.get?]; rfl,
          by rw [it.logX]; simp [Dict.get?]; rfl, by rw [it.logZ]; simp [Dict.get?]; rfl, ?_, ?_⟩
        · exact twinSets_of hT (P := fun s => s.2 = 1) (logXList_nodup _ _ (by omega)) (logXList_nodup _ _ (by omega))
            (fun q hq => rot_logX_data h2 hq) (fun q hq => rot_logX_data h2 hq) (fun q s h => rot_mem_logX h)
            fun q s h => rot_mem_logX h
        · exact twinSets_of hT (P := fun s => s.1 = 1) (logZList_nodup _ _) (logZList_nodup _ _)
            (fun q hq => rot_logZ_data h1 hq) (fun q hq => rot_logZ_data h1 hq) (fun q s h => rot_mem_logZ h1 h)
            fun q s h => rot_mem_logZ h1 h
    · exact absurd h (by decide)
  · rcases ht with ⟨h, -⟩ | ⟨-, ht⟩
    · exact absurd h (by decide)
    · refine ⟨unrotEntries ac dx dz, unrotEntries a_t dx dz, names unrotDirs, ac.initPoint, a_t.initPoint, fun lc lt hwc hwt => ?_⟩
      have ic := isUnrot_of_params hc hwc
      have it := isUnrot_of_params ht hwt
      refine ⟨(unrot_placed hc).params hwc, (unrot_placed ht).params hwt, ?_, ic.code, it.code, Or.inr rfl, ic.log, it.log, ?_, ?_, ic.order.trans it.order.symm, ?_, ?_,
        fun h1 h2 => ⟨unrot_gridCode hc hwc h1 h2, unrot_gridCode ht hwt h1 h2⟩, Or.inr ⟨rfl, rfl, rfl, ic, it⟩⟩
      · unfold unrotEntries; rw [labelSites_snd, labelSites_snd]
      · rw [(distances_params hwc).1, (distances_params hwt).1, (unrot_distances hc).1, (unrot_distances ht).1]
      · rw [(distances_params hwc).2, (distances_params hwt).2, (unrot_distances hc).2, (unrot_distances ht).2]
      · intro h1 h2 h3
        obtain ⟨s, hs⟩ := unrot_logZ_data (a := ac) (dx := dx) (dz := dz) (q := "D" ++ Int.repr (0 + ac.initData)) h1 (by
          unfold logZList; exact List.mem_map.2 ⟨0, by rw [List.mem_range]; omega, by simp⟩)
        simp [h3] at hs
      · intro h1 h2 hT
        refine ⟨_, _, _, _, by rw [ic.logX]; simp [Dict.get?]; rfl, by rw [ic.logZ]; simp [Dict.get?]; rfl,
          by rw [it.logX]; simp [Dict.get?]; rfl, by rw [it.logZ]; simp [Dict.get?]; rfl, ?_, ?_⟩
        · exact twinSets_of hT (P := fun s => s.2 = 0) (logXList_nodup _ _ (by omega)) (logXList_nodup _ _ (by omega))
            (fun q hq => unrot_logX_data h2 hq) (fun q hq => unrot_logX_data h2 hq) (fun q s h => unrot_mem_logX h)
            fun q s h => unrot_mem_logX h
        · exact twinSets_of hT (P := fun s => s.1 = 0) (logZList_nodup _ _) (logZList_nodup _ _)
            (fun q hq => unrot_logZ_data h1 hq) (fun q hq => unrot_logZ_data h1 hq) (fun q s h => unrot_mem_logZ h1 h)
            fun q s h => unrot_mem_logZ h1 h

theorem made_distances {l0 l : Layout} {a : Args} (h : MadeBy code dx dz a l0) (hw : WithParams l0 l) :
    l.distanceX = dx ∧ l.distanceZ = dz := by
  rw [(distances_params hw).1, (distances_params hw).2]
  rcases h with ⟨-, h⟩ | ⟨-, h⟩
  · exact rot_distances h
  · exact unrot_distances h

theorem nearBy_of {lc lt : Layout} {Lc Lt : List (String × Site × Kind)} {dirs : List (Site × String)} {oc ot : Vec}
    (hc : Placed lc Lc dirs oc) (ht : Placed lt Lt dirs ot) (h : CoordsNear lc lt) : NearBy Lc Lt oc ot := by
  rintro ⟨q, s, k⟩ hq ⟨q', s', k'⟩ hq'
  exact h q q' _ _ _ _ (hc.getCoords_one hq) (ht.getCoords_one hq')

/-- What the call of `set_trans_cnot` gives. -/
theorem cnot_done {dx' dz' : Int} (hc : MadeBy code dx dz ac lc0) (ht : MadeBy code dx' dz' a_t lt0) {lc lt lc' lt' lc'' lt'' : Layout}
    (hwc : WithParams lc0 lc) (hwt : WithParams lt0 lt) (hn : CoordsNear lc lt) {mt : Matcher} {o : SetOrder}
    (e : setTransCnot code mt o (lc, lt) = (.ok (), (lc', lt')))
    (hkc : KeptGate ("trans-cnot_" ++ ac.label ++ "_" ++ a_t.label) lc' lc'')
    (hkt : KeptGate ("trans-cnot_" ++ ac.label ++ "_" ++ a_t.label) lt' lt'') :
    ∃ Lc Lt dirs oc ot, Pair code dx dz ac a_t lc'' lt'' Lc Lt dirs oc ot ∧ Twins lc'' lt'' Lc Lt dirs ∧
      CnotTable lc'' lt'' Lc Lt ("trans-cnot_" ++ ac.label ++ "_" ++ a_t.label) ∧
      WithParams lc lc' ∧ WithParams lt lt' ∧
      ∀ p q, p ≠ "trans-cnot_" ++ ac.label ++ "_" ++ a_t.label → lc'.param p q = lc.param p q ∧ lt'.param p q = lt.param p q := by
  obtain ⟨-, -, h3, h4, h5⟩ := setTransCnot_checks e
  rw [(made_distances hc hwc).1, (made_distances ht hwt).1] at h3
  rw [(made_distances hc hwc).2, (made_distances ht hwt).2] at h4
  subst h3 h4
  obtain ⟨Lc, Lt, dirs, oc, ot, hp⟩ := pair_of_made hc ht
  have hp0 := hp lc lt hwc hwt
  obtain ⟨k1, k2, k3, k4⟩ := setTransCnot_ok hp0.c hp0.t hp0.same (nearBy_of hp0.c hp0.t hn) hp0.logC hp0.logT e
  have hp' := hp lc'' lt'' (WithParams.trans hwc (WithParams.trans k1 hkc.1)) (WithParams.trans hwt (WithParams.trans k2 hkt.1))
  exact ⟨Lc, Lt, dirs, oc, ot, hp', ⟨hp'.c.grid, hp'.t.grid, hp'.same, overlap_labels hp0.c.grid hp0.t.grid h5⟩,
    k4.congr hkc.2 hkt.2, k1, k2, k3⟩

end SurfaceSim
