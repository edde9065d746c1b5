/-
Concrete noise models for generated layouts, used in examples.
-/
import Verif.Props.NoiseModels
import Verif.Spec.Round

namespace SurfaceSim
open Spec NoiseModel

/-- The noiseless model with the indices of a layout. -/
def noiselessFor (l : Layout) : NoiseModel := noiseless (l.qubitInds.map fun kv => (kv.1, kv.2.toNat))

instance (inds : Dict String Nat) : Decidable (IndsInj inds) := by unfold IndsInj; infer_instance

/-- The labels of a layout are known to `noiselessFor`, with distinct indices. -/
def indsFine (l : Layout) : Bool :=
  match l.getQubits [] with
  | .ok qs => decide (IndsInj (noiselessFor l).inds) && qs.all fun q => decide (q ∈ (noiselessFor l).inds.keys)
  | .error _ => false

theorem canRun_noiseless {l : Layout} (h : indsFine l = true) : CanRun (noiselessFor l) l := by
  unfold indsFine at h
  split at h
  · rename_i qs hq
    simp only [Bool.and_eq_true, decide_eq_true_eq, List.all_eq_true] at h
    exact ⟨(Props.C34_noiseless _).toFaithful, h.1, fun qs' hq' q hqq => by
      rw [hq] at hq'; cases hq'; exact h.2 q hqq⟩
  · simp at h

deriving instance Inhabited for Graph
deriving instance Inhabited for Layout

/-- The layout returned by a constructor. -/
def layoutOf : Except Err Layout → Layout
  | .ok l => l
  | .error _ => default

/-- Whether a call returns. -/
def returns : Except Err Layout → Bool
  | .ok _ => true
  | .error _ => false

theorem ok_layoutOf {e : Except Err Layout} (h : returns e = true) : e = .ok (layoutOf e) := by
  cases e with
  | ok l => rfl
  | error e => simp [returns] at h

/-- A circuit returned by a call, empty if it raises. -/
def result (b : PyM MeasState Circuit) (s : MeasState) : Circuit :=
  match (b s).1 with
  | .ok c => c
  | .error _ => []

/-- The outcomes of a block started with the empty record agree with `RoundMeasures` for the given frame. -/
def recsAgree (nm : NoiseModel) (l : Layout) (b : PyM MeasState Circuit) (isX : String → String → Bool)
    (reset : Bool) (ρ : Nat → ZMod 2) (st : FState Nat) : Bool :=
  match l.getQubits [("role", .str "anc")] with
  | .ok anc => decide ((run ρ st (ops (result b (MeasState.fresh nm.inds)))).recs =
      (anc.map (ancOutcome (ind nm.inds) reset st (fun x => l.getNeighbors [x] none) isX)).reverse ++ st.recs)
  | .error _ => false

theorem recsAgree_of {nm : NoiseModel} {l : Layout} {b : PyM MeasState Circuit} {isX : String → String → Bool}
    {reset : Bool} (h : RoundMeasures nm l b isX reset) (ρ : Nat → ZMod 2) (st : FState Nat) :
    recsAgree nm l b isX reset ρ st = true := by
  obtain ⟨data, anc, -, ha, h⟩ := h
  obtain ⟨c, s', hb, -, -, -, h⟩ := h _ _ (MeasState.tracks_fresh nm.inds)
  unfold recsAgree
  rw [ha]
  simp only [decide_eq_true_eq]
  have : result b (MeasState.fresh nm.inds) = c := by simp [result, hb]
  rw [this]
  exact (h ρ st).recs

end SurfaceSim
