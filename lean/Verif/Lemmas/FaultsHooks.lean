/-
The orders of the gates: a fault inside a round changes at most one row or column.
-/
import Verif.Lemmas.FaultsRows

namespace SurfaceSim
open Spec NoiseModel Blocks LayoutLib

variable {a : Args} {dx dz : Int} {l : Layout} {L : List (String × Site × Kind)} {dirs : List (Site × String)}

/-- The ancillas whose faults spread to the lines of this basis. -/
def spreads (rb : Bool) (k : Kind) : Bool := xor rb (decide (k = .x))

/-- The gates of one type of ancilla in one direction. -/
def oneSh (k0 : Kind) (σ : Site) : Kind → List Site := fun k => if k = k0 then [σ] else []

theorem single_cz (hg : OnGrid l L dirs) {ξ ζ : Site} {dx dz : String} (hx : (ξ, dx) ∈ dirs) (hz : (ζ, dz) ∈ dirs) :
    Single L (czPairs l L dx dz) (czSh ξ ζ) :=
  ⟨layer_cz hg hx hz, fun k => by cases k <;> simp [czSh]⟩

theorem single_x (hg : OnGrid l L dirs) {σ : Site} {d : String} (h : (σ, d) ∈ dirs) :
    Single L (l.getNeighborPairs (xOf L) (some d)) (oneSh .x σ) := by
  have := Layer.ofDir hg (p := fun k => k = .x) (by simp) h
  refine ⟨this.congr (by intro k _; simp [oneSh]) (by intro k; cases k <;> simp [oneSh]), ?_⟩
  intro k; cases k <;> simp [oneSh]

theorem single_z (hg : OnGrid l L dirs) {σ : Site} {d : String} (h : (σ, d) ∈ dirs) :
    Single L (l.getNeighborPairs (zOf L) (some d)) (oneSh .z σ) := by
  have := Layer.ofDir hg (p := fun k => k = .z) (by simp) h
  refine ⟨this.congr (by intro k _; simp [oneSh]) (by intro k; cases k <;> simp [oneSh]), ?_⟩
  intro k; cases k <;> simp [oneSh]

/-- The order of the rotated code: both gates of a row (X ancillas) or of a column (Z ancillas) follow each other. -/
def rotSteps : List (Kind → List Site) :=
  [czSh (1, 1) (1, 1), czSh (1, -1) (-1, 1), czSh (-1, 1) (1, -1), czSh (-1, -1) (-1, -1)]

/-- The same order, first for the X ancillas and then for the Z ancillas. -/
def rotStepsPipe : List (Kind → List Site) :=
  [oneSh .x (1, 1), oneSh .x (1, -1), oneSh .x (-1, 1), oneSh .x (-1, -1),
   oneSh .z (1, 1), oneSh .z (-1, 1), oneSh .z (1, -1), oneSh .z (-1, -1)]

/-- The order of the unrotated code. -/
def unrotSteps : List (Kind → List Site) :=
  [czSh (0, 1) (0, 1), czSh (-1, 0) (1, 0), czSh (1, 0) (-1, 0), czSh (0, -1) (0, -1)]

theorem atMostOne_of {J : Type} {p p' : J → Prop} (h : AtMostOne p') (hs : ∀ j, p j → p' j) : AtMostOne p := h.mono hs

theorem atMostOne_rot (rb : Bool) (n : Nat) (s : Site) : AtMostOne fun j : Fin n => rotLine rb j s :=
  fun i j hi hj => Fin.ext (rotLine_one rb s i j hi hj)

theorem atMostOne_unrot (rb : Bool) (n : Nat) (s : Site) : AtMostOne fun j : Fin n => unrotLine rb j s :=
  fun i j hi hj => Fin.ext (unrotLine_one rb s i j hi hj)

set_option maxHeartbeats 4000000 in
theorem rot_hooks (rb : Bool) (n : Nat) : SiteHooks (fun s k => RotSite dx dz s.1 s.2 k) (spreads rb)
    (fun j : Fin n => rotLine rb j) rotSteps := by
  refine ⟨?_, ?_, ?_, ?_, trivial⟩
  all_goals
    rintro ⟨r, c⟩ k hv hk ⟨r1, c1⟩ hσ hd
    refine (atMostOne_rot rb n ((r, c) + (r1, c1))).mono fun j hj => ?_
    rcases hj with hj | hj
    swap
    · exact hj
    cases k <;> cases rb <;>
      simp [czSh, siteW, spreads, rotLine, RotSite] at hk hσ hv hd hj ⊢ <;> obtain ⟨rfl, rfl⟩ := hσ <;>
      (try split_ifs at hj) <;> first | omega | (exfalso; revert hj; decide)

set_option maxHeartbeats 4000000 in
theorem rot_hooks_pipe (rb : Bool) (n : Nat) : SiteHooks (fun s k => RotSite dx dz s.1 s.2 k) (spreads rb)
    (fun j : Fin n => rotLine rb j) rotStepsPipe := by
  refine ⟨?_, ?_, ?_, ?_, ?_, ?_, ?_, ?_, trivial⟩
  all_goals
    rintro ⟨r, c⟩ k hv hk ⟨r1, c1⟩ hσ hd
    refine (atMostOne_rot rb n ((r, c) + (r1, c1))).mono fun j hj => ?_
    rcases hj with hj | hj
    swap
    · exact hj
    cases k <;> cases rb <;>
      simp [oneSh, siteW, spreads, rotLine, RotSite] at hk hσ hv hd hj ⊢ <;> obtain ⟨rfl, rfl⟩ := hσ <;>
      (try split_ifs at hj) <;> first | omega | (exfalso; revert hj; decide)

set_option maxHeartbeats 4000000 in
theorem unrot_hooks (rb : Bool) (n : Nat) : SiteHooks (fun s k => UnrotSite dx dz s.1 s.2 k) (spreads rb)
    (fun j : Fin n => unrotLine rb j) unrotSteps := by
  refine ⟨?_, ?_, ?_, ?_, trivial⟩
  all_goals
    rintro ⟨r, c⟩ k hv hk ⟨r1, c1⟩ hσ hd
    cases hs : spreads rb k
    · refine (atMostOne_unrot rb n ((r, c) + (r1, c1))).mono fun j hj => ?_
      rcases hj with hj | hj
      · simp [siteW, hs] at hj
      · exact hj
    · refine (atMostOne_unrot rb n (r, c)).mono fun j hj => ?_
      cases k <;> cases rb <;>
        simp [czSh, siteW, spreads, unrotLine, UnrotSite] at hk hs hσ hv hd hj ⊢ <;> obtain ⟨rfl, rfl⟩ := hσ <;>
        (try rcases hj with hj | hj) <;> (try split_ifs at hj) <;> first | omega | (exfalso; revert hj; decide)

set_option maxHeartbeats 4000000 in
theorem rot_zero (rb : Bool) (s : Site) (k : Kind) (hv : RotSite dx dz s.1 s.2 k) (hk : k ≠ .data) (j : Nat) :
    siteW (fun s k => RotSite dx dz s.1 s.2 k) (spreads rb) (rotLine rb j) rotSteps s k = 0 := by
  obtain ⟨r, c⟩ := s
  cases k <;> cases rb <;>
    simp [rotSteps, czSh, siteW, spreads, rotLine, RotSite] at hk hv ⊢ <;>
    split_ifs <;> first | decide | (exfalso; omega)

set_option maxHeartbeats 4000000 in
theorem rot_zero_pipe (rb : Bool) (s : Site) (k : Kind) (hv : RotSite dx dz s.1 s.2 k) (hk : k ≠ .data) (j : Nat) :
    siteW (fun s k => RotSite dx dz s.1 s.2 k) (spreads rb) (rotLine rb j) rotStepsPipe s k = 0 := by
  obtain ⟨r, c⟩ := s
  cases k <;> cases rb <;>
    simp [rotStepsPipe, oneSh, siteW, spreads, rotLine, RotSite] at hk hv ⊢ <;>
    split_ifs <;> first | decide | (exfalso; omega)

set_option maxHeartbeats 4000000 in
theorem unrot_zero (rb : Bool) (s : Site) (k : Kind) (hv : UnrotSite dx dz s.1 s.2 k) (hk : k ≠ .data) (j : Nat) :
    siteW (fun s k => UnrotSite dx dz s.1 s.2 k) (spreads rb) (unrotLine rb j) unrotSteps s k = 0 := by
  obtain ⟨r, c⟩ := s
  cases k <;> cases rb <;>
    simp [unrotSteps, czSh, siteW, spreads, unrotLine, UnrotSite] at hk hv ⊢ <;>
    split_ifs <;> first | decide | (exfalso; omega)

end SurfaceSim
