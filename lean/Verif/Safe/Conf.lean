import Verif.Safe.Node
import Verif.Props.NodeRestart

/-! # Restoring a configuration gives every peer an empty window -/

namespace Craft
open Spec

/-- Every window is like `R`. -/
def AllInfl (R : Inflights → Prop) (prs : ProgressMap) : Prop := ∀ k p, AMap.find prs k = some p → R p.inflights

/-- Every window is new. -/
def AllNew (mi : Int) (prs : ProgressMap) : Prop := AllInfl (fun f => f = Inflights.new mi) prs

namespace Changer
variable {c : Changer} {cfg cfg' : TConfig} {prs prs' : ProgressMap} {mi : Int} {R : Inflights → Prop}

theorem AllInfl.insert {id : Nat} {p : Progress} (h : AllInfl R prs) (hp : R p.inflights) : AllInfl R (AMap.insert prs id p) := by
  intro k q hq
  rw [AMap.find_insert] at hq
  split at hq
  · cases hq; exact hp
  · exact h k q hq

theorem AllInfl.erase {id : Nat} (h : AllInfl R prs) : AllInfl R (AMap.erase prs id) := by
  intro k q hq
  rw [AMap.find_erase] at hq
  split at hq
  · cases hq
  · exact h k q hq

theorem remove_infl {id : Nat} (h : AllInfl R prs) : AllInfl R (remove cfg prs id).2 := by
  unfold remove
  split
  · exact h
  · dsimp only
    split
    · exact h
    · exact AllInfl.erase h

section
variable (hR : R (Inflights.new c.tracker.maxInflight))
include hR

theorem initProgress_infl {id : Nat} {b : Bool} (h : AllInfl R prs) :
    AllInfl R (c.initProgress cfg prs id b).2 := AllInfl.insert h hR

theorem makeVoter_infl {id : Nat} (h : AllInfl R prs) : AllInfl R (c.makeVoter cfg prs id).2 := by
  unfold makeVoter
  split
  · exact initProgress_infl hR h
  · rename_i pr hp
    exact AllInfl.insert h (h id pr hp)

theorem makeLearner_infl {id : Nat} (h : AllInfl R prs) : AllInfl R (c.makeLearner cfg prs id).2 := by
  unfold makeLearner
  split
  · exact initProgress_infl hR h
  · rename_i pr hp
    split
    · exact h
    · have h1 : AllInfl R (AMap.insert (remove cfg prs id).2 id pr) := AllInfl.insert (remove_infl h) (h _ _ hp)
      dsimp only
      split
      · exact h1
      · exact AllInfl.insert h1 (h id pr hp)

theorem applyLoop_infl {ccs : List CCSingle} (h : AllInfl R prs) (hr : c.applyLoop cfg prs ccs = .ok (cfg', prs')) :
    AllInfl R prs' := by
  induction ccs generalizing cfg prs with
  | nil => cases hr; exact h
  | cons cc ccs ih =>
    unfold applyLoop at hr
    split at hr
    · exact ih h hr
    split at hr
    · exact ih (makeVoter_infl hR h) hr
    · exact ih (makeLearner_infl hR h) hr
    · exact ih (remove_infl h) hr
    · exact ih h hr
    · cases hr

theorem apply_infl {ccs : List CCSingle} (h : AllInfl R prs) (hr : c.apply cfg prs ccs = .ok (cfg', prs')) :
    AllInfl R prs' := by
  unfold apply at hr
  split at hr
  · cases hr
  · rename_i hl
    split at hr
    · cases hr
    · cases hr; exact applyLoop_infl hR h hl

end

theorem checkAndReturn_eq {x : TConfig × ProgressMap} (h : checkAndReturn cfg prs = .ok x) : x = (cfg, prs) := by
  unfold checkAndReturn at h
  split at h <;> cases h
  rfl

section
variable (hR : R (Inflights.new c.tracker.maxInflight))
include hR

theorem simple_infl {ccs : List CCSingle} (h : AllInfl R c.tracker.progress) (hr : c.simple ccs = .ok (cfg', prs')) :
    AllInfl R prs' := by
  unfold simple at hr
  split at hr
  · cases hr
  rename_i hc
  cases checkAndReturn_eq hc
  split at hr
  · cases hr
  split at hr
  · cases hr
  rename_i ha
  split at hr
  · cases hr
  cases checkAndReturn_eq hr
  exact apply_infl hR h ha

theorem enterJoint_infl {b : Bool} {ccs : List CCSingle} (h : AllInfl R c.tracker.progress)
    (hr : c.enterJoint b ccs = .ok (cfg', prs')) : AllInfl R prs' := by
  unfold enterJoint at hr
  split at hr
  · cases hr
  rename_i hc
  cases checkAndReturn_eq hc
  split at hr
  · cases hr
  split at hr
  · cases hr
  dsimp only at hr
  split at hr
  · cases hr
  rename_i ha
  cases checkAndReturn_eq hr
  exact apply_infl hR h ha

end

theorem leaveLearners_infl : ∀ (ids : List Nat) (ls : USet) (P : ProgressMap) {ls' P'},
    leaveLearners ids ls P = .ok (ls', P') → AllInfl R P → AllInfl R P'
  | [], _, _, _, _, h, hp => by cases h; exact hp
  | id :: ids, ls, P, ls', P', h, hp => by
    unfold leaveLearners at h
    split at h
    · cases h
    · rename_i pr he
      exact leaveLearners_infl ids _ _ h (AllInfl.insert hp (hp id pr he))

theorem leaveErase_infl (i l : USet) : ∀ (ids : List Nat) (P : ProgressMap), AllInfl R P → AllInfl R (leaveErase i l ids P)
  | [], _, h => h
  | id :: ids, P, h => by
    unfold leaveErase
    split
    · exact leaveErase_infl i l ids _ (AllInfl.erase h)
    · exact leaveErase_infl i l ids _ h

theorem leaveJoint_infl (h : AllInfl R c.tracker.progress) (hr : c.leaveJoint = .ok (cfg', prs')) : AllInfl R prs' := by
  unfold leaveJoint at hr
  split at hr
  · cases hr
  rename_i hc
  cases checkAndReturn_eq hc
  split at hr
  · cases hr
  split at hr
  · cases hr
  split at hr
  · cases hr
  rename_i hl
  cases checkAndReturn_eq hr
  exact leaveErase_infl _ _ _ _ (leaveLearners_infl _ _ _ hl h)

theorem chainSimple_new {ccs : List CCSingle} {c' : Changer} (h : AllNew c.tracker.maxInflight c.tracker.progress)
    (hr : c.chainSimple ccs = .ok c') : c'.tracker.maxInflight = c.tracker.maxInflight ∧ AllNew c.tracker.maxInflight c'.tracker.progress := by
  induction ccs generalizing c with
  | nil => cases hr; exact ⟨rfl, h⟩
  | cons cc ccs ih =>
    unfold chainSimple at hr
    split at hr
    · cases hr
    rename_i r hs
    have := simple_infl (c := c) (R := fun f => f = Inflights.new c.tracker.maxInflight) (cfg' := r.1) (prs' := r.2) rfl h hs
    exact ih (c := c.withResult r) this hr

theorem restore_new {cs : ConfState} {last : Nat} (hr : restore { tracker := { maxInflight := mi }, lastIndex := last } cs = .ok (cfg', prs')) :
    AllNew mi prs' := by
  have h0 : AllNew mi ([] : ProgressMap) := fun k p hp => nomatch hp
  unfold restore at hr
  dsimp only at hr
  split at hr
  · split at hr
    · cases hr
    rename_i hc
    cases hr
    exact (chainSimple_new h0 hc).2
  · split at hr
    · cases hr
    rename_i c' hc
    split at hr
    · cases hr
    rename_i r he
    cases hr
    obtain ⟨h1, h2⟩ := chainSimple_new h0 hc
    exact enterJoint_infl (c := c') (by rw [h1]) h2 he

end Changer

/-- A reported membership can be restored. -/
theorem confSafe (t : Tracker) (h : ConfInv t.config t.progress) (hz : ¬ Member t.config 0) (hv : t.config.voters.incoming ≠ [] ∨ t.config = {}) (id : Nat) :
    ConfSafe t.confState id := by
  intro mi last
  obtain ⟨prs, h1, h2⟩ := C14_restore_roundtrip t h hz hv mi last
  refine ⟨t.config, prs, h1, ?_, ?_, Changer.restore_new h1⟩
  · exact confStateEq_refl _
  · intro hm
    refine (h2.prs_exact id).2 ?_
    rcases hm with hm | hm | hm
    · exact Or.inl hm
    · exact Or.inr (Or.inr (Or.inl hm))
    · exact Or.inr (Or.inl hm)

end Craft
