import Verif.Dyn.Works
import Verif.Dyn.Up

/-! # A leader's record of itself

What a leader needs to be true of its own place in the configuration so that it does not abort: a candidate is a voter of its
configuration; the leader's own progress, if it has one, has reached the end of its log; and a leader with a conf change to come
(one in its log that it has not applied, or an automatic leave) is a voter. -/

namespace Craft.Dyn
open Spec

/-- `v` still has the progress `p`, up to the learner mark. -/
def Has (v : Nat) (p : Progress) (P : ProgressMap) : Prop := ∃ b, P.find v = some { p with isLearner := b }

/-- If `v` has a progress, it is `p`, up to the learner mark. -/
def Only (v : Nat) (p : Progress) (P : ProgressMap) : Prop := ∀ q, P.find v = some q → ∃ b, q = { p with isLearner := b }

theorem Has.only {v : Nat} {p : Progress} {P : ProgressMap} (h : Has v p P) : Only v p P := by
  intro q hq
  obtain ⟨b, h⟩ := h
  rw [h] at hq
  cases hq
  exact ⟨b, rfl⟩

theorem Has.of {v : Nat} {p : Progress} {P : ProgressMap} (h : P.find v = some p) : Has v p P := ⟨p.isLearner, h⟩

theorem Has.insert {v id : Nat} {p q : Progress} {P : ProgressMap} (h : Has v p P) (hq : id = v → ∃ b, q = { p with isLearner := b }) :
    Has v p (P.insert id q) := by
  unfold Has
  rw [AMap.find_insert]
  by_cases he : id = v
  · obtain ⟨b, hb⟩ := hq he
    rw [if_pos he]; exact ⟨b, by rw [hb]⟩
  · rw [if_neg he]; exact h

theorem Only.insert {v id : Nat} {p q : Progress} {P : ProgressMap} (h : Only v p P) (hq : id = v → ∃ b, q = { p with isLearner := b }) :
    Only v p (P.insert id q) := by
  intro x hx
  rw [AMap.find_insert] at hx
  by_cases he : id = v
  · rw [if_pos he] at hx; cases hx; exact hq he
  · rw [if_neg he] at hx; exact h x hx

theorem Only.erase {v id : Nat} {p : Progress} {P : ProgressMap} (h : Only v p P) : Only v p (P.erase id) := by
  intro x hx
  rw [AMap.find_erase] at hx
  split at hx
  · cases hx
  · exact h x hx

theorem out_mem {v : Nat} {a b : USet} (h : a = b) (hv : v ∈ b) : v ∈ a := h ▸ hv

section
variable {c : Changer} {cfg cfg' : TConfig} {P P' : ProgressMap} {v id : Nat} {p : Progress}

theorem remove_has (ho : v ∈ cfg.voters.outgoing) (h : Has v p P) : Has v p (Changer.remove cfg P id).2 := by
  unfold Changer.remove
  split
  · exact h
  · dsimp only
    split
    · exact h
    · rename_i hn
      unfold Has
      rw [AMap.find_erase]
      split
      · rename_i he; subst he
        exact absurd ((USet.has_iff _ _).2 ho) hn
      · exact h

theorem remove_only (h : Only v p P) : Only v p (Changer.remove cfg P id).2 := by
  unfold Changer.remove
  split
  · exact h
  · dsimp only
    split
    · exact h
    · exact h.erase

theorem remove_out : (Changer.remove cfg P id).1.voters.outgoing = cfg.voters.outgoing := by
  unfold Changer.remove
  split <;> rfl

theorem makeVoter_has (h : Has v p P) : Has v p (c.makeVoter cfg P id).2 := by
  unfold Changer.makeVoter
  split
  · rename_i hn
    refine h.insert fun he => ?_
    subst he
    obtain ⟨b, h⟩ := h
    rw [hn] at h; cases h
  · rename_i q hq
    refine h.insert fun he => ?_
    subst he
    obtain ⟨b, h⟩ := h
    rw [hq] at h; cases h
    exact ⟨false, rfl⟩

theorem makeVoter_out : (c.makeVoter cfg P id).1.voters.outgoing = cfg.voters.outgoing := by
  unfold Changer.makeVoter Changer.initProgress
  split
  · dsimp only; split <;> rfl
  · rfl

theorem makeLearner_has (h : Has v p P) : Has v p (c.makeLearner cfg P id).2 := by
  unfold Changer.makeLearner
  split
  · rename_i hn
    refine h.insert fun he => ?_
    subst he
    obtain ⟨b, h⟩ := h
    rw [hn] at h; cases h
  · rename_i q hq
    split
    · exact h
    · have key : id = v → ∃ b, q = { p with isLearner := b } := by
        intro he
        subst he
        obtain ⟨b, h⟩ := h
        rw [hq] at h; cases h
        exact ⟨b, rfl⟩
      have h1 : Has v p (AMap.insert (Changer.remove cfg P id).2 id q) := by
        by_cases he : id = v
        · obtain ⟨b, hb⟩ := key he
          exact ⟨b, by rw [AMap.find_insert, if_pos he, hb]⟩
        · refine Has.insert ?_ fun h => absurd h he
          unfold Changer.remove
          rw [hq]
          dsimp only
          split
          · exact h
          · unfold Has; rw [AMap.find_erase, if_neg he]; exact h
      dsimp only
      split
      · exact h1
      · refine h1.insert fun he => ?_
        obtain ⟨b, hb⟩ := key he
        exact ⟨true, by rw [hb]⟩

theorem makeLearner_out : (c.makeLearner cfg P id).1.voters.outgoing = cfg.voters.outgoing := by
  unfold Changer.makeLearner Changer.initProgress
  split
  · dsimp only; split <;> rfl
  · split
    · rfl
    · dsimp only
      split <;> exact remove_out

/-- While the configuration is joint, outgoing voters keep their progress. -/
theorem applyLoop_has : ∀ (ccs : List CCSingle) (cfg : TConfig) (P : ProgressMap) {cfg' P'}, c.applyLoop cfg P ccs = .ok (cfg', P') →
    v ∈ cfg.voters.outgoing → Has v p P → Has v p P'
  | [], cfg, P, cfg', P', h, _, hp => by cases h; exact hp
  | cc :: ccs, cfg, P, cfg', P', h, ho, hp => by
    unfold Changer.applyLoop at h
    by_cases h0 : cc.nodeId = 0
    · rw [if_pos h0] at h; exact applyLoop_has ccs _ _ h ho hp
    · rw [if_neg h0] at h
      cases ht : cc.type with
      | addNode => rw [ht] at h; exact applyLoop_has ccs _ _ h (out_mem makeVoter_out ho) (makeVoter_has hp)
      | addLearnerNode => rw [ht] at h; exact applyLoop_has ccs _ _ h (out_mem makeLearner_out ho) (makeLearner_has hp)
      | removeNode => rw [ht] at h; exact applyLoop_has ccs _ _ h (out_mem remove_out ho) (remove_has ho hp)
      | updateNode => rw [ht] at h; exact applyLoop_has ccs _ _ h ho hp
      | unknown n => rw [ht] at h; cases h

theorem applyLoop_out : ∀ (ccs : List CCSingle) (cfg : TConfig) (P : ProgressMap) {cfg' P'}, c.applyLoop cfg P ccs = .ok (cfg', P') →
    cfg'.voters.outgoing = cfg.voters.outgoing
  | [], cfg, P, cfg', P', h => by cases h; rfl
  | cc :: ccs, cfg, P, cfg', P', h => by
    unfold Changer.applyLoop at h
    by_cases h0 : cc.nodeId = 0
    · rw [if_pos h0] at h; exact applyLoop_out ccs _ _ h
    · rw [if_neg h0] at h
      cases ht : cc.type with
      | addNode => rw [ht] at h; exact (applyLoop_out ccs _ _ h).trans makeVoter_out
      | addLearnerNode => rw [ht] at h; exact (applyLoop_out ccs _ _ h).trans makeLearner_out
      | removeNode => rw [ht] at h; exact (applyLoop_out ccs _ _ h).trans remove_out
      | updateNode => rw [ht] at h; exact applyLoop_out ccs _ _ h
      | unknown n => rw [ht] at h; cases h

/-- A single change does not replace a progress. -/
theorem applyLoop_one {ccs : List CCSingle} (hl : ccs.length ≤ 1) (h : c.applyLoop cfg P ccs = .ok (cfg', P')) (hp : Has v p P) : Only v p P' := by
  cases ccs with
  | nil => cases h; exact hp.only
  | cons cc ccs =>
    have : ccs = [] := List.eq_nil_of_length_eq_zero (by rw [List.length_cons] at hl; omega)
    subst this
    unfold Changer.applyLoop at h
    by_cases h0 : cc.nodeId = 0
    · rw [if_pos h0] at h; cases h; exact hp.only
    · rw [if_neg h0] at h
      cases ht : cc.type with
      | addNode => rw [ht] at h; cases h; exact (makeVoter_has hp).only
      | addLearnerNode => rw [ht] at h; cases h; exact (makeLearner_has hp).only
      | removeNode => rw [ht] at h; cases h; exact remove_only hp.only
      | updateNode => rw [ht] at h; cases h; exact hp.only
      | unknown n => rw [ht] at h; cases h

theorem leaveLearners_only : ∀ (ids : List Nat) (ls : USet) (P : ProgressMap) {ls' P'},
    Changer.leaveLearners ids ls P = .ok (ls', P') → Only v p P → Only v p P'
  | [], ls, P, ls', P', h, hp => by cases h; exact hp
  | id :: ids, ls, P, ls', P', h, hp => by
    unfold Changer.leaveLearners at h
    cases hf : P.find id with
    | none => rw [hf] at h; cases h
    | some q =>
      rw [hf] at h
      refine leaveLearners_only ids _ _ h (hp.insert fun he => ?_)
      subst he
      obtain ⟨b, hb⟩ := hp q hf
      exact ⟨true, by rw [hb]⟩

theorem leaveErase_only (i l : USet) : ∀ (ids : List Nat) (P : ProgressMap), Only v p P → Only v p (Changer.leaveErase i l ids P)
  | [], P, h => h
  | id :: ids, P, h => by
    unfold Changer.leaveErase
    split
    · exact leaveErase_only i l ids _ h.erase
    · exact leaveErase_only i l ids _ h

/-- A voter's progress survives a change (or is dropped), and so does everybody's if the configuration is not joint afterwards. -/
theorem change_only {cc : ConfChangeV2} (h : change c cc = .ok (cfg', P')) (hf : c.tracker.progress.find v = some p)
    (hv : v ∈ c.tracker.config.voters.incoming ∨ cfg'.voters.outgoing = []) : Only v p P' := by
  unfold change at h
  split at h
  · unfold Changer.leaveJoint at h
    split at h
    · cases h
    · rename_i cfg prs hcc
      obtain ⟨rfl, rfl⟩ := Changer.checkAndReturn_ok hcc
      split at h
      · cases h
      · split at h
        · cases h
        · split at h
          · cases h
          · rename_i ls P hl
            obtain ⟨_, rfl⟩ := Changer.checkAndReturn_ok h
            exact leaveErase_only _ _ _ _ (leaveLearners_only _ _ _ hl (Has.of hf).only)
  · split at h
    · obtain ⟨_, hne, cfg1, h1, _, h2⟩ := Changer.enterJoint_ok h
      rcases hv with hv | hv
      · exact (applyLoop_has _ _ _ h1 hv (Has.of hf)).only
      · exfalso
        have h3 := applyLoop_out _ _ _ h1
        rw [h2] at hv
        exact hne (h3.symm.trans hv)
    · rename_i hj
      exact applyLoop_one (enter_false (by simpa using hj)).2 (Changer.simple_ok h).2.1 (Has.of hf)

end
end Craft.Dyn
