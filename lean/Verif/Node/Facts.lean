import Verif.Node.Calls

/-! # What elementary steps preserve -/

namespace Craft
open Spec

theorem RaftLog.append_committed {l l' : RaftLog} {es : List Entry} (h : l.append es = .ok l') :
    l'.committed = l.committed := by
  unfold RaftLog.append at h
  split at h
  · cases h; rfl
  · dsimp only at h
    split at h
    · cases h
    · obtain ⟨u, _, h⟩ := Res.bind_eq_ok.1 h
      cases h; rfl

theorem RaftLog.maybeAppend_committed {l l' : RaftLog} {i t c : Nat} {es : List Entry} {res : Option Nat}
    (h : l.maybeAppend i t c es = .ok (l', res)) : l.committed ≤ l'.committed := by
  unfold RaftLog.maybeAppend at h
  obtain ⟨m, _, h⟩ := Res.bind_eq_ok.1 h
  split at h
  · obtain ⟨ci, _, h⟩ := Res.bind_eq_ok.1 h
    dsimp only at h
    have fin : ∀ l1 : RaftLog, l.committed ≤ l1.committed →
        (do let l ← l1.commitTo (min c (i + es.length)); (pure (l, some (i + es.length)) : Res (RaftLog × Option Nat))) = .ok (l', res) →
        l.committed ≤ l'.committed := by
      intro l1 hl1 h
      obtain ⟨l2, h2, h⟩ := Res.bind_eq_ok.1 h
      cases h
      rw [commitTo_shape h2]
      show _ ≤ max _ _
      omega
    split at h
    · exact fin l (Nat.le_refl _) h
    split at h
    · cases h
    split at h
    · cases h
    · obtain ⟨l1, h1, h⟩ := Res.bind_eq_ok.1 h
      exact fin l1 (by rw [append_committed h1]; exact Nat.le_refl _) h
  · cases h; exact Nat.le_refl _

theorem RaftLog.stableTo_shape {l l' : RaftLog} {i t : Nat} (h : l.stableTo i t = .ok l') :
    l' = { l with unstable := l'.unstable } := by
  unfold RaftLog.stableTo at h
  obtain ⟨u, _, h⟩ := Res.bind_eq_ok.1 h
  cases h; rfl

namespace NStep
variable {env : Env} {im : Message} {c c' : Core} {ms : List Message}

theorem id_eq (h : NStep env im c ms c') : c'.id = c.id := by
  cases h with
  | core h => cases h <;> rfl
  | _ => rfl

theorem term_le (h : NStep env im c ms c') : c.term ≤ c'.term := by
  cases h with
  | core h =>
    cases h with
    | follower T P h => rcases h with rfl | ⟨h, _⟩ <;> dsimp only <;> omega
    | candidate => dsimp only; omega
    | _ => exact Nat.le_refl _
  | _ => exact Nat.le_refl _

theorem commit_le (h : NStep env im c ms c') : c.log.committed ≤ c'.log.committed := by
  cases h with
  | core h =>
    cases h with
    | append es l p pci _ h => dsimp only; rw [RaftLog.append_committed h]; exact Nat.le_refl _
    | commit l _ h => exact (RaftLog.maybeCommit_shape h).2
    | recvApp l last _ _ _ _ h => exact RaftLog.maybeAppend_committed h
    | recvHeartbeat l _ _ _ h => dsimp only; rw [RaftLog.commitTo_shape h]; show _ ≤ max _ _; omega
    | recvSnapCommit l _ _ _ _ _ h => dsimp only; rw [RaftLog.commitTo_shape h]; show _ ≤ max _ _; omega
    | recvSnap cfg P0 p mi _ _ _ h => exact Nat.le_of_lt h
    | _ => exact Nat.le_refl _
  | applied i l h => dsimp only; rw [(Raft.appliedTo_log h).1]; exact Nat.le_refl _
  | stable i t l h => dsimp only; rw [RaftLog.stableTo_shape h]; exact Nat.le_refl _
  | stableSnap => exact Nat.le_refl _
  | reduce => exact Nat.le_refl _
  | handed => exact Nat.le_refl _

theorem vote_keep (h : NStep env im c ms c') (ht : c'.term = c.term) (hv : c.vote ≠ 0) : c'.vote = c.vote := by
  cases h with
  | core h =>
    cases h with
    | follower T P h => dsimp only at ht ⊢; rw [if_pos ht]
    | candidate => dsimp only at ht; omega
    | grant _ _ _ h =>
      rcases h with h | h
      · exact h.symm
      · exact absurd h hv
    | _ => rfl
  | _ => rfl

end NStep

namespace NPath
variable {env : Env} {im : Message} {c c' : Core} {ms : List Message}

theorem id_eq (h : NPath env im c ms c') : c'.id = c.id := by
  induction h with
  | nil => rfl
  | cons h _ ih => exact ih.trans h.id_eq

theorem term_le (h : NPath env im c ms c') : c.term ≤ c'.term := by
  induction h with
  | nil => exact Nat.le_refl _
  | cons h _ ih => exact Nat.le_trans h.term_le ih

theorem commit_le (h : NPath env im c ms c') : c.log.committed ≤ c'.log.committed := by
  induction h with
  | nil => exact Nat.le_refl _
  | cons h _ ih => exact Nat.le_trans h.commit_le ih

theorem vote_keep (h : NPath env im c ms c') (ht : c'.term = c.term) (hv : c.vote ≠ 0) : c'.vote = c.vote := by
  induction h with
  | nil => rfl
  | cons h h' ih =>
    have h1 := h.term_le
    have h2 := h'.term_le
    have e := h.vote_keep (by omega) hv
    rw [← e]
    exact ih (by omega) (by rw [e]; exact hv)

/-- Only inputs that start an election, or carry a higher term, move the term. -/
theorem term_const (h : NPath env im c ms c') (hc : ¬ CampMsg im) (ht : im.term ≤ c.term) : c'.term = c.term := by
  induction h with
  | nil => rfl
  | cons h h' ih =>
    rename_i a b d m1 m2
    have e : b.term = a.term := by
      cases h with
      | core h =>
        cases h with
        | follower T P h => rcases h with rfl | ⟨h, h'⟩ <;> dsimp only; omega
        | candidate P hcm => exact absurd hcm hc
        | _ => rfl
      | _ => rfl
    rw [ih (by omega), e]

end NPath

/-! ## Messages are sent after the last change of the term -/

/-- The step from `r` to `r'` first changes the term (sending nothing) and then sends. -/
def Late (env : Env) (im : Message) (r r' : Raft) : Prop :=
  ∃ r1, r1.msgs = r.msgs ∧ r1.id = r.id ∧ r1.term = r'.term ∧ NSim env im r1 r'

namespace Late
variable {env : Env} {im : Message} {r r' : Raft}

theorem quiet (h : r'.msgs = r.msgs) (hi : r'.id = r.id) : Late env im r r' := ⟨r', h, hi, rfl, .refl⟩

theorem of_nsim (h : NSim env im r r') (ht : r'.term = r.term) : Late env im r r' := ⟨r, rfl, rfl, ht.symm, h⟩

theorem after {a : Raft} (hm : a.msgs = r.msgs) (hi : a.id = r.id) (h : Late env im a r') : Late env im r r' := by
  obtain ⟨r1, h1, h2, h3, h4⟩ := h
  exact ⟨r1, h1.trans hm, h2.trans hi, h3, h4⟩

end Late

namespace Raft
variable {env : Env} {im : Message}

theorem appendEntry_msgs {r r' : Raft} {es : List Entry} {b : Bool} (h : r.appendEntry es = .ok (r', b)) :
    r'.msgs = r.msgs ∧ r'.id = r.id := by
  unfold appendEntry at h
  dsimp only at h
  obtain ⟨hc, _, hm⟩ := increase_core r (stamp r.term (r.log.lastIndex + 1) es)
  generalize r.increaseUncommittedSize _ = y at h hc hm
  obtain ⟨r1, ok⟩ := y
  have hi : r1.id = r.id := congrArg Core.id hc
  dsimp only at h
  cases ok with
  | false =>
    simp only [Bool.false_eq_true, not_false_eq_true, if_true, Res.ok.injEq, Prod.mk.injEq] at h
    rw [← h.1]; exact ⟨hm, hi⟩
  | true =>
    simp only [not_true_eq_false, if_false] at h
    obtain ⟨l, hl, h⟩ := Res.bind_eq_ok.1 h
    obtain ⟨p, hp, h⟩ := Res.bind_eq_ok.1 h
    obtain ⟨⟨r2, b2⟩, hm2, h⟩ := Res.bind_eq_ok.1 h
    simp only [Res.pure_eq, Res.ok.injEq, Prod.mk.injEq] at h
    obtain ⟨rfl, -⟩ := h
    rw [(maybeCommit_ok hm2).1]
    exact ⟨hm, hi⟩

theorem becomeLeader_msgs {r r' : Raft} (h : r.becomeLeader env = .ok r') : r'.msgs = r.msgs ∧ r'.id = r.id := by
  unfold becomeLeader at h
  split at h
  · cases h
  dsimp only at h
  obtain ⟨p, hp, h⟩ := Res.bind_eq_ok.1 h
  obtain ⟨⟨r1, ok⟩, h1, h⟩ := Res.bind_eq_ok.1 h
  obtain ⟨hm, hi⟩ := appendEntry_msgs h1
  dsimp only at h
  split at h
  · cases h
  · cases h
    obtain ⟨hc, _, hm2⟩ := reduce_core r1 [{}]
    refine ⟨hm2.trans (hm.trans (reset_msgs (env := env) r _)), ?_⟩
    exact (congrArg Core.id hc).trans (hi.trans (reset_id (env := env) r _))

theorem campaignElection_late {r r' : Raft} {tr : Bool} (h : r.campaignElection env tr = .ok r') : Late env im r r' := by
  unfold campaignElection at h
  obtain ⟨r1, h1, h⟩ := Res.bind_eq_ok.1 h
  have c1 := becomeCandidate_state h1
  have hm1 : r1.msgs = r.msgs ∧ r1.id = r.id := by
    unfold becomeCandidate at h1
    split at h1
    · cases h1
    · cases h1
      exact ⟨reset_msgs (env := env) r _, reset_id (env := env) r _⟩
  dsimp only at h
  by_cases hw : (r1.poll r1.id true).2 = .won
  · rw [if_pos hw] at h
    obtain ⟨h1, h2⟩ := becomeLeader_msgs h
    exact .quiet (h1.trans hm1.1) (h2.trans hm1.2)
  · rw [if_neg hw] at h
    have q := sendVotes_qsim (env := env) (im := im) (r := (r1.poll r1.id true).1) _ (Or.inl ⟨rfl, c1, rfl⟩) h
    exact .after (a := (r1.poll r1.id true).1) hm1.1 hm1.2 (.of_nsim q.sim.nsim q.term)

theorem campaign_late {r r' : Raft} {t : CampaignType} (h : r.campaign env t = .ok r') : Late env im r r' := by
  cases t with
  | election => exact campaignElection_late h
  | transfer => exact campaignElection_late h
  | preElection =>
    unfold campaign at h
    obtain ⟨r1, h1, h⟩ := Res.bind_eq_ok.1 h
    have c1 := becomePreCandidate_state h1
    have hm1 : r1.msgs = r.msgs ∧ r1.id = r.id := by
      unfold becomePreCandidate at h1
      split at h1
      · cases h1
      · cases h1; exact ⟨rfl, rfl⟩
    dsimp only at h
    by_cases hw : (r1.poll r1.id true).2 = .won
    · rw [if_pos hw] at h
      exact .after (a := (r1.poll r1.id true).1) hm1.1 hm1.2 (campaignElection_late h)
    · rw [if_neg hw] at h
      have q := sendVotes_qsim (env := env) (im := im) (r := (r1.poll r1.id true).1) _ (Or.inr ⟨rfl, c1, rfl⟩) h
      exact .after (a := (r1.poll r1.id true).1) hm1.1 hm1.2 (.of_nsim q.sim.nsim q.term)

theorem hup_late {r r' : Raft} {t : CampaignType} (h : r.hup env t = .ok r') : Late env im r r' := by
  rcases hup_cases h with rfl | ⟨_, _, _, h⟩
  · exact .quiet rfl rfl
  · exact campaign_late h

theorem stepVote_shape {r r' : Raft} {m : Message} (h : r.stepVote m = .ok r') :
    ∃ ms, r' = { r with msgs := r.msgs ++ ms, vote := r'.vote, electionElapsed := r'.electionElapsed } := by
  unfold stepVote at h
  obtain ⟨up, _, h⟩ := Res.bind_eq_ok.1 h
  obtain ⟨_, _, h⟩ := Res.bind_eq_ok.1 h
  obtain ⟨rt, _, h⟩ := Res.bind_eq_ok.1 h
  split at h
  · obtain ⟨r1, h1, h⟩ := Res.bind_eq_ok.1 h
    rw [send_ok h1] at h
    split at h <;> cases h <;> exact ⟨_, rfl⟩
  · rw [send_ok h]; exact ⟨_, rfl⟩

theorem stepBody_late {r r' : Raft} {e : Option Err} (hg : GateOk im r.core) (hst : Stamped im)
    (h : r.stepBody env im = .ok (r', e)) : Late env im r r' := by
  have hs := (stepBody_sim hg hst h).nsim
  by_cases hv : im.type = .vote ∨ im.type = .preVote
  · refine .of_nsim hs ?_
    unfold stepBody at h
    have hh : ∀ r1, r.stepVote im = .ok r1 → r1.term = r.term := by
      intro r1 h1
      obtain ⟨ms, h2⟩ := stepVote_shape h1
      rw [h2]
    rcases hv with hv | hv <;>
    · simp only [hv] at h
      obtain ⟨r1, h1, h⟩ := Res.bind_eq_ok.1 h
      cases h
      exact hh _ h1
  by_cases hc : CampMsg im
  · unfold stepBody at h
    rcases hc with hc | hc | hc
    · simp only [hc] at h
      obtain ⟨r1, h1, h⟩ := Res.bind_eq_ok.1 h
      cases h
      exact hup_late h1
    · simp only [hc] at h
      unfold stepState at h
      cases hr : r.state with
      | leader =>
        simp only [hr] at h
        unfold stepLeader at h
        simp only [hc] at h
        split at h <;> cases h <;> exact .quiet rfl rfl
      | follower =>
        simp only [hr] at h
        unfold stepFollower at h
        simp only [hc] at h
        obtain ⟨r1, h1, h⟩ := Res.bind_eq_ok.1 h
        cases h
        exact hup_late h1
      | candidate => simp only [hr] at h; unfold stepCandidate at h; simp only [hc] at h; cases h; exact .quiet rfl rfl
      | preCandidate => simp only [hr] at h; unfold stepCandidate at h; simp only [hc] at h; cases h; exact .quiet rfl rfl
    · simp only [hc] at h
      unfold stepState at h
      have hcand : r.stepCandidate env im = .ok (r', e) → Late env im r r' := by
        intro h
        unfold stepCandidate at h
        simp only [hc] at h
        by_cases hpre : r.state = .preCandidate
        · rw [if_pos hpre] at h
          obtain ⟨r1, h1, h⟩ := Res.bind_eq_ok.1 h
          cases h
          unfold candidateVoteResp at h1
          dsimp only at h1
          split at h1
          · split at h1
            · exact .after (a := (r.poll im.src (!im.reject)).1) rfl rfl (campaignElection_late h1)
            · rename_i hn
              exact absurd hpre hn
          · cases h1
            exact .quiet (reset_msgs (env := env) _ _) (reset_id (env := env) _ _)
          · cases h1; exact .quiet rfl rfl
        · rw [if_neg hpre] at h
          cases h; exact .quiet rfl rfl
      cases hr : r.state with
      | leader =>
        simp only [hr] at h
        unfold stepLeader at h
        simp only [hc] at h
        split at h <;> cases h <;> exact .quiet rfl rfl
      | follower =>
        simp only [hr] at h
        unfold stepFollower at h
        simp only [hc] at h
        cases h; exact .quiet rfl rfl
      | candidate => simp only [hr] at h; exact hcand h
      | preCandidate => simp only [hr] at h; exact hcand h
  · refine .of_nsim hs ?_
    obtain ⟨_, ms, _, hp⟩ := hs
    refine hp.term_const hc ?_
    rcases hg with hg | hg | ⟨_, hg | ⟨hg, _⟩⟩
    · rw [hg]; exact Nat.zero_le _
    · rw [hg]; exact Nat.le_refl _
    · exact absurd (Or.inr hg) hv
    · exact absurd (Or.inr (Or.inr hg)) hc

theorem step_late {r r' : Raft} {e : Option Err} (hst : Stamped im) (h : r.step env im = .ok (r', e)) : Late env im r r' := by
  unfold step at h
  obtain ⟨g, hg, h⟩ := Res.bind_eq_ok.1 h
  rcases stepGate_cases hg with ⟨r1, rfl, hgo, h1⟩ | ⟨r1, rfl, hs⟩
  · dsimp only at h
    have s2 := stepBody_late (env := env) hgo hst h
    rcases h1 with rfl | ⟨hlt, lead, rfl⟩
    · exact s2
    · exact .after (reset_msgs (env := env) _ _) (reset_id (env := env) _ _) s2
  · cases h; exact .of_nsim hs.sim.nsim hs.term

theorem tick_late {r r' : Raft} (h : r.tick env = .ok r') : Late env { type := .beat } r r' := by
  have he : r.tickElection env = .ok r' → Late env { type := .beat } r r' := by
    intro h
    unfold tickElection at h
    dsimp only at h
    split at h
    · obtain ⟨⟨r1, e⟩, h1, h⟩ := Res.bind_eq_ok.1 h
      cases h
      rw [step_hup] at h1
      obtain ⟨r2, h2, h1⟩ := Res.bind_eq_ok.1 h1
      cases h1
      have := hup_late (im := { type := .beat }) h2
      exact .after (a := { r with electionElapsed := 0 }) rfl rfl this
    · cases h; exact .quiet rfl rfl
  unfold tick at h
  cases hs : r.state with
  | leader =>
    simp only [hs] at h
    unfold tickHeartbeat at h
    have s0 : Sim env { type := .beat } r { r with heartbeatElapsed := r.heartbeatElapsed + 1, electionElapsed := r.electionElapsed + 1 } :=
      .of_core rfl rfl rfl
    obtain ⟨r1, h1, h⟩ := Res.bind_eq_ok.1 h
    have s := (s0.trans (Sim.trans (tickHeartbeatTimeout_sim (by rintro (h | h | h) <;> cases h) hs h1) (tickHeartbeatBeat_sim h))).nsim
    refine .of_nsim s ?_
    obtain ⟨_, ms, _, hp⟩ := s
    exact hp.term_const (by simp [CampMsg]) (Nat.zero_le _)
  | _ => simp only [hs] at h; exact he h

end Raft
end Craft
