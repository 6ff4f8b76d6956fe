import Verif.Node.Plain
import Verif.Node.Facts
import Verif.Node.Append

/-! # Becoming leader: the only voter commits at once -/

namespace Craft
open Spec

theorem single_committed (v : Nat) (acked : Nat → Option Nat) {i : Nat} (h : acked v = some i) (hi : i ≤ u64Max) :
    ({ incoming := [v], outgoing := [] } : JointConfig).committedIndex acked = i := by
  unfold JointConfig.committedIndex Majority.committedIndex
  simp [Majority.fill, h, insertionSort, insertionSortLoop, sinkRev]
  omega

/-- A leader that is the only voter has committed something of its term. -/
def Settled (c : Core) : Prop :=
  c.state = .leader → c.config.voters = { incoming := [c.id], outgoing := [] } → c.log.lastIndex ≤ u64Max → InTerm c

/-- Without an election, a leader has been leading, with the same configuration. -/
theorem CPath.stay {env : Env} {im : Message} {c c' : Core} {ms : List Message} (h : CPath env im c ms c') (hc : c.state ≠ .candidate)
    (ht : c'.term = c.term) (hl : c'.state = .leader) : c.state = .leader ∧ c'.config = c.config := by
  induction h with
  | nil => exact ⟨hl, rfl⟩
  | @cons c b c' ms ms' hs hp ih =>
    have t1 := (NStep.core hs).term_le
    have t2 := hp.npath.term_le
    cases hs with
    | candidate P h1 h2 hP => dsimp only at *; omega
    | follower T P hT hP => exact absurd (ih nofun (by dsimp only at *; omega) hl).1 nofun
    | preCandidate h1 h2 => exact absurd (ih nofun (by dsimp only at *; omega) hl).1 nofun
    | leader P k1 k2 hP => exact absurd k1 hc
    | recvSnap cfg P0 p mi k1 =>
      have := (ih hc (by first | (dsimp only at *; omega) | omega) hl).1
      rw [show c.state = _ from this] at k1; cases k1
    | _ => exact ih hc (by first | (dsimp only at *; omega) | omega) hl

/-- What a call does to the leadership: it is the same leadership, or a new one, and then the only voter has committed. -/
def Elected (r r' : Raft) : Prop :=
  r'.state = .leader → (r.state = .leader ∧ r'.term = r.term ∧ r'.trk.config = r.trk.config) ∨ Settled r'.core

namespace Elected
variable {env : Env} {im : Message} {r r' : Raft}

theorem of_core (h : r'.core = { r.core with progress := r'.trk.progress, votes := r'.trk.votes, vote := r'.vote, pci := r'.pendingConfIndex, reads := r'.reads, log := r'.log }) :
    Elected r r' := by
  have h1 : r'.state = r.state := congrArg Core.state h
  have h2 : r'.term = r.term := congrArg Core.term h
  have h3 : r'.trk.config = r.trk.config := congrArg Core.config h
  exact fun hl => Or.inl ⟨h1 ▸ hl, h2, h3⟩

theorem not_leader (h : r'.state ≠ .leader) : Elected r r' := fun hl => absurd hl h

theorem qsim (h : QSim env im r r') : Elected r r' := fun hl => Or.inl ⟨h.state ▸ hl, h.term, h.config⟩

theorem sim (h : Sim env im r r') (hc : ¬ CampMsg im) (ht : im.term ≤ r.term) (hs : r.state ≠ .candidate) : Elected r r' := by
  obtain ⟨_, ms, _, hp⟩ := h
  have e : r'.term = r.term := hp.npath.term_const hc ht
  intro hl
  obtain ⟨h1, h2⟩ := hp.stay hs e hl
  exact Or.inl ⟨h1, e, h2⟩

/-- The first part made no leader. -/
theorem after {a : Raft} (h : Elected a r') (ha : a.state ≠ .leader) : Elected r r' := fun hl =>
  (h hl).elim (fun h => absurd h.1 ha) Or.inr

theorem leader {r1 : Raft} (h : Settled r1.core) (hq : QSim env im r1 r') : Elected r r' := by
  intro _
  refine Or.inr fun h1 h2 h3 => ?_
  have hl : r'.log = r1.log := hq.log
  have ht : r'.term = r1.term := hq.term
  have hst : r'.state = r1.state := hq.state
  have := h (hst.symm.trans h1) (by have := h2; rw [show r'.core.config = _ from hq.config, show r'.core.id = _ from hq.id] at this; exact this)
    (by show r1.log.lastIndex ≤ _; rw [← hl]; exact h3)
  unfold InTerm at this ⊢
  rw [show r'.core.log = _ from hl, show r'.core.term = _ from ht]
  exact this

end Elected

namespace Raft
variable {env : Env} {im : Message}

theorem appendEntry_single {r r' : Raft} {e : Entry} (hw : r.log.WF) (hcl : r.log.committed ≤ r.log.view.last)
    (hv : r.trk.config.voters = { incoming := [r.id], outgoing := [] }) (hp : ∀ p, r.pr r.id = some p → p.mtch ≤ r.log.lastIndex)
    (h : r.appendEntry [e] = .ok (r', true)) (hu : r'.log.lastIndex ≤ u64Max) : InTerm r'.core := by
  unfold appendEntry at h
  dsimp only at h
  obtain ⟨hc, _, _⟩ := increase_core r (stamp r.term (r.log.lastIndex + 1) [e])
  generalize r.increaseUncommittedSize _ = y at h hc
  obtain ⟨r1, ok⟩ := y
  have hi : r1.id = r.id := congrArg Core.id hc
  have hlog : r1.log = r.log := congrArg Core.log hc
  have hterm : r1.term = r.term := congrArg Core.term hc
  have hprs : r1.trk.progress = r.trk.progress := congrArg Core.progress hc
  have hcfg : r1.trk.config = r.trk.config := congrArg Core.config hc
  dsimp only at h
  cases ok with
  | false => simp at h
  | true =>
    simp only [not_true_eq_false, if_false] at h
    obtain ⟨l, hl, h⟩ := Res.bind_eq_ok.1 h
    obtain ⟨p, hp1, h⟩ := Res.bind_eq_ok.1 h
    obtain ⟨⟨r2, b2⟩, hm2, h⟩ := Res.bind_eq_ok.1 h
    simp only [Res.pure_eq, Res.ok.injEq, Prod.mk.injEq] at h
    obtain ⟨rfl, -⟩ := h
    rw [hlog] at hl
    obtain ⟨lw, lv⟩ := append_view hw _ hl
    have hlast : l.lastIndex = r.log.lastIndex + 1 := by
      rw [lw.lastIndex_eq, lv, hw.lastIndex_eq]
      unfold LogView.push LogView.last
      simp [stamp]
      omega
    have hpm := hp p (by
      have := getPr_ok hp1
      unfold pr at this ⊢
      dsimp only at this
      rw [hprs, hi] at this
      exact this)
    obtain ⟨e1, e2⟩ := maybeCommit_ok hm2
    have hcom : l.committed = r.log.committed := RaftLog.append_committed hl
    have hup : (p.maybeUpdate l.lastIndex).1.mtch = l.lastIndex := by
      unfold Progress.maybeUpdate
      rw [if_pos (by omega)]
    generalize hr3 : ({ r1 with log := l } : Raft).setPr r1.id (p.maybeUpdate l.lastIndex).1 = r3 at *
    have h3l : r3.log = l := by rw [← hr3]; rfl
    have h3t : r3.term = r.term := by rw [← hr3]; exact hterm
    rw [h3l, h3t] at e2
    have hll : r2.log.lastIndex = l.lastIndex := by
      rw [(RaftLog.maybeCommit_shape e2).1]; rfl
    rw [hll] at hu
    have hq : r3.core.quorumIndex = l.lastIndex := by
      show r3.trk.committed = _
      unfold Tracker.committed
      have hv3 : r3.trk.config.voters = { incoming := [r.id], outgoing := [] } := by rw [← hr3]; show r1.trk.config.voters = _; rw [hcfg, hv]
      rw [hv3]
      refine single_committed _ _ ?_ hu
      rw [← hr3]
      show (AMap.find (AMap.insert r1.trk.progress r1.id (p.maybeUpdate l.lastIndex).1) r.id).map (·.mtch) = _
      rw [AMap.find_insert, if_pos hi, Option.map_some, hup]
    rw [hq, lw.maybeCommit_eq] at e2
    have htm : l.view.termAt l.lastIndex = r.term := by
      rw [hlast, lv, hw.lastIndex_eq]
      unfold LogView.push LogView.termAt LogView.entry LogView.last
      dsimp only
      rw [if_neg (by omega), if_neg (by omega)]
      rw [show r.log.view.base + r.log.view.ents.length + 1 - r.log.view.base - 1 = r.log.view.ents.length by omega,
        List.getElem?_append_right (Nat.le_refl _), Nat.sub_self]
      rfl
    rw [if_pos ⟨by rw [hcom, hlast, hw.lastIndex_eq]; omega, htm⟩] at e2
    rw [if_neg (by rw [lw.lastIndex_eq]; omega)] at e2
    simp only [Res.ok.injEq, Prod.mk.injEq] at e2
    refine ⟨.ok r2.term, ?_, rfl⟩
    show r2.log.term r2.log.committed = _
    have hrt : r2.term = r.term := by rw [e1]; exact h3t
    rw [← e2.1, (lw.with_committed _).term_eq, hrt]
    show Res.ok (Except.ok (l.view.termAt l.lastIndex)) = _
    rw [htm]

theorem appendEntry_config {r r' : Raft} {es : List Entry} {b : Bool} (h : r.appendEntry es = .ok (r', b)) :
    r'.trk.config = r.trk.config ∧ r'.state = r.state := by
  unfold appendEntry at h
  dsimp only at h
  obtain ⟨hc, _, hm⟩ := increase_core r (stamp r.term (r.log.lastIndex + 1) es)
  generalize r.increaseUncommittedSize _ = y at h hc hm
  obtain ⟨r1, ok⟩ := y
  have hi : r1.trk.config = r.trk.config := congrArg Core.config hc
  have hj : r1.state = r.state := congrArg Core.state hc
  dsimp only at h
  cases ok with
  | false =>
    simp only [Bool.false_eq_true, not_false_eq_true, if_true, Res.ok.injEq, Prod.mk.injEq] at h
    rw [← h.1]; exact ⟨hi, hj⟩
  | true =>
    simp only [not_true_eq_false, if_false] at h
    obtain ⟨l, hl, h⟩ := Res.bind_eq_ok.1 h
    obtain ⟨p, hp, h⟩ := Res.bind_eq_ok.1 h
    obtain ⟨⟨r2, b2⟩, hm2, h⟩ := Res.bind_eq_ok.1 h
    simp only [Res.pure_eq, Res.ok.injEq, Prod.mk.injEq] at h
    obtain ⟨rfl, -⟩ := h
    rw [(maybeCommit_ok hm2).1]
    exact ⟨hi, hj⟩

theorem becomeLeader_leader {r r' : Raft} (h : r.becomeLeader env = .ok r') : r'.state = .leader := by
  unfold becomeLeader at h
  split at h
  · cases h
  dsimp only at h
  obtain ⟨p, hp, h⟩ := Res.bind_eq_ok.1 h
  obtain ⟨⟨r2, ok⟩, h2, h⟩ := Res.bind_eq_ok.1 h
  cases ok with
  | false => simp only [Bool.false_eq_true, not_false_eq_true, if_true] at h; cases h
  | true =>
    simp only [not_true_eq_false, if_false, Res.pure_eq, Res.ok.injEq] at h
    subst h
    exact (congrArg Core.state (reduce_core r2 [{}]).1).trans (appendEntry_config h2).2

theorem reset_self {r : Raft} {t : Nat} {p : Progress} (h : (r.reset env t).trk.progress.find r.id = some p) : p.mtch = r.log.lastIndex := by
  have em : (r.reset env t).trk.progress = r.trk.progress.map fun (p : Nat × Progress) => (p.1, r.resetPr p.1 p.2) := by
    unfold reset resetPr resetRandomizedElectionTimeout
    by_cases ht : r.term ≠ t
    · simp only [if_pos ht]
    · simp only [if_neg ht]
  have e : (r.reset env t).trk.progress.find r.id = (r.trk.progress.find r.id).map (r.resetPr r.id) := by
    have h := AMap.find_map r.trk.progress (fun id p => r.resetPr id p) r.id
    rw [← h, em]
  rw [e] at h
  obtain ⟨q, _, rfl⟩ := Option.map_eq_some_iff.1 h
  unfold resetPr
  dsimp only
  rw [if_pos rfl]

theorem becomeLeader_single {r r' : Raft} (hw : r.log.WF) (hcl : r.log.committed ≤ r.log.view.last)
    (h : r.becomeLeader env = .ok r') : Settled r'.core := by
  intro _ hv hu
  unfold becomeLeader at h
  split at h
  · cases h
  dsimp only at h
  obtain ⟨p, hp, h⟩ := Res.bind_eq_ok.1 h
  obtain ⟨⟨r2, ok⟩, h2, h⟩ := Res.bind_eq_ok.1 h
  cases ok with
  | false => simp only [Bool.false_eq_true, not_false_eq_true, if_true] at h; cases h
  | true =>
    simp only [not_true_eq_false, if_false, Res.pure_eq, Res.ok.injEq] at h
    subst h
    have hc := (reduce_core r2 [{}]).1
    rw [hc] at hv hu ⊢
    have hlog : (r.reset env r.term).log = r.log := reset_log (env := env) r _
    have hid : (r.reset env r.term).id = r.id := reset_id (env := env) r _
    have hcf := (appendEntry_config h2).1
    have hi2 := (appendEntry_msgs h2).2
    refine appendEntry_single (by exact hlog ▸ hw) (by exact hlog ▸ hcl) ?_ (fun q hq => ?_) h2 hu
    · have hv' : r2.trk.config.voters = { incoming := [r2.id], outgoing := [] } := hv
      rw [hcf, hi2] at hv'
      exact hv'
    · have hq' : (AMap.insert (r.reset env r.term).trk.progress (r.reset env r.term).id p.becomeReplicate).find (r.reset env r.term).id = some q := hq
      rw [AMap.find_insert, if_pos rfl] at hq'
      cases hq'
      have hp' := getPr_ok hp
      have hp2 : (r.reset env r.term).trk.progress.find (r.reset env r.term).id = some p := hp'
      rw [hid] at hp2
      have := reset_self hp2
      show p.mtch ≤ (r.reset env r.term).log.lastIndex
      rw [hlog]; exact Nat.le_of_eq this

/-- The log is in order. -/
def LogOk (r : Raft) : Prop := r.log.WF ∧ r.log.committed ≤ r.log.view.last

theorem campaignElection_elected {r r' : Raft} {tr : Bool} (hw : LogOk r) (h : r.campaignElection env tr = .ok r') : Elected r r' := by
  unfold campaignElection at h
  obtain ⟨r1, h1, h⟩ := Res.bind_eq_ok.1 h
  have c1 := becomeCandidate_state h1
  have hlog : r1.log = r.log := by
    unfold becomeCandidate at h1
    split at h1
    · cases h1
    · cases h1; exact reset_log (env := env) r _
  dsimp only at h
  by_cases hwon : (r1.poll r1.id true).2 = .won
  · rw [if_pos hwon] at h
    have hl2 : (r1.poll r1.id true).1.log = r.log := hlog
    exact .leader (env := env) (im := {}) (becomeLeader_single (by rw [hl2]; exact hw.1) (by rw [hl2]; exact hw.2) h) .refl
  · rw [if_neg hwon] at h
    have q := sendVotes_qsim (env := env) (im := {}) (r := (r1.poll r1.id true).1) _ (Or.inl ⟨rfl, c1, rfl⟩) h
    refine .not_leader ?_
    rw [q.state, show (r1.poll r1.id true).1.state = _ from c1]
    exact nofun

theorem campaign_elected {r r' : Raft} {t : CampaignType} (hw : LogOk r) (h : r.campaign env t = .ok r') : Elected r r' := by
  cases t with
  | election => exact campaignElection_elected hw h
  | transfer => exact campaignElection_elected hw h
  | preElection =>
    unfold campaign at h
    obtain ⟨r1, h1, h⟩ := Res.bind_eq_ok.1 h
    have c1 := becomePreCandidate_state h1
    have hlog : r1.log = r.log := by
      unfold becomePreCandidate at h1
      split at h1
      · cases h1
      · cases h1; rfl
    dsimp only at h
    by_cases hwon : (r1.poll r1.id true).2 = .won
    · rw [if_pos hwon] at h
      have hl2 : (r1.poll r1.id true).1.log = r.log := hlog
      refine .after (a := (r1.poll r1.id true).1) (campaignElection_elected ⟨by rw [hl2]; exact hw.1, by rw [hl2]; exact hw.2⟩ h) ?_
      rw [show (r1.poll r1.id true).1.state = _ from c1]
      exact nofun
    · rw [if_neg hwon] at h
      have q := sendVotes_qsim (env := env) (im := {}) (r := (r1.poll r1.id true).1) _ (Or.inr ⟨rfl, c1, rfl⟩) h
      refine .not_leader ?_
      rw [q.state, show (r1.poll r1.id true).1.state = _ from c1]
      exact nofun

theorem hup_elected {r r' : Raft} {t : CampaignType} (hw : LogOk r) (h : r.hup env t = .ok r') : Elected r r' := by
  rcases hup_cases h with rfl | ⟨_, _, _, h⟩
  · exact .of_core rfl
  · exact campaign_elected hw h

theorem candidateVoteResp_elected {r r' : Raft} {m : Message} (hw : LogOk r) (h : r.candidateVoteResp env m = .ok r')
    (hl : r.state ≠ .leader) : Elected r r' := by
  unfold candidateVoteResp at h
  dsimp only at h
  split at h
  · split at h
    · exact .after (a := (r.poll m.src (!m.reject)).1) (campaignElection_elected hw h) hl
    · obtain ⟨r1, h1, h⟩ := Res.bind_eq_ok.1 h
      have hs := becomeLeader_single (r := (r.poll m.src (!m.reject)).1) hw.1 hw.2 h1
      have hl1 : r1.state = .leader := becomeLeader_leader h1
      exact .leader hs (bcastAppend_qsim (im := {}) hl1 h)
  · cases h
    exact .not_leader nofun
  · cases h
    exact .not_leader hl

theorem stepBody_elected {r r' : Raft} {e : Option Err} (hw : LogOk r) (hg : GateOk im r.core) (hst : Stamped im)
    (h : r.stepBody env im = .ok (r', e)) : Elected r r' := by
  have hs := stepBody_sim hg hst h
  by_cases hv : im.type = .vote ∨ im.type = .preVote
  · unfold stepBody at h
    have hh : ∀ r1, r.stepVote im = .ok r1 → Elected r r1 := by
      intro r1 h1
      obtain ⟨ms, h2⟩ := stepVote_shape h1
      rw [h2]
      exact .of_core rfl
    rcases hv with hv | hv <;>
    · simp only [hv] at h
      obtain ⟨r1, h1, h⟩ := Res.bind_eq_ok.1 h
      cases h
      exact hh _ h1
  by_cases hc : CampMsg im
  · unfold stepBody at h
    rcases hc with hc | hc | hc
    · simp only [hc] at h
      obtain ⟨r1, h1, h⟩ := Res.bind_eq_ok.1 h
      cases h
      exact hup_elected hw h1
    · simp only [hc] at h
      unfold stepState at h
      cases hr : r.state with
      | leader =>
        simp only [hr] at h
        unfold stepLeader at h
        simp only [hc] at h
        split at h <;> cases h <;> exact .of_core rfl
      | follower =>
        simp only [hr] at h
        unfold stepFollower at h
        simp only [hc] at h
        obtain ⟨r1, h1, h⟩ := Res.bind_eq_ok.1 h
        cases h
        exact hup_elected hw h1
      | candidate => simp only [hr] at h; unfold stepCandidate at h; simp only [hc] at h; cases h; exact .of_core rfl
      | preCandidate => simp only [hr] at h; unfold stepCandidate at h; simp only [hc] at h; cases h; exact .of_core rfl
    · simp only [hc] at h
      unfold stepState at h
      have hcand : r.stepCandidate env im = .ok (r', e) → Elected r r' := by
        intro h
        unfold stepCandidate at h
        simp only [hc] at h
        by_cases hpre : r.state = .preCandidate
        · rw [if_pos hpre] at h
          obtain ⟨r1, h1, h⟩ := Res.bind_eq_ok.1 h
          cases h
          exact candidateVoteResp_elected hw h1 (by rw [hpre]; exact nofun)
        · rw [if_neg hpre] at h
          cases h; exact .of_core rfl
      cases hr : r.state with
      | leader =>
        simp only [hr] at h
        unfold stepLeader at h
        simp only [hc] at h
        split at h <;> cases h <;> exact .of_core rfl
      | follower =>
        simp only [hr] at h
        unfold stepFollower at h
        simp only [hc] at h
        cases h; exact .of_core rfl
      | candidate => simp only [hr] at h; exact hcand h
      | preCandidate => simp only [hr] at h; exact hcand h
  · have hle : im.term ≤ r.term := by
      rcases hg with hg | hg | ⟨_, hg | ⟨hg, _⟩⟩
      · rw [hg]; exact Nat.zero_le _
      · rw [hg]; exact Nat.le_refl _
      · exact absurd (Or.inr hg) hv
      · exact absurd (Or.inr (Or.inr hg)) hc
    by_cases hr : r.state = .candidate
    · -- a candidate
      have hcand : r.stepCandidate env im = .ok (r', e) := by
        unfold stepBody stepState at h
        rw [hr] at h
        revert h
        cases ht : im.type <;> simp_all [CampMsg]
      have fol : ∀ {r1 : Raft}, (im.type = .app ∨ im.type = .heartbeat ∨ im.type = .snap) →
          (GateOk im (r.becomeFollower env im.term im.src).core → Sim env im (r.becomeFollower env im.term im.src) r1) → Elected r r1 := by
        intro r1 ht hs1
        have hbt : (r.becomeFollower env im.term im.src).core.term = im.term := by rw [becomeFollower_core]
        refine .after (a := r.becomeFollower env im.term im.src) ?_ nofun
        exact .sim (hs1 (Or.inr (Or.inl hbt.symm))) hc (Nat.le_of_eq hbt.symm) nofun
      unfold stepCandidate at hcand
      cases ht : im.type with
      | app =>
        simp only [ht] at hcand
        obtain ⟨r1, h1, hcand⟩ := Res.bind_eq_ok.1 hcand
        cases hcand
        exact fol (Or.inl ht) fun g => handleAppendEntries_sim rfl ht g h1
      | heartbeat =>
        simp only [ht] at hcand
        obtain ⟨r1, h1, hcand⟩ := Res.bind_eq_ok.1 hcand
        cases hcand
        exact fol (Or.inr (Or.inl ht)) fun g => handleHeartbeat_sim rfl ht g h1
      | snap =>
        simp only [ht] at hcand
        obtain ⟨r1, h1, hcand⟩ := Res.bind_eq_ok.1 hcand
        cases hcand
        exact fol (Or.inr (Or.inr ht)) fun g => handleSnapshot_sim rfl ht g h1
      | preVoteResp => exact absurd (Or.inr (Or.inr ht)) hc
      | voteResp =>
        simp only [ht] at hcand
        rw [if_pos (by rw [hr]; exact nofun)] at hcand
        obtain ⟨r1, h1, hcand⟩ := Res.bind_eq_ok.1 hcand
        cases hcand
        exact candidateVoteResp_elected hw h1 (by rw [hr]; exact nofun)
      | _ => simp only [ht] at hcand; cases hcand; exact .of_core rfl
    · exact .sim hs hc hle hr

theorem step_elected {r r' : Raft} {e : Option Err} (hw : LogOk r) (hst : Stamped im)
    (h : r.step env im = .ok (r', e)) : Elected r r' := by
  unfold step at h
  obtain ⟨g, hg, h⟩ := Res.bind_eq_ok.1 h
  rcases stepGate_cases hg with ⟨r1, rfl, hgo, h1⟩ | ⟨r1, rfl, hs⟩
  · have hb : r1.stepBody env im = .ok (r', e) := h
    rcases h1 with h1 | ⟨hlt, lead, rfl⟩
    · subst h1; exact stepBody_elected hw hgo hst hb
    · have hl : (r.becomeFollower env im.term lead).log = r.log := by
        have := congrArg Core.log (becomeFollower_core (env := env) r im.term lead)
        exact this
      refine .after (a := r.becomeFollower env im.term lead) (stepBody_elected ⟨?_, ?_⟩ hgo hst hb) nofun
      · rw [hl]; exact hw.1
      · rw [hl]; exact hw.2
  · cases h; exact .qsim hs

theorem tick_elected {r r' : Raft} (hw : LogOk r) (h : r.tick env = .ok r') : Elected r r' := by
  have he : r.state ≠ .leader → r.tickElection env = .ok r' → Elected r r' := by
    intro hl h
    unfold tickElection at h
    dsimp only at h
    split at h
    · obtain ⟨⟨r1, e⟩, h1, h⟩ := Res.bind_eq_ok.1 h
      cases h
      rw [step_hup] at h1
      obtain ⟨r2, h2, h1⟩ := Res.bind_eq_ok.1 h1
      cases h1
      exact .after (a := { r with electionElapsed := 0 }) (hup_elected hw h2) hl
    · cases h; exact .of_core rfl
  unfold tick at h
  cases hs : r.state with
  | leader =>
    simp only [hs] at h
    unfold tickHeartbeat at h
    have s0 : Sim env { type := .beat } r { r with heartbeatElapsed := r.heartbeatElapsed + 1, electionElapsed := r.electionElapsed + 1 } :=
      .of_core rfl rfl rfl
    obtain ⟨r1, h1, h⟩ := Res.bind_eq_ok.1 h
    have s := s0.trans (Sim.trans (tickHeartbeatTimeout_sim (by rintro (h | h | h) <;> cases h) hs h1) (tickHeartbeatBeat_sim h))
    exact .sim s (by simp [CampMsg]) (Nat.zero_le _) (by rw [hs]; exact nofun)
  | _ => simp only [hs] at h; exact he (by rw [hs]; exact nofun) h

end Raft

/-- Calls made outside the handling of a Ready. -/
theorem Call.elected {env : Env} {c : Call} {n n' : RawNode} (hc : c.Plain) (hs : c.Stamped) (hw : Raft.LogOk n.raft)
    (h : c.run env n = .ok n') : Elected n.raft n'.raft := by
  have key : ∀ {im : Message} {e : Option Err}, Craft.Stamped im → n.raft.step env im = .ok (n'.raft, e) → Elected n.raft n'.raft :=
    fun hst h => Raft.step_elected hw hst h
  cases c with
  | step m =>
    obtain ⟨⟨n1, e⟩, h1, h⟩ := Res.bind_eq_ok.1 h
    simp only [Res.pure_eq, Res.ok.injEq] at h
    subst h
    unfold RawNode.step at h1
    split at h1
    · simp only [Res.ok.injEq, Prod.mk.injEq] at h1
      rw [← h1.1]; exact .of_core rfl
    split at h1
    · exact key hs (onRaft_ok h1).1
    · simp only [Res.ok.injEq, Prod.mk.injEq] at h1
      rw [← h1.1]; exact .of_core rfl
  | tick =>
    obtain ⟨r, h1, h⟩ := Res.bind_eq_ok.1 h
    simp only [Res.pure_eq, Res.ok.injEq] at h
    subst h
    exact Raft.tick_elected hw h1
  | tickQuiesced =>
    simp only [Call.run, Res.ok.injEq] at h
    subst h
    exact .of_core rfl
  | campaign =>
    obtain ⟨⟨n1, e⟩, h1, h⟩ := Res.bind_eq_ok.1 h
    simp only [Res.pure_eq, Res.ok.injEq] at h
    subst h
    exact key (im := { type := .hup }) (by intro h; simp at h) (onRaft_ok h1).1
  | propose d =>
    obtain ⟨⟨n1, e⟩, h1, h⟩ := Res.bind_eq_ok.1 h
    simp only [Res.pure_eq, Res.ok.injEq] at h
    subst h
    exact key (im := Call.msg env n (.propose d)) (by intro h; simp [Call.msg] at h) (onRaft_ok h1).1
  | proposeConfChange cc =>
    obtain ⟨⟨n1, e⟩, h1, h⟩ := Res.bind_eq_ok.1 h
    simp only [Res.pure_eq, Res.ok.injEq] at h
    subst h
    exact key (by intro h; simp [Call.msg] at h) (onRaft_ok (f := fun r => r.step env (Call.msg env n (.proposeConfChange cc))) h1).1
  | applyConfChange cc => exact hc.elim
  | getReady => exact hc.elim
  | advance => exact hc.elim
  | reportUnreachable id =>
    obtain ⟨⟨n1, e⟩, h1, h⟩ := Res.bind_eq_ok.1 h
    simp only [Res.pure_eq, Res.ok.injEq] at h
    subst h
    exact key (im := Call.msg env n (.reportUnreachable id)) (by intro h; simp [Call.msg] at h) (onRaft_ok h1).1
  | reportSnapshot id f =>
    obtain ⟨⟨n1, e⟩, h1, h⟩ := Res.bind_eq_ok.1 h
    simp only [Res.pure_eq, Res.ok.injEq] at h
    subst h
    exact key (im := Call.msg env n (.reportSnapshot id f)) (by intro h; simp [Call.msg] at h) (onRaft_ok h1).1
  | transferLeader id =>
    obtain ⟨⟨n1, e⟩, h1, h⟩ := Res.bind_eq_ok.1 h
    simp only [Res.pure_eq, Res.ok.injEq] at h
    subst h
    exact key (im := Call.msg env n (.transferLeader id)) (by intro h; simp [Call.msg] at h) (onRaft_ok h1).1
  | readIndex ctx =>
    obtain ⟨⟨n1, e⟩, h1, h⟩ := Res.bind_eq_ok.1 h
    simp only [Res.pure_eq, Res.ok.injEq] at h
    subst h
    exact key (im := Call.msg env n (.readIndex ctx)) (by intro h; simp [Call.msg] at h) (onRaft_ok h1).1

end Craft
