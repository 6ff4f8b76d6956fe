import Verif.Node.Facts
import Verif.Demo

/-! # C33, C34, C35, C42: messages a node ignores -/

namespace Craft
open Spec

/-- The only difference is in the outbox, which is extended by `ms`. -/
def OnlySent (n n' : RawNode) (ms : List Message) : Prop :=
  n' = { n with raft := { n.raft with msgs := n.raft.msgs ++ ms } }

theorem OnlySent.nil (n : RawNode) : OnlySent n n [] := by unfold OnlySent; rw [List.append_nil]

/-! ## C33: stale messages -/

/-- A message of a lower (non-zero) term changes nothing in the node; at most one answer, to its sender, is put in the
outbox: an empty `MsgAppResp` (so that a deposed leader learns the term) or a rejected pre-vote. -/
theorem C33_stale_message {env : Env} {n n' : RawNode} {m : Message} {e : Option Err} (h0 : m.term ≠ 0)
    (hlt : m.term < n.raft.term) (h : n.step env m = .ok (n', e)) :
    ∃ ms, OnlySent n n' ms ∧ (ms = [] ∨ ∃ a, ms = [a] ∧ a.to = m.src ∧ a.term = n.raft.term ∧
      ((a.type = .appResp ∧ a.index = 0 ∧ a.reject = false) ∨ (a.type = .preVoteResp ∧ a.reject = true))) := by
  unfold RawNode.step at h
  split at h
  · simp only [Res.ok.injEq, Prod.mk.injEq] at h; obtain ⟨rfl, _⟩ := h; exact ⟨[], .nil _, Or.inl rfl⟩
  split at h
  · unfold RawNode.onRaft at h
    obtain ⟨⟨r, e1⟩, h1, h⟩ := Res.bind_eq_ok.1 h
    simp only [Res.pure_eq, Res.ok.injEq, Prod.mk.injEq] at h
    obtain ⟨rfl, rfl⟩ := h
    unfold Raft.step at h1
    obtain ⟨g, hg, h1⟩ := Res.bind_eq_ok.1 h1
    unfold Raft.stepGate at hg
    rw [if_neg h0, if_neg (by omega), if_pos hlt] at hg
    split at hg
    · obtain ⟨r1, hs, hg⟩ := Res.bind_eq_ok.1 hg
      simp only [Res.pure_eq, Res.ok.injEq] at hg
      subst hg
      simp only [Res.pure_eq, Res.ok.injEq, Prod.mk.injEq] at h1
      obtain ⟨rfl, _⟩ := h1
      rw [Raft.send_ok hs]
      exact ⟨_, rfl, Or.inr ⟨_, rfl, rfl, rfl, Or.inl ⟨rfl, rfl, rfl⟩⟩⟩
    split at hg
    · obtain ⟨lt, _, hg⟩ := Res.bind_eq_ok.1 hg
      obtain ⟨r1, hs, hg⟩ := Res.bind_eq_ok.1 hg
      simp only [Res.pure_eq, Res.ok.injEq] at hg
      subst hg
      simp only [Res.pure_eq, Res.ok.injEq, Prod.mk.injEq] at h1
      obtain ⟨rfl, _⟩ := h1
      rw [Raft.send_ok hs]
      exact ⟨_, rfl, Or.inr ⟨_, rfl, rfl, rfl, Or.inr ⟨rfl, rfl⟩⟩⟩
    · simp only [Res.ok.injEq] at hg
      subst hg
      simp only [Res.pure_eq, Res.ok.injEq, Prod.mk.injEq] at h1
      obtain ⟨rfl, _⟩ := h1
      exact ⟨[], .nil _, Or.inl rfl⟩
  · simp only [Res.ok.injEq, Prod.mk.injEq] at h; obtain ⟨rfl, _⟩ := h; exact ⟨[], .nil _, Or.inl rfl⟩

/-- How a stale message is answered: with CheckQuorum or PreVote on, the sender of a stale append or heartbeat (a deposed leader) is told
the term; whatever the settings, the sender of a stale pre-vote is refused at the term; nothing else is answered. -/
theorem C33_stale_message_answer {env : Env} {n n' : RawNode} {m : Message} {e : Option Err} (h0 : m.term ≠ 0)
    (hlt : m.term < n.raft.term) (h : n.step env m = .ok (n', e)) :
    ((m.type = .app ∨ m.type = .heartbeat) → (n.raft.checkQuorum = true ∨ n.raft.preVote = true) →
      n'.raft.msgs = n.raft.msgs ++ [{ type := .appResp, to := m.src, src := n.raft.id, term := n.raft.term }]) ∧
    (m.type = .preVote →
      n'.raft.msgs = n.raft.msgs ++ [{ type := .preVoteResp, to := m.src, src := n.raft.id, term := n.raft.term, reject := true }]) ∧
    (m.type ≠ .preVote → ¬ ((m.type = .app ∨ m.type = .heartbeat) ∧ (n.raft.checkQuorum = true ∨ n.raft.preVote = true)) →
      n'.raft.msgs = n.raft.msgs) := by
  unfold RawNode.step at h
  split at h
  · next hl =>
    cases h
    refine ⟨fun k => ?_, fun k => ?_, fun _ _ => rfl⟩
    · rcases k with k | k <;> rw [k] at hl <;> cases hl
    · rw [k] at hl; cases hl
  split at h
  · unfold RawNode.onRaft at h
    obtain ⟨⟨r, e1⟩, h1, h⟩ := Res.bind_eq_ok.1 h
    cases h
    unfold Raft.step at h1
    obtain ⟨g, hg, h1⟩ := Res.bind_eq_ok.1 h1
    unfold Raft.stepGate at hg
    rw [if_neg h0, if_neg (by omega), if_pos hlt] at hg
    by_cases c1 : (n.raft.checkQuorum ∨ n.raft.preVote) ∧ (m.type = .heartbeat ∨ m.type = .app)
    · rw [if_pos c1] at hg
      obtain ⟨r1, hs, hg⟩ := Res.bind_eq_ok.1 hg
      cases hg
      cases h1
      rw [Raft.send_ok hs]
      refine ⟨fun _ _ => rfl, fun k => ?_, fun _ k => absurd ⟨c1.2.symm, c1.1⟩ k⟩
      rcases c1.2 with c | c <;> rw [c] at k <;> cases k
    rw [if_neg c1] at hg
    by_cases c2 : m.type = .preVote
    · rw [if_pos c2] at hg
      obtain ⟨lt, _, hg⟩ := Res.bind_eq_ok.1 hg
      obtain ⟨r1, hs, hg⟩ := Res.bind_eq_ok.1 hg
      cases hg
      cases h1
      rw [Raft.send_ok hs]
      exact ⟨fun k1 k2 => absurd ⟨k2, k1.symm⟩ c1, fun _ => rfl, fun k => absurd c2 k⟩
    · rw [if_neg c2] at hg
      cases hg
      cases h1
      exact ⟨fun k1 k2 => absurd ⟨k2, k1.symm⟩ c1, fun k => absurd k c2, fun _ _ => rfl⟩
  · next hr =>
    cases h
    have hr : isResponseMsg m.type = true := by
      cases hb : isResponseMsg m.type with
      | true => rfl
      | false => exact absurd (Or.inr (by rw [hb]; exact Bool.false_ne_true)) hr
    refine ⟨fun k => ?_, fun k => ?_, fun _ _ => rfl⟩
    · rcases k with k | k <;> rw [k] at hr <;> cases hr
    · rw [k] at hr; cases hr

/-- In particular (the English statement): term, vote, role, log, commit, leader and timers. -/
theorem C33_stale_message_state {env : Env} {n n' : RawNode} {m : Message} {e : Option Err} (h0 : m.term ≠ 0)
    (hlt : m.term < n.raft.term) (h : n.step env m = .ok (n', e)) :
    n'.raft.hardState = n.raft.hardState ∧ n'.raft.softState = n.raft.softState ∧ n'.raft.log = n.raft.log ∧
    n'.raft.electionElapsed = n.raft.electionElapsed ∧ n'.raft.heartbeatElapsed = n.raft.heartbeatElapsed ∧
    n'.raft.randomizedElectionTimeout = n.raft.randomizedElectionTimeout ∧ n'.raft.trk = n.raft.trk := by
  obtain ⟨ms, h, _⟩ := C33_stale_message h0 hlt h
  unfold OnlySent at h
  subst h
  exact ⟨rfl, rfl, rfl, rfl, rfl, rfl, rfl⟩

/-- A candidate of term 2 (pre-vote on) gets an append of a leader of term 1. -/
example : (Demo.node 1 [.campaign, .campaign]).raft.term = 2 ∧
    (Demo.node 1 [.campaign, .campaign, .step { type := .app, src := 2, term := 1, entries := [{ term := 1, index := 1 }] }]).raft.state
      = .candidate := by decide

/-! ## C34: pre-vote -/

/-- Handling a pre-vote request changes nothing but the outbox. -/
theorem C34_prevote_request {env : Env} {n n' : RawNode} {m : Message} {e : Option Err} (ht : m.type = .preVote)
    (h : n.step env m = .ok (n', e)) :
    ∃ ms, OnlySent n n' ms ∧ (ms = [] ∨ ∃ a, ms = [a] ∧ a.to = m.src ∧ a.type = .preVoteResp) := by
  unfold RawNode.step at h
  split at h
  · simp only [Res.ok.injEq, Prod.mk.injEq] at h; obtain ⟨rfl, _⟩ := h; exact ⟨[], .nil _, Or.inl rfl⟩
  split at h
  · unfold RawNode.onRaft at h
    obtain ⟨⟨r, e1⟩, h1, h⟩ := Res.bind_eq_ok.1 h
    simp only [Res.pure_eq, Res.ok.injEq, Prod.mk.injEq] at h
    obtain ⟨rfl, rfl⟩ := h
    unfold Raft.step at h1
    obtain ⟨g, hg, h1⟩ := Res.bind_eq_ok.1 h1
    have hgate : g = .go n.raft ∨ g = .stop n.raft ∨
        ∃ a, a.to = m.src ∧ a.type = .preVoteResp ∧ g = .stop { n.raft with msgs := n.raft.msgs ++ [a] } := by
      unfold Raft.stepGate at hg
      split at hg
      · cases hg; exact Or.inl rfl
      split at hg
      · split at hg
        · obtain ⟨lt, _, hg⟩ := Res.bind_eq_ok.1 hg
          cases hg; exact Or.inr (Or.inl rfl)
        · cases hg; exact Or.inl rfl
      split at hg
      · rw [if_neg (by rw [ht]; rintro ⟨_, h | h⟩ <;> cases h)] at hg
        obtain ⟨lt, _, hg⟩ := Res.bind_eq_ok.1 hg
        obtain ⟨r1, hs, hg⟩ := Res.bind_eq_ok.1 hg
        simp only [Res.pure_eq, Res.ok.injEq] at hg
        subst hg
        rw [Raft.send_ok hs]
        exact Or.inr (Or.inr ⟨n.raft.outMsg _, rfl, rfl, rfl⟩)
      · cases hg; exact Or.inl rfl
    rcases hgate with rfl | rfl | ⟨a, ha, hb, rfl⟩
    · unfold Raft.stepBody at h1
      simp only [ht] at h1
      obtain ⟨r2, h2, h1⟩ := Res.bind_eq_ok.1 h1
      simp only [Res.pure_eq, Res.ok.injEq, Prod.mk.injEq] at h1
      obtain ⟨rfl, _⟩ := h1
      unfold Raft.stepVote at h2
      obtain ⟨up, _, h2⟩ := Res.bind_eq_ok.1 h2
      obtain ⟨lt, _, h2⟩ := Res.bind_eq_ok.1 h2
      obtain ⟨rt, hrt, h2⟩ := Res.bind_eq_ok.1 h2
      have hrt' : rt = .preVoteResp := by rw [ht] at hrt; cases hrt; rfl
      subst hrt'
      split at h2
      · obtain ⟨r3, h3, h2⟩ := Res.bind_eq_ok.1 h2
        rw [if_neg (by rw [ht]; intro h; cases h)] at h2
        cases h2
        rw [Raft.send_ok h3]
        exact ⟨_, rfl, Or.inr ⟨_, rfl, rfl, rfl⟩⟩
      · rw [Raft.send_ok h2]
        exact ⟨_, rfl, Or.inr ⟨_, rfl, rfl, rfl⟩⟩
    · simp only [Res.pure_eq, Res.ok.injEq, Prod.mk.injEq] at h1
      obtain ⟨rfl, _⟩ := h1
      exact ⟨[], .nil _, Or.inl rfl⟩
    · simp only [Res.pure_eq, Res.ok.injEq, Prod.mk.injEq] at h1
      obtain ⟨rfl, _⟩ := h1
      exact ⟨[a], rfl, Or.inr ⟨a, rfl, ha, hb⟩⟩
  · simp only [Res.ok.injEq, Prod.mk.injEq] at h; obtain ⟨rfl, _⟩ := h; exact ⟨[], .nil _, Or.inl rfl⟩

namespace Raft
variable {env : Env}

theorem becomeLeader_state {r r' : Raft} (h : r.becomeLeader env = .ok r') : r'.state = .leader := by
  unfold becomeLeader at h
  split at h
  · cases h
  · obtain ⟨p, _, h⟩ := Res.bind_eq_ok.1 h
    obtain ⟨⟨r1, ok⟩, h1, h⟩ := Res.bind_eq_ok.1 h
    dsimp only at h
    split at h
    · cases h
    · simp only [Res.pure_eq, Res.ok.injEq] at h
      rw [← h]
      have hs := reduce_core r1 [{}]
      have : (r1.reduceUncommittedSize [{}]).state = r1.state := congrArg Core.state hs.1
      rw [this]
      unfold appendEntry at h1
      dsimp only at h1
      split at h1
      · rename_i hok
        simp only [Res.ok.injEq, Prod.mk.injEq] at h1
        obtain ⟨rfl, _⟩ := h1
        unfold increaseUncommittedSize
        dsimp only
        split <;> rfl
      · obtain ⟨l, _, h1⟩ := Res.bind_eq_ok.1 h1
        obtain ⟨q, _, h1⟩ := Res.bind_eq_ok.1 h1
        obtain ⟨⟨r2, b⟩, h2, h1⟩ := Res.bind_eq_ok.1 h1
        simp only [Res.pure_eq, Res.ok.injEq, Prod.mk.injEq] at h1
        obtain ⟨rfl, _⟩ := h1
        have := (maybeCommit_ok h2).1
        rw [this]
        show (Raft.increaseUncommittedSize _ _).1.state = _
        unfold increaseUncommittedSize
        dsimp only
        split <;> rfl

theorem campaignElection_state {r r' : Raft} {tr : Bool} (h : r.campaignElection env tr = .ok r') :
    r'.state = .candidate ∨ r'.state = .leader := by
  unfold campaignElection at h
  obtain ⟨r1, h1, h⟩ := Res.bind_eq_ok.1 h
  have hc := becomeCandidate_state h1
  dsimp only at h
  split at h
  · exact Or.inr (becomeLeader_state h)
  · have := sendVotes_qsim (env := env) (im := { type := .hup }) (r := (r1.poll r1.id true).1) _ (Or.inl ⟨rfl, hc, rfl⟩) h
    exact Or.inl (this.state.trans hc)

/-- What `Campaign` for a pre-election does: either a pre-candidate with the same core otherwise, or an election. -/
theorem campaign_pre {r r' : Raft} {t : CampaignType} (h : r.campaign env t = .ok r') (hs : r'.state = .preCandidate) :
    r'.term = r.term ∧ r'.vote = r.vote ∧ r'.log = r.log := by
  cases t with
  | election => rcases campaignElection_state h with h | h <;> rw [h] at hs <;> cases hs
  | transfer => rcases campaignElection_state h with h | h <;> rw [h] at hs <;> cases hs
  | preElection =>
    obtain ⟨r1, h1, h⟩ := Res.bind_eq_ok.1 h
    dsimp only at h
    split at h
    · rcases campaignElection_state h with h | h <;> rw [h] at hs <;> cases hs
    · unfold becomePreCandidate at h1
      split at h1
      · cases h1
      · cases h1
        have := sendVotes_qsim (env := env) (im := { type := .hup }) _ (Or.inr ⟨rfl, rfl, rfl⟩) h
        exact ⟨this.term, this.vote, this.log⟩

theorem hup_pre {r r' : Raft} {t : CampaignType} (h : r.hup env t = .ok r') (hs : r'.state = .preCandidate) :
    r'.term = r.term ∧ r'.vote = r.vote ∧ r'.log = r.log := by
  rcases hup_cases h with rfl | ⟨_, _, _, h⟩
  · exact ⟨rfl, rfl, rfl⟩
  · exact campaign_pre h hs

end Raft

/-- Steps other than those started by `MsgHup`, `MsgTimeoutNow` or a pre-vote response never make a node pre-candidate. -/
theorem NPath.pre_of_pre {env : Env} {im : Message} {c c' : Core} {ms : List Message} (h : NPath env im c ms c') (hc : ¬ CampMsg im)
    (hs : c'.state = .preCandidate) : c.state = .preCandidate := by
  induction h with
  | nil => exact hs
  | cons h h' ih =>
    have := ih hs
    cases h with
    | core h =>
      cases h with
      | preCandidate hcm => exact absurd hcm hc
      | candidate _ hcm => exact absurd hcm hc
      | follower => cases this
      | leader => cases this
      | _ => exact this
    | _ => exact this

/-- Entering the pre-candidate state: only a tick or `Campaign` does it, and neither term nor vote nor log change. -/
theorem C34_entering_precandidate {env : Env} {n n' : RawNode} (c : Call) (hst : c.Stamped) (h : c.run env n = .ok n')
    (h0 : n.raft.state ≠ .preCandidate) (hs : n'.raft.state = .preCandidate) :
    (c = .tick ∨ c = .campaign) ∧ n'.raft.term = n.raft.term ∧ n'.raft.vote = n.raft.vote ∧ n'.raft.log = n.raft.log := by
  have other : ¬ CampMsg (c.msg env n) → False := by
    intro hc
    obtain ⟨_, cfg, P, _, ms, _, hp⟩ := c.run_path hst h
    exact h0 (hp.pre_of_pre hc hs)
  cases c with
  | tick =>
    refine ⟨Or.inl rfl, ?_⟩
    obtain ⟨r, h1, h⟩ := Res.bind_eq_ok.1 h
    simp only [Res.pure_eq, Res.ok.injEq] at h
    subst h
    have he : n.raft.tickElection env = .ok r → r.term = n.raft.term ∧ r.vote = n.raft.vote ∧ r.log = n.raft.log := by
      intro h
      unfold Raft.tickElection at h
      dsimp only at h
      split at h
      · obtain ⟨⟨r1, e⟩, h2, h⟩ := Res.bind_eq_ok.1 h
        simp only [Res.pure_eq, Res.ok.injEq] at h
        subst h
        rw [Raft.step_hup] at h2
        obtain ⟨r2, h3, h2⟩ := Res.bind_eq_ok.1 h2
        simp only [Res.pure_eq, Res.ok.injEq, Prod.mk.injEq] at h2
        obtain ⟨rfl, _⟩ := h2
        have := Raft.hup_pre h3 hs
        exact this
      · cases h; exact ⟨rfl, rfl, rfl⟩
    unfold Raft.tick at h1
    split at h1
    · rename_i hl
      obtain ⟨r1, h2, h3⟩ := Res.bind_eq_ok.1 h1
      exfalso
      have s2 := Raft.tickHeartbeatTimeout_sim (im := { type := .beat }) (by rintro (h | h | h) <;> cases h) (show Raft.state { n.raft with heartbeatElapsed := n.raft.heartbeatElapsed + 1, electionElapsed := n.raft.electionElapsed + 1 } = .leader from hl) h2
      have s3 := Raft.tickHeartbeatBeat_sim (im := { type := .beat }) h3
      obtain ⟨_, _, _, p⟩ := (s2.trans s3).nsim
      have := p.pre_of_pre (by simp [CampMsg]) hs
      have hl' : n.raft.core.state = .leader := hl
      change n.raft.core.state = _ at this
      rw [hl'] at this; cases this
    · exact he h1
  | campaign =>
    refine ⟨Or.inr rfl, ?_⟩
    obtain ⟨⟨n1, e⟩, h1, h⟩ := Res.bind_eq_ok.1 h
    simp only [Res.pure_eq, Res.ok.injEq] at h
    subst h
    have h2 := (onRaft_ok h1).1
    rw [show (({ type := .hup } : Message)) = { type := .hup, src := 0 } from rfl, Raft.step_hup] at h2
    obtain ⟨r2, h3, h2⟩ := Res.bind_eq_ok.1 h2
    simp only [Res.pure_eq, Res.ok.injEq, Prod.mk.injEq] at h2
    obtain ⟨h2, _⟩ := h2
    rw [← h2] at hs ⊢
    exact Raft.hup_pre h3 hs
  | step m =>
    exfalso
    by_cases hcm : CampMsg m
    · obtain ⟨⟨n1, e⟩, h1, h⟩ := Res.bind_eq_ok.1 h
      simp only [Res.pure_eq, Res.ok.injEq] at h
      subst h
      unfold RawNode.step at h1
      split at h1
      · simp only [Res.ok.injEq, Prod.mk.injEq] at h1; rw [← h1.1] at hs; exact h0 hs
      rename_i hloc
      split at h1
      rotate_left
      · simp only [Res.ok.injEq, Prod.mk.injEq] at h1; rw [← h1.1] at hs; exact h0 hs
      have h2 := (onRaft_ok h1).1
      unfold Raft.step at h2
      obtain ⟨g, hg, h2⟩ := Res.bind_eq_ok.1 h2
      rcases Raft.stepGate_cases hg with ⟨r1, rfl, hgo, hr1⟩ | ⟨r1, rfl, hq⟩
      rotate_left
      · simp only [Res.pure_eq, Res.ok.injEq, Prod.mk.injEq] at h2
        rw [← h2.1, hq.state] at hs
        exact h0 hs
      have hr1s : r1.state ≠ .preCandidate := by
        rcases hr1 with rfl | ⟨_, lead, rfl⟩
        · exact h0
        · intro h; cases h
      dsimp only at h2
      rcases hcm with hm | hm | hm
      · rw [hm] at hloc; exact hloc rfl
      · unfold Raft.stepBody at h2
        simp only [hm] at h2
        unfold Raft.stepState at h2
        split at h2
        · unfold Raft.stepFollower at h2
          simp only [hm] at h2
          obtain ⟨r2, h3, h2⟩ := Res.bind_eq_ok.1 h2
          simp only [Res.pure_eq, Res.ok.injEq, Prod.mk.injEq] at h2
          rcases Raft.hup_cases h3 with h4 | ⟨_, _, _, h3⟩
          · rw [← h2.1, h4] at hs; exact hr1s hs
          · rcases Raft.campaignElection_state h3 with h | h <;> rw [h2.1, hs] at h <;> cases h
        · unfold Raft.stepCandidate at h2
          simp only [hm] at h2
          simp only [Res.ok.injEq, Prod.mk.injEq] at h2
          rw [← h2.1] at hs; exact hr1s hs
        · exact hr1s (by assumption)
        · unfold Raft.stepLeader at h2
          simp only [hm] at h2
          split at h2 <;> simp only [Res.ok.injEq, Prod.mk.injEq] at h2 <;> (rw [← h2.1] at hs; exact hr1s hs)
      · unfold Raft.stepBody at h2
        simp only [hm] at h2
        unfold Raft.stepState at h2
        split at h2
        · unfold Raft.stepFollower at h2
          simp only [hm] at h2
          simp only [Res.ok.injEq, Prod.mk.injEq] at h2
          rw [← h2.1] at hs; exact hr1s hs
        · unfold Raft.stepCandidate at h2
          simp only [hm] at h2
          rw [if_neg hr1s] at h2
          simp only [Res.ok.injEq, Prod.mk.injEq] at h2
          rw [← h2.1] at hs; exact hr1s hs
        · exact hr1s (by assumption)
        · unfold Raft.stepLeader at h2
          simp only [hm] at h2
          split at h2 <;> simp only [Res.ok.injEq, Prod.mk.injEq] at h2 <;> (rw [← h2.1] at hs; exact hr1s hs)
    · exact other hcm
  | tickQuiesced => exact (other (by simp [Call.msg, CampMsg])).elim
  | propose d => exact (other (by simp [Call.msg, CampMsg])).elim
  | proposeConfChange cc => exact (other (by simp [Call.msg, CampMsg])).elim
  | applyConfChange cc => exact (other (by simp [Call.msg, CampMsg])).elim
  | getReady => exact (other (by simp [Call.msg, CampMsg])).elim
  | advance => exact (other (by simp [Call.msg, CampMsg])).elim
  | reportUnreachable id => exact (other (by simp [Call.msg, CampMsg])).elim
  | reportSnapshot id f => exact (other (by simp [Call.msg, CampMsg])).elim
  | transferLeader id => exact (other (by simp [Call.msg, CampMsg])).elim
  | readIndex ctx => exact (other (by simp [Call.msg, CampMsg])).elim

/-- A node with pre-vote on that campaigns. -/
example : ∃ n n', RawNode.new Demo.env { Demo.cfg 1 with preVote := true } Demo.store 0 = .ok n ∧ Call.campaign.run Demo.env n = .ok n' ∧
    n.raft.state = .follower ∧ n'.raft.state = .preCandidate ∧ n'.raft.msgs.map (·.term) = [1, 1] := by
  refine ⟨_, _, rfl, rfl, ?_⟩
  decide

/-! ## C35: the leader lease -/

/-- With `check_quorum`, a node that knows a leader and heard from it less than an election timeout ago ignores a vote or
pre-vote request of a later term that is not part of a leadership transfer: nothing at all changes, nothing is answered. -/
theorem C35_lease {env : Env} {n : RawNode} {m : Message} (hw : n.raft.log.WF) (hcq : n.raft.checkQuorum = true) (hld : n.raft.lead ≠ 0)
    (hel : n.raft.electionElapsed < n.raft.electionTimeout) (ht : m.type = .vote ∨ m.type = .preVote) (hterm : n.raft.term < m.term)
    (hctx : m.context ≠ campaignTransferCtx) : n.step env m = .ok (n, none) := by
  unfold RawNode.step
  rw [if_neg (by rcases ht with h | h <;> rw [h] <;> decide), if_pos (Or.inr (by rcases ht with h | h <;> rw [h] <;> decide))]
  have hg : n.raft.stepGate env m = .ok (.stop n.raft) := by
    unfold Raft.stepGate
    rw [if_neg (by omega), if_pos hterm, if_pos ⟨ht, hctx, hcq, hld, hel⟩, hw.lastTerm_eq]
    rfl
  simp only [RawNode.onRaft, Raft.step, hg, Res.ok_bind, Res.pure_eq]

/-! ## C42: `RawNode::Step` filters -/

/-- A local message type is refused and nothing changes. -/
theorem C42_local_refused (env : Env) (n : RawNode) (m : Message)
    (h : m.type = .hup ∨ m.type = .beat ∨ m.type = .unreachable ∨ m.type = .snapStatus ∨ m.type = .checkQuorum) :
    n.step env m = .ok (n, some .stepLocalMsg) := by
  unfold RawNode.step
  rw [if_pos (by rcases h with h | h | h | h | h <;> rw [h] <;> rfl)]

/-- A response from a node that is not a member is refused and nothing changes. -/
theorem C42_unknown_peer_refused (env : Env) (n : RawNode) (m : Message)
    (h : m.type = .appResp ∨ m.type = .voteResp ∨ m.type = .heartbeatResp ∨ m.type = .preVoteResp) (hp : n.raft.pr m.src = none) :
    n.step env m = .ok (n, some .stepPeerNotFound) := by
  unfold RawNode.step
  rw [if_neg (by rcases h with h | h | h | h <;> rw [h] <;> decide), if_neg]
  rw [hp]
  rcases h with h | h | h | h <;> rw [h] <;> decide

/-- Everything else reaches `Raft::Step`. -/
theorem C42_rest_passed (env : Env) (n : RawNode) (m : Message)
    (h1 : ¬ (m.type = .hup ∨ m.type = .beat ∨ m.type = .unreachable ∨ m.type = .snapStatus ∨ m.type = .checkQuorum))
    (h2 : (m.type = .appResp ∨ m.type = .voteResp ∨ m.type = .heartbeatResp ∨ m.type = .preVoteResp ∨ m.type = .unreachable) →
      n.raft.pr m.src ≠ none) :
    n.step env m = n.onRaft fun r => r.step env m := by
  unfold RawNode.step
  rw [if_neg, if_pos]
  · cases hp : n.raft.pr m.src with
    | some p => exact Or.inl rfl
    | none =>
      refine Or.inr fun hr => h2 ?_ hp
      unfold isResponseMsg at hr
      split at hr <;> simp_all
  · intro hl
    unfold isLocalMsg at hl
    split at hl <;> simp_all

/-- The refusals on a running node: id 7 is not a member of the demo configuration. -/
example : (Demo.node 1 []).raft.pr 7 = none ∧
    (Demo.node 1 []).step Demo.env { type := .appResp, src := 7, term := 9 } = .ok (Demo.node 1 [], some .stepPeerNotFound) := by decide

end Craft
