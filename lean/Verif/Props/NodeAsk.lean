import Verif.Node.Ask
import Verif.Props.NodeTransfer
import Verif.Demo
import Verif.Props.ConfChange

/-! # C71: whom a candidate asks; C70: what a request for a leadership transfer does -/

namespace Craft

/-! ## C71 -/

theorem RawNode.campaign_asks {env : Env} {n n' : RawNode} {e : Option Err} (h : n.campaign env = .ok (n', e)) (hs : n'.raft.state = .candidate) :
    (n.raft.state = .candidate ∧ n'.raft.term = n.raft.term) ∨ (n.raft.term < n'.raft.term ∧ AskedAll [] n.raft n'.raft) := by
  obtain ⟨h, _⟩ := onRaft_ok h
  rcases Raft.step_asks (by rintro (h | h | h) <;> cases h) h hs with k | k
  · exact Or.inl k
  · rw [if_neg nofun] at k; exact Or.inr k

/-- Every call: if the node is a candidate afterwards, then it was one already and the term is the same, or it has just begun an election:
the term rose, and the call asks each other voter of the configuration (of both halves of a joint one), exactly once, and nobody else. The
request carries the new term and the end of the log; it carries the mark of a leadership transfer exactly if the call delivered
`MsgTimeoutNow`. -/
theorem C71_vote_requests {env : Env} {c : Call} {n n' : RawNode} (hst : c.Stamped) (h : c.run env n = .ok n') (hs : n'.raft.state = .candidate) :
    (n.raft.state = .candidate ∧ n'.raft.term = n.raft.term) ∨
    (n.raft.term < n'.raft.term ∧ n'.raft.vote = n'.raft.id ∧
      ∃ new, n'.raft.msgs = n.raft.msgs ++ new ∧ VoteRequests n'.raft .vote n'.raft.term c.voteCtx new) := by
  have other : ¬ CampMsg (c.msg env n) → n.raft.state = .candidate ∧ n'.raft.term = n.raft.term := by
    intro hc
    obtain ⟨_, _, _, _, _, _, hp⟩ := Call.run_path hst h
    exact hp.candidate hc hs
  show (n.raft.state = .candidate ∧ n'.raft.term = n.raft.term) ∨ (n.raft.term < n'.raft.term ∧ AskedAll c.voteCtx n.raft n'.raft)
  cases c with
  | step m =>
    obtain ⟨⟨n1, e⟩, h1, h⟩ := Res.bind_eq_ok.1 h
    cases h
    unfold RawNode.step at h1
    split at h1
    · cases h1; exact Or.inl ⟨hs, rfl⟩
    split at h1
    · exact Raft.step_asks hst (onRaft_ok h1).1 hs
    · cases h1; exact Or.inl ⟨hs, rfl⟩
  | campaign =>
    obtain ⟨⟨n1, e⟩, h1, h⟩ := Res.bind_eq_ok.1 h
    cases h
    exact RawNode.campaign_asks h1 hs
  | tick =>
    by_cases hl : n.raft.state = .leader
    · refine Or.inl (other ?_)
      show ¬ CampMsg (if n.raft.state = .leader then _ else _)
      rw [if_pos hl]
      rintro (h | h | h) <;> cases h
    · by_cases hq : n.raft.promotable = false ∨ n.raft.electionElapsed + 1 < n.raft.randomizedElectionTimeout
      · have h : n.tick env = .ok n' := h
        rw [tick_quiet hl hq] at h
        cases h
        exact Or.inl ⟨hs, rfl⟩
      · have h : n.tick env = .ok n' := h
        have hp : n.raft.promotable = true := by cases hp : n.raft.promotable <;> simp_all
        rw [tick_timeout hl hp (by omega)] at h
        obtain ⟨⟨n1, e⟩, h1, h⟩ := Res.bind_eq_ok.1 h
        cases h
        exact RawNode.campaign_asks (n := n.setElapsed 0) h1 hs
  | _ => exact Or.inl (other (by rintro (h | h | h) <;> cases h))

/-- `Campaign` with `pre_vote`: if the node is then asking for pre-votes, either nothing happened, or it asks each other voter, exactly once
and nobody else, for the next term and with the end of its log, while its own term, vote and log stay as they are. -/
theorem C71_pre_vote_requests {env : Env} {n n' : RawNode} {e : Option Err} (h : n.campaign env = .ok (n', e)) (hs : n'.raft.state = .preCandidate) :
    n' = n ∨ (n.raft.preVote = true ∧ n'.raft.term = n.raft.term ∧ n'.raft.vote = n.raft.vote ∧ n'.raft.log = n.raft.log ∧
      ∃ new, n'.raft.msgs = n.raft.msgs ++ new ∧ VoteRequests n'.raft .preVote (n.raft.term + 1) [] new) := by
  obtain ⟨h, e1⟩ := onRaft_ok h
  rw [Raft.step_hup] at h
  obtain ⟨r, h, h2⟩ := Res.bind_eq_ok.1 h
  simp only [Res.pure_eq, Res.ok.injEq, Prod.mk.injEq] at h2
  obtain ⟨rfl, _⟩ := h2
  rcases Raft.hup_cases h with h | ⟨_, _, _, h⟩
  · left; rw [e1, h]
  · right
    cases hpv : n.raft.preVote with
    | false =>
      rw [hpv] at h
      rcases Raft.campaignElection_state (show n.raft.campaignElection env false = _ from h) with h | h <;> rw [h] at hs <;> cases hs
    | true =>
      rw [hpv, if_pos rfl] at h
      obtain ⟨new, k1, k2⟩ := Raft.preElection_asks h hs
      obtain ⟨k3, k4, k5⟩ := Raft.preElection_keeps h hs
      exact ⟨rfl, k3, k4, k5, new, k1, k2⟩

/-! ## C70 -/

theorem Raft.step_transferLeader {env : Env} {r : Raft} {t : Nat} (hl : r.state = .leader) :
    r.step env { type := .transferLeader, src := t } =
      match r.pr t with
      | none => .ok (r, none)
      | some p => (do let r ← r.leaderTransfer env { type := .transferLeader, src := t } p; pure (r, none)) := by
  unfold Raft.step Raft.stepGate
  rw [if_pos rfl]
  show Raft.stepBody env r { type := .transferLeader, src := t } = _
  unfold Raft.stepBody
  dsimp only
  unfold Raft.stepState
  rw [hl]
  rfl

/-- `TransferLeader` on a leader. The request is ignored if the target is unknown, a learner, or already the target. A request for the
leader itself only gives up a pending transfer. Otherwise the target is noted, in place of any earlier one, and the election clock
restarts; a target that has the whole log is told at once to campaign, and nothing else happens; one that has not is not told yet. -/
theorem C70_request {env : Env} {n n' : RawNode} {t : Nat} (hl : n.raft.state = .leader) (h : n.transferLeader env t = .ok n') :
    (n.raft.pr t = none → n' = n) ∧
    ∀ p, n.raft.pr t = some p →
      (p.isLearner = true ∨ (n.raft.leadTransferee = t ∧ t ≠ 0) → n' = n) ∧
      (p.isLearner = false → n.raft.leadTransferee ≠ t →
        (t = n.raft.id → n' = { n with raft := { n.raft with leadTransferee := 0 } }) ∧
        (t ≠ n.raft.id → n'.raft.leadTransferee = t ∧ n'.raft.electionElapsed = 0 ∧ n'.raft.state = .leader ∧ n'.raft.term = n.raft.term ∧
          (p.mtch = n.raft.log.lastIndex →
            n' = { n with raft := { n.raft with
                    electionElapsed := 0, leadTransferee := t
                    msgs := n.raft.msgs ++ [{ type := .timeoutNow, «to» := t, src := n.raft.id, term := n.raft.term }] } }) ∧
          (p.mtch ≠ n.raft.log.lastIndex →
            ∃ new, n'.raft.msgs = n.raft.msgs ++ new ∧ ∀ m ∈ new, m.type ≠ .timeoutNow))) := by
  obtain ⟨⟨n1, e⟩, h1, h⟩ := Res.bind_eq_ok.1 h
  cases h
  obtain ⟨h, e1⟩ := onRaft_ok h1
  rw [Raft.step_transferLeader hl] at h
  refine ⟨fun hp => ?_, fun p hp => ?_⟩
  · rw [hp] at h
    simp only [Res.ok.injEq, Prod.mk.injEq] at h
    rw [e1, ← h.1]
  · rw [hp] at h
    obtain ⟨r1, h, h2⟩ := Res.bind_eq_ok.1 h
    simp only [Res.pure_eq, Res.ok.injEq, Prod.mk.injEq] at h2
    obtain ⟨rfl, _⟩ := h2
    unfold Raft.leaderTransfer at h
    refine ⟨fun hc => ?_, fun hlr hne => ?_⟩
    · rcases hc with hc | ⟨hc, h0⟩
      · rw [if_pos hc] at h
        rw [e1, ← Res.ok.inj h]
      · by_cases hlr : p.isLearner = true
        · rw [if_pos hlr] at h
          rw [e1, ← Res.ok.inj h]
        rw [if_neg hlr, if_pos ⟨by rw [hc]; exact h0, hc⟩] at h
        rw [e1, ← Res.ok.inj h]
    · rw [if_neg (by rw [hlr]; nofun), if_neg (fun hx => hne hx.2)] at h
      dsimp only at h
      generalize hr1 : (if n.raft.leadTransferee ≠ 0 then { n.raft with leadTransferee := 0 } else n.raft) = r1 at h
      have k1 : r1 = { n.raft with leadTransferee := 0 } := by
        rw [← hr1]
        split
        · rfl
        · rename_i h0
          have h0 : n.raft.leadTransferee = 0 := Classical.not_not.1 h0
          rw [← h0]
      subst k1
      refine ⟨fun hid => ?_, fun hid => ?_⟩
      · rw [if_pos hid] at h
        rw [e1]
        rw [← Res.ok.inj h]
      · rw [if_neg hid] at h
        by_cases hm : p.mtch = n.raft.log.lastIndex
        · rw [if_pos hm] at h
          have h := Raft.send_ok (show Raft.send _ { type := .timeoutNow, «to» := t } = _ from h)
          have ho : n' = { n with raft := { n.raft with
              electionElapsed := 0, leadTransferee := t
              msgs := n.raft.msgs ++ [{ type := .timeoutNow, «to» := t, src := n.raft.id, term := n.raft.term }] } } := by
            rw [e1]
            rw [h]
            rfl
          refine ⟨?_, ?_, ?_, ?_, fun _ => ho, fun hx => absurd hm hx⟩ <;> rw [ho]
          exact hl
        · rw [if_neg hm] at h
          have s := Still.sendAppend h
          exact ⟨s.transferee, s.elapsed, s.state.trans hl, s.term, fun hx => absurd hx hm, fun _ => s.2⟩

/-- A configuration change that removes or demotes the target of a pending transfer gives the transfer up, unless it also removes or demotes
the leader itself. -/
theorem C70_removed_target {env : Env} {n n' : RawNode} {cc : ConfChangeI} {cs : ConfState}
    (hi : Spec.ConfInv n.raft.trk.config n.raft.trk.progress) (hl : n.raft.state = .leader) (h : n.applyConfChange env cc = .ok (n', cs))
    (hs : n.raft.id ∈ cs.voters ∨ n.raft.id ∈ cs.votersOutgoing) (hv : cs.voters ≠ []) (h0 : n'.raft.leadTransferee ≠ 0) :
    n'.raft.leadTransferee ∈ cs.voters ∨ n'.raft.leadTransferee ∈ cs.votersOutgoing := by
  obtain ⟨⟨r1, cs1⟩, h1, h⟩ := Res.bind_eq_ok.1 h
  simp only [Res.pure_eq, Res.ok.injEq, Prod.mk.injEq] at h
  obtain ⟨rfl, rfl⟩ := h
  dsimp only at h0 ⊢
  obtain ⟨cfg, prs, hc, h⟩ : ∃ cfg prs, Spec.ConfInv cfg prs ∧ n.raft.switchToConfig env cfg prs = .ok (r1, cs1) := by
    unfold Raft.applyConfChange at h1
    dsimp only at h1
    split at h1
    · cases h1
    · rename_i cfg prs hq
      refine ⟨cfg, prs, ?_, h1⟩
      split at hq
      · exact C10_confchange_invariants _ hi false [] _ _ (Or.inr (Or.inr hq))
      · split at hq
        · exact C10_confchange_invariants _ hi _ _ _ _ (Or.inr (Or.inl hq))
        · exact C10_confchange_invariants _ hi false _ _ _ (Or.inl hq)
  have hcs : cs1.voters = cfg.voters.incoming ∧ cs1.votersOutgoing = cfg.voters.outgoing := by
    unfold Raft.switchToConfig at h
    dsimp only at h
    split at h
    · cases h; exact ⟨rfl, rfl⟩
    split at h
    · cases h; exact ⟨rfl, rfl⟩
    obtain ⟨r2, h2, h⟩ := Res.bind_eq_ok.1 h
    split at h <;> (cases h; exact ⟨rfl, rfl⟩)
  rw [hcs.1, hcs.2] at hs
  rw [hcs.1] at hv
  rw [hcs.1, hcs.2]
  obtain ⟨p, hp⟩ := (hc.prs_exact n.raft.id).2 (by rcases hs with hs | hs; exact Or.inl hs; exact Or.inr (Or.inl hs))
  have hpl : p.isLearner = false := by
    cases hpl : p.isLearner with
    | false => rfl
    | true =>
      have := (hc.lrn_flag _ _ hp).1 hpl
      rcases hs with hs | hs
      · exact absurd hs (hc.lrn_not_inc _ this)
      · exact absurd hs (hc.lrn_not_out _ this)
  unfold Raft.switchToConfig at h
  dsimp only at h
  rw [if_neg, if_neg] at h
  · obtain ⟨r2, h2, h⟩ := Res.bind_eq_ok.1 h
    have s := Still.switchSend h2
    have e : r2.trk.config = cfg := (congrArg (fun r : Raft => r.trk.config) s.1 :)
    split at h
    · cases h; exact absurd rfl h0
    · rename_i hh
      cases h
      have : r1.trk.config.voters.ids.has r1.leadTransferee = true := by
        cases hq : r1.trk.config.voters.ids.has r1.leadTransferee with
        | true => rfl
        | false => exact absurd ⟨by rw [hq]; nofun, h0⟩ hh
      rw [USet.has_iff, mem_ids, e] at this
      exact this
  · rintro (hx | hx)
    · exact hx hl
    · exact hv (List.length_eq_zero_iff.1 hx)
  · rintro ⟨hx, _⟩
    rcases hx with hx | hx
    · exact absurd (show (AMap.find prs n.raft.id).isNone = true from hx) (by rw [hp]; nofun)
    · have hx : (match AMap.find prs n.raft.id with | some p => p.isLearner | none => false) = true := hx
      rw [hp] at hx
      rw [show p.isLearner = true from hx] at hpl
      cases hpl

/-- The target's side: a promotable follower that is told to campaign starts an election at once, without a pre-vote, unless a committed
configuration change is not applied yet; its vote requests carry the mark of a transfer (C71). -/
theorem C70_campaigns {env : Env} {n n' : RawNode} {m : Message} (hm : m.type = .timeoutNow) (ht : m.term = n.raft.term) (hf : n.raft.state = .follower)
    (hp : n.raft.promotable = true) (hc : NoPendingConf env n) (h : Call.run env n (.step m) = .ok n') :
    n'.raft.term = n.raft.term + 1 ∧ n'.raft.vote = n.raft.id ∧
      (n'.raft.state = .leader ∨
        (n'.raft.state = .candidate ∧
          ∃ new, n'.raft.msgs = n.raft.msgs ++ new ∧ VoteRequests n'.raft .vote (n.raft.term + 1) campaignTransferCtx new)) := by
  obtain ⟨⟨n1, e⟩, h1, h⟩ := Res.bind_eq_ok.1 h
  cases h
  unfold RawNode.step at h1
  rw [if_neg (by rw [hm]; nofun), if_pos (Or.inr (by rw [hm]; nofun))] at h1
  obtain ⟨h, e1⟩ := onRaft_ok h1
  have h : (do let r ← n.raft.hup env .transfer; pure (r, none)) = Res.ok (n'.raft, e) := by
    unfold Raft.step Raft.stepGate at h
    rw [← h]
    by_cases h0 : m.term = 0
    · rw [if_pos h0]
      show _ = Raft.stepBody env n.raft m
      unfold Raft.stepBody
      simp only [hm]
      unfold Raft.stepState
      rw [hf]
      show _ = Raft.stepFollower env n.raft m
      unfold Raft.stepFollower
      simp only [hm]
    · rw [if_neg h0, if_neg (by omega), if_neg (by omega)]
      show _ = Raft.stepBody env n.raft m
      unfold Raft.stepBody
      simp only [hm]
      unfold Raft.stepState
      rw [hf]
      show _ = Raft.stepFollower env n.raft m
      unfold Raft.stepFollower
      simp only [hm]
  obtain ⟨r, h, h2⟩ := Res.bind_eq_ok.1 h
  simp only [Res.pure_eq, Res.ok.injEq, Prod.mk.injEq] at h2
  obtain ⟨rfl, _⟩ := h2
  have hcamp : n.raft.campaignElection env true = .ok n'.raft := by
    unfold Raft.hup at h
    rw [if_neg (by rw [hf]; nofun), if_neg (by simpa using hp)] at h
    obtain ⟨x, hx, h⟩ := Res.bind_eq_ok.1 h
    cases x with
    | error e => cases h
    | ok es =>
      dsimp only at h
      rw [if_neg] at h
      · exact h
      · rintro ⟨hne, _⟩
        apply hne
        have := hc es hx
        unfold Raft.numOfPendingConf
        rw [List.length_eq_zero_iff, List.filter_eq_nil_iff]
        intro e he
        simp [this e he]
  obtain ⟨k1, k2⟩ := Raft.campaignElection_own hcamp
  refine ⟨k1, k2, ?_⟩
  rcases Raft.campaignElection_state hcamp with hs | hs
  · obtain ⟨_, _, k⟩ := Raft.campaignElection_asks hcamp hs
    rw [k1] at k
    exact Or.inr ⟨hs, k⟩
  · exact Or.inl hs

/-! ## The statements are not empty -/

/-- Node 1 leads, node 2 has acknowledged its whole log, node 3 nothing. -/
def Demo.acked : List Call := Demo.elect ++ [.getReady, .step { type := .appResp, src := 2, «to» := 1, term := 1, index := 1 }, .getReady]

/-- A target that has everything is told at once; one that lags is noted and told when it has caught up; an election timeout later the
wait ends. -/
example : (Demo.node 1 Demo.acked).raft.state = .leader ∧ (Demo.node 1 Demo.acked).raft.msgs = [] ∧
    (Demo.node 1 (Demo.acked ++ [.transferLeader 2])).raft.msgs = [{ type := .timeoutNow, «to» := 2, src := 1, term := 1 }] ∧
    (Demo.node 1 (Demo.acked ++ [.transferLeader 3])).raft.leadTransferee = 3 ∧
    (∀ m ∈ (Demo.node 1 (Demo.acked ++ [.transferLeader 3])).raft.msgs, m.type ≠ .timeoutNow) ∧
    (∃ m ∈ (Demo.node 1 (Demo.acked ++ [.transferLeader 3, .step { type := .appResp, src := 3, «to» := 1, term := 1, index := 1 }])).raft.msgs,
      m.type = .timeoutNow ∧ m.to = 3) ∧
    (Demo.node 1 (Demo.acked ++ .transferLeader 3 :: List.replicate 9 .tick)).raft.leadTransferee = 3 ∧
    (Demo.node 1 (Demo.acked ++ .transferLeader 3 :: List.replicate 10 .tick)).raft.leadTransferee = 0 := by decide +kernel

/-- A request for an unknown node, and one for the leader itself. -/
example : Demo.node 1 (Demo.acked ++ [.transferLeader 9]) = Demo.node 1 Demo.acked ∧
    (Demo.node 1 (Demo.acked ++ [.transferLeader 3, .transferLeader 1])).raft.leadTransferee = 0 := by decide +kernel

/-- A removed target is given up. -/
example : (Demo.node 1 (Demo.acked ++ [.transferLeader 3, .applyConfChange (.v2 { changes := [{ type := .removeNode, nodeId := 3 }] })])).raft.leadTransferee = 0 ∧
    (Demo.node 1 (Demo.acked ++ [.transferLeader 2, .applyConfChange (.v2 { changes := [{ type := .removeNode, nodeId := 3 }] })])).raft.leadTransferee = 2 := by
  decide +kernel

/-- The target campaigns; its requests carry the mark. A campaign of its own carries none. -/
example : (Demo.node 2 [.step { type := .timeoutNow, src := 1, «to» := 2 }]).raft.state = .candidate ∧
    (Demo.node 2 [.step { type := .timeoutNow, src := 1, «to» := 2 }]).raft.msgs.map (fun m => (m.type, m.to, m.term, m.context)) =
      [(.vote, 1, 1, campaignTransferCtx), (.vote, 3, 1, campaignTransferCtx)] ∧
    (Demo.node 2 [.campaign]).raft.msgs.map (fun m => (m.type, m.to, m.term, m.context)) = [(.vote, 1, 1, []), (.vote, 3, 1, [])] := by decide +kernel

end Craft
