import Verif.Node.Append
import Verif.Props.NodeLocal

/-! # C37, C39: proposals -/

namespace Craft
open Spec

/-- The reasons to refuse a proposal of the given payload size: no leader to send it to (or forwarding is off), an election
going on, a leader that left the configuration, that is handing over its leadership, or whose quota is used up. -/
def Refuses (n : RawNode) (size : Nat) : Prop :=
  match n.raft.state with
  | .candidate | .preCandidate => True
  | .follower => n.raft.lead = 0 ∨ n.raft.disableProposalForwarding = true
  | .leader => n.raft.pr n.raft.id = none ∨ n.raft.leadTransferee ≠ 0 ∨
      (n.raft.uncommittedSize > 0 ∧ size > 0 ∧ n.raft.uncommittedSize + size > n.raft.maxUncommittedSize)

namespace Raft
variable {env : Env}

theorem gateConf_normal {r : Raft} (es : List Entry) (i pci : Nat) (h : ∀ e ∈ es, e.type = .normal) :
    gateConf env r i pci es = .ok (es, pci) := by
  induction es generalizing i pci with
  | nil => rfl
  | cons e es ih =>
    unfold gateConf
    have ht := h e (List.mem_cons_self ..)
    simp only [ht, Res.pure_eq, Res.ok_bind]
    rw [ih (i + 1) pci fun x hx => h x (List.mem_cons_of_mem _ hx)]
    rfl

/-- A proposal of any entries, as `Step` handles it. -/
theorem step_prop {r : Raft} {m : Message} (ht : m.type = .prop) (h0 : m.term = 0) : r.step env m = r.stepState env m := by
  unfold step stepGate
  rw [if_pos h0]
  show r.stepBody env m = _
  unfold stepBody
  simp only [ht]

theorem leaderProp_cases {r r' : Raft} {m : Message} {e : Option Err} (hl : r.state = .leader) (hw : r.log.WF) (h : r.leaderProp env m = .ok (r', e)) :
    (e = some .proposalDropped ∧ r' = r ∧ (r.pr r.id = none ∨ r.leadTransferee ≠ 0)) ∨
    (r.pr r.id ≠ none ∧ r.leadTransferee = 0 ∧ ∃ es pci, gateConf env r 0 r.pendingConfIndex m.entries = .ok (es, pci) ∧
      ((e = some .proposalDropped ∧ r' = { r with pendingConfIndex := pci } ∧ r.OverQuota (payloads es)) ∨
       (e = none ∧ ¬ r.OverQuota (payloads es) ∧ r'.log.view = r.log.view.push (stamp r.term (r.log.lastIndex + 1) es) ∧
         r'.log.WF ∧ r'.state = r.state ∧ r'.term = r.term))) := by
  unfold leaderProp at h
  by_cases h1 : m.entries = []
  · rw [if_pos h1] at h; cases h
  rw [if_neg h1] at h
  by_cases h2 : (r.pr r.id).isNone = true
  · rw [if_pos h2] at h
    simp only [Res.ok.injEq, Prod.mk.injEq] at h
    exact Or.inl ⟨h.2.symm, h.1.symm, Or.inl (Option.isNone_iff_eq_none.1 h2)⟩
  rw [if_neg h2] at h
  by_cases h3 : r.leadTransferee ≠ 0
  · rw [if_pos h3] at h
    simp only [Res.ok.injEq, Prod.mk.injEq] at h
    exact Or.inl ⟨h.2.symm, h.1.symm, Or.inr h3⟩
  rw [if_neg h3] at h
  refine Or.inr ⟨fun hn => h2 (by rw [hn]; rfl), Decidable.byContradiction h3, ?_⟩
  obtain ⟨⟨es, pci⟩, hgc, h⟩ := Res.bind_eq_ok.1 h
  refine ⟨es, pci, hgc, ?_⟩
  obtain ⟨⟨r1, ok⟩, hap, h⟩ := Res.bind_eq_ok.1 h
  have hr := appendEntry_refused hap
  cases ok with
  | false =>
    simp only [Bool.false_eq_true, not_false_eq_true, if_true, Res.pure_eq, Res.ok.injEq, Prod.mk.injEq] at h
    obtain ⟨rfl, rfl⟩ := h
    exact Or.inl ⟨rfl, hr.2 rfl, hr.1.1 rfl⟩
  | true =>
    simp only [not_true_eq_false, if_false] at h
    obtain ⟨r2, hb, h⟩ := Res.bind_eq_ok.1 h
    simp only [Res.pure_eq, Res.ok.injEq, Prod.mk.injEq] at h
    obtain ⟨rfl, rfl⟩ := h
    obtain ⟨w, v, _, _, s, t⟩ := appendEntry_accepted (r := { r with pendingConfIndex := pci }) hw hap
    refine Or.inr ⟨rfl, fun hq => (nomatch hr.1.2 hq), ?_⟩
    have q := bcastAppend_qsim (im := m) (s.trans hl) hb
    rw [q.log, q.state, q.term]
    exact ⟨v, w, s, t⟩

/-- The outcome of a proposal message on any node. -/
theorem prop_cases {r r' : Raft} {m : Message} {e : Option Err} (hw : r.log.WF) (ht : m.type = .prop) (h0 : m.term = 0)
    (h : r.step env m = .ok (r', e)) :
    (e = some .proposalDropped ∧ r' = r ∧ (r.state = .candidate ∨ r.state = .preCandidate ∨
      (r.state = .follower ∧ (r.lead = 0 ∨ r.disableProposalForwarding = true)) ∨
      (r.state = .leader ∧ (r.pr r.id = none ∨ r.leadTransferee ≠ 0)))) ∨
    (r.state = .follower ∧ r.lead ≠ 0 ∧ r.disableProposalForwarding = false ∧ e = none ∧
      r' = { r with msgs := r.msgs ++ [{ m with to := r.lead, src := if m.src = 0 then r.id else m.src }] }) ∨
    (r.state = .leader ∧ r.pr r.id ≠ none ∧ r.leadTransferee = 0 ∧ ∃ es pci, gateConf env r 0 r.pendingConfIndex m.entries = .ok (es, pci) ∧
      ((e = some .proposalDropped ∧ r' = { r with pendingConfIndex := pci } ∧ r.OverQuota (payloads es)) ∨
       (e = none ∧ ¬ r.OverQuota (payloads es) ∧ r'.log.view = r.log.view.push (stamp r.term (r.log.lastIndex + 1) es) ∧
         r'.log.WF ∧ r'.state = r.state ∧ r'.term = r.term))) := by
  rw [step_prop ht h0] at h
  unfold stepState at h
  cases hs : r.state with
  | candidate =>
    simp only [hs] at h
    unfold stepCandidate at h
    simp only [ht, Res.ok.injEq, Prod.mk.injEq] at h
    exact Or.inl ⟨h.2.symm, h.1.symm, Or.inl rfl⟩
  | preCandidate =>
    simp only [hs] at h
    unfold stepCandidate at h
    simp only [ht, Res.ok.injEq, Prod.mk.injEq] at h
    exact Or.inl ⟨h.2.symm, h.1.symm, Or.inr (Or.inl rfl)⟩
  | follower =>
    simp only [hs] at h
    unfold stepFollower at h
    simp only [ht] at h
    by_cases h1 : r.lead = 0
    · rw [if_pos h1] at h
      simp only [Res.ok.injEq, Prod.mk.injEq] at h
      exact Or.inl ⟨h.2.symm, h.1.symm, Or.inr (Or.inr (Or.inl ⟨rfl, Or.inl h1⟩))⟩
    rw [if_neg h1] at h
    by_cases h2 : r.disableProposalForwarding = true
    · rw [if_pos h2] at h
      simp only [Res.ok.injEq, Prod.mk.injEq] at h
      exact Or.inl ⟨h.2.symm, h.1.symm, Or.inr (Or.inr (Or.inl ⟨rfl, Or.inr h2⟩))⟩
    rw [if_neg h2] at h
    obtain ⟨r1, hsend, h⟩ := Res.bind_eq_ok.1 h
    simp only [Res.pure_eq, Res.ok.injEq, Prod.mk.injEq] at h
    refine Or.inr (Or.inl ⟨rfl, h1, by simpa using h2, h.2.symm, ?_⟩)
    rw [← h.1]
    unfold send at hsend
    by_cases hsrc : m.src = 0
    · simp only [hsrc, if_true, ht, h0, ne_eq, not_true_eq_false, if_false, Res.ok.injEq] at hsend
      rw [← hsend]
      simp only [hsrc, if_true, ht, h0, hs]
    · simp only [hsrc, if_false, ht, h0, ne_eq, not_true_eq_false, Res.ok.injEq] at hsend
      rw [← hsend]
      simp only [hsrc, if_false, ht, h0, hs]
  | leader =>
    simp only [hs] at h
    have h : r.leaderProp env m = .ok (r', e) := by
      unfold stepLeader at h
      simp only [ht] at h
      exact h
    rcases leaderProp_cases hs hw h with ⟨h1, h2, h3⟩ | ⟨h1, h2, h3⟩
    · exact Or.inl ⟨h1, h2, Or.inr (Or.inr (Or.inr ⟨rfl, h3⟩))⟩
    · refine Or.inr (Or.inr ⟨rfl, h1, h2, ?_⟩)
      obtain ⟨es, pci, g, h⟩ := h3
      rw [hs] at h
      exact ⟨es, pci, g, h⟩

end Raft

/-! ## C39 -/

/-- `Propose` refuses for exactly the listed reasons, and then changes nothing. Otherwise, on a leader the entry is the
last one of the log, with the leader's term; on a follower the proposal is in the outbox, addressed to the leader, and
nothing else changes. -/
theorem C39_propose {env : Env} {n n' : RawNode} {data : Bytes} {e : Option Err} (hw : n.raft.log.WF)
    (h : n.propose env data = .ok (n', e)) :
    (Refuses n data.length ∧ e = some .proposalDropped ∧ n' = n) ∨
    (¬ Refuses n data.length ∧ e = none ∧
      ((n.raft.state = .leader ∧ n'.raft.log.view =
          n.raft.log.view.push [{ term := n.raft.term, index := n.raft.log.view.last + 1, type := .normal, data := data }]) ∨
       (n.raft.state = .follower ∧
          OnlySent n n' [{ type := .prop, src := n.raft.id, to := n.raft.lead, entries := [{ data := data }] }]))) := by
  obtain ⟨h, hn⟩ := onRaft_ok h
  have hsz : ∀ (ns : List Entry) (pci : Nat), Raft.gateConf env n.raft 0 n.raft.pendingConfIndex [{ data := data }] = .ok (ns, pci) →
      ns = [{ data := data }] ∧ pci = n.raft.pendingConfIndex := by
    intro ns pci hg
    rw [Raft.gateConf_normal [{ data := data }] 0 n.raft.pendingConfIndex (fun e he => by rw [List.mem_singleton] at he; subst he; rfl)] at hg
    simp only [Res.ok.injEq, Prod.mk.injEq] at hg
    exact ⟨hg.1.symm, hg.2.symm⟩
  have hpay : Raft.payloads [({ data := data } : Entry)] = data.length := by
    simp [Raft.payloads, payloadSize]
  rcases Raft.prop_cases hw rfl rfl h with ⟨h1, h2, h3⟩ | ⟨h1, h2, h3, h4, h5⟩ | ⟨h1, h2, h3, es, pci, hg, h4⟩
  · left
    refine ⟨?_, h1, by rw [hn, h2]⟩
    unfold Refuses
    rcases h3 with h3 | h3 | ⟨h3, h4⟩ | ⟨h3, h4⟩
    · rw [h3]; trivial
    · rw [h3]; trivial
    · rw [h3]; exact h4
    · rw [h3]
      rcases h4 with h4 | h4
      · exact Or.inl h4
      · exact Or.inr (Or.inl h4)
  · right
    refine ⟨?_, h4, Or.inr ⟨h1, ?_⟩⟩
    · unfold Refuses
      rw [h1]
      rintro (h | h)
      · exact h2 h
      · rw [h3] at h; cases h
    · unfold OnlySent
      rw [hn, h5]
      by_cases hid : n.raft.id = 0
      · simp [hid]
      · simp [hid]
  · obtain ⟨rfl, rfl⟩ := hsz es pci hg
    rw [hpay] at h4
    rcases h4 with ⟨h4, h5, h6⟩ | ⟨h4, h5, h6, _⟩
    · left
      refine ⟨?_, h4, by rw [hn, h5]⟩
      unfold Refuses
      rw [h1]
      exact Or.inr (Or.inr h6)
    · right
      refine ⟨?_, h4, Or.inl ⟨h1, ?_⟩⟩
      · unfold Refuses
        rw [h1]
        rintro (h | h | h)
        · exact h2 h
        · exact h h3
        · exact h5 h
      · rw [h6, hw.lastIndex_eq]
        rfl

/-- `ProposeConfChange`: refused ones change at most the remembered position of the pending configuration change. On a
leader an accepted one puts exactly one entry at the end of the log, the proposed one or an empty one. -/
theorem C39_proposeConfChange {env : Env} {n n' : RawNode} {cc : ConfChangeI} {e : Option Err} (hw : n.raft.log.WF)
    (h : n.proposeConfChange env cc = .ok (n', e)) :
    (e = some .proposalDropped ∧ ∃ pci, n' = { n with raft := { n.raft with pendingConfIndex := pci } }) ∨
    (e = none ∧
      ((n.raft.state = .leader ∧ ∃ x : Entry, (x = {} ∨ x = { type := (cc.marshal env).1, data := (cc.marshal env).2 }) ∧
          n'.raft.log.view = n.raft.log.view.push [{ x with term := n.raft.term, index := n.raft.log.view.last + 1 }]) ∨
       (n.raft.state = .follower ∧ n.raft.lead ≠ 0 ∧
          OnlySent n n' [{ type := .prop, src := n.raft.id, to := n.raft.lead
                           entries := [{ type := (cc.marshal env).1, data := (cc.marshal env).2 }] }]))) := by
  have h : (n.onRaft fun r => r.step env { type := .prop, entries := [{ type := (cc.marshal env).1, data := (cc.marshal env).2 }] }) = .ok (n', e) := h
  obtain ⟨h, hn⟩ := onRaft_ok h
  rcases Raft.prop_cases hw rfl rfl h with ⟨h1, h2, h3⟩ | ⟨h1, h2, h3, h4, h5⟩ | ⟨h1, h2, h3, es, pci, hg, h4⟩
  · exact Or.inl ⟨h1, n.raft.pendingConfIndex, by rw [hn, h2]⟩
  · refine Or.inr ⟨h4, Or.inr ⟨h1, h2, ?_⟩⟩
    unfold OnlySent
    rw [hn, h5]
    rfl
  · rcases h4 with ⟨h4, h5, h6⟩ | ⟨h4, h5, h6, _⟩
    · exact Or.inl ⟨h4, pci, by rw [hn, h5]⟩
    · refine Or.inr ⟨h4, Or.inl ⟨h1, ?_⟩⟩
      obtain ⟨g1, g2, _⟩ := Raft.gateConf_spec _ hg
      match es, g1, g2 with
      | [x], _, g2 =>
        refine ⟨x, ?_, ?_⟩
        · rcases g2 0 x rfl with h | h
          · exact Or.inl h
          · right
            simpa using h.symm
        · rw [h6, hw.lastIndex_eq]
          rfl

/-! ## C37 -/

/-- On a leader that is a member and not handing over: a proposal (any number of normal entries, local or forwarded) is
refused iff something is uncommitted, the payload is not empty and both together exceed the limit. Refused: reported as
dropped and nothing changes. Otherwise the entries are appended. -/
theorem C37_quota {env : Env} {n n' : RawNode} {m : Message} {e : Option Err} (hw : n.raft.log.WF) (hl : n.raft.state = .leader)
    (hm : n.raft.pr n.raft.id ≠ none) (htr : n.raft.leadTransferee = 0) (ht : m.type = .prop) (h0 : m.term = 0)
    (hn : ∀ x ∈ m.entries, x.type = .normal) (h : n.step env m = .ok (n', e)) :
    let size := (m.entries.map fun x => x.data.length).sum
    ((n.raft.uncommittedSize > 0 ∧ size > 0 ∧ n.raft.uncommittedSize + size > n.raft.maxUncommittedSize) ∧
      e = some .proposalDropped ∧ n' = n) ∨
    (¬ (n.raft.uncommittedSize > 0 ∧ size > 0 ∧ n.raft.uncommittedSize + size > n.raft.maxUncommittedSize) ∧
      e = none ∧ n'.raft.log.view.last = n.raft.log.view.last + m.entries.length) := by
  intro size
  unfold RawNode.step at h
  rw [if_neg (by rw [ht]; decide), if_pos (Or.inr (by rw [ht]; decide))] at h
  obtain ⟨h, hnn⟩ := onRaft_ok h
  rcases Raft.prop_cases hw ht h0 h with ⟨h1, h2, h3⟩ | ⟨h1, _⟩ | ⟨_, _, _, es, pci, hg, h4⟩
  · rw [hl] at h3
    rcases h3 with h3 | h3 | h3 | h3
    · cases h3
    · cases h3
    · cases h3.1
    · rcases h3.2 with h | h
      · exact absurd h hm
      · exact absurd htr h
  · rw [hl] at h1; cases h1
  · rw [Raft.gateConf_normal _ _ _ hn] at hg
    simp only [Res.ok.injEq, Prod.mk.injEq] at hg
    obtain ⟨rfl, rfl⟩ := hg
    have hp : Raft.payloads m.entries = size := rfl
    rw [hp] at h4
    rcases h4 with ⟨h4, h5, h6⟩ | ⟨h4, h5, h6, _⟩
    · exact Or.inl ⟨h6, h4, by rw [hnn, h5]⟩
    · refine Or.inr ⟨h5, h4, ?_⟩
      rw [h6]
      unfold LogView.last LogView.push
      dsimp only
      rw [List.length_append, Raft.stamp_length, Nat.add_assoc]

/-- In particular an empty payload, or any proposal while nothing is uncommitted, is accepted. -/
theorem C37_never_refused {env : Env} {n n' : RawNode} {data : Bytes} {e : Option Err} (hw : n.raft.log.WF) (hl : n.raft.state = .leader)
    (hm : n.raft.pr n.raft.id ≠ none) (htr : n.raft.leadTransferee = 0) (hz : data = [] ∨ n.raft.uncommittedSize = 0)
    (h : n.propose env data = .ok (n', e)) : e = none := by
  rcases C39_propose hw h with ⟨h1, _⟩ | ⟨_, h, _⟩
  · unfold Refuses at h1
    rw [hl] at h1
    rcases h1 with h1 | h1 | ⟨h1, h2, h3⟩
    · exact absurd h1 hm
    · exact absurd htr h1
    · rcases hz with rfl | hz
      · exact absurd h2 (by decide)
      · omega
  · exact h

/-- A refused proposal that carries configuration changes leaves the log, the term, the vote and the outbox as they were. -/
theorem C37_refused_log {env : Env} {n n' : RawNode} {m : Message} (hw : n.raft.log.WF) (ht : m.type = .prop) (h0 : m.term = 0)
    (h : n.step env m = .ok (n', some .proposalDropped)) :
    ∃ pci, n' = { n with raft := { n.raft with pendingConfIndex := pci } } := by
  unfold RawNode.step at h
  rw [if_neg (by rw [ht]; decide), if_pos (Or.inr (by rw [ht]; decide))] at h
  obtain ⟨h, hnn⟩ := onRaft_ok h
  rcases Raft.prop_cases hw ht h0 h with ⟨h1, h2, h3⟩ | ⟨_, _, _, h1, _⟩ | ⟨_, _, _, es, pci, hg, h4⟩
  · exact ⟨n.raft.pendingConfIndex, by rw [hnn, h2]⟩
  · cases h1
  · rcases h4 with ⟨h4, h5, h6⟩ | ⟨h4, _⟩
    · exact ⟨pci, by rw [hnn, h5]⟩
    · cases h4

/-- On the demo leader: a proposal is appended at index 2; with a quota of 3 bytes a second one of 2 bytes is refused; a
candidate and a node without a leader refuse. -/
example : (match (Demo.node 1 Demo.elect).propose Demo.env [7, 8] with
      | .ok (n, none) => decide (n.raft.log.lastIndex = 2 ∧ n.raft.uncommittedSize = 2) | _ => false) = true ∧
    (match (do
      let n ← RawNode.new Demo.env { Demo.cfg 1 with maxUncommittedEntriesSize := 3 } Demo.store 0
      let n ← Demo.elect.foldlM (fun n c => c.run Demo.env n) n
      let (n, e1) ← n.propose Demo.env [7, 8]
      let (n', e2) ← n.propose Demo.env [9, 9]
      pure (decide (e1 = none ∧ e2 = some .proposalDropped ∧ n' = n)) : Res Bool) with | .ok b => b | _ => false) = true ∧
    (match (Demo.node 1 [.campaign]).propose Demo.env [1] with | .ok (_, some .proposalDropped) => true | _ => false) = true ∧
    (match (Demo.node 1 []).propose Demo.env [1] with | .ok (_, some .proposalDropped) => true | _ => false) = true := by decide

end Craft
