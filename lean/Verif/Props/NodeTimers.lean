import Verif.Node.History
import Verif.Props.NodeLocal
import Verif.Props.Quorum
import Verif.Spec.ConfChange

/-! # C36, C40, C46: timers and elections -/

namespace Craft
open Spec

/-! ## C46: the election timeout -/

/-- The timeout of a node is always between `election_tick` and `2 * election_tick - 1`: in every history of calls,
Readies, crashes and restarts, for every random stream. -/
theorem C46_timeout_range {env : Env} {x : NodeHist} (h : NodeReach env x) :
    x.node.raft.electionTimeout ≤ x.node.raft.randomizedElectionTimeout ∧
    x.node.raft.randomizedElectionTimeout ≤ 2 * x.node.raft.electionTimeout - 1 := by
  have := NodeReach.inv_keep (fun n => 0 ≤ toI32 ((n.raft.electionTimeout : Int) - 1) ∧ TimerOk n.raft)
    (fun c st rng n h => ⟨(RawNode.new_ok h).1.tick_ok, (RawNode.new_ok h).1.timer⟩)
    (fun a b k ⟨h1, h2⟩ => by
      have he : b.raft.electionTimeout = a.raft.electionTimeout := congrArg Consts.electionTimeout k.1
      exact ⟨by rw [he]; exact h1, k.timerOk h1 h2⟩) h
  obtain ⟨_, h1, h2⟩ := this
  exact ⟨h1, by omega⟩

/-- `election_tick` is what the node was configured with. -/
theorem C46_timeout_configured {env : Env} {c : Config} {st : Storage} {rng : Nat} {n : RawNode}
    (h : RawNode.new env c st rng = .ok n) : (n.raft.electionTimeout : Int) = c.electionTick := (RawNode.new_ok h).1.electionTimeout

theorem C46_timeout_kept {env : Env} {x y : NodeHist} (h : NodeStep env x y) :
    y.node.raft.electionTimeout = x.node.raft.electionTimeout := congrArg Consts.electionTimeout h.keep.1

/-- `k` ticks and nothing else. -/
def ticks (env : Env) : Nat → RawNode → Res RawNode
  | 0, n => .ok n
  | k + 1, n => do
    let n ← n.tick env
    ticks env k n

/-- The node with its election clock set. -/
def RawNode.setElapsed (n : RawNode) (e : Nat) : RawNode := { n with raft := { n.raft with electionElapsed := e } }

theorem tick_quiet {env : Env} {n : RawNode} (hs : n.raft.state ≠ .leader)
    (h : n.raft.promotable = false ∨ n.raft.electionElapsed + 1 < n.raft.randomizedElectionTimeout) :
    n.tick env = .ok (n.setElapsed (n.raft.electionElapsed + 1)) := by
  have ht : n.raft.tick env = .ok { n.raft with electionElapsed := n.raft.electionElapsed + 1 } := by
    have h1 : n.raft.tick env = n.raft.tickElection env := by
      unfold Raft.tick; split
      · rename_i h; exact absurd h hs
      · rfl
    rw [h1]
    unfold Raft.tickElection
    dsimp only
    rw [if_neg]
    rintro ⟨hp, ha⟩
    rcases h with h | h
    · exact absurd (show n.raft.promotable = true from hp) (by rw [h]; decide)
    · have : n.raft.randomizedElectionTimeout ≤ n.raft.electionElapsed + 1 := of_decide_eq_true ha
      omega
  unfold RawNode.tick
  rw [ht]
  rfl

theorem tick_timeout {env : Env} {n : RawNode} (hs : n.raft.state ≠ .leader) (hp : n.raft.promotable = true)
    (h : n.raft.randomizedElectionTimeout ≤ n.raft.electionElapsed + 1) :
    n.tick env = (do let (n, _) ← (n.setElapsed 0).campaign env; pure n) := by
  have h1 : n.raft.tick env = n.raft.tickElection env := by
    unfold Raft.tick; split
    · rename_i h; exact absurd h hs
    · rfl
  unfold RawNode.tick
  rw [h1]
  unfold Raft.tickElection
  dsimp only
  rw [if_pos ⟨hp, decide_eq_true h⟩]
  unfold RawNode.campaign RawNode.onRaft
  have e1 : ∀ s, (n.setElapsed 0).raft.step env { type := .hup, src := s } = (do let r ← (n.setElapsed 0).raft.hup env (if n.raft.preVote then .preElection else .election); pure (r, none)) :=
    fun s => rfl
  show ((((n.setElapsed 0).raft.step env { type := .hup, src := n.raft.id }) >>= fun x => pure x.1) >>= fun r => (pure { n with raft := r } : Res RawNode)) =
    (((n.setElapsed 0).raft.step env { type := .hup, src := 0 } >>= fun x => pure ({ n.setElapsed 0 with raft := x.1 }, x.2)) >>= fun x => pure x.1)
  rw [e1, e1]
  cases h : (n.setElapsed 0).raft.hup env (if n.raft.preVote then .preElection else .election) with
  | ok r => rfl
  | fatal s => rfl
  | ub s => rfl

/-- Ticks before the timeout change nothing but the clock. -/
theorem C46_no_early_campaign {env : Env} (k : Nat) {n : RawNode} (hs : n.raft.state ≠ .leader)
    (h : n.raft.electionElapsed + k < n.raft.randomizedElectionTimeout) :
    ticks env k n = .ok (n.setElapsed (n.raft.electionElapsed + k)) := by
  induction k generalizing n with
  | zero => rfl
  | succ k ih =>
    unfold ticks
    rw [tick_quiet hs (Or.inr (by omega))]
    show ticks env k (n.setElapsed (n.raft.electionElapsed + 1)) = _
    rw [ih (n := n.setElapsed (n.raft.electionElapsed + 1)) hs (by show n.raft.electionElapsed + 1 + k < _; show _ < n.raft.randomizedElectionTimeout; omega)]
    show Res.ok (n.setElapsed (n.raft.electionElapsed + 1 + k)) = _
    rw [Nat.add_right_comm]; rfl

/-- The tick at the timeout is `Campaign` (with the clock restarted). -/
theorem C46_campaign_at_timeout {env : Env} (k : Nat) {n : RawNode} (hs : n.raft.state ≠ .leader) (hp : n.raft.promotable = true)
    (h : n.raft.electionElapsed + k + 1 = n.raft.randomizedElectionTimeout) :
    ticks env (k + 1) n = (do let (n, _) ← (n.setElapsed 0).campaign env; pure n) := by
  have hk : ∀ j (m : RawNode), ticks env (j + 1) m = (do let m ← ticks env j m; m.tick env) := by
    intro j
    induction j with
    | zero =>
      intro m
      unfold ticks
      show (m.tick env >>= fun m => Res.ok m) = m.tick env
      cases m.tick env <;> rfl
    | succ j ih =>
      intro m
      unfold ticks
      cases m.tick env with
      | ok m1 => exact ih m1
      | fatal s => rfl
      | ub s => rfl
  rw [hk, C46_no_early_campaign k hs (by omega)]
  exact tick_timeout (n := n.setElapsed (n.raft.electionElapsed + k)) hs hp (by show n.raft.randomizedElectionTimeout ≤ n.raft.electionElapsed + k + 1; omega)

/-- No committed configuration change waits to be applied. -/
def NoPendingConf (env : Env) (n : RawNode) : Prop :=
  ∀ es, n.raft.log.slice env (n.raft.log.applied + 1) (n.raft.log.committed + 1) u64Max = .ok (.ok es) → ∀ e ∈ es, e.type = .normal

/-- What `Campaign` does to a promotable node: it starts an election (a pre-election with `pre_vote`), unless a committed
configuration change is not applied yet. -/
theorem C46_campaign_starts {env : Env} {n n' : RawNode} {e : Option Err} (hs : n.raft.state ≠ .leader) (hp : n.raft.promotable = true)
    (hc : NoPendingConf env n) (h : n.campaign env = .ok (n', e)) :
    (n'.raft.state = .preCandidate ∧ n.raft.preVote = true ∧ n'.raft.term = n.raft.term) ∨
    ((n'.raft.state = .candidate ∨ n'.raft.state = .leader) ∧ n.raft.term < n'.raft.term) := by
  obtain ⟨h, _⟩ := onRaft_ok h
  rw [Raft.step_hup] at h
  obtain ⟨r, h, h2⟩ := Res.bind_eq_ok.1 h
  simp only [Res.pure_eq, Res.ok.injEq, Prod.mk.injEq] at h2
  obtain ⟨rfl, _⟩ := h2
  have hcamp : n.raft.campaign env (if n.raft.preVote then .preElection else .election) = .ok n'.raft := by
    unfold Raft.hup at h
    rw [if_neg hs, if_neg (by simpa using hp)] at h
    obtain ⟨x, hx, h⟩ := Res.bind_eq_ok.1 h
    cases x with
    | error e => cases h
    | ok es =>
      dsimp only at h
      rw [if_neg] at h
      · exact h
      · rintro ⟨hne, _⟩
        apply hne
        have := hc es hx
        unfold Raft.numOfPendingConf
        rw [List.length_eq_zero_iff, List.filter_eq_nil_iff]
        intro e he
        simp [this e he]
  have helec : ∀ {a b : Raft} {tr}, a.campaignElection env tr = .ok b → (b.state = .candidate ∨ b.state = .leader) ∧ a.term < b.term := by
    intro a b tr h
    refine ⟨Raft.campaignElection_state h, ?_⟩
    unfold Raft.campaignElection at h
    obtain ⟨r1, h1, h⟩ := Res.bind_eq_ok.1 h
    have t1 : r1.term = a.term + 1 := by
      unfold Raft.becomeCandidate at h1
      split at h1
      · cases h1
      · cases h1
        show (a.reset env (a.term + 1)).term = _
        exact congrArg Core.term (Raft.reset_core (env := env) a (a.term + 1))
    have hc1 := Raft.becomeCandidate_state h1
    dsimp only at h
    have t2 : (r1.poll r1.id true).1.term = r1.term := (Raft.poll_state r1 r1.id true).2.1
    split at h
    · rename_i hw
      have := (Raft.becomeLeader_sim (env := env) (im := { type := .hup }) (r := (r1.poll r1.id true).1) (Or.inl (Or.inl rfl)) hc1 (fun h => absurd h.1 (Nat.not_lt_zero _)) hw h).1
      obtain ⟨_, ms, _, hpath⟩ := this
      have : (r1.poll r1.id true).1.term ≤ b.term := hpath.npath.term_le
      omega
    · have := (Raft.sendVotes_qsim (env := env) (im := { type := .hup }) (r := (r1.poll r1.id true).1) _ (Or.inl ⟨rfl, hc1, t2.symm⟩) h).term; omega
  cases hpv : n.raft.preVote with
  | false =>
    rw [hpv] at hcamp
    exact Or.inr (helec (tr := false) hcamp)
  | true =>
    rw [hpv] at hcamp
    have hcamp : n.raft.campaign env .preElection = .ok n'.raft := hcamp
    unfold Raft.campaign at hcamp
    obtain ⟨r1, h1, h⟩ := Res.bind_eq_ok.1 hcamp
    have hc1 := Raft.becomePreCandidate_state h1
    have t1 : r1.term = n.raft.term := by
      unfold Raft.becomePreCandidate at h1
      split at h1
      · cases h1
      · cases h1; rfl
    dsimp only at h
    have t2 : (r1.poll r1.id true).1.term = r1.term := (Raft.poll_state r1 r1.id true).2.1
    split at h
    · have := helec (tr := false) h
      exact Or.inr ⟨this.1, by have := this.2; omega⟩
    · have q := Raft.sendVotes_qsim (env := env) (im := { type := .hup }) (r := (r1.poll r1.id true).1) _ (Or.inr ⟨rfl, hc1, by rw [t2]⟩) h
      exact Or.inl ⟨by rw [q.state]; exact hc1, rfl, by rw [q.term, t2, t1]⟩

/-- The English statement: ticks alone make a promotable follower campaign exactly when its timeout has passed. -/
theorem C46_ticks_exact {env : Env} (k : Nat) {n n' : RawNode} (hs : n.raft.state = .follower) (hp : n.raft.promotable = true)
    (hc : NoPendingConf env n) (he : n.raft.electionElapsed < n.raft.randomizedElectionTimeout)
    (hk : n.raft.electionElapsed + k ≤ n.raft.randomizedElectionTimeout) (h : ticks env k n = .ok n') :
    n'.raft.state ≠ .follower ↔ n.raft.electionElapsed + k = n.raft.randomizedElectionTimeout := by
  have hl : n.raft.state ≠ .leader := by rw [hs]; decide
  by_cases hlt : n.raft.electionElapsed + k < n.raft.randomizedElectionTimeout
  · rw [C46_no_early_campaign k hl hlt] at h
    cases h
    exact ⟨fun hx => absurd hs hx, fun hx => by omega⟩
  · refine ⟨fun _ => by omega, fun _ => ?_⟩
    obtain ⟨j, rfl⟩ : ∃ j, k = j + 1 := ⟨k - 1, by omega⟩
    rw [C46_campaign_at_timeout j hl hp (by omega)] at h
    obtain ⟨⟨n1, e⟩, h1, h⟩ := Res.bind_eq_ok.1 h
    cases h
    rcases C46_campaign_starts (n := n.setElapsed 0) hl hp hc h1 with h | h
    · rw [h.1]; decide
    · rcases h.1 with h | h <;> rw [h] <;> decide

example : (Demo.node 1 []).raft.randomizedElectionTimeout = 10 ∧ (Demo.node 1 []).raft.promotable = true ∧
    (Demo.node 1 []).raft.state ≠ .leader := by decide
example : (Demo.node 1 (List.replicate 9 .tick)).raft.state = .follower ∧
    (Demo.node 1 (List.replicate 10 .tick)).raft.state = .candidate := by decide

/-! ## C40: who never campaigns -/

/-- A learner, a node outside the configuration, or one with a snapshot it has not yet applied. -/
def Unelectable (n : RawNode) : Prop :=
  n.raft.pr n.raft.id = none ∨ (∃ p, n.raft.pr n.raft.id = some p ∧ p.isLearner = true) ∨
  (∃ s, n.raft.log.unstable.snapshot = some s ∧ s.metadata.index ≠ 0)

theorem unelectable_iff {n : RawNode} : Unelectable n ↔ n.raft.promotable = false := by
  unfold Unelectable Raft.promotable RaftLog.hasPendingSnapshot
  cases n.raft.pr n.raft.id with
  | none => simp
  | some p =>
    cases n.raft.log.unstable.snapshot with
    | none => simp
    | some s =>
      by_cases h : s.metadata.index = 0
      · simp [h]
      · simp [h]

/-- Not in an election. -/
def Core.Idle (c : Core) : Prop := c.state = .follower ∨ c.state = .leader

/-- Without a reason to campaign, an idle node stays idle and asks for no votes. -/
theorem NPath.idle {env : Env} {im : Message} {c c' : Core} {ms : List Message} (h : NPath env im c ms c') (hc : ¬ CampMsg im)
    (hi : c.Idle) : c'.Idle ∧ ∀ m ∈ ms, m.type ≠ .vote ∧ m.type ≠ .preVote := by
  induction h with
  | nil => exact ⟨hi, fun m hm => nomatch hm⟩
  | @cons c c' c'' ms ms' h h' ih =>
    have key : c'.Idle ∧ ∀ m ∈ ms, m.type ≠ .vote ∧ m.type ≠ .preVote := by
      have nc : c.state ≠ .candidate ∧ c.state ≠ .preCandidate := by
        rcases hi with h | h <;> rw [h] <;> exact ⟨by decide, by decide⟩
      cases h with
      | core h =>
        cases h with
        | emit he =>
          refine ⟨hi, fun m hm => ?_⟩
          rw [List.mem_singleton] at hm
          subst hm
          constructor
          · intro ht
            simp only [Emit, ht] at he
            exact nc.1 he.2.2.1
          · intro ht
            simp only [Emit, ht] at he
            exact nc.2 he.2.2.1
        | preCandidate hcm => exact absurd hcm hc
        | candidate _ hcm => exact absurd hcm hc
        | follower => exact ⟨Or.inl rfl, fun m hm => nomatch hm⟩
        | leader => exact ⟨Or.inr rfl, fun m hm => nomatch hm⟩
        | grant => exact ⟨hi, fun m hm => by rw [List.mem_singleton] at hm; subst hm; exact ⟨(nomatch ·), (nomatch ·)⟩⟩
        | recvApp => exact ⟨hi, fun m hm => by rw [List.mem_singleton] at hm; subst hm; exact ⟨(nomatch ·), (nomatch ·)⟩⟩
        | recvHeartbeat => exact ⟨hi, fun m hm => by rw [List.mem_singleton] at hm; subst hm; exact ⟨(nomatch ·), (nomatch ·)⟩⟩
        | _ => exact ⟨hi, fun m hm => nomatch hm⟩
      | _ => exact ⟨hi, fun m hm => nomatch hm⟩
    have := ih key.1
    refine ⟨this.1, fun m hm => ?_⟩
    rw [List.mem_append] at hm
    exact hm.elim (key.2 m) (this.2 m)

theorem NPath.vote_const {env : Env} {im : Message} {c c' : Core} {ms : List Message} (h : NPath env im c ms c') (hc : ¬ CampMsg im)
    (ht : im.type ≠ .vote) (h0 : im.term = 0) : c'.vote = c.vote ∧ c'.term = c.term := by
  induction h with
  | nil => exact ⟨rfl, rfl⟩
  | @cons c c' c'' ms ms' h h' ih =>
    have key : c'.vote = c.vote ∧ c'.term = c.term := by
      cases h with
      | core h =>
        cases h with
        | preCandidate hcm => exact absurd hcm hc
        | candidate _ hcm => exact absurd hcm hc
        | follower T P h =>
          rcases h with h | ⟨h1, h2⟩
          · exact ⟨by simp [h], h⟩
          · omega
        | grant h => exact absurd h ht
        | _ => exact ⟨rfl, rfl⟩
      | _ => exact ⟨rfl, rfl⟩
    exact ⟨ih.1.trans key.1, ih.2.trans key.2⟩

/-- A tick of a node that must not campaign: its term, its vote and (outside an election) its role as a non-candidate
stay, and no vote is asked for. -/
theorem C40_tick {env : Env} {n n' : RawNode} (hu : Unelectable n) (h : n.tick env = .ok n') :
    n'.raft.term = n.raft.term ∧ n'.raft.vote = n.raft.vote ∧
    (n'.raft.state = n.raft.state ∨ n'.raft.state = .follower) ∧
    ∃ ms, n'.raft.msgs = n.raft.msgs ++ ms ∧ ∀ m ∈ ms, m.type ≠ .vote ∧ m.type ≠ .preVote := by
  rw [unelectable_iff] at hu
  by_cases hl : n.raft.state = .leader
  · unfold RawNode.tick at h
    obtain ⟨r, h1, h⟩ := Res.bind_eq_ok.1 h
    cases h
    unfold Raft.tick at h1
    simp only [hl] at h1
    unfold Raft.tickHeartbeat at h1
    obtain ⟨r1, h1, h2⟩ := Res.bind_eq_ok.1 h1
    have s0 : Sim env { type := .beat } n.raft { n.raft with heartbeatElapsed := n.raft.heartbeatElapsed + 1, electionElapsed := n.raft.electionElapsed + 1 } :=
      .of_core rfl rfl rfl
    obtain ⟨_, ms, hm, hp⟩ := s0.trans ((Raft.tickHeartbeatTimeout_sim (r := { n.raft with heartbeatElapsed := n.raft.heartbeatElapsed + 1, electionElapsed := n.raft.electionElapsed + 1 }) (im := { type := .beat }) (by rintro (h | h | h) <;> cases h) hl h1).trans (Raft.tickHeartbeatBeat_sim h2))
    have hc : ¬ CampMsg { type := .beat } := by rintro (h | h | h) <;> cases h
    have hi := hp.npath.idle hc (Or.inr hl)
    have hv := hp.npath.vote_const hc (by decide) rfl
    refine ⟨hv.2, hv.1, ?_, ms, hm, hi.2⟩
    rcases hi.1 with h | h
    · exact Or.inr h
    · exact Or.inl (Eq.trans h hl.symm)
  · rw [tick_quiet hl (Or.inl hu)] at h
    cases h
    exact ⟨rfl, rfl, Or.inl rfl, [], by rw [List.append_nil]; rfl, fun m hm => nomatch hm⟩

/-- `Campaign` does nothing on such a node. -/
theorem C40_campaign {env : Env} {n n' : RawNode} {e : Option Err} (hu : Unelectable n) (h : n.campaign env = .ok (n', e)) : n' = n ∧ e = none := by
  rw [unelectable_iff] at hu
  obtain ⟨h, hn⟩ := onRaft_ok h
  rw [Raft.step_hup] at h
  obtain ⟨r, h, h2⟩ := Res.bind_eq_ok.1 h
  simp only [Res.pure_eq, Res.ok.injEq, Prod.mk.injEq] at h2
  obtain ⟨rfl, he⟩ := h2
  rcases Raft.hup_cases h with h | ⟨_, h, _⟩
  · rw [h] at hn; exact ⟨hn, he.symm⟩
  · rw [hu] at h; cases h

/-- Nor does a leader's `MsgTimeoutNow` make it campaign. -/
theorem C40_timeoutNow {env : Env} {n n' : RawNode} {m : Message} {e : Option Err} (hu : Unelectable n) (ht : m.type = .timeoutNow)
    (h : n.step env m = .ok (n', e)) :
    (n'.raft.state = n.raft.state ∨ n'.raft.state = .follower) ∧ n'.raft.msgs = n.raft.msgs ∧
    (n'.raft.term = n.raft.term ∨ n'.raft.term = m.term) ∧ (n'.raft.vote = n.raft.vote ∨ n'.raft.vote = 0) := by
  rw [unelectable_iff] at hu
  unfold RawNode.step at h
  rw [if_neg (by rw [ht]; decide), if_pos (Or.inr (by rw [ht]; decide))] at h
  obtain ⟨h, _⟩ := onRaft_ok h
  unfold Raft.step at h
  obtain ⟨g, hg, h⟩ := Res.bind_eq_ok.1 h
  have body : ∀ {a b : Raft} {e}, a.promotable = false → a.stepBody env m = .ok (b, e) → b = a := by
    intro a b e ha h
    unfold Raft.stepBody at h
    simp only [ht] at h
    unfold Raft.stepState at h
    cases hs : a.state with
    | follower =>
      simp only [hs] at h
      unfold Raft.stepFollower at h
      simp only [ht] at h
      obtain ⟨r, h1, h⟩ := Res.bind_eq_ok.1 h
      cases h
      rcases Raft.hup_cases h1 with h | ⟨_, h, _⟩
      · exact h
      · rw [ha] at h; cases h
    | candidate =>
      simp only [hs] at h
      unfold Raft.stepCandidate at h
      simp only [ht] at h
      cases h; rfl
    | preCandidate =>
      simp only [hs] at h
      unfold Raft.stepCandidate at h
      simp only [ht] at h
      cases h; rfl
    | leader =>
      simp only [hs] at h
      unfold Raft.stepLeader at h
      simp only [ht] at h
      cases hp : a.pr m.src with
      | none => simp only [hp] at h; cases h; rfl
      | some p => simp only [hp] at h; cases h; rfl
  unfold Raft.stepGate at hg
  by_cases h0 : m.term = 0
  · rw [if_pos h0] at hg; cases hg
    rw [body hu h]; exact ⟨Or.inl rfl, rfl, Or.inl rfl, Or.inl rfl⟩
  rw [if_neg h0] at hg
  by_cases h1 : m.term > n.raft.term
  · rw [if_pos h1, if_neg (by rw [ht]; simp), if_neg (by rw [ht]; decide), if_neg (by rw [ht]; simp), if_neg (by rw [ht]; simp)] at hg
    cases hg
    have hpf : (n.raft.becomeFollower env m.term 0).promotable = false := by
      have hc := Raft.becomeFollower_core (env := env) n.raft m.term 0
      have hlog : (n.raft.becomeFollower env m.term 0).log = n.raft.log := congrArg Core.log hc
      have hid : (n.raft.becomeFollower env m.term 0).id = n.raft.id := congrArg Core.id hc
      have hpr : (n.raft.becomeFollower env m.term 0).trk.progress = (n.raft.reset env m.term).trk.progress := congrArg Core.progress hc
      have := (Raft.reset_prs (env := env) n.raft m.term).1 n.raft.id
      unfold Raft.promotable Raft.pr at hu ⊢
      rw [hlog, hid, hpr]
      rcases this with ⟨e1, e2⟩ | ⟨p, p', e1, e2, hr⟩
      · rw [e2]
      · rw [e1] at hu
        rw [e2]
        obtain ⟨_, _, _, hl, _⟩ := hr
        dsimp only at hu ⊢
        rw [hl]; exact hu
    have hb := body hpf h
    rw [hb]
    have hc := Raft.becomeFollower_core (env := env) n.raft m.term 0
    refine ⟨Or.inr rfl, Raft.reset_msgs (env := env) n.raft m.term, Or.inr (congrArg Core.term hc), ?_⟩
    have hv : (n.raft.becomeFollower env m.term 0).vote = if m.term = n.raft.term then n.raft.vote else 0 := congrArg Core.vote hc
    rw [hv, if_neg (by omega)]; exact Or.inr rfl
  rw [if_neg h1] at hg
  by_cases h2 : m.term < n.raft.term
  · rw [if_pos h2, if_neg (by rw [ht]; simp), if_neg (by rw [ht]; decide)] at hg
    cases hg
    simp only [Res.pure_eq, Res.ok.injEq, Prod.mk.injEq] at h
    rw [← h.1]
    exact ⟨Or.inl rfl, rfl, Or.inl rfl, Or.inl rfl⟩
  rw [if_neg h2] at hg; cases hg
  rw [body hu h]; exact ⟨Or.inl rfl, rfl, Or.inl rfl, Or.inl rfl⟩

/-- Node 4 is not a member of the demo configuration. -/
example : Unelectable (Demo.node 4 []) ∧ (Demo.node 4 (List.replicate 40 .tick)).raft.state = .follower ∧
    (Demo.node 4 [.campaign]).raft.msgs = [] := ⟨Or.inl (by decide), by decide, by decide⟩

/-! ## C36: CheckQuorum -/

/-- The leader itself, or a peer that answered since the last check. -/
def HeardFrom (n : RawNode) (v : Nat) : Bool :=
  match n.raft.pr v with
  | some p => decide (v = n.raft.id) || p.recentActive
  | none => false

/-- A quorum of the configuration (both halves, when joint) was heard from. -/
def QuorumHeard (n : RawNode) : Prop :=
  (n.raft.trk.config.voters.incoming ≠ [] → Majority n.raft.trk.config.voters.incoming (HeardFrom n)) ∧
  (n.raft.trk.config.voters.outgoing ≠ [] → Majority n.raft.trk.config.voters.outgoing (HeardFrom n))

theorem find_activeVotes (P : ProgressMap) (v : AMap Bool) (hs : (P.map Prod.fst).Pairwise (· < ·)) (id : Nat) :
    (Tracker.activeVotes P v).find id =
      match P.find id with
      | some p => if p.isLearner then v.find id else some p.recentActive
      | none => v.find id := by
  induction P generalizing v with
  | nil => rfl
  | cons x m ih =>
    obtain ⟨k, p⟩ := x
    rw [List.map_cons, List.pairwise_cons] at hs
    unfold Tracker.activeVotes
    rw [ih _ hs.2]
    have hf : AMap.find ((k, p) :: m) id = if k = id then some p else AMap.find m id := by
      rw [AMap.find]
    rw [hf]
    by_cases hk : k = id
    · subst hk
      have hn : AMap.find m k = none := by
        rw [AMap.find_eq_none_iff]
        intro hm
        have := hs.1 k hm
        omega
      rw [if_pos rfl, hn]
      dsimp only
      split
      · rfl
      · rw [AMap.find_insert_self]
    · rw [if_neg hk]
      cases AMap.find m id with
      | none =>
        dsimp only
        split
        · rfl
        · rw [AMap.find_insert_ne _ _ hk]
      | some q =>
        dsimp only
        split
        · split
          · rfl
          · rw [AMap.find_insert_ne _ _ hk]
        · rfl

theorem checkQuorum_active {n : RawNode} (hc : ConfInv n.raft.trk.config n.raft.trk.progress) (r : Raft)
    (hr : r = match n.raft.pr n.raft.id with
      | some p => n.raft.setPr n.raft.id { p with recentActive := true }
      | none => n.raft) : r.trk.quorumActive = true ↔ QuorumHeard n := by
  have hcfg : r.trk.config = n.raft.trk.config := by
    subst hr
    split <;> rfl
  have hprs : ∀ v, r.trk.progress.find v = match n.raft.pr v with
      | some p => some (if v = n.raft.id then { p with recentActive := true } else p)
      | none => none := by
    intro v
    subst hr
    cases hp : n.raft.pr n.raft.id with
    | none =>
      dsimp only
      show n.raft.pr v = _
      by_cases hv : v = n.raft.id
      · rw [hv, hp]
      · cases n.raft.pr v with
        | none => rfl
        | some p => simp [hv]
    | some p =>
      dsimp only
      show AMap.find (AMap.insert n.raft.trk.progress n.raft.id { p with recentActive := true }) v = _
      rw [AMap.find_insert]
      by_cases hv : n.raft.id = v
      · subst hv
        rw [if_pos rfl, hp]; simp
      · rw [if_neg hv]
        show n.raft.pr v = _
        cases n.raft.pr v with
        | none => rfl
        | some p => simp only [if_neg (fun h => hv (Eq.symm h) : ¬ v = n.raft.id)]
  have hsort : (r.trk.progress.map Prod.fst).Pairwise (· < ·) := by
    subst hr
    split
    · exact AMap.keys_insert_sorted _ _ hc.prs_sorted
    · exact hc.prs_sorted
  have key : ∀ vs : USet, (∀ v ∈ vs, v ∉ n.raft.trk.config.learners) →
      (MajorityYes vs (Tracker.activeVotes r.trk.progress []).find ↔ Majority vs (HeardFrom n)) := by
    intro vs hvs
    unfold MajorityYes Majority count
    have : vs.filter (fun v => (Tracker.activeVotes r.trk.progress []).find v == some true) = vs.filter (HeardFrom n) := by
      apply List.filter_congr
      intro v hv
      rw [find_activeVotes _ _ hsort, hprs v]
      unfold HeardFrom
      cases hp : n.raft.pr v with
      | none => rfl
      | some p =>
        have hl : p.isLearner = false := by
          cases h : p.isLearner with
          | false => rfl
          | true => exact absurd ((hc.lrn_flag v p hp).1 h) (hvs v hv)
        by_cases hi : v = n.raft.id
        · simp [hi, hl]
        · simp [hi, hl]
    rw [this]
  unfold Tracker.quorumActive QuorumHeard
  rw [decide_eq_true_iff, hcfg, (C03_joint_vote_exact _ _).1,
    key _ (fun v hv h => hc.lrn_not_inc v h hv), key _ (fun v hv h => hc.lrn_not_out v h hv)]

namespace Raft

theorem visitOthers_heartbeat_trk {ctx : Bytes} (ids : List Nat) {r r' : Raft}
    (h : visitOthers (fun r id => r.sendHeartbeat id ctx) ids r = .ok r') : r'.trk = r.trk := by
  induction ids generalizing r with
  | nil => cases h; rfl
  | cons id ids ih =>
    unfold visitOthers at h
    split at h
    · exact ih h
    · obtain ⟨r1, h1, h⟩ := Res.bind_eq_ok.1 h
      rw [ih h]
      unfold sendHeartbeat at h1
      obtain ⟨p, _, h1⟩ := Res.bind_eq_ok.1 h1
      rw [send_ok h1]

end Raft

/-- When its election timeout passes, a leader with `check_quorum` stays leader iff it heard from a quorum; otherwise it is
a follower; its term stays. It then forgets whom it heard from. -/
theorem C36_check_quorum {env : Env} {n n' : RawNode} (hc : ConfInv n.raft.trk.config n.raft.trk.progress)
    (hl : n.raft.state = .leader) (hq : n.raft.checkQuorum = true) (ht : n.raft.electionTimeout ≤ n.raft.electionElapsed + 1)
    (h : n.tick env = .ok n') :
    n'.raft.term = n.raft.term ∧ (QuorumHeard n → n'.raft.state = .leader) ∧ (¬ QuorumHeard n → n'.raft.state = .follower) ∧
    ∀ v p, v ≠ n.raft.id → n'.raft.pr v = some p → p.recentActive = false := by
  unfold RawNode.tick at h
  obtain ⟨r, h1, h⟩ := Res.bind_eq_ok.1 h
  simp only [Res.pure_eq, Res.ok.injEq] at h
  subst h
  show r.term = _ ∧ (_ → r.state = _) ∧ (_ → r.state = _) ∧ ∀ v p, _ → r.pr v = some p → _
  unfold Raft.tick at h1
  simp only [hl] at h1
  unfold Raft.tickHeartbeat at h1
  obtain ⟨r1, h1, h2⟩ := Res.bind_eq_ok.1 h1
  -- the check itself
  generalize hr0 : ({ n.raft with heartbeatElapsed := n.raft.heartbeatElapsed + 1, electionElapsed := 0 } : Raft) = r0
  have hl0 : r0.state = .leader := by rw [← hr0]; exact hl
  have ht0 : r0.term = n.raft.term := by rw [← hr0]
  have hi0 : r0.id = n.raft.id := by rw [← hr0]
  have hq0 := checkQuorum_active (n := ⟨r0, n.prevSoftSt, n.prevHardSt, n.ready⟩) (by rw [← hr0]; exact hc) _ rfl
  have hqh : QuorumHeard ⟨r0, n.prevSoftSt, n.prevHardSt, n.ready⟩ ↔ QuorumHeard n := by rw [← hr0]; exact Iff.rfl
  rw [hqh] at hq0
  have e1 : (if (r0.leaderCheckQuorum env).state = .leader ∧ (r0.leaderCheckQuorum env).leadTransferee ≠ 0 then
      (pure { r0.leaderCheckQuorum env with leadTransferee := 0 } : Res Raft) else pure (r0.leaderCheckQuorum env)) = .ok r1 := by
    unfold Raft.tickHeartbeatTimeout at h1
    rw [if_pos (show n.raft.electionElapsed + 1 ≥ n.raft.electionTimeout from ht)] at h1
    dsimp only at h1
    rw [if_pos hq] at h1
    subst hr0
    rw [Raft.step_checkQuorum (r := { n.raft with heartbeatElapsed := n.raft.heartbeatElapsed + 1, electionElapsed := 0 }) hl] at h1
    exact h1
  have hr1 : r1.term = (r0.leaderCheckQuorum env).term ∧ r1.state = (r0.leaderCheckQuorum env).state ∧ r1.trk = (r0.leaderCheckQuorum env).trk := by
    split at e1 <;> cases e1 <;> exact ⟨rfl, rfl, rfl⟩
  have hr : r.term = r1.term ∧ r.state = r1.state ∧ r.trk = r1.trk := by
    unfold Raft.tickHeartbeatBeat at h2
    split at h2
    · cases h2; exact ⟨rfl, rfl, rfl⟩
    rename_i hl1
    have hl1 : r1.state = .leader := Decidable.byContradiction hl1
    split at h2
    · obtain ⟨⟨r2, e⟩, h3, h2⟩ := Res.bind_eq_ok.1 h2
      cases h2
      rw [Raft.step_beat (r := { r1 with heartbeatElapsed := 0 }) hl1] at h3
      obtain ⟨r3, h4, h3⟩ := Res.bind_eq_ok.1 h3
      cases h3
      have q := Raft.bcastHeartbeatWithCtx_qsim (im := { type := .beat }) (env := env) (r := { r1 with heartbeatElapsed := 0 }) hl1
        (Raft.lastPending_ctxOk _) h4
      exact ⟨q.term, q.state, Raft.visitOthers_heartbeat_trk (r := { r1 with heartbeatElapsed := 0 }) _ h4⟩
    · cases h2; exact ⟨rfl, rfl, rfl⟩
  rw [hr.1, hr.2.1, hr1.1, hr1.2.1]
  have hpr : ∀ v, r.pr v = (r0.leaderCheckQuorum env).pr v := by intro v; unfold Raft.pr; rw [hr.2.2, hr1.2.2]
  simp only [hpr]
  have hfin : (r0.leaderCheckQuorum env).id = r0.id ∧ ∀ v p, v ≠ (r0.leaderCheckQuorum env).id →
      (r0.leaderCheckQuorum env).pr v = some p → p.recentActive = false := by
    refine ⟨(congrArg Consts.id (Raft.leaderCheckQuorum_sim (env := env) (im := { type := .beat }) (r := r0) (by rintro (h | h | h) <;> cases h)).1.1 : _), ?_⟩
    have gen : ∀ (P : ProgressMap) (i v : Nat) (p : Progress), v ≠ i →
        AMap.find (P.map fun x => (x.1, if x.1 ≠ i then { x.2 with recentActive := false } else x.2)) v = some p →
        p.recentActive = false := by
      intro P i v p hv hp
      rw [AMap.find_map P (fun id p => if id ≠ i then { p with recentActive := false } else p), Option.map_eq_some_iff] at hp
      obtain ⟨q, _, hp⟩ := hp
      rw [if_pos hv] at hp
      rw [← hp]
    intro v p hv hp
    unfold Raft.pr at hp
    unfold Raft.leaderCheckQuorum at hp hv
    exact gen _ _ v p hv hp
  refine ⟨?_, ?_, ?_, fun v p hv => hfin.2 v p (by rw [hfin.1, hi0]; exact hv)⟩
  · obtain ⟨_, ms, _, hp⟩ := Raft.leaderCheckQuorum_sim (env := env) (im := { type := .beat }) (r := r0) (by rintro (h | h | h) <;> cases h)
    exact (hp.npath.vote_const (by rintro (h | h | h) <;> cases h) (by decide) rfl).2.trans ht0
  all_goals
    unfold Raft.leaderCheckQuorum
    dsimp only
  · intro hh
    rw [if_neg (fun h => h (hq0.2 hh))]
    split <;> exact hl0
  · intro hh
    have hno := fun h => hh (hq0.1 h)
    have gen : ∀ a : Raft, ¬ a.trk.quorumActive = true → (if ¬ a.trk.quorumActive = true then a.becomeFollower env a.term 0 else a).state = .follower := by
      intro a ha; rw [if_pos ha]; rfl
    exact gen _ hno

/-- A `check_quorum` leader that heard nobody for an election timeout steps down; one that heard node 2 does not. -/
example : let env := Demo.env
    let start := do
      let n ← RawNode.new env { Demo.cfg 1 with checkQuorum := true } Demo.store 0
      Demo.elect.foldlM (fun n c => c.run env n) n
    (match (do let n ← start; ticks env 10 n : Res RawNode) with | .ok n => decide (n.raft.state = .follower ∧ n.raft.term = 1) | _ => false) = true ∧
    (match (do
      let n ← start
      let n ← ticks env 5 n
      let (n, _) ← n.step env { type := .heartbeatResp, src := 2, term := 1 }
      ticks env 5 n : Res RawNode) with | .ok n => decide (n.raft.state = .leader) | _ => false) = true := by decide

/-! ## C35 after a heartbeat -/

/-- A heartbeat of a leader of this or a later term makes the node follow that leader with a restarted clock. -/
theorem heartbeat_restarts {env : Env} {n n' : RawNode} {m : Message} {e : Option Err} (hs : n.raft.state = .follower)
    (ht : m.type = .heartbeat) (hterm : n.raft.term ≤ m.term) (h0 : m.term ≠ 0) (h : n.step env m = .ok (n', e)) :
    n'.raft.state = .follower ∧ n'.raft.lead = m.src ∧ n'.raft.electionElapsed = 0 ∧ n'.raft.term = m.term ∧
    (n.raft.log.WF → n'.raft.log.WF) := by
  unfold RawNode.step at h
  rw [if_neg (by rw [ht]; decide), if_pos (Or.inr (by rw [ht]; decide))] at h
  obtain ⟨h, _⟩ := onRaft_ok h
  unfold Raft.step at h
  obtain ⟨g, hg, h⟩ := Res.bind_eq_ok.1 h
  have body : ∀ {a : Raft}, a.state = .follower → a.term = m.term → a.log = n.raft.log → a.stepBody env m = .ok (n'.raft, e) →
      n'.raft.state = .follower ∧ n'.raft.lead = m.src ∧ n'.raft.electionElapsed = 0 ∧ n'.raft.term = m.term ∧
      (n.raft.log.WF → n'.raft.log.WF) := by
    intro a has hat hlog h
    unfold Raft.stepBody at h
    simp only [ht] at h
    unfold Raft.stepState at h
    simp only [has] at h
    unfold Raft.stepFollower at h
    simp only [ht] at h
    obtain ⟨r, h1, h⟩ := Res.bind_eq_ok.1 h
    simp only [Res.pure_eq, Res.ok.injEq, Prod.mk.injEq] at h
    rw [← h.1]
    unfold Raft.handleHeartbeat at h1
    obtain ⟨l, h2, h1⟩ := Res.bind_eq_ok.1 h1
    rw [Raft.send_ok h1]
    refine ⟨has, rfl, rfl, hat, fun hw => ?_⟩
    have := RaftLog.commitTo_shape h2
    show l.WF
    rw [this]
    show ({ a.log with committed := _ } : RaftLog).WF
    rw [hlog]
    exact hw.with_committed _
  unfold Raft.stepGate at hg
  rw [if_neg h0] at hg
  by_cases h1 : m.term > n.raft.term
  · rw [if_pos h1, if_neg (by rw [ht]; simp), if_neg (by rw [ht]; decide), if_neg (by rw [ht]; simp), if_pos (by rw [ht]; simp)] at hg
    cases hg
    have hc := Raft.becomeFollower_core (env := env) n.raft m.term m.src
    exact body rfl (congrArg Core.term hc) (congrArg Core.log hc) h
  rw [if_neg h1, if_neg (by omega)] at hg
  cases hg
  exact body hs (by omega) rfl h

/-- The English statement: a follower that hears from a leader ignores (changes nothing, answers nothing) vote and
pre-vote requests of later terms until `election_tick` ticks have passed, except those of a leadership transfer. -/
theorem C35_lease_after_heartbeat {env : Env} {n n1 n2 : RawNode} {hb m : Message} {e : Option Err} {k : Nat}
    (hw : n.raft.log.WF) (hr : n.raft.electionTimeout ≤ n1.raft.randomizedElectionTimeout)
    (hcq : n.raft.checkQuorum = true) (hs : n.raft.state = .follower) (ht : hb.type = .heartbeat) (hterm : n.raft.term ≤ hb.term)
    (h0 : hb.term ≠ 0) (hsrc : hb.src ≠ 0) (h1 : n.step env hb = .ok (n1, e))
    (hk : k < n.raft.electionTimeout) (h2 : ticks env k n1 = .ok n2)
    (hm : m.type = .vote ∨ m.type = .preVote) (hmt : hb.term < m.term) (hctx : m.context ≠ campaignTransferCtx) :
    n2.step env m = .ok (n2, none) := by
  obtain ⟨a1, a2, a3, a4, a5⟩ := heartbeat_restarts hs ht hterm h0 h1
  have keep := (Call.run_path (env := env) (c := .step hb) (n := n) (n' := n1) (fun _ => h0) (by
    show (do let (n, _) ← n.step env hb; pure n) = _
    rw [h1]; rfl)).1.1
  have kq : n1.raft.checkQuorum = n.raft.checkQuorum := congrArg Consts.checkQuorum keep
  have ke : n1.raft.electionTimeout = n.raft.electionTimeout := congrArg Consts.electionTimeout keep
  rw [C46_no_early_campaign k (by rw [a1]; decide) (by rw [a3]; omega)] at h2
  simp only [Res.ok.injEq] at h2
  subst h2
  refine C35_lease (n := n1.setElapsed (n1.raft.electionElapsed + k)) (a5 hw) (kq.trans hcq) ?_ ?_ hm ?_ hctx
  · show n1.raft.lead ≠ 0
    rw [a2]; exact hsrc
  · show n1.raft.electionElapsed + k < n1.raft.electionTimeout
    rw [a3, ke]; omega
  · show n1.raft.term < m.term
    rw [a4]; exact hmt

/-- Node 2 with `check_quorum` hears from leader 1, then node 3 asks for its vote: ignored after 9 ticks; without a leader
the request is answered. -/
example : let env := Demo.env
    let start := RawNode.new env { Demo.cfg 2 with checkQuorum := true } Demo.store 0
    let vote : Message := { type := .vote, src := 3, term := 5 }
    (match (do
      let n ← start
      let (n, _) ← n.step env { type := .heartbeat, src := 1, term := 1 }
      let n ← ticks env 9 n
      let (n', _) ← n.step env vote
      pure (decide (n' = n)) : Res Bool) with | .ok b => b | _ => false) = true ∧
    (match (do let n ← start; let (n, _) ← n.step env vote; pure (decide (n.raft.vote = 3 ∧ n.raft.term = 5)) : Res Bool) with
      | .ok b => b | _ => false) = true := by decide

end Craft
