import Verif.Node.Transfer

/-! # Whom a node takes for the leader, and when its election timer is drawn anew -/

namespace Craft

/-- `im` is a leader's message, from `l` in term `T` (a message without a term counts for the node's own). -/
def Heard (im : Message) (l T : Nat) : Prop :=
  (im.type = .app ∨ im.type = .heartbeat ∨ im.type = .snap) ∧ im.src = l ∧ (im.term = T ∨ im.term = 0)

/-- What `Turn` is about. -/
def Raft.turnOf (r : Raft) : Nat × Nat × Nat × Nat × Nat × Role × Nat × Nat :=
  (r.id, r.electionTimeout, r.rngPos, r.randomizedElectionTimeout, r.term, r.state, r.lead, r.electionElapsed)

/-- One piece of work of a node: either it keeps term, role and timeout (but may become a pre-candidate), or it draws a new
timeout. `lead` says what it can take for the leader afterwards. -/
structure Turn (env : Env) (im : Message) (a b : Raft) : Prop where
  id : b.id = a.id
  timeout : b.electionTimeout = a.electionTimeout
  pos : a.rngPos ≤ b.rngPos
  same : b.rngPos = a.rngPos → b.term = a.term ∧ b.randomizedElectionTimeout = a.randomizedElectionTimeout ∧
    (b.state = a.state ∨ (a.state ≠ .leader ∧ b.state = .preCandidate))
  draw : a.rngPos < b.rngPos →
    b.randomizedElectionTimeout = b.electionTimeout + env.rand b.id (b.rngPos - 1) % Raft.randBound b.electionTimeout
  clock : b.electionElapsed = 0 ∨ (b.rngPos = a.rngPos ∧ b.electionElapsed = a.electionElapsed)
  lead : (b.rngPos = a.rngPos ∧ b.state = a.state ∧ b.lead = a.lead) ∨ (b.state ≠ .leader ∧ b.lead = 0) ∨
    (b.state = .leader ∧ b.lead = b.id) ∨ (b.state = .follower ∧ Heard im b.lead b.term)

namespace Turn
variable {env : Env} {im : Message} {a b c r r' : Raft}

theorem of (h : b.turnOf = a.turnOf) : Turn env im a b := by
  unfold Raft.turnOf at h
  obtain ⟨h1, h2, h3, h4, h5, h6, h7, h8⟩ : _ ∧ _ ∧ _ ∧ _ ∧ _ ∧ _ ∧ _ ∧ _ := by simpa only [Prod.mk.injEq] using h
  exact ⟨h1, h2, by omega, fun _ => ⟨h5, h4, Or.inl h6⟩, fun h => by omega, Or.inr ⟨h3, h8⟩, Or.inl ⟨h3, h6, h7⟩⟩

theorem refl : Turn env im a a := .of rfl

theorem still (h : Still a b) : Turn env im a b := of (congrArg Raft.turnOf h.1 :)

theorem trans (h1 : Turn env im a b) (h2 : Turn env im b c) : Turn env im a c := by
  refine ⟨h2.id.trans h1.id, h2.timeout.trans h1.timeout, Nat.le_trans h1.pos h2.pos, fun h => ?_, fun h => ?_, ?_, ?_⟩
  · have p1 := h1.pos
    have p2 := h2.pos
    obtain ⟨a1, a2, a3⟩ := h1.same (by omega)
    obtain ⟨b1, b2, b3⟩ := h2.same (by omega)
    refine ⟨b1.trans a1, b2.trans a2, ?_⟩
    rcases b3 with b3 | ⟨b3, b4⟩
    · rw [b3]; exact a3
    · rcases a3 with a3 | ⟨a3, _⟩
      · exact Or.inr ⟨by rw [← a3]; exact b3, b4⟩
      · exact Or.inr ⟨a3, b4⟩
  · have p2 := h2.pos
    rcases Nat.lt_or_ge b.rngPos c.rngPos with hlt | hge
    · exact h2.draw hlt
    · have e : c.rngPos = b.rngPos := by omega
      obtain ⟨b1, b2, b3⟩ := h2.same e
      rw [b2, h2.timeout, h2.id, e]
      exact h1.draw (by omega)
  · rcases h2.clock with k | ⟨k1, k2⟩
    · exact Or.inl k
    · rcases h1.clock with k | ⟨k3, k4⟩
      · exact Or.inl (k2.trans k)
      · exact Or.inr ⟨k1.trans k3, k2.trans k4⟩
  · rcases h2.lead with ⟨k1, k2, k3⟩ | k
    · rcases h1.lead with ⟨j1, j2, j3⟩ | ⟨j1, j2⟩ | ⟨j1, j2⟩ | ⟨j1, j2⟩
      · exact Or.inl ⟨k1.trans j1, k2.trans j2, k3.trans j3⟩
      · exact Or.inr (Or.inl ⟨by rw [k2]; exact j1, k3.trans j2⟩)
      · exact Or.inr (Or.inr (Or.inl ⟨k2.trans j1, by rw [k3, h2.id]; exact j2⟩))
      · exact Or.inr (Or.inr (Or.inr ⟨k2.trans j1, by rw [k3, (h2.same k1).1]; exact j2⟩))
    · exact Or.inr k

theorem after (h : Turn env im b c) (e : b.turnOf = a.turnOf) : Turn env im a c := (of e).trans h

/-- After a reset. -/
theorem of_reset (t : Nat) {b : Raft} (h1 : b.id = (r.reset env t).id) (h2 : b.electionTimeout = (r.reset env t).electionTimeout)
    (h3 : b.rngPos = (r.reset env t).rngPos) (h4 : b.randomizedElectionTimeout = (r.reset env t).randomizedElectionTimeout)
    (h5 : b.electionElapsed = (r.reset env t).electionElapsed)
    (h6 : (b.state ≠ .leader ∧ b.lead = 0) ∨ (b.state = .leader ∧ b.lead = b.id) ∨ (b.state = .follower ∧ Heard im b.lead b.term)) : Turn env im r b := by
  have k : (r.reset env t).id = r.id ∧ (r.reset env t).electionTimeout = r.electionTimeout ∧ (r.reset env t).rngPos = r.rngPos + 1 ∧
      (r.reset env t).randomizedElectionTimeout = r.electionTimeout + env.rand r.id r.rngPos % Raft.randBound r.electionTimeout ∧
      (r.reset env t).electionElapsed = 0 := by
    unfold Raft.reset Raft.resetRandomizedElectionTimeout
    by_cases ht : r.term = t
    · simp [ht]
    · simp [ht]
  obtain ⟨k1, k2, k3, k4, k5⟩ := k
  rw [k1] at h1
  rw [k2] at h2
  rw [k3] at h3
  rw [k4] at h4
  rw [k5] at h5
  exact ⟨h1, h2, by omega, fun h => by omega, fun _ => by rw [h1, h2, h3, h4, Nat.add_sub_cancel], Or.inl h5, Or.inr h6⟩

theorem reset_term (t : Nat) : (r.reset env t).term = t := by
  unfold Raft.reset Raft.resetRandomizedElectionTimeout
  by_cases ht : r.term = t
  · simp [ht]
  · simp [ht]

theorem becomeFollower (t : Nat) : Turn env im r (r.becomeFollower env t 0) :=
  of_reset (env := env) t rfl rfl rfl rfl rfl (Or.inl ⟨nofun, rfl⟩)

theorem becomeFollower_heard (hm : im.type = .app ∨ im.type = .heartbeat ∨ im.type = .snap) : Turn env im r (r.becomeFollower env im.term im.src) :=
  of_reset (env := env) im.term rfl rfl rfl rfl rfl (Or.inr (Or.inr ⟨rfl, hm, rfl, Or.inl (reset_term (env := env) (r := r) im.term).symm⟩))

theorem becomeCandidate (h : r.becomeCandidate env = .ok r') : Turn env im r r' := by
  unfold Raft.becomeCandidate at h
  split at h
  · cases h
  · cases h
    exact of_reset (env := env) (r.term + 1) rfl rfl rfl rfl rfl (Or.inl ⟨nofun, rfl⟩)

theorem becomePreCandidate (h : r.becomePreCandidate = .ok r') : Turn env im r r' := by
  unfold Raft.becomePreCandidate at h
  split at h
  · cases h
  · rename_i hs
    cases h
    exact ⟨rfl, rfl, Nat.le_refl _, fun _ => ⟨rfl, rfl, Or.inr ⟨hs, rfl⟩⟩, fun h => absurd h (Nat.lt_irrefl _), Or.inr ⟨rfl, rfl⟩, Or.inr (Or.inl ⟨nofun, rfl⟩)⟩

theorem becomeLeader (h : r.becomeLeader env = .ok r') : Turn env im r r' := by
  unfold Raft.becomeLeader at h
  split at h
  · cases h
  dsimp only at h
  obtain ⟨pr, _, h⟩ := Res.bind_eq_ok.1 h
  obtain ⟨⟨r2, ok⟩, h2, h⟩ := Res.bind_eq_ok.1 h
  dsimp only at h
  split at h
  · cases h
  cases h
  have s := (Still.appendEntry h2).trans (Calm.reduce [{}])
  have k : Turn env im r { r.reset env r.term with lead := r.id, state := .leader } :=
    of_reset (env := env) r.term rfl rfl rfl rfl rfl (Or.inr (Or.inl ⟨rfl, (Raft.reset_id (env := env) r r.term).symm⟩))
  exact k.trans (.after (still s) rfl)

theorem campaignElection {b : Bool} (h : r.campaignElection env b = .ok r') : Turn env im r r' := by
  unfold Raft.campaignElection at h
  obtain ⟨r2, h2, h⟩ := Res.bind_eq_ok.1 h
  have c2 := becomeCandidate (im := im) h2
  unfold Raft.poll at h
  dsimp only at h
  split at h
  · have c3 := becomeLeader (im := im) h
    exact c2.trans (.after c3 rfl)
  · have s := Calm.sendVotes (by nofun) _ h
    exact c2.trans (.after (still s) rfl)

theorem campaign {t : CampaignType} (h : r.campaign env t = .ok r') : Turn env im r r' := by
  unfold Raft.campaign at h
  split at h
  · obtain ⟨r2, h2, h⟩ := Res.bind_eq_ok.1 h
    unfold Raft.poll at h
    dsimp only at h
    split at h
    · have c := campaignElection (im := im) h
      exact (becomePreCandidate h2).trans (.after c rfl)
    · have s := Calm.sendVotes (by nofun) _ h
      exact (becomePreCandidate h2).trans (.after (still s) rfl)
  · exact campaignElection h
  · exact campaignElection h

theorem hup {t : CampaignType} (h : r.hup env t = .ok r') : Turn env im r r' := by
  unfold Raft.hup at h
  split at h
  · cases h; exact .refl
  split at h
  · cases h; exact .refl
  obtain ⟨x, _, h⟩ := Res.bind_eq_ok.1 h
  cases x with
  | error e => cases h
  | ok es =>
    dsimp only at h
    split at h
    · cases h; exact .refl
    · exact campaign h

theorem send {m : Message} (h : r.send m = .ok r') : Turn env im r r' := by
  rw [Raft.send_ok h]; exact .of rfl

theorem handleAppendEntries {m : Message} (h : r.handleAppendEntries m = .ok r') : Turn env im r r' := by
  unfold Raft.handleAppendEntries at h
  split at h
  · exact send h
  obtain ⟨⟨l, res⟩, _, h⟩ := Res.bind_eq_ok.1 h
  cases res with
  | some li => exact .after (send (r := { r with log := l }) h) rfl
  | none =>
    dsimp only at h
    obtain ⟨_, _, h⟩ := Res.bind_eq_ok.1 h
    obtain ⟨_, _, h⟩ := Res.bind_eq_ok.1 h
    obtain ⟨_, _, h⟩ := Res.bind_eq_ok.1 h
    obtain ⟨x, _, h⟩ := Res.bind_eq_ok.1 h
    cases x with
    | error e => cases h
    | ok t => exact send h

theorem handleHeartbeat {m : Message} (h : r.handleHeartbeat m = .ok r') : Turn env im r r' := by
  unfold Raft.handleHeartbeat at h
  obtain ⟨l, _, h⟩ := Res.bind_eq_ok.1 h
  exact .after (send (r := { r with log := l }) h) rfl

theorem switchToConfig {cfg : TConfig} {prs : ProgressMap} {cs : ConfState} (h : r.switchToConfig env cfg prs = .ok (r', cs)) : Turn env im r r' := by
  unfold Raft.switchToConfig at h
  dsimp only at h
  split at h
  · cases h; exact .of rfl
  split at h
  · cases h; exact .of rfl
  obtain ⟨r2, h2, h⟩ := Res.bind_eq_ok.1 h
  have s := still (env := env) (im := im) (Still.switchSend h2)
  split at h
  · cases h
    exact .after (s.trans (.of rfl)) rfl
  · cases h; exact .after s rfl

theorem restore {s : Snapshot} {ok : Bool} (h : r.restore env s = .ok (r', ok)) : Turn env im r r' := by
  unfold Raft.restore at h
  split at h
  · cases h; exact .refl
  split at h
  · cases h; exact .becomeFollower _
  dsimp only at h
  split at h
  · cases h; exact .refl
  obtain ⟨m, _, h⟩ := Res.bind_eq_ok.1 h
  split at h
  · obtain ⟨_, _, h⟩ := Res.bind_eq_ok.1 h
    obtain ⟨l, _, h⟩ := Res.bind_eq_ok.1 h
    cases h; exact .of rfl
  split at h
  · cases h
  obtain ⟨⟨r2, cs2⟩, h2, h⟩ := Res.bind_eq_ok.1 h
  dsimp only at h
  split at h
  · cases h
  obtain ⟨pr, _, h⟩ := Res.bind_eq_ok.1 h
  obtain ⟨_, _, h⟩ := Res.bind_eq_ok.1 h
  cases h
  have s := switchToConfig (im := im) h2
  exact .after (s.trans (.of rfl)) rfl

theorem handleSnapshot {m : Message} (h : r.handleSnapshot env m = .ok r') : Turn env im r r' := by
  unfold Raft.handleSnapshot at h
  obtain ⟨⟨r2, ok⟩, h2, h⟩ := Res.bind_eq_ok.1 h
  refine (restore h2).trans ?_
  dsimp only at h
  split at h <;> exact send h

/-- The election clock is restarted. -/
theorem rewind (h1 : b.id = a.id) (h2 : b.electionTimeout = a.electionTimeout) (h3 : b.rngPos = a.rngPos)
    (h4 : b.randomizedElectionTimeout = a.randomizedElectionTimeout) (h5 : b.term = a.term) (h6 : b.state = a.state) (h8 : b.electionElapsed = 0)
    (h7 : b.lead = a.lead ∨ (b.state = .follower ∧ Heard im b.lead b.term)) : Turn env im a b := by
  refine ⟨h1, h2, by omega, fun _ => ⟨h5, h4, Or.inl h6⟩, fun h => by omega, Or.inl h8, ?_⟩
  rcases h7 with h7 | h7
  · exact Or.inl ⟨h3, h6, h7⟩
  · exact Or.inr (Or.inr (Or.inr h7))

theorem stepVote {m : Message} (h : r.stepVote m = .ok r') : Turn env im r r' := by
  unfold Raft.stepVote at h
  obtain ⟨up, _, h⟩ := Res.bind_eq_ok.1 h
  obtain ⟨_, _, h⟩ := Res.bind_eq_ok.1 h
  obtain ⟨rt, hrt, h⟩ := Res.bind_eq_ok.1 h
  split at h
  · obtain ⟨r2, h2, h⟩ := Res.bind_eq_ok.1 h
    have s := send (env := env) (im := im) h2
    split at h
    · cases h; exact s.trans (rewind rfl rfl rfl rfl rfl rfl rfl (Or.inl rfl))
    · cases h; exact s
  · exact send h

theorem stepFollower {e : Option Err} (hs : r.state = .follower)
    (hm : im.type = .app ∨ im.type = .heartbeat ∨ im.type = .snap → im.term = r.term ∨ im.term = 0) (h : r.stepFollower env im = .ok (r', e)) :
    Turn env im r r' := by
  have hear : (im.type = .app ∨ im.type = .heartbeat ∨ im.type = .snap) → Turn env im r { r with electionElapsed := 0, lead := im.src } := fun ht =>
    rewind rfl rfl rfl rfl rfl rfl rfl (Or.inr ⟨hs, ht, rfl, hm ht⟩)
  unfold Raft.stepFollower at h
  cases ht : im.type <;> simp only [ht] at h
  case prop =>
    split at h
    · cases h; exact .refl
    split at h
    · cases h; exact .refl
    obtain ⟨r2, h2, h⟩ := Res.bind_eq_ok.1 h
    cases h; exact send h2
  case app =>
    obtain ⟨r2, h2, h⟩ := Res.bind_eq_ok.1 h
    cases h
    exact (hear (Or.inl ht)).trans (handleAppendEntries h2)
  case heartbeat =>
    obtain ⟨r2, h2, h⟩ := Res.bind_eq_ok.1 h
    cases h
    exact (hear (Or.inr (Or.inl ht))).trans (handleHeartbeat h2)
  case snap =>
    obtain ⟨r2, h2, h⟩ := Res.bind_eq_ok.1 h
    cases h
    exact (hear (Or.inr (Or.inr ht))).trans (handleSnapshot h2)
  case transferLeader =>
    split at h
    · cases h; exact .refl
    obtain ⟨r2, h2, h⟩ := Res.bind_eq_ok.1 h
    cases h; exact send h2
  case timeoutNow =>
    obtain ⟨r2, h2, h⟩ := Res.bind_eq_ok.1 h
    cases h; exact hup h2
  case readIndex =>
    split at h
    · cases h; exact .refl
    obtain ⟨r2, h2, h⟩ := Res.bind_eq_ok.1 h
    cases h; exact send h2
  case readIndexResp =>
    split at h <;> cases h
    · exact .of rfl
    · exact .refl
  all_goals (cases h; exact .refl)

theorem candidateVoteResp {m : Message} (h : r.candidateVoteResp env m = .ok r') : Turn env im r r' := by
  unfold Raft.candidateVoteResp Raft.poll at h
  dsimp only at h
  split at h
  · split at h
    · have c := campaignElection (im := im) h
      exact .after c rfl
    · obtain ⟨r2, h2, h⟩ := Res.bind_eq_ok.1 h
      have s := becomeLeader (im := im) h2
      exact .after (s.trans (still (Still.bcastAppend h))) rfl
  · cases h; exact .after (.becomeFollower _) rfl
  · cases h; exact .of rfl

theorem stepCandidate {e : Option Err} (h : r.stepCandidate env im = .ok (r', e)) : Turn env im r r' := by
  unfold Raft.stepCandidate at h
  cases ht : im.type <;> simp only [ht] at h
  case app =>
    obtain ⟨r2, h2, h⟩ := Res.bind_eq_ok.1 h
    cases h
    exact .trans (.becomeFollower_heard (Or.inl ht)) (handleAppendEntries h2)
  case heartbeat =>
    obtain ⟨r2, h2, h⟩ := Res.bind_eq_ok.1 h
    cases h
    exact .trans (.becomeFollower_heard (Or.inr (Or.inl ht))) (handleHeartbeat h2)
  case snap =>
    obtain ⟨r2, h2, h⟩ := Res.bind_eq_ok.1 h
    cases h
    exact .trans (.becomeFollower_heard (Or.inr (Or.inr ht))) (handleSnapshot h2)
  case preVoteResp =>
    split at h
    · obtain ⟨r2, h2, h⟩ := Res.bind_eq_ok.1 h
      cases h
      exact candidateVoteResp h2
    · cases h; exact .refl
  case voteResp =>
    split at h
    · obtain ⟨r2, h2, h⟩ := Res.bind_eq_ok.1 h
      cases h
      exact candidateVoteResp h2
    · cases h; exact .refl
  all_goals (cases h; exact .refl)

theorem leaderTransfer {p : Progress} (h : r.leaderTransfer env im p = .ok r') : Turn env im r r' := by
  unfold Raft.leaderTransfer at h
  split at h
  · cases h; exact .refl
  split at h
  · cases h; exact .refl
  dsimp only at h
  generalize hr1 : (if r.leadTransferee ≠ 0 then { r with leadTransferee := 0 } else r) = r1 at h
  have k1 : Turn env im r r1 := by
    rw [← hr1]
    split <;> exact .of rfl
  refine k1.trans ?_
  clear k1 hr1
  have w : Turn env im r1 { r1 with electionElapsed := 0, leadTransferee := im.src } := rewind rfl rfl rfl rfl rfl rfl rfl (Or.inl rfl)
  split at h
  · cases h; exact .refl
  split at h
  · unfold Raft.sendTimeoutNow at h
    exact w.trans (send (r := { r1 with electionElapsed := 0, leadTransferee := im.src }) h)
  · have s := still (env := env) (im := im) (Still.sendAppend h)
    exact w.trans s

theorem leaderCheckQuorum : Turn env im r (r.leaderCheckQuorum env) := by
  have k : ∀ r2 : Raft, Turn env im r r2 → Turn env im r { r2 with trk := { r2.trk with
      progress := r2.trk.progress.map fun (id, p) => (id, if id ≠ r2.id then { p with recentActive := false } else p) } } :=
    fun r2 x => x.trans (.of rfl)
  refine k _ ?_
  have k1 : ∀ r1, Turn env im r r1 → Turn env im r (if ¬ r1.trk.quorumActive then r1.becomeFollower env r1.term 0 else r1) := by
    intro r1 s1
    split
    · exact s1.trans (.becomeFollower r1.term)
    · exact s1
  refine k1 _ ?_
  split
  · exact .of rfl
  · exact .refl

theorem stepLeader {e : Option Err} (h : r.stepLeader env im = .ok (r', e)) : Turn env im r r' := by
  unfold Raft.stepLeader at h
  have rest : ∀ {x : Res (Raft × Option Err)}, (∀ p, r.pr im.src = some p → (match im.type with
      | .appResp => do
        let pr := { p with recentActive := true }
        let r := r.setPr im.src pr
        let r ← if im.reject then r.leaderAppReject env im pr else r.leaderAppAccept env im pr
        pure (r, none)
      | .heartbeatResp => do let r ← r.leaderHeartbeatResp env im p; pure (r, none)
      | .snapStatus => .ok (r.leaderSnapStatus im p, none)
      | .unreachable =>
        .ok (if p.state = .replicate then r.setPr im.src p.becomeProbe else r, none)
      | .transferLeader => do let r ← r.leaderTransfer env im p; pure (r, none)
      | _ => .ok (r, none)) = Res.ok (r', e) → Turn env im r r') := by
    intro _ p hp h
    cases ht : im.type <;> simp only [ht] at h
    case appResp =>
      have s0 : Still r (r.setPr im.src { p with recentActive := true }) := .setPr _ _
      split at h
      · obtain ⟨r2, h2, h⟩ := Res.bind_eq_ok.1 h
        cases h
        exact still (s0.trans (Still.leaderAppReject h2))
      · obtain ⟨r2, h2, h⟩ := Res.bind_eq_ok.1 h
        cases h
        rcases Still.leaderAppAccept h2 with s | ⟨x, q, s, h3, h4, h5, h6⟩
        · exact still (s0.trans s)
        · exact (still (s0.trans s)).trans (send h6)
    case heartbeatResp =>
      obtain ⟨r2, h2, h⟩ := Res.bind_eq_ok.1 h
      cases h
      exact still (Still.leaderHeartbeatResp h2)
    case snapStatus => cases h; exact still Still.leaderSnapStatus
    case unreachable =>
      cases h
      split
      · exact .of rfl
      · exact .refl
    case transferLeader =>
      obtain ⟨r2, h2, h⟩ := Res.bind_eq_ok.1 h
      cases h
      exact leaderTransfer h2
    all_goals (cases h; exact .refl)
  split at h
  · obtain ⟨r2, h2, h⟩ := Res.bind_eq_ok.1 h
    cases h
    exact still (Still.bcastHeartbeat h2)
  · cases h
    exact leaderCheckQuorum
  · exact still (Still.leaderProp h)
  · obtain ⟨r2, h2, h⟩ := Res.bind_eq_ok.1 h
    cases h
    exact still (Still.leaderReadIndex h2)
  · split at h
    · cases h; exact .refl
    · rename_i p hp
      exact rest (x := .ok (r', e)) p hp h

theorem stepBody {e : Option Err} (hm : im.type = .app ∨ im.type = .heartbeat ∨ im.type = .snap → im.term = r.term ∨ im.term = 0)
    (h : r.stepBody env im = .ok (r', e)) : Turn env im r r' := by
  unfold Raft.stepBody at h
  split at h
  · obtain ⟨r2, h2, h⟩ := Res.bind_eq_ok.1 h
    cases h; exact .hup h2
  · obtain ⟨r2, h2, h⟩ := Res.bind_eq_ok.1 h
    cases h; exact .stepVote h2
  · obtain ⟨r2, h2, h⟩ := Res.bind_eq_ok.1 h
    cases h; exact .stepVote h2
  · unfold Raft.stepState at h
    split at h
    · exact .stepFollower ‹_› hm h
    · exact .stepCandidate h
    · exact .stepCandidate h
    · exact .stepLeader h

theorem step {e : Option Err} (h : r.step env im = .ok (r', e)) : Turn env im r r' := by
  unfold Raft.step at h
  obtain ⟨g, hg, h⟩ := Res.bind_eq_ok.1 h
  unfold Raft.stepGate at hg
  by_cases h0 : im.term = 0
  · rw [if_pos h0] at hg; cases hg
    exact stepBody (fun _ => Or.inr h0) h
  rw [if_neg h0] at hg
  by_cases hgt : im.term > r.term
  · rw [if_pos hgt] at hg
    split at hg
    · obtain ⟨_, _, hg⟩ := Res.bind_eq_ok.1 hg
      cases hg; cases h; exact .refl
    split at hg
    · rename_i ht
      cases hg; exact stepBody (fun h => by rw [ht] at h; simp at h) h
    split at hg
    · rename_i ht
      cases hg; exact stepBody (fun h => by rw [ht.1] at h; simp at h) h
    have hbt : ∀ l, (r.becomeFollower env im.term l).term = im.term := fun l => reset_term (env := env) im.term
    split at hg
    · rename_i ht
      cases hg
      refine .trans (.becomeFollower_heard ?_) (stepBody (fun _ => Or.inl (hbt _).symm) h)
      exact ht
    · cases hg
      exact .trans (.becomeFollower _) (stepBody (fun _ => Or.inl (hbt _).symm) h)
  rw [if_neg hgt] at hg
  by_cases hlt : im.term < r.term
  · rw [if_pos hlt] at hg
    split at hg
    · obtain ⟨r1, h1, hg⟩ := Res.bind_eq_ok.1 hg
      cases hg; cases h; exact send h1
    split at hg
    · obtain ⟨_, _, hg⟩ := Res.bind_eq_ok.1 hg
      obtain ⟨r1, h1, hg⟩ := Res.bind_eq_ok.1 hg
      cases hg; cases h; exact send h1
    · cases hg; cases h; exact .refl
  · rw [if_neg hlt] at hg
    cases hg
    exact stepBody (fun _ => Or.inl (by omega)) h

end Turn
end Craft
