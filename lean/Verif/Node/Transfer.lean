import Verif.Node.Still

/-! # Leadership transfer: who is told to campaign, and when the wait ends -/

namespace Craft

/-- No transfer is started and nobody is told to campaign. -/
def Calm (a b : Raft) : Prop :=
  (b.leadTransferee = a.leadTransferee ∨ b.leadTransferee = 0) ∧ ∃ ms, b.msgs = a.msgs ++ ms ∧ ∀ m ∈ ms, m.type ≠ .timeoutNow

theorem Still.calm {a b : Raft} (h : Still a b) : Calm a b := ⟨Or.inl h.transferee, h.2⟩

namespace Calm
variable {env : Env} {a b c r r' : Raft}

theorem refl : Calm a a := Still.refl.calm

theorem of (h1 : b.leadTransferee = a.leadTransferee) (h2 : b.msgs = a.msgs) : Calm a b :=
  ⟨Or.inl h1, [], by rw [h2, List.append_nil], nofun⟩

theorem trans (h1 : Calm a b) (h2 : Calm b c) : Calm a c := by
  obtain ⟨e1, m1, k1, t1⟩ := h1
  obtain ⟨e2, m2, k2, t2⟩ := h2
  refine ⟨?_, m1 ++ m2, by rw [k2, k1, List.append_assoc], fun m hm => ?_⟩
  · rcases e2 with e2 | e2
    · rw [e2]; exact e1
    · exact Or.inr e2
  · rcases List.mem_append.1 hm with h | h
    · exact t1 m h
    · exact t2 m h

theorem send {m : Message} (hm : m.type ≠ .timeoutNow) (h : r.send m = .ok r') : Calm r r' := (Still.send hm h).calm

theorem reset_none (t : Nat) : (r.reset env t).leadTransferee = 0 := rfl

theorem reset (t : Nat) : Calm r (r.reset env t) := ⟨Or.inr rfl, [], by rw [Raft.reset_msgs, List.append_nil], nofun⟩

theorem becomeFollower (t l : Nat) : Calm r (r.becomeFollower env t l) :=
  ⟨Or.inr rfl, [], by rw [show (r.becomeFollower env t l).msgs = (r.reset env t).msgs from rfl, Raft.reset_msgs, List.append_nil], nofun⟩

theorem becomeCandidate (h : r.becomeCandidate env = .ok r') : Calm r r' ∧ r'.leadTransferee = 0 := by
  unfold Raft.becomeCandidate at h
  split at h
  · cases h
  · cases h
    exact ⟨(reset (env := env) (r.term + 1)).trans (.of rfl rfl), rfl⟩

theorem becomePreCandidate (h : r.becomePreCandidate = .ok r') : Calm r r' := by
  unfold Raft.becomePreCandidate at h
  split at h
  · cases h
  · cases h; exact .of rfl rfl

theorem reduce (es : List Entry) : Still r (r.reduceUncommittedSize es) := by
  unfold Raft.reduceUncommittedSize
  split
  · exact .refl
  · dsimp only; split <;> exact .of rfl rfl

theorem becomeLeader (h : r.becomeLeader env = .ok r') : Calm r r' ∧ r'.leadTransferee = 0 ∧ r'.state = .leader := by
  unfold Raft.becomeLeader at h
  split at h
  · cases h
  dsimp only at h
  obtain ⟨pr, _, h⟩ := Res.bind_eq_ok.1 h
  obtain ⟨⟨r2, ok⟩, h2, h⟩ := Res.bind_eq_ok.1 h
  dsimp only at h
  split at h
  · cases h
  cases h
  have s := (Still.appendEntry h2).trans (reduce [{}])
  refine ⟨.trans (reset (env := env) r.term) (.trans (.of rfl rfl) s.calm), s.transferee, s.state⟩

theorem sendVotes {vt : MsgType} (hv : vt ≠ .timeoutNow) {t : Nat} {ctx : Bytes} (ids : List Nat) (h : r.sendVotes vt t ctx ids = .ok r') : Still r r' := by
  induction ids generalizing r with
  | nil => cases h; exact .refl
  | cons i is ih =>
    unfold Raft.sendVotes at h
    split at h
    · exact ih h
    · obtain ⟨lt, _, h⟩ := Res.bind_eq_ok.1 h
      obtain ⟨r2, h2, h⟩ := Res.bind_eq_ok.1 h
      exact (Still.send (by exact hv) h2).trans (ih h)

theorem campaignElection {b : Bool} (h : r.campaignElection env b = .ok r') : Calm r r' ∧ r'.leadTransferee = 0 := by
  unfold Raft.campaignElection at h
  obtain ⟨r2, h2, h⟩ := Res.bind_eq_ok.1 h
  obtain ⟨c2, e2⟩ := becomeCandidate h2
  unfold Raft.poll at h
  dsimp only at h
  split at h
  · obtain ⟨c3, e3, _⟩ := becomeLeader h
    exact ⟨c2.trans (.trans (.of rfl rfl) c3), e3⟩
  · have s := sendVotes (by nofun) _ h
    exact ⟨c2.trans (.trans (.of rfl rfl) s.calm), s.transferee.trans e2⟩

theorem campaign {t : CampaignType} (h : r.campaign env t = .ok r') : Calm r r' := by
  unfold Raft.campaign at h
  split at h
  · obtain ⟨r2, h2, h⟩ := Res.bind_eq_ok.1 h
    unfold Raft.poll at h
    dsimp only at h
    split at h
    · exact (becomePreCandidate h2).trans (.trans (.of rfl rfl) (campaignElection h).1)
    · have s := sendVotes (by nofun) _ h
      exact (becomePreCandidate h2).trans (.trans (.of rfl rfl) s.calm)
  · exact (campaignElection h).1
  · exact (campaignElection h).1

/-- A leader is not moved by a request to campaign. -/
theorem hup_leader {t : CampaignType} (hs : r.state = .leader) (h : r.hup env t = .ok r') : r' = r := by
  unfold Raft.hup at h
  rw [if_pos hs] at h
  cases h; rfl

theorem hup {t : CampaignType} (h : r.hup env t = .ok r') : Calm r r' := by
  unfold Raft.hup at h
  split at h
  · cases h; exact .refl
  split at h
  · cases h; exact .refl
  obtain ⟨x, _, h⟩ := Res.bind_eq_ok.1 h
  cases x with
  | error e => cases h
  | ok es =>
    dsimp only at h
    split at h
    · cases h; exact .refl
    · exact campaign h

theorem handleAppendEntries {m : Message} (h : r.handleAppendEntries m = .ok r') : Calm r r' := by
  unfold Raft.handleAppendEntries at h
  split at h
  · exact send (by nofun) h
  obtain ⟨⟨l, res⟩, _, h⟩ := Res.bind_eq_ok.1 h
  cases res with
  | some li => exact .trans (.of rfl rfl) (send (r := { r with log := l }) (by nofun) h)
  | none =>
    dsimp only at h
    obtain ⟨_, _, h⟩ := Res.bind_eq_ok.1 h
    obtain ⟨_, _, h⟩ := Res.bind_eq_ok.1 h
    obtain ⟨_, _, h⟩ := Res.bind_eq_ok.1 h
    obtain ⟨x, _, h⟩ := Res.bind_eq_ok.1 h
    cases x with
    | error e => cases h
    | ok t => exact send (by nofun) h

theorem handleHeartbeat {m : Message} (h : r.handleHeartbeat m = .ok r') : Calm r r' := by
  unfold Raft.handleHeartbeat at h
  obtain ⟨l, _, h⟩ := Res.bind_eq_ok.1 h
  exact .trans (.of rfl rfl) (send (r := { r with log := l }) (by nofun) h)

theorem switchToConfig {cfg : TConfig} {prs : ProgressMap} {cs : ConfState} (h : r.switchToConfig env cfg prs = .ok (r', cs)) : Calm r r' := by
  unfold Raft.switchToConfig at h
  dsimp only at h
  split at h
  · cases h; exact .of rfl rfl
  split at h
  · cases h; exact .of rfl rfl
  obtain ⟨r2, h2, h⟩ := Res.bind_eq_ok.1 h
  have s := (Still.switchSend h2).calm
  split at h
  · cases h
    exact .trans (.of rfl rfl) (s.trans ⟨Or.inr rfl, [], (List.append_nil _).symm, nofun⟩)
  · cases h; exact .trans (.of rfl rfl) s

theorem restore {s : Snapshot} {ok : Bool} (h : r.restore env s = .ok (r', ok)) : Calm r r' := by
  unfold Raft.restore at h
  split at h
  · cases h; exact .refl
  split at h
  · cases h; exact .becomeFollower _ _
  dsimp only at h
  split at h
  · cases h; exact .refl
  obtain ⟨m, _, h⟩ := Res.bind_eq_ok.1 h
  split at h
  · obtain ⟨_, _, h⟩ := Res.bind_eq_ok.1 h
    obtain ⟨l, _, h⟩ := Res.bind_eq_ok.1 h
    cases h; exact .of rfl rfl
  split at h
  · cases h
  obtain ⟨⟨r2, cs2⟩, h2, h⟩ := Res.bind_eq_ok.1 h
  dsimp only at h
  split at h
  · cases h
  obtain ⟨pr, _, h⟩ := Res.bind_eq_ok.1 h
  obtain ⟨_, _, h⟩ := Res.bind_eq_ok.1 h
  cases h
  have s := switchToConfig h2
  exact .trans (.of rfl rfl) (s.trans (.of rfl rfl))

theorem handleSnapshot {m : Message} (h : r.handleSnapshot env m = .ok r') : Calm r r' := by
  unfold Raft.handleSnapshot at h
  obtain ⟨⟨r2, ok⟩, h2, h⟩ := Res.bind_eq_ok.1 h
  refine (restore h2).trans ?_
  dsimp only at h
  split at h <;> exact send (by nofun) h

theorem stepVote {m : Message} (h : r.stepVote m = .ok r') : Calm r r' := by
  unfold Raft.stepVote at h
  obtain ⟨up, _, h⟩ := Res.bind_eq_ok.1 h
  obtain ⟨_, _, h⟩ := Res.bind_eq_ok.1 h
  obtain ⟨rt, hrt, h⟩ := Res.bind_eq_ok.1 h
  have hne : rt ≠ .timeoutNow := by
    unfold voteRespMsgType at hrt
    split at hrt <;> cases hrt <;> nofun
  split at h
  · obtain ⟨r2, h2, h⟩ := Res.bind_eq_ok.1 h
    have s := send (by exact hne) h2
    split at h
    · cases h; exact s.trans (.of rfl rfl)
    · cases h; exact s
  · exact send (by exact hne) h

theorem stepFollower {m : Message} {e : Option Err} (h : r.stepFollower env m = .ok (r', e)) : Calm r r' := by
  unfold Raft.stepFollower at h
  cases ht : m.type <;> simp only [ht] at h
  case prop =>
    split at h
    · cases h; exact .refl
    split at h
    · cases h; exact .refl
    obtain ⟨r2, h2, h⟩ := Res.bind_eq_ok.1 h
    cases h; exact send (by simp [ht]) h2
  case app =>
    obtain ⟨r2, h2, h⟩ := Res.bind_eq_ok.1 h
    cases h
    have s := handleAppendEntries h2
    exact .trans (.of rfl rfl) s
  case heartbeat =>
    obtain ⟨r2, h2, h⟩ := Res.bind_eq_ok.1 h
    cases h
    have s := handleHeartbeat h2
    exact .trans (.of rfl rfl) s
  case snap =>
    obtain ⟨r2, h2, h⟩ := Res.bind_eq_ok.1 h
    cases h
    have s := handleSnapshot h2
    exact .trans (.of rfl rfl) s
  case transferLeader =>
    split at h
    · cases h; exact .refl
    obtain ⟨r2, h2, h⟩ := Res.bind_eq_ok.1 h
    cases h; exact send (by simp [ht]) h2
  case timeoutNow =>
    obtain ⟨r2, h2, h⟩ := Res.bind_eq_ok.1 h
    cases h; exact hup h2
  case readIndex =>
    split at h
    · cases h; exact .refl
    obtain ⟨r2, h2, h⟩ := Res.bind_eq_ok.1 h
    cases h; exact send (by simp [ht]) h2
  case readIndexResp =>
    split at h <;> cases h
    · exact .of rfl rfl
    · exact .refl
  all_goals (cases h; exact .refl)

theorem candidateVoteResp {m : Message} (h : r.candidateVoteResp env m = .ok r') : Calm r r' := by
  unfold Raft.candidateVoteResp Raft.poll at h
  dsimp only at h
  split at h
  · split at h
    · exact .trans (.of rfl rfl) (campaignElection h).1
    · obtain ⟨r2, h2, h⟩ := Res.bind_eq_ok.1 h
      have s := (becomeLeader h2).1
      exact .trans (.of rfl rfl) (s.trans (Still.bcastAppend h).calm)
  · cases h; exact .trans (.of rfl rfl) (.becomeFollower _ _)
  · cases h; exact .of rfl rfl

theorem stepCandidate {m : Message} {e : Option Err} (h : r.stepCandidate env m = .ok (r', e)) : Calm r r' := by
  unfold Raft.stepCandidate at h
  cases ht : m.type <;> simp only [ht] at h
  case app =>
    obtain ⟨r2, h2, h⟩ := Res.bind_eq_ok.1 h
    cases h
    exact .trans (.becomeFollower _ _) (handleAppendEntries h2)
  case heartbeat =>
    obtain ⟨r2, h2, h⟩ := Res.bind_eq_ok.1 h
    cases h
    exact .trans (.becomeFollower _ _) (handleHeartbeat h2)
  case snap =>
    obtain ⟨r2, h2, h⟩ := Res.bind_eq_ok.1 h
    cases h
    exact .trans (.becomeFollower _ _) (handleSnapshot h2)
  case preVoteResp =>
    split at h
    · obtain ⟨r2, h2, h⟩ := Res.bind_eq_ok.1 h
      cases h
      exact candidateVoteResp h2
    · cases h; exact .refl
  case voteResp =>
    split at h
    · obtain ⟨r2, h2, h⟩ := Res.bind_eq_ok.1 h
      cases h
      exact candidateVoteResp h2
    · cases h; exact .refl
  all_goals (cases h; exact .refl)

end Calm
end Craft

namespace Craft

/-- One piece of work of a node: who is told to campaign, and what becomes of a pending transfer. -/
structure Xfer (im : Message) (a b : Raft) : Prop where
  told : ∃ ms, b.msgs = a.msgs ++ ms ∧ ∀ m ∈ ms, m.type = .timeoutNow →
    b.state = .leader ∧ m.to = b.leadTransferee ∧ ∃ p, b.pr m.to = some p ∧ p.mtch = b.log.lastIndex
  wait : (a.leadTransferee ≠ 0 → a.state = .leader) → (a.state = .leader → a.vote ≠ 0) → b.leadTransferee = 0 ∨
    (im.type = .transferLeader ∧ im.src = b.leadTransferee ∧ b.leadTransferee ≠ a.leadTransferee ∧ a.state = .leader ∧
      b.state = .leader ∧ b.term = a.term ∧ b.electionElapsed = 0) ∨
    (b.leadTransferee = a.leadTransferee ∧ b.state = .leader ∧ b.term = a.term ∧
      (b.electionElapsed = a.electionElapsed ∨ (im.type = .vote ∧ im.src = a.vote)))

namespace Xfer
variable {env : Env} {im : Message} {a b c r r' : Raft}

theorem of_told {ms : List Message} {P : Message → Prop} (h : b.msgs = a.msgs ++ ms) (hn : ∀ m ∈ ms, m.type ≠ .timeoutNow) :
    ∃ ms, b.msgs = a.msgs ++ ms ∧ ∀ m ∈ ms, m.type = .timeoutNow → P m :=
  ⟨ms, h, fun m hm ht => absurd ht (hn m hm)⟩

/-- Nothing is pending afterwards. -/
theorem calm_none (h : Calm a b) (h0 : b.leadTransferee = 0) : Xfer im a b := by
  obtain ⟨_, ms, h1, h2⟩ := h
  exact ⟨of_told h1 h2, fun _ _ => Or.inl h0⟩

theorem calm (h : Calm a b) (hl : a.state ≠ .leader) : Xfer im a b := by
  obtain ⟨h0, ms, h1, h2⟩ := h
  refine ⟨of_told h1 h2, fun hw _ => Or.inl ?_⟩
  rcases h0 with h | h
  · rw [h]; exact Classical.byContradiction fun h => hl (hw h)
  · exact h

theorem still (hl : a.state = .leader) (h : Still a b) : Xfer im a b := by
  obtain ⟨ms, h1, h2⟩ := h.2
  exact ⟨of_told h1 h2, fun _ _ => Or.inr (Or.inr ⟨h.transferee, h.state.trans hl, h.term, Or.inl h.elapsed⟩)⟩

theorem refl (hl : a.state = .leader) : Xfer im a a := still hl .refl

/-- The transferee has caught up and is told to campaign. -/
theorem told_still {t : Nat} {p : Progress} (hl : a.state = .leader) (h : Still a b) (hp : b.pr t = some p) (ht : t = b.leadTransferee)
    (hm : p.mtch = b.log.lastIndex) (hs : b.sendTimeoutNow t = .ok c) : Xfer im a c := by
  unfold Raft.sendTimeoutNow at hs
  rw [Raft.send_ok hs]
  obtain ⟨ms, h1, h2⟩ := h.2
  refine ⟨⟨ms ++ [b.outMsg { type := .timeoutNow, to := t }], ?_, fun m hm' hty => ?_⟩,
    fun _ _ => Or.inr (Or.inr ⟨h.transferee, h.state.trans hl, h.term, Or.inl h.elapsed⟩)⟩
  · show b.msgs ++ _ = _
    rw [h1, List.append_assoc]
  · rcases List.mem_append.1 hm' with hm' | hm'
    · exact absurd hty (h2 m hm')
    · rw [List.mem_singleton] at hm'
      subst hm'
      have e : (b.outMsg { type := .timeoutNow, to := t }).to = t := by
        unfold Raft.outMsg; rfl
      exact ⟨h.state.trans hl, by rw [e]; exact ht, p, by rw [e]; exact hp, hm⟩

theorem leaderTransfer {p : Progress} (hl : r.state = .leader) (ht : im.type = .transferLeader) (hp : r.pr im.src = some p)
    (h : r.leaderTransfer env im p = .ok r') : Xfer im r r' := by
  unfold Raft.leaderTransfer at h
  split at h
  · cases h; exact refl hl
  split at h
  · cases h; exact refl hl
  rename_i hne
  dsimp only at h
  generalize hr1 : (if r.leadTransferee ≠ 0 then { r with leadTransferee := 0 } else r) = r1 at h
  have k1 : r1 = { r with leadTransferee := 0 } := by
    rw [← hr1]
    split
    · rfl
    · rename_i h0
      have h0 : r.leadTransferee = 0 := Classical.not_not.1 h0
      rw [← h0]
  subst k1
  split at h
  · cases h
    exact calm_none ⟨Or.inr rfl, [], (List.append_nil _).symm, nofun⟩ rfl
  have hne' : im.src ≠ 0 → im.src ≠ r.leadTransferee := fun h0 e => hne ⟨by rw [← e]; exact h0, e.symm⟩
  split at h
  · rename_i hm
    unfold Raft.sendTimeoutNow at h
    rw [Raft.send_ok h]
    refine ⟨⟨[_], rfl, fun m hm' _ => ?_⟩, fun _ _ => ?_⟩
    · rw [List.mem_singleton] at hm'
      subst hm'
      exact ⟨hl, rfl, p, hp, hm⟩
    · by_cases h0 : im.src = 0
      · exact Or.inl h0
      · exact Or.inr (Or.inl ⟨ht, rfl, hne' h0, hl, hl, rfl, rfl⟩)
  · have s := Still.sendAppend h
    obtain ⟨ms, h1, h2⟩ := s.2
    refine ⟨of_told h1 h2, fun _ _ => ?_⟩
    by_cases h0 : im.src = 0
    · exact Or.inl (s.transferee.trans h0)
    · exact Or.inr (Or.inl ⟨ht, s.transferee.symm, by rw [s.transferee]; exact hne' h0, hl, s.state.trans hl, s.term, s.elapsed⟩)

theorem leaderCheckQuorum (hl : r.state = .leader) : Xfer im r (r.leaderCheckQuorum env) := by
  have k : ∀ r2 : Raft, Xfer im r r2 → Xfer im r { r2 with trk := { r2.trk with
      progress := r2.trk.progress.map fun (id, p) => (id, if id ≠ r2.id then { p with recentActive := false } else p) } } := by
    intro r2 x
    obtain ⟨⟨ms, h1, h2⟩, h3⟩ := x
    refine ⟨⟨ms, h1, fun m hm ht => ?_⟩, h3⟩
    obtain ⟨h4, h5, p, h6, h7⟩ := h2 m hm ht
    refine ⟨h4, h5, if m.to ≠ r2.id then { p with recentActive := false } else p, ?_, ?_⟩
    · show AMap.find (r2.trk.progress.map _) m.to = _
      rw [AMap.find_map r2.trk.progress (fun id p => if id ≠ r2.id then { p with recentActive := false } else p)]
      rw [show r2.trk.progress.find m.to = some p from h6]
      rfl
    · split
      · exact h7
      · exact h7
  refine k _ ?_
  have k1 : ∀ r1, Still r r1 → Xfer im r (if ¬ r1.trk.quorumActive then r1.becomeFollower env r1.term 0 else r1) := by
    intro r1 s1
    split
    · exact calm_none (s1.calm.trans (.becomeFollower (env := env) r1.term 0)) rfl
    · exact still hl s1
  refine k1 _ ?_
  split
  · exact .setPr _ _
  · exact .refl

theorem stepLeader {e : Option Err} (hl : r.state = .leader) (h : r.stepLeader env im = .ok (r', e)) : Xfer im r r' := by
  unfold Raft.stepLeader at h
  have rest : ∀ {x : Res (Raft × Option Err)}, (∀ p, r.pr im.src = some p → (match im.type with
      | .appResp => do
        let pr := { p with recentActive := true }
        let r := r.setPr im.src pr
        let r ← if im.reject then r.leaderAppReject env im pr else r.leaderAppAccept env im pr
        pure (r, none)
      | .heartbeatResp => do let r ← r.leaderHeartbeatResp env im p; pure (r, none)
      | .snapStatus => .ok (r.leaderSnapStatus im p, none)
      | .unreachable =>
        .ok (if p.state = .replicate then r.setPr im.src p.becomeProbe else r, none)
      | .transferLeader => do let r ← r.leaderTransfer env im p; pure (r, none)
      | _ => .ok (r, none)) = Res.ok (r', e) → Xfer im r r') := by
    intro _ p hp h
    cases ht : im.type <;> simp only [ht] at h
    case appResp =>
      have s0 : Still r (r.setPr im.src { p with recentActive := true }) := .setPr _ _
      split at h
      · obtain ⟨r2, h2, h⟩ := Res.bind_eq_ok.1 h
        cases h
        exact still hl (s0.trans (Still.leaderAppReject h2))
      · obtain ⟨r2, h2, h⟩ := Res.bind_eq_ok.1 h
        cases h
        rcases Still.leaderAppAccept h2 with s | ⟨x, q, s, h3, h4, h5, h6⟩
        · exact still hl (s0.trans s)
        · exact told_still hl (s0.trans s) h3 h4 h5 h6
    case heartbeatResp =>
      obtain ⟨r2, h2, h⟩ := Res.bind_eq_ok.1 h
      cases h
      exact still hl (Still.leaderHeartbeatResp h2)
    case snapStatus => cases h; exact still hl Still.leaderSnapStatus
    case unreachable =>
      cases h
      split
      · exact still hl (.setPr _ _)
      · exact refl hl
    case transferLeader =>
      obtain ⟨r2, h2, h⟩ := Res.bind_eq_ok.1 h
      cases h
      exact leaderTransfer hl ht hp h2
    all_goals (cases h; exact refl hl)
  split at h
  · obtain ⟨r2, h2, h⟩ := Res.bind_eq_ok.1 h
    cases h
    exact still hl (Still.bcastHeartbeat h2)
  · cases h
    exact leaderCheckQuorum hl
  · exact still hl (Still.leaderProp h)
  · obtain ⟨r2, h2, h⟩ := Res.bind_eq_ok.1 h
    cases h
    exact still hl (Still.leaderReadIndex h2)
  · split at h
    · cases h; exact refl hl
    · rename_i p hp
      exact rest (x := .ok (r', e)) p hp h

theorem stepVote (hl : r.state = .leader) (ht : im.type = .vote ∨ im.type = .preVote)
    (h : r.stepVote im = .ok r') : Xfer im r r' := by
  obtain ⟨_, ms, h1, h2⟩ := Calm.stepVote h
  refine ⟨of_told h1 h2, fun _ hv => Or.inr (Or.inr ?_)⟩
  unfold Raft.stepVote at h
  obtain ⟨up, hup, h⟩ := Res.bind_eq_ok.1 h
  obtain ⟨_, _, h⟩ := Res.bind_eq_ok.1 h
  obtain ⟨rt, _, h⟩ := Res.bind_eq_ok.1 h
  split at h
  · rename_i hu
    rw [hu] at hup
    obtain ⟨r2, h2, h⟩ := Res.bind_eq_ok.1 h
    rw [Raft.send_ok h2] at h
    split at h
    · rename_i hty
      cases h
      refine ⟨rfl, hl, rfl, Or.inr ⟨hty, ?_⟩⟩
      unfold Raft.canGrant at hup
      split at hup
      · rename_i hc
        rcases hc with hc | hc | hc
        · exact hc.symm
        · exact absurd hc.1 (hv hl)
        · rw [hty] at hc; cases hc.1
      · cases hup
    · cases h; exact ⟨rfl, hl, rfl, Or.inl rfl⟩
  · rw [Raft.send_ok h]; exact ⟨rfl, hl, rfl, Or.inl rfl⟩

theorem stepBody {e : Option Err}
    (h : r.stepBody env im = .ok (r', e)) : Xfer im r r' := by
  by_cases hl : r.state = .leader
  · unfold Raft.stepBody at h
    split at h
    · obtain ⟨r2, h2, h⟩ := Res.bind_eq_ok.1 h
      cases h
      rw [Calm.hup_leader hl h2]
      exact refl hl
    · rename_i ht
      obtain ⟨r2, h2, h⟩ := Res.bind_eq_ok.1 h
      cases h
      exact stepVote hl (Or.inl ht) h2
    · rename_i ht
      obtain ⟨r2, h2, h⟩ := Res.bind_eq_ok.1 h
      cases h
      exact stepVote hl (Or.inr ht) h2
    · unfold Raft.stepState at h
      rw [hl] at h
      exact stepLeader hl h
  · refine calm ?_ hl
    unfold Raft.stepBody at h
    split at h
    · obtain ⟨r2, h2, h⟩ := Res.bind_eq_ok.1 h
      cases h; exact .hup h2
    · obtain ⟨r2, h2, h⟩ := Res.bind_eq_ok.1 h
      cases h; exact .stepVote h2
    · obtain ⟨r2, h2, h⟩ := Res.bind_eq_ok.1 h
      cases h; exact .stepVote h2
    · unfold Raft.stepState at h
      split at h
      · exact .stepFollower h
      · exact .stepCandidate h
      · exact .stepCandidate h
      · exact absurd ‹_› hl

theorem step {e : Option Err}
    (h : r.step env im = .ok (r', e)) : Xfer im r r' := by
  unfold Raft.step at h
  obtain ⟨g, hg, h⟩ := Res.bind_eq_ok.1 h
  have stop : ∀ {m : Message} {r1 : Raft}, m.type ≠ .timeoutNow → r.send m = .ok r1 → Xfer im r r1 := by
    intro m r1 hm h
    by_cases hl : r.state = .leader
    · exact still hl (.send hm h)
    · exact calm (.send hm h) hl
  have same : Xfer im r r := by
    by_cases hl : r.state = .leader
    · exact refl hl
    · exact calm .refl hl
  have down : ∀ t l, (r.becomeFollower env t l).stepBody env im = .ok (r', e) → Xfer im r r' := by
    intro t l h
    have x := stepBody (r := r.becomeFollower env t l) h
    obtain ⟨ms, h1, h2⟩ := x.told
    rw [show (r.becomeFollower env t l).msgs = r.msgs from Raft.reset_msgs (env := env) r t] at h1
    refine ⟨⟨ms, h1, h2⟩, fun _ _ => ?_⟩
    rcases x.wait (fun h => absurd rfl h) (fun h => nomatch h) with h | ⟨_, _, _, h, _⟩ | ⟨h, _⟩
    · exact Or.inl h
    · cases h
    · exact Or.inl h
  unfold Raft.stepGate at hg
  by_cases h0 : im.term = 0
  · rw [if_pos h0] at hg; cases hg
    exact stepBody h
  rw [if_neg h0] at hg
  by_cases hgt : im.term > r.term
  · rw [if_pos hgt] at hg
    split at hg
    · obtain ⟨_, _, hg⟩ := Res.bind_eq_ok.1 hg
      cases hg; cases h; exact same
    split at hg
    · cases hg; exact stepBody h
    split at hg
    · cases hg; exact stepBody h
    split at hg
    · cases hg; exact down _ _ h
    · cases hg; exact down _ _ h
  rw [if_neg hgt] at hg
  by_cases hlt : im.term < r.term
  · rw [if_pos hlt] at hg
    split at hg
    · obtain ⟨r1, h1, hg⟩ := Res.bind_eq_ok.1 hg
      cases hg; cases h; exact stop (by nofun) h1
    split at hg
    · obtain ⟨_, _, hg⟩ := Res.bind_eq_ok.1 hg
      obtain ⟨r1, h1, hg⟩ := Res.bind_eq_ok.1 hg
      cases hg; cases h; exact stop (by nofun) h1
    · cases hg; cases h; exact same
  · rw [if_neg hlt] at hg
    cases hg
    exact stepBody h

theorem step_checkQuorum {src : Nat} (hl : r.state = .leader) :
    r.step env { type := .checkQuorum, src := src } = .ok (r.leaderCheckQuorum env, none) := by
  unfold Raft.step Raft.stepGate
  rw [if_pos rfl]
  show Raft.stepState env r _ = _
  unfold Raft.stepState
  rw [hl]
  rfl

theorem step_beat {src : Nat} (hl : r.state = .leader) :
    r.step env { type := .beat, src := src } = (do let r ← r.bcastHeartbeat; pure (r, none)) := by
  unfold Raft.step Raft.stepGate
  rw [if_pos rfl]
  show Raft.stepState env r _ = _
  unfold Raft.stepState
  rw [hl]
  rfl

theorem checkQuorum_msgs : (r.leaderCheckQuorum env).msgs = r.msgs := by
  have k : ∀ r1 : Raft, r1.msgs = r.msgs → (if ¬ r1.trk.quorumActive then r1.becomeFollower env r1.term 0 else r1).msgs = r.msgs := by
    intro r1 h
    split
    · exact (Raft.reset_msgs (env := env) r1 r1.term).trans h
    · exact h
  refine k _ ?_
  split <;> rfl

theorem checkQuorum_lead : (r.leaderCheckQuorum env).leadTransferee = 0 ∨ (r.leaderCheckQuorum env).state = r.state := by
  have k : ∀ r1 : Raft, r1.state = r.state → (if ¬ r1.trk.quorumActive then r1.becomeFollower env r1.term 0 else r1).leadTransferee = 0 ∨
      (if ¬ r1.trk.quorumActive then r1.becomeFollower env r1.term 0 else r1).state = r.state := by
    intro r1 h
    split
    · exact Or.inl rfl
    · exact Or.inr h
  refine k _ ?_
  split <;> rfl

/-- A tick of a leader: the wait is one tick older, and it ends after `election_tick` of them. -/
theorem tick (h : r.tick env = .ok r') :
    (∃ ms, r'.msgs = r.msgs ++ ms ∧ ∀ m ∈ ms, m.type ≠ .timeoutNow) ∧
    ((r.leadTransferee ≠ 0 → r.state = .leader) → r'.leadTransferee = 0 ∨ (r'.leadTransferee = r.leadTransferee ∧ r'.state = .leader ∧ r'.term = r.term ∧
      r'.electionElapsed = r.electionElapsed + 1 ∧ r'.electionElapsed < r'.electionTimeout)) := by
  unfold Raft.tick at h
  by_cases hl : r.state = .leader
  · rw [hl] at h
    dsimp only at h
    unfold Raft.tickHeartbeat at h
    obtain ⟨r1, h1, h⟩ := Res.bind_eq_ok.1 h
    have k1 : (∃ ms, r1.msgs = r.msgs ++ ms ∧ ∀ m ∈ ms, m.type ≠ .timeoutNow) ∧
        (r1.leadTransferee = 0 ∨ (r1.leadTransferee = r.leadTransferee ∧ r1.state = .leader ∧ r1.term = r.term ∧
          r1.electionElapsed = r.electionElapsed + 1 ∧ r1.electionElapsed < r1.electionTimeout)) := by
      unfold Raft.tickHeartbeatTimeout at h1
      dsimp only at h1
      by_cases ht : r.electionElapsed + 1 ≥ r.electionTimeout
      · rw [if_pos ht] at h1
        have fin : ∀ r2 : Raft, (∃ ms, r2.msgs = r.msgs ++ ms ∧ ∀ m ∈ ms, m.type ≠ .timeoutNow) → (r2.leadTransferee = 0 ∨ r2.state = .leader) →
            (if r2.state = .leader ∧ r2.leadTransferee ≠ 0 then pure { r2 with leadTransferee := 0 } else pure r2 : Res Raft) = .ok r1 →
            (∃ ms, r1.msgs = r.msgs ++ ms ∧ ∀ m ∈ ms, m.type ≠ .timeoutNow) ∧ r1.leadTransferee = 0 := by
          intro r2 k2 k3 h1
          split at h1
          · cases h1
            exact ⟨k2, rfl⟩
          · rename_i hn
            cases h1
            refine ⟨k2, ?_⟩
            rcases k3 with k | k
            · exact k
            · exact Classical.byContradiction fun h0 => hn ⟨k, h0⟩
        by_cases hq : r.checkQuorum = true
        · rw [if_pos hq] at h1
          rw [step_checkQuorum (by exact hl)] at h1
          have k := fin _ ⟨[], ?_, nofun⟩ ?_ h1
          · exact ⟨k.1, Or.inl k.2⟩
          · rw [List.append_nil]
            exact checkQuorum_msgs
          · rcases checkQuorum_lead (env := env) (r := { r with heartbeatElapsed := r.heartbeatElapsed + 1, electionElapsed := 0 }) with h | h
            · exact Or.inl h
            · exact Or.inr (h.trans hl)
        · rw [if_neg hq] at h1
          have k := fin { r with heartbeatElapsed := r.heartbeatElapsed + 1, electionElapsed := 0 } ⟨[], (List.append_nil _).symm, nofun⟩
            (Or.inr hl) h1
          exact ⟨k.1, Or.inl k.2⟩
      · rw [if_neg ht] at h1
        cases h1
        exact ⟨⟨[], (List.append_nil _).symm, nofun⟩, Or.inr ⟨rfl, hl, rfl, rfl, Nat.not_le.1 ht⟩⟩
    unfold Raft.tickHeartbeatBeat at h
    split at h
    · cases h; exact ⟨k1.1, fun _ => k1.2⟩
    rename_i hs1
    split at h
    · obtain ⟨⟨r2, e⟩, h2, h⟩ := Res.bind_eq_ok.1 h
      cases h
      rw [step_beat (by exact Classical.not_not.1 hs1)] at h2
      obtain ⟨r3, h3, h2⟩ := Res.bind_eq_ok.1 h2
      cases h2
      have s := Still.bcastHeartbeat h3
      obtain ⟨⟨ms, e1, e2⟩, e3⟩ := k1
      obtain ⟨ms', e4, e5⟩ := s.2
      replace e4 : r'.msgs = r1.msgs ++ ms' := e4
      refine ⟨⟨ms ++ ms', by rw [e4, e1, List.append_assoc], fun m hm => ?_⟩, ?_⟩
      · rcases List.mem_append.1 hm with hm | hm
        · exact e2 m hm
        · exact e5 m hm
      · intro _
        rcases e3 with e | ⟨e3, e4, e5, e6, e7⟩
        · exact Or.inl (s.transferee.trans e)
        · exact Or.inr ⟨s.transferee.trans e3, s.state.trans e4, s.term.trans e5, s.elapsed.trans e6, lt_of_eq_of_lt s.elapsed (lt_of_lt_of_eq e7 s.timeout.symm)⟩
    · cases h; exact ⟨k1.1, fun _ => k1.2⟩
  · have h : r.tickElection env = .ok r' := by
      split at h
      · exact absurd ‹_› hl
      · exact h
    have c : Calm r r' := by
      unfold Raft.tickElection at h
      dsimp only at h
      split at h
      · obtain ⟨⟨r2, e⟩, h2, h⟩ := Res.bind_eq_ok.1 h
        cases h
        unfold Raft.step Raft.stepGate at h2
        rw [if_pos rfl] at h2
        obtain ⟨g, hg, h2⟩ := Res.bind_eq_ok.1 h2
        cases hg
        obtain ⟨r3, h3, h2⟩ := Res.bind_eq_ok.1 h2
        cases h2
        have c := Calm.hup h3
        exact .trans (.of rfl rfl) c
      · cases h; exact .of rfl rfl
    refine ⟨c.2, fun hw => Or.inl ?_⟩
    rcases c.1 with c | c
    · rw [c]; exact Classical.byContradiction fun h => hl (hw h)
    · exact c

/-- A configuration change tells nobody to campaign; it may end the wait, and does if the target is no voter any more. -/
theorem switchToConfig {cfg : TConfig} {prs : ProgressMap} {cs : ConfState} (h : r.switchToConfig env cfg prs = .ok (r', cs)) :
    (∃ ms, r'.msgs = r.msgs ++ ms ∧ ∀ m ∈ ms, m.type ≠ .timeoutNow) ∧ (r'.leadTransferee = 0 ∨
      (r'.leadTransferee = r.leadTransferee ∧ r'.state = r.state ∧ r'.term = r.term ∧ r'.electionElapsed = r.electionElapsed)) := by
  refine ⟨(Calm.switchToConfig h).2, ?_⟩
  unfold Raft.switchToConfig at h
  dsimp only at h
  split at h
  · cases h; exact Or.inr ⟨rfl, rfl, rfl, rfl⟩
  split at h
  · cases h; exact Or.inr ⟨rfl, rfl, rfl, rfl⟩
  obtain ⟨r2, h2, h⟩ := Res.bind_eq_ok.1 h
  have s := Still.switchSend h2
  split at h
  · cases h; exact Or.inl rfl
  · cases h; exact Or.inr ⟨s.transferee, s.state, s.term, s.elapsed⟩

end Xfer

theorem Still.advance {r r' : Raft} {rd : Ready} (h : r.advance rd = .ok r') : Still r r' := by
  unfold Raft.advance at h
  obtain ⟨r1, h1, h⟩ := Res.bind_eq_ok.1 h
  obtain ⟨l, _, h⟩ := Res.bind_eq_ok.1 h
  cases h
  refine .trans (Calm.reduce rd.committedEntries) (.trans ?_ (.of rfl rfl : Still r1 _))
  generalize r.reduceUncommittedSize rd.committedEntries = r0 at h1
  unfold Raft.advanceApplied at h1
  split at h1
  · dsimp only at h1
    obtain ⟨l, _, h1⟩ := Res.bind_eq_ok.1 h1
    split at h1
    · obtain ⟨⟨r2, ok⟩, h2, h1⟩ := Res.bind_eq_ok.1 h1
      dsimp only at h1
      split at h1
      · cases h1
      · cases h1
        have s := Still.appendEntry h2
        exact .trans (.of rfl rfl) (s.trans (.of rfl rfl))
    · cases h1; exact .of rfl rfl
  · cases h1; exact .refl

end Craft
