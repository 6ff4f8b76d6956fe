import Verif.Node.Facts

/-! # What `Raft::New` builds -/

namespace Craft

/-- The state of a node just created. -/
structure Fresh (c : Config) (st : Storage) (r : Raft) : Prop where
  id : r.id = c.id
  id_ne : c.id ≠ 0
  state : r.state = .follower
  lead : r.lead = 0
  msgs : r.msgs = []
  reads : r.readStates = [] ∧ r.pendingReadIndexMessages = [] ∧ r.readOnly = { option := c.readOnlyOption }
  storage : r.log.storage = st
  unstable : r.log.unstable = { offset := st.lastIndex + 1 }
  term : r.term = st.hardState.term
  vote : r.vote = st.hardState.vote
  commit : (st.hardState = {} ∧ r.log.committed = st.firstIndex - 1) ∨
    (r.log.committed = st.hardState.commit ∧ st.firstIndex - 1 ≤ st.hardState.commit ∧ st.hardState.commit ≤ st.lastIndex)
  applied : (c.applied = 0 ∧ r.log.applied = st.firstIndex - 1) ∨
    (r.log.applied = c.applied ∧ st.firstIndex - 1 ≤ c.applied ∧ c.applied ≤ r.log.committed)
  electionTimeout : (r.electionTimeout : Int) = c.electionTick
  heartbeatTimeout : (r.heartbeatTimeout : Int) = c.heartbeatTick ∧ 0 < c.heartbeatTick ∧ c.heartbeatTick < c.electionTick
  tick_ok : 0 ≤ toI32 ((r.electionTimeout : Int) - 1)
  timer : TimerOk r
  elapsed : r.electionElapsed = 0
  conf : ∃ P0, Changer.restore { tracker := { maxInflight := c.maxInflightMsgs }, lastIndex := st.lastIndex } st.snapshot.metadata.confState
    = .ok (r.trk.config, P0) ∧ r.trk.progress = P0.map fun (id, p) => (id, r.resetPr id p)
  checkQuorum : r.checkQuorum = c.checkQuorum
  preVote : r.preVote = c.preVote
  votes : r.trk.votes = []
  inflight : r.trk.maxInflight = c.maxInflightMsgs ∧ 0 < c.maxInflightMsgs
  pci : r.pendingConfIndex = 0
  transferee : r.leadTransferee = 0
  beats : r.heartbeatElapsed = 0

theorem RaftLog.new_last (st : Storage) (mx : Nat) : (RaftLog.new st mx).lastIndex = st.lastIndex := rfl

theorem RaftLog.lastIndex_congr {l l' : RaftLog} (h1 : l'.storage = l.storage) (h2 : l'.unstable = l.unstable) :
    l'.lastIndex = l.lastIndex := by
  unfold RaftLog.lastIndex
  rw [h1, h2]

theorem Config.validate_some {c c' : Config} (h : c.validate = some c') :
    c'.id = c.id ∧ c.id ≠ 0 ∧ c'.electionTick = c.electionTick ∧ c'.heartbeatTick = c.heartbeatTick ∧ 0 < c.heartbeatTick ∧
    c.heartbeatTick < c.electionTick ∧ c'.applied = c.applied ∧ c'.maxInflightMsgs = c.maxInflightMsgs ∧ 0 < c.maxInflightMsgs ∧
    c'.checkQuorum = c.checkQuorum ∧ c'.preVote = c.preVote ∧ c'.readOnlyOption = c.readOnlyOption ∧
    c'.disableProposalForwarding = c.disableProposalForwarding ∧ c'.maxSizePerMsg = c.maxSizePerMsg := by
  unfold Config.validate at h
  by_cases h1 : c.id = 0
  · rw [if_pos h1] at h; cases h
  rw [if_neg h1] at h
  by_cases h2 : c.heartbeatTick ≤ 0
  · rw [if_pos h2] at h; cases h
  rw [if_neg h2] at h
  by_cases h3 : c.electionTick ≤ c.heartbeatTick
  · rw [if_pos h3] at h; cases h
  rw [if_neg h3] at h
  dsimp only at h
  split at h <;> split at h <;> split at h <;> first | (cases h; done) | skip
  all_goals
    rename_i h6
    split at h
    · cases h
    · cases h
      simp_all

namespace Raft

theorem new_fresh {env : Env} {c : Config} {st : Storage} {rng : Nat} {r : Raft} (h : Raft.new env c st rng = .ok r) : Fresh c st r := by
  unfold Raft.new at h
  split at h
  · cases h
  rename_i c' hv
  obtain ⟨v1, v2, v3, v4, v5, v6, v7, v8, v9, v10, v11, v12, v13, v14⟩ := Config.validate_some hv
  dsimp only at h
  split at h
  · cases h
  rename_i cfg prs hr
  obtain ⟨⟨r1, cs2⟩, h1, h⟩ := Res.bind_eq_ok.1 h
  have e1 := switchToConfig_follower (by simp) h1
  dsimp only at h
  split at h
  · cases h
  obtain ⟨r2, h2, h⟩ := Res.bind_eq_ok.1 h
  obtain ⟨r3, h3, h⟩ := Res.bind_eq_ok.1 h
  split at h
  · cases h
  rename_i htick
  obtain ⟨lt, _, h⟩ := Res.bind_eq_ok.1 h
  simp only [Res.pure_eq, Res.ok.injEq] at h
  generalize r1.isLearner = lrn at e1
  dsimp only at e1
  -- the state before `BecomeFollower`
  have hr2 : ∃ l, r2 = { r1 with log := l, term := st.hardState.term, vote := st.hardState.vote } ∧ l.storage = st ∧
      l.unstable = { offset := st.lastIndex + 1 } ∧ l.applied = st.firstIndex - 1 ∧
      ((st.hardState = {} ∧ l.committed = st.firstIndex - 1) ∨
        (l.committed = st.hardState.commit ∧ st.firstIndex - 1 ≤ st.hardState.commit ∧ st.hardState.commit ≤ st.lastIndex)) := by
    unfold newState at h2
    split at h2
    · rename_i he
      have he' : st.hardState = {} := of_decide_eq_true he
      cases h2
      refine ⟨r1.log, ?_, ?_, ?_, ?_, Or.inl ⟨he', ?_⟩⟩
      · rw [he', e1]
      all_goals (rw [e1]; rfl)
    · unfold loadState at h2
      split at h2
      · cases h2
      · rename_i hb
        simp only [Res.ok.injEq] at h2
        have hb' : ¬ (st.hardState.commit < r1.log.committed ∨ st.hardState.commit > r1.log.lastIndex) := hb
        have x1 : r1.log.committed = st.firstIndex - 1 := by rw [e1]; rfl
        have x2 : r1.log.lastIndex = st.lastIndex := by rw [e1]; rfl
        refine ⟨_, h2.symm, ?_, ?_, ?_, Or.inr ⟨rfl, ?_, ?_⟩⟩
        · rw [e1]; rfl
        · rw [e1]; rfl
        · rw [e1]; rfl
        · omega
        · omega
  obtain ⟨l, e2, l1, l2, l3, l4⟩ := hr2
  have hr3 : ∃ l', r3 = { r2 with log := l' } ∧ l'.storage = st ∧ l'.unstable = { offset := st.lastIndex + 1 } ∧ l'.committed = l.committed ∧
      ((c.applied = 0 ∧ l'.applied = st.firstIndex - 1) ∨
        (l'.applied = c.applied ∧ st.firstIndex - 1 ≤ c.applied ∧ c.applied ≤ l'.committed)) := by
    have hl2 : r2.log = l := by rw [e2]
    unfold newApplied at h3
    split at h3
    · obtain ⟨l', h4, h3⟩ := Res.bind_eq_ok.1 h3
      cases h3
      obtain ⟨a1, a2⟩ := appliedTo_log h4
      rw [hl2] at a1 a2
      refine ⟨l', rfl, ?_, ?_, ?_, ?_⟩
      · rw [a1]; exact l1
      · rw [a1]; exact l2
      · rw [a1]
      · rcases a2 with a2 | ⟨a2, a3, a4⟩
        · omega
        · right
          rw [a1]
          dsimp only
          rw [a2]
          rw [← v7, ← l3]
          exact ⟨rfl, a3, a4⟩
    · cases h3
      exact ⟨l, by rw [e2], l1, l2, rfl, Or.inl ⟨by omega, l3⟩⟩
  obtain ⟨l', e3, m1, m2, m3, m4⟩ := hr3
  have e4 : r3 = { r3 with msgs := [] } := by rw [e3, e2, e1]
  have hk := reset_keep (env := env) r3 r3.term
  have hc := becomeFollower_core (env := env) r3 r3.term 0
  rw [h] at hc
  have het : r3.electionTimeout = c.electionTick.toNat := by rw [e3, e2, e1]; dsimp only; rw [v3]
  have het' : r.electionTimeout = r3.electionTimeout := by
    rw [← h]; exact congrArg Consts.electionTimeout hk.1
  have hte : (r.electionTimeout : Int) = c.electionTick := by rw [het', het]; omega
  have htick' : 0 ≤ toI32 ((r.electionTimeout : Int) - 1) := by rw [hte, ← v3]; omega
  have hlog : r.log = l' := by
    have := congrArg Core.log hc
    exact this.trans (by rw [e3]; rfl)
  refine ⟨?_, v2, ?_, ?_, ?_, ?_, ?_, ?_, ?_, ?_, ?_, ?_, hte, ⟨?_, v5, v6⟩, htick', ?_, ?_, ?_, ?_, ?_, ?_, ⟨?_, v9⟩, ?_, ?_, ?_⟩
  · have := congrArg Core.id hc
    exact this.trans (by rw [e3, e2, e1]; exact v1)
  · exact congrArg Core.state hc
  · rw [← h]; rfl
  · rw [← h]
    show (r3.reset env r3.term).msgs = []
    rw [reset_msgs, e4]
  · rw [← h]
    have x1 : (r3.reset env r3.term).readStates = r3.readStates := by
      unfold reset resetRandomizedElectionTimeout; simp
    have x2 : (r3.reset env r3.term).pendingReadIndexMessages = r3.pendingReadIndexMessages := by
      unfold reset resetRandomizedElectionTimeout; simp
    have x3 : (r3.reset env r3.term).readOnly = { option := r3.readOnly.option } := by
      unfold reset resetRandomizedElectionTimeout; simp
    refine ⟨x1.trans (by rw [e3, e2, e1]), x2.trans (by rw [e3, e2, e1]), x3.trans (by rw [e3, e2, e1]; dsimp only; rw [v12])⟩
  · rw [hlog]; exact m1
  · rw [hlog]; exact m2
  · have := congrArg Core.term hc
    exact this.trans (by show r3.term = _; rw [e3, e2])
  · have := congrArg Core.vote hc
    refine this.trans ?_
    show (if r3.term = r3.term then r3.vote else 0) = _
    rw [if_pos rfl, e3, e2]
  · rw [hlog, m3]; exact l4
  · rw [hlog]; exact m4
  · have := congrArg Consts.heartbeatTimeout hk.1
    have e : r.heartbeatTimeout = c.heartbeatTick.toNat := by
      rw [← h]
      refine this.trans ?_
      show r3.heartbeatTimeout = _
      rw [e3, e2, e1]; dsimp only; rw [v4]
    rw [e]; omega
  · rw [← h]
    exact reset_timer r3 r3.term (by rw [← het']; exact htick')
  · rw [← h]
    show (r3.reset env r3.term).electionElapsed = 0
    unfold reset resetRandomizedElectionTimeout; simp
  · refine ⟨prs, ?_, ?_⟩
    · have : r.trk.config = cfg := by
        have := congrArg Core.config hc
        exact this.trans (by show r3.trk.config = _; rw [e3, e2, e1])
      rw [this, ← hr]
      rw [v8]
      rfl
    · have x1 : (r3.reset env r3.term).trk.progress = r3.trk.progress.map fun (id, p) => (id, r3.resetPr id p) := by
        unfold reset resetRandomizedElectionTimeout; simp [resetPr]
      have x2 : r3.trk.progress = prs := by rw [e3, e2, e1]
      have x3 : r.trk.progress = (r3.reset env r3.term).trk.progress := by rw [← h]; rfl
      rw [x3, x1, x2]
      apply List.map_congr_left
      intro x _
      have y1 : r.log = r3.log := by rw [hlog, e3]
      have y2 : r.id = r3.id := by rw [← h]; exact reset_id (env := env) r3 _
      have y3 : r.trk.maxInflight = r3.trk.maxInflight := by
        rw [← h]; exact congrArg Consts.maxInflight hk.1
      unfold resetPr
      dsimp only
      rw [y1, y2, y3]
  · rw [← h]
    refine (congrArg Consts.checkQuorum hk.1).trans ?_
    show r3.checkQuorum = _
    rw [e3, e2, e1]; exact v10
  · rw [← h]
    refine (congrArg Consts.preVote hk.1).trans ?_
    show r3.preVote = _
    rw [e3, e2, e1]; exact v11
  · exact congrArg Core.votes hc
  · rw [← h]
    refine (congrArg Consts.maxInflight hk.1).trans ?_
    show r3.trk.maxInflight = _
    rw [e3, e2, e1]; exact v8
  · exact congrArg Core.pci hc
  · rw [← h]; rfl
  · rw [← h]; rfl

end Raft
end Craft
