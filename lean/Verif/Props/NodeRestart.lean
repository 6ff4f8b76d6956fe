import Verif.Node.History
import Verif.Spec.Resume
import Verif.Props.Restore
import Verif.Props.NodeReady

/-! # C51: restart -/

namespace Craft
open Spec

theorem Config.Sane.validate {c : Config} {st : Storage} (h : c.Sane st) : ∃ c', c.validate = some c' ∧ c'.applied = c.applied ∧
    c'.electionTick = c.electionTick := by
  unfold Config.validate
  rw [if_neg h.id, if_neg (by have := h.heartbeat; omega), if_neg (by have := h.election; omega)]
  dsimp only
  have h1 := h.inflight
  have h2 := h.lease
  split <;> split <;> try dsimp only
  all_goals
    rw [if_neg (by omega), if_neg (by rintro ⟨a, b⟩; exact b (h2 a))]
    exact ⟨_, rfl, rfl, rfl⟩

theorem Storage.WF.lastIndex_view {st : Storage} (h : st.WF) : st.lastIndex = st.view.last := by
  unfold Storage.lastIndex Storage.view LogView.last
  dsimp only
  rw [List.length_tail]
  have := List.length_pos_iff.2 h.ne
  omega

theorem RaftLog.new_wf {st : Storage} (h : st.WF) (mx : Nat) : (RaftLog.new st mx).WF ∧ (RaftLog.new st mx).view = st.view := by
  have hl := h.lastIndex_view
  have hw : (RaftLog.new st mx).WF := by
    refine ⟨h, ?_, ?_, ?_, ?_⟩
    · intro i e he; simp [RaftLog.new] at he
    · intro s hs; simp [RaftLog.new] at hs
    · intro _
      show st.view.base < st.lastIndex + 1 ∧ st.lastIndex + 1 ≤ st.view.last + 1
      rw [hl]; unfold LogView.last; omega
    · intro _ _
      show st.lastIndex + 1 = st.view.last + 1
      rw [hl]
  exact ⟨hw, hw.view_stable rfl rfl⟩

theorem switchToConfig_not_leader {env : Env} {r : Raft} (hf : r.state ≠ .leader) (cfg : TConfig) (prs : ProgressMap) :
    ∃ lrn, r.switchToConfig env cfg prs = .ok ({ r with trk := { r.trk with config := cfg, progress := prs }, isLearner := lrn },
      ({ r.trk with config := cfg, progress := prs } : Tracker).confState) := by
  unfold Raft.switchToConfig
  dsimp only
  rw [if_neg (by intro h; exact hf h.2), if_pos (Or.inl hf)]
  exact ⟨_, rfl⟩

theorem confStateEq_refl (cs : ConfState) : confStateEq cs cs = true := by simp [confStateEq]

/-- On every storage an earlier incarnation can have left, and with every sane configuration, creating a node succeeds. The
node is a follower with the persisted term, vote, commit index, log and membership, nothing to send and nothing to
report, and it takes up applying where it is told (by default right after the compacted part). -/
theorem C51_restart {env : Env} {c : Config} {st : Storage} {cfg : TConfig} (rng : Nat) (hst : st.Resumable cfg) (hc : c.Sane st) :
    ∃ n, RawNode.new env c st rng = .ok n ∧ n.raft.state = .follower ∧ n.raft.id = c.id ∧ n.raft.term = st.hardState.term ∧
      n.raft.vote = st.hardState.vote ∧ (st.hardState ≠ {} → n.raft.log.committed = st.hardState.commit) ∧
      (st.hardState = {} → n.raft.log.committed = st.view.base) ∧ n.raft.log.view = st.view ∧ n.raft.log.WF ∧
      n.raft.log.storage = st ∧ n.raft.trk.config = cfg ∧ n.raft.msgs = [] ∧ n.hasReady = decide (max n.raft.log.applied st.view.base < n.raft.log.committed) ∧
      (c.applied = 0 → n.raft.log.applied = st.view.base) ∧ (c.applied ≠ 0 → n.raft.log.applied = c.applied) := by
  obtain ⟨c', hv, hva, hve⟩ := hc.validate
  obtain ⟨t, ht1, ht2, ht3, ht4, ht5⟩ := hst.conf
  obtain ⟨prs, hres, hinv⟩ := C14_restore_roundtrip t ht3 ht4 ht5 c'.maxInflightMsgs st.lastIndex
  obtain ⟨lw, lv⟩ := RaftLog.new_wf hst.wf c'.maxCommittedSizePerReady
  have hlast := hst.wf.lastIndex_view
  have hfirst : st.firstIndex = st.view.base + 1 := rfl
  have hnew : ∃ n, RawNode.new env c st rng = .ok n := by
    unfold RawNode.new Raft.new
    rw [hv]
    dsimp only [Storage.initialState]
    rw [← ht2]
    have hres' : Changer.restore { tracker := { maxInflight := c'.maxInflightMsgs }, lastIndex := (RaftLog.new st c'.maxCommittedSizePerReady).lastIndex }
        t.confState = .ok (t.config, prs) := hres
    rw [hres']
    have hte : ¬ toI32 (c'.electionTick - 1) < 0 := by
      rw [hve]
      have h1 := hc.heartbeat
      have h2 := hc.election
      have h3 := hc.election_int
      unfold toI32
      rw [Int.bmod_eq_of_le (by omega) (by omega)]
      omega
    have fin : ∀ r1 : Raft, r1.log.storage = st → r1.log.unstable = { offset := st.lastIndex + 1 } → r1.log.applied = st.view.base →
        (c.applied = 0 ∨ c.applied ≤ r1.log.committed) →
        ∃ n, (do
          let r ← (do
            let r ← r1.newApplied c'.applied
            if toI32 (c'.electionTick - 1) < 0 then Res.ub "raft.cc:1787"
              else do
                let _ ← (r.becomeFollower env r.term 0).log.lastTerm
                pure (r.becomeFollower env r.term 0))
          pure ({ raft := r, prevSoftSt := r.softState, prevHardSt := r.hardState } : RawNode)) = Res.ok n := by
      intro r1 e1 e2 e3 e4
      have wf : ∀ l : RaftLog, l.storage = st → l.unstable = { offset := st.lastIndex + 1 } → l.WF := by
        intro l a b
        have hh := lw
        refine ⟨by rw [a]; exact hh.stor, ?_, ?_, ?_, ?_⟩
        · rw [b]; exact hh.contig
        · rw [b]; exact hh.snap
        · rw [a, b]; exact hh.nosnap
        · rw [a, b]; exact hh.tight
      have fin2 : ∀ r2 : Raft, r2.log.storage = st → r2.log.unstable = { offset := st.lastIndex + 1 } →
          ∃ n, (do
            let r ← (if toI32 (c'.electionTick - 1) < 0 then Res.ub "raft.cc:1787"
              else do
                let _ ← (r2.becomeFollower env r2.term 0).log.lastTerm
                pure (r2.becomeFollower env r2.term 0))
            pure ({ raft := r, prevSoftSt := r.softState, prevHardSt := r.hardState } : RawNode)) = Res.ok n := by
        intro r2 e1 e2
        rw [if_neg hte]
        have e : (r2.becomeFollower env r2.term 0).log = r2.log := congrArg Core.log (Raft.becomeFollower_core (env := env) r2 r2.term 0)
        rw [e, (wf _ e1 e2).lastTerm_eq]
        exact ⟨_, rfl⟩
      unfold Raft.newApplied
      rw [hva]
      by_cases h0 : c.applied > 0
      · rw [if_pos h0]
        unfold RaftLog.appliedTo
        rw [if_neg (by omega), if_neg (by rcases hc.applied with h | h <;> omega)]
        simp only [Res.ok_bind, Res.pure_eq]
        exact fin2 _ e1 e2
      · rw [if_neg h0]
        simp only [Res.ok_bind]
        exact fin2 _ e1 e2
    have gen : ∀ r0 : Raft, r0.log = RaftLog.new st c'.maxCommittedSizePerReady → r0.state ≠ .leader → ∃ n, (do
        let r ← (do
          let (r, cs2) ← r0.switchToConfig env t.config prs
          if ¬ confStateEq t.confState cs2 = true then Res.fatal "raft.cc:221"
            else do
              let r ← r.newState st.hardState
              let r ← r.newApplied c'.applied
              if toI32 (c'.electionTick - 1) < 0 then Res.ub "raft.cc:1787"
                else do
                  let _ ← (r.becomeFollower env r.term 0).log.lastTerm
                  pure (r.becomeFollower env r.term 0))
        pure ({ raft := r, prevSoftSt := r.softState, prevHardSt := r.hardState } : RawNode)) = Res.ok n := by
      intro r0 hlog hrole
      obtain ⟨lrn, hsw⟩ := switchToConfig_not_leader (env := env) (r := r0) hrole t.config prs
      rw [hsw]
      simp only [Res.ok_bind]
      have hcs : ({ r0.trk with config := t.config, progress := prs } : Tracker).confState = t.confState := rfl
      rw [hcs, confStateEq_refl]
      simp only [not_true_eq_false, if_false]
      unfold Raft.newState
      by_cases hh : st.hardState = {}
      · rw [if_pos (by simp [isEmptyHardState, hh])]
        simp only [Res.ok_bind]
        refine fin _ ?_ ?_ ?_ ?_
        · show r0.log.storage = st; rw [hlog]; rfl
        · show r0.log.unstable = _; rw [hlog]; rfl
        · show r0.log.applied = _; rw [hlog]; show st.firstIndex - 1 = _; rw [hfirst]; rfl
        · left
          rcases hc.applied with h | ⟨h1, h2⟩
          · exact h
          · rw [hh] at h2; exact Nat.le_zero.1 h2
      · rw [if_neg (by simp [isEmptyHardState, hh])]
        obtain ⟨h1, h2⟩ := hst.hard.resolve_left hh
        unfold Raft.loadState
        have hcl : (RaftLog.new st c'.maxCommittedSizePerReady).lastIndex = st.lastIndex := rfl
        have hcc : (RaftLog.new st c'.maxCommittedSizePerReady).committed = st.firstIndex - 1 := rfl
        dsimp only
        rw [hlog, if_neg (by rw [hcl, hcc, hfirst, hlast]; omega)]
        simp only [Res.ok_bind]
        refine fin _ ?_ ?_ ?_ ?_
        · rfl
        · rfl
        · show st.firstIndex - 1 = _; rw [hfirst]; rfl
        · rcases hc.applied with h | ⟨_, h⟩
          · exact Or.inl h
          · exact Or.inr h
    exact gen _ rfl (nomatch ·)
  obtain ⟨n, hn⟩ := hnew
  obtain ⟨hf, hs1, hs2, hs3⟩ := RawNode.new_ok hn
  have hwf : n.raft.log.WF ∧ n.raft.log.view = st.view := by
    have hw : n.raft.log.WF := by
      refine ⟨?_, ?_, ?_, ?_, ?_⟩
      · rw [hf.storage]; exact lw.stor
      · rw [hf.unstable]; exact lw.contig
      · rw [hf.unstable]; exact lw.snap
      · rw [hf.unstable, hf.storage]; exact lw.nosnap
      · rw [hf.unstable, hf.storage]; exact lw.tight
    exact ⟨hw, by rw [hw.view_stable (by rw [hf.unstable]) (by rw [hf.unstable]), hf.storage]⟩
  have hcommit : (st.hardState ≠ {} → n.raft.log.committed = st.hardState.commit) ∧ (st.hardState = {} → n.raft.log.committed = st.view.base) := by
    constructor
    · intro hne
      rcases hf.commit with ⟨h, _⟩ | ⟨h, _⟩
      · exact absurd h hne
      · exact h
    · intro he
      rcases hf.commit with ⟨_, h⟩ | ⟨h, h2, h3⟩
      · rw [h, hfirst]; rfl
      · rw [h]
        rw [he] at h2 ⊢
        rw [hfirst] at h2
        have : st.view.base = 0 := by
          have h4 : st.view.base ≤ 0 := by simpa using h2
          omega
        rw [this]
  refine ⟨n, hn, hf.state, hf.id, hf.term, hf.vote, hcommit.1, hcommit.2, hwf.2, hwf.1, hf.storage, ?_, hf.msgs, ?_, ?_, ?_⟩
  · obtain ⟨P0, hP, _⟩ := hf.conf
    have hres2 : ∃ P, Changer.restore { tracker := { maxInflight := c.maxInflightMsgs }, lastIndex := st.lastIndex } t.confState = .ok (t.config, P) := by
      obtain ⟨P, h, _⟩ := C14_restore_roundtrip t ht3 ht4 ht5 c.maxInflightMsgs st.lastIndex
      exact ⟨P, h⟩
    obtain ⟨P, hP2⟩ := hres2
    rw [← ht2] at hP
    rw [hP2] at hP
    simp only [Except.ok.injEq, Prod.mk.injEq] at hP
    rw [← ht1, hP.1]
  · unfold RawNode.hasReady
    rw [hs1, hs2, hf.msgs, hf.reads.1]
    simp only [ne_eq, not_true_eq_false, decide_false, Bool.and_false, Bool.false_or, Bool.or_false]
    have h1 : n.raft.log.hasPendingSnapshot = false := by unfold RaftLog.hasPendingSnapshot; rw [hf.unstable]
    have h2 : n.raft.log.unstableEntries = [] := by unfold RaftLog.unstableEntries; rw [hf.unstable]
    rw [h1, h2, RaftLog.hasNextEnts_eq, hwf.2]
    simp
  · intro h0
    rcases hf.applied with ⟨_, h⟩ | ⟨h, h1, h2⟩
    · rw [h, hfirst]; rfl
    · rw [hfirst] at h1; rw [h, h0]; omega
  · intro h0
    rcases hf.applied with ⟨h, _⟩ | ⟨h, _⟩
    · exact absurd h h0
    · exact h

/-- The configuration of the demo node is valid. -/
theorem Demo.conf_inv : ConfInv { voters := { incoming := [1, 2, 3] } } (Demo.node 1 []).raft.trk.progress := by
  have hm : ∀ id, id ∈ [1, 2, 3] → ∃ p, (Demo.node 1 []).raft.trk.progress.find id = some p ∧ p.isLearner = false := by
    intro id h
    simp only [List.mem_cons, List.not_mem_nil, or_false] at h
    rcases h with rfl | rfl | rfl <;> exact ⟨_, rfl, rfl⟩
  have hk : (Demo.node 1 []).raft.trk.progress.map Prod.fst = [1, 2, 3] := by decide
  have hn : ∀ id p, (Demo.node 1 []).raft.trk.progress.find id = some p → id ∈ [1, 2, 3] := by
    intro id p h
    rw [← hk]
    refine (AMap.find_isSome_iff (m := (Demo.node 1 []).raft.trk.progress) (k := id)).1 ?_
    rw [h]; rfl
  refine ⟨by decide, by decide, by decide, by decide, by rw [hk]; decide, ?_, ?_, (by intro id h; cases h), (by intro id h; cases h), (by intro id h; cases h),
    (by intro id h; cases h),    fun _ => ⟨rfl, rfl⟩⟩
  · intro id
    constructor
    · rintro ⟨p, h⟩; exact Or.inl (hn id p h)
    · rintro (h | h | h | h)
      · obtain ⟨p, h, _⟩ := hm id h; exact ⟨p, h⟩
      all_goals cases h
  · intro id p h
    obtain ⟨p', h', hl⟩ := hm id (hn id p h)
    rw [h] at h'
    cases h'
    rw [hl]
    exact ⟨(nomatch ·), (nomatch ·)⟩

/-- The hypotheses are met by a storage with entries, a vote and a partly committed log. -/
example : ({ usedStore with hardState := { term := 5, vote := 2, commit := 1 } } : Storage).Resumable
    { voters := { incoming := [1, 2, 3] } } := by
  refine ⟨⟨(nomatch ·), ?_⟩, Or.inr (by decide), ⟨(Demo.node 1 []).raft.trk, by decide, by decide, ?_, ?_, by decide⟩⟩
  · intro i e h
    match i, h with
    | 0, h => cases h; rfl
    | 1, h => cases h; rfl
    | i + 2, h => simp [usedStore] at h
  · exact (show (Demo.node 1 []).raft.trk.config = { voters := { incoming := [1, 2, 3] } } by decide) ▸ Demo.conf_inv
  · rintro (h | h | h | h) <;> revert h <;> decide

end Craft
