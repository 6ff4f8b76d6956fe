import Verif.Node.Commit
import Verif.Props.NodeLeader

/-! # C32: a leader only commits entries of its own term, by counting -/

namespace Craft
open Spec

/-- The commit index is at an entry of the node's current term, and a majority of the voters (of both halves, if the
configuration is joint) is known to the node to have everything up to it. -/
def CommitCounted (n : RawNode) : Prop :=
  n.raft.log.view.termAt n.raft.log.committed = n.raft.term ∧
  (n.raft.trk.config.voters.incoming ≠ [] → MajorityAcked n.raft.trk.config.voters.incoming
    (fun v => (n.raft.trk.progress.find v).map (·.mtch)) n.raft.log.committed) ∧
  (n.raft.trk.config.voters.outgoing ≠ [] → MajorityAcked n.raft.trk.config.voters.outgoing
    (fun v => (n.raft.trk.progress.find v).map (·.mtch)) n.raft.log.committed)

theorem Good.counted {n : RawNode} (h : Good n.raft.core) : CommitCounted n := ⟨h.term, h.count⟩

/-- Any call outside the handling of a Ready: if the node is leader afterwards (whatever it was before) and the commit
index moved, then it moved to an entry of the leader's own term that a quorum is known to have. -/
theorem C32_call {env : Env} {cfg : Config} {st : Storage} {rng : Nat} {n x y : RawNode} {c : Call}
    (hs : st.Sound) (hn : RawNode.new env cfg st rng = .ok n) (hx : NodeRun env n x) (hp : c.Plain) (hst : c.Stamped) (hw : c.WF)
    (hc : c.run env x = .ok y) (ly : y.raft.state = .leader) (hm : y.raft.log.committed ≠ x.raft.log.committed) :
    CommitCounted y := by
  obtain ⟨_, ms, _, hpath⟩ := Call.plain_sim hp hst hc
  exact (hpath.good (Call.msg_wf hw) (hx.ninv (NInv.new hn hs)).linv ly hm).counted

/-- `ApplyConfChange` while a Ready is handled (some changes `ccs` applied before): the same, with the quorums of the new
configuration. -/
theorem C32_applyConfChange {env : Env} {cfg : Config} {st : Storage} {rng : Nat} {n x x1 x2 y : RawNode} {rd : Ready}
    {ccs : List ConfChangeI} {cc : ConfChangeI} {cs : ConfState}
    (hs : st.Sound) (hn : RawNode.new env cfg st rng = .ok n) (hx : NodeRun env n x) (ht : x.takeReady env = .ok (x1, rd))
    (hcc : x1.applyConfChanges env ccs = .ok x2) (hc : x2.applyConfChange env cc = .ok (y, cs))
    (ly : y.raft.state = .leader) (hm : y.raft.log.committed ≠ x2.raft.log.committed) : CommitCounted y := by
  obtain ⟨w, _, hcl⟩ := inReady_log (hx.ninv (NInv.new hn hs)).linv ht hcc
  unfold RawNode.applyConfChange at hc
  obtain ⟨⟨r, cs'⟩, h2, h1⟩ := Res.bind_eq_ok.1 hc
  simp only [Res.pure_eq, Res.ok.injEq, Prod.mk.injEq] at h1
  obtain ⟨rfl, _⟩ := h1
  obtain ⟨cfg, prs, lrn, _, ms, _, hpath⟩ := Raft.applyConfChange_sim (im := { type := .beat }) rfl h2
  exact Good.counted (n := { x2 with raft := r }) (hpath.local_good (c := (x2.raft.withConf cfg prs lrn).core) rfl w hcl ly hm)

/-- `Advance` (which may append and commit the entry that leaves a joint configuration): the same. -/
theorem C32_advance {env : Env} {cfg : Config} {st : Storage} {rng : Nat} {n x x1 x2 y : RawNode} {rd : Ready}
    {ccs : List ConfChangeI}
    (hs : st.Sound) (hn : RawNode.new env cfg st rng = .ok n) (hx : NodeRun env n x) (ht : x.takeReady env = .ok (x1, rd))
    (hcc : x1.applyConfChanges env ccs = .ok x2) (hc : x2.advance = .ok y)
    (ly : y.raft.state = .leader) (hm : y.raft.log.committed ≠ x2.raft.log.committed) : CommitCounted y := by
  have hi := (hx.ninv (NInv.new hn hs)).linv
  obtain ⟨w, hv, hcl⟩ := inReady_log hi ht hcc
  have hrd : x.handleReady env ccs = .ok (y, rd) := by
    unfold RawNode.handleReady
    rw [ht]; simp only [Res.ok_bind]
    rw [hcc]; simp only [Res.ok_bind]
    rw [hc]; rfl
  obtain ⟨_, sd, es, cm, hsv, hd⟩ := handleReady_conf hi hrd
  obtain ⟨_, hyv, _⟩ := hd.linv hi hsv
  obtain ⟨q, _⟩ := ConfQuiet.applyConfChanges ccs hcc
  have q1 : x1.raft.term = x.raft.term ∧ x1.raft.pendingConfIndex = x.raft.pendingConfIndex := by
    obtain ⟨st', _, h2⟩ := takeReady_eq (env := env) hi
    rw [h2] at ht
    simp only [Res.ok.injEq, Prod.mk.injEq] at ht
    rw [← ht.1]; exact ⟨rfl, rfl⟩
  unfold RawNode.advance at hc
  split at hc
  · cases hc
  obtain ⟨r3, h7, h8⟩ := Res.bind_eq_ok.1 hc
  simp only [Res.pure_eq, Res.ok.injEq] at h8
  subst h8
  unfold Raft.advance at h7
  obtain ⟨hrc, _, _⟩ := Raft.reduce_core x2.raft (by assumption : Ready).committedEntries
  generalize Raft.reduceUncommittedSize _ _ = ru at hrc h7
  obtain ⟨ra, h5, h9⟩ := Res.bind_eq_ok.1 h7
  obtain ⟨la, h6, h4⟩ := Res.bind_eq_ok.1 h9
  simp only [Res.pure_eq, Res.ok.injEq] at h4
  have hrl : ru.log = x2.raft.log := congrArg Core.log hrc
  have hcom : r3.log.committed = ra.log.committed := by
    have h10 : la.committed = ra.log.committed := by
      unfold Raft.advanceStable at h6
      split at h6
      · rw [RaftLog.stableTo_shape h6]
      · cases h6; rfl
    rw [← h4]
    dsimp only
    split
    · exact h10
    · exact h10
  have hm' : ra.log.committed ≠ x2.raft.log.committed := fun h => hm (hcom.trans h)
  have hrr : r3.core = { ra.core with log := r3.log } := by rw [← h4]; rfl
  rcases Raft.advanceApplied_cases h5 with ⟨_, rfl⟩ | ⟨h0, l, hl, rfl | ⟨g1, g2, g3, g4, rb, hb, rfl⟩⟩
  · rw [hrl] at hm'; exact absurd rfl hm'
  · have := (Raft.appliedTo_log hl).1
    rw [this, hrl] at hm'
    exact absurd rfl hm'
  · obtain ⟨a1, a2⟩ := Raft.appliedTo_log hl
    rw [hrl] at a1 a2
    have hlw : l.WF := by rw [a1]; exact w.with_applied _
    have hlv : l.view = x.raft.log.view := by rw [a1]; exact hv
    have hlc : l.committed = x2.raft.log.committed := by rw [a1]
    have hp := Raft.appendEntry_pci rb.log.lastIndex hb
    have hlast := Raft.appendEntry_last hb
    have hlast' : rb.log.lastIndex = x.raft.log.view.last + 1 := by
      rw [hlast]
      show l.lastIndex + 1 + 0 = _
      rw [hlw.lastIndex_eq, hlv]
    obtain ⟨_, bv, _, _, _, _⟩ := Raft.appendEntry_accepted (r := { ru with log := l }) hlw hb
    have hrt : ru.term = x.raft.term := (congrArg Core.term hrc).trans (q.term.trans q1.1)
    have hrp : ru.pendingConfIndex = x.raft.pendingConfIndex := (congrArg Core.pci hrc).trans (q.pci.trans q1.2)
    -- the path of the append and the commit
    have hg : ConfGate ({ ru with log := l } : Raft).core [{ type := .confChangeV2 }] rb.log.lastIndex := by
      intro _
      refine Or.inr ⟨?_, [], _, [], rfl, (by intro h; cases h), (by simp), by rw [hlast]; rfl⟩
      show ru.pendingConfIndex ≤ l.applied
      rcases a2 with h | ⟨h, _⟩ <;> omega
    obtain ⟨⟨_, ms, _, hpath⟩, hst⟩ := (Raft.appendEntry_sim (im := { type := .beat }) (env := env) (r := { ru with log := l }) g3
      (fun h => absurd h.1 (Nat.not_lt_zero _)) hg (by intro e he _; exact Or.inr ⟨g4, by simpa using he⟩) (by intro e he; exact Or.inr (Or.inl (by simpa using he))) hp).1 rfl
    have hgood := hpath.local_good (c := ({ ru with log := l } : Raft).core) rfl hlw
      (by show l.committed ≤ l.view.last; rw [hlc, hlv, ← hv]; exact hcl) hst
      (by show rb.log.committed ≠ l.committed; rw [hlc]; exact hm')
    -- the log at the end is that of the commit
    have hes : es = [{ type := .confChangeV2, term := x.raft.term, index := x.raft.log.view.last + 1 }] := by
      rcases hd.auto with ⟨_, h⟩ | ⟨_, _, h, _⟩
      · exfalso
        have h : r3.pendingConfIndex = x.raft.pendingConfIndex := h
        have h' : r3.pendingConfIndex = rb.log.lastIndex := congrArg Core.pci hrr
        have := hi.com_last
        have : x2.raft.log.committed ≤ x.raft.log.view.last := by rw [← hv]; exact hcl
        rcases a2 with a2 | ⟨_, _, a2⟩ <;> omega
      · exact h
    have hview : r3.log.view = rb.log.view := by
      have h1 : r3.log.view = x.raft.log.view.push es := hyv
      rw [h1, bv, hes]
      show _ = l.view.push (Raft.stamp ru.term (l.lastIndex + 1) _)
      rw [hlv, hlw.lastIndex_eq, hlv, hrt]
      rfl
    refine Good.counted (n := { x2 with raft := r3, ready := none }) ?_
    have e1 : r3.log.committed = rb.log.committed := hcom
    refine ⟨ly, ?_, ?_⟩
    · show r3.log.view.termAt r3.log.committed = r3.term
      rw [hview, e1]
      have h2 : r3.term = rb.term := congrArg Core.term hrr
      rw [h2]
      exact hgood.term
    · show Core.Counted r3.core r3.log.committed
      rw [e1, hrr]
      exact hgood.count

namespace Demo

/-- The demo leader committed index 2 of term 1 after the second voter acknowledged it: the commit index moved and is
counted by 2 of 3. An acknowledgement of an entry of an earlier term would not have moved it. -/
example : (node1 (elect ++ propose2)).raft.state = .leader ∧
    (node1 (elect ++ propose2)).raft.log.committed ≠ (node1 (elect ++ propose2.take 3)).raft.log.committed ∧
    (propose2.drop 3).foldlM (fun n c => c.run env1 n) (node1 (elect ++ propose2.take 3)) = .ok (node1 (elect ++ propose2)) ∧
    (node1 (elect ++ propose2)).raft.log.view.termAt 2 = 1 := by decide +kernel

end Demo
end Craft
