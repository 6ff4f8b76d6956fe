import Verif.Node.History
import Verif.Node.Durable
import Verif.Node.LogInv

/-! # What handling a Ready does to a node whose log is in order -/

namespace Craft
open Spec

/-- The committed entries a Ready hands out. -/
def nextOut (env : Env) (l : RaftLog) : List Entry :=
  limitSize env.entSize (l.view.range (max l.applied l.view.base + 1) (l.committed + 1)) l.maxNextEntsSize

namespace LInv
variable {l : RaftLog} (h : LInv l) (env : Env)
include h

theorem nextEnts_ok : l.nextEnts env = .ok (nextOut env l) := by
  have hn := h.wf.nextEnts_eq env h.com_last
  rwa [show max (l.applied + 1) (l.view.base + 1) = max l.applied l.view.base + 1 by omega] at hn

theorem nextOut_prefix : nextOut env l <+: l.view.range (max l.applied l.view.base + 1) (l.committed + 1) := limitSize_prefix _ _ _

theorem nextOut_length : (nextOut env l).length ≤ l.committed - max l.applied l.view.base := by
  have hpre := (h.nextOut_prefix env).length_le
  have hca := h.app_com
  have hcb := h.base_com
  have hlen := RaftLog.range_length (v := l.view) (lo := max l.applied l.view.base + 1) (hi := l.committed + 1) (by omega) (by omega)
    (by have := h.com_last; omega)
  omega

theorem nextOut_contig : Contig (max l.applied l.view.base + 1) (nextOut env l) := by
  have : Contig (max l.applied l.view.base + 1) (l.view.range (max l.applied l.view.base + 1) (l.committed + 1)) := by
    unfold LogView.range
    have := (h.wf.view_wf.drop (n := max l.applied l.view.base + 1 - l.view.base - 1)).take
      (n := l.committed + 1 - (max l.applied l.view.base + 1))
    rwa [show l.view.base + 1 + (max l.applied l.view.base + 1 - l.view.base - 1) = max l.applied l.view.base + 1 by omega] at this
  obtain ⟨t, ht⟩ := h.nextOut_prefix env
  rw [← ht] at this
  exact this.left

theorem range_entry {e : Entry} (he : e ∈ l.view.range (max l.applied l.view.base + 1) (l.committed + 1)) :
    l.view.base < e.index ∧ l.applied < e.index ∧ e.index ≤ l.committed ∧ l.view.entry e.index = some e := by
  obtain ⟨j, hj⟩ := List.mem_iff_getElem?.1 he
  have hjl := (List.getElem?_eq_some_iff.1 hj).1
  unfold LogView.range at hj
  rw [List.getElem?_take] at hj
  split at hj
  · rename_i hjc
    rw [List.getElem?_drop] at hj
    have hi := h.wf.view_wf _ _ hj
    have h1 : e.index = max l.applied l.view.base + 1 + j := by omega
    refine ⟨by omega, by omega, by omega, ?_⟩
    unfold LogView.entry
    rw [if_neg (by omega), ← hj]
    congr 1; omega
  · cases hj

theorem nextOut_entry {e : Entry} (he : e ∈ nextOut env l) :
    l.view.base < e.index ∧ l.applied < e.index ∧ e.index ≤ l.committed ∧ l.view.entry e.index = some e :=
  h.range_entry ((h.nextOut_prefix env).subset he)

/-- `appliedTo` the cursor of a Ready, the storage having been replaced by one with the same log. -/
theorem cursor_eq (st : Storage) :
    ({ l with storage := st } : RaftLog).appliedToCursor (appliedCursorOf (nextOut env l) (l.unstable.snapshot.getD {})) =
      .ok { l with storage := st, applied := max l.applied l.view.base + (nextOut env l).length } := by
  have hcont := h.nextOut_contig env
  have hlen := h.nextOut_length env
  have hca := h.app_com
  have hcb := h.base_com
  generalize nextOut env l = es at hcont hlen
  unfold RaftLog.appliedToCursor appliedCursorOf
  cases hg : es.getLast? with
  | some e =>
    have hge := hcont.getLast hg
    have : es.length ≠ 0 := by
      intro h0; rw [List.length_eq_zero_iff] at h0; rw [h0] at hg; simp at hg
    dsimp only
    rw [if_pos (by omega)]
    unfold RaftLog.appliedTo
    rw [if_neg (by omega), if_neg (by dsimp only; omega)]
    rw [show e.index = max l.applied l.view.base + es.length by omega]
  | none =>
    have he : es = [] := by simpa using hg
    subst he
    dsimp only
    cases hs : l.unstable.snapshot with
    | none =>
      have := h.base_app hs
      simp only [Option.getD_none]
      rw [if_neg (by show ¬ (0 : Nat) > 0; omega)]
      rw [show max l.applied l.view.base + ([] : List Entry).length = l.applied by simp; omega]
    | some s =>
      have hp := h.pend s hs
      have hvb : l.view.base = s.metadata.index := by rw [RaftLog.view_snap hs]
      simp only [Option.getD_some]
      rw [if_pos (by omega)]
      unfold RaftLog.appliedTo
      rw [if_neg (by omega), if_neg (by dsimp only; omega)]
      rw [show max l.applied l.view.base + ([] : List Entry).length = s.metadata.index by simp; omega]

theorem ack_ok {st : Storage} (e2 : st.WF) (e3 : st.view = l.view) (a : Nat) :
    ({ l with storage := st, applied := a } : RaftLog).ackPersisted l.unstable.entries (l.unstable.snapshot.getD {}) =
      .ok { l with
        storage := st
        unstable := { snapshot := none, entries := [], offset := l.view.last + 1 }
        applied := a } := by
  obtain ⟨w1, v1⟩ := h.wf.of_storage_eq e2 e3
  have hv2 : ({ l with storage := st, applied := a } : RaftLog).view = l.view := v1
  obtain ⟨l2, f1, f2, f3, f4⟩ := (w1.with_applied a).ack_eq (by
    show st.view = _
    rw [e3]; exact hv2.symm) (by
    intro s hss
    have := (h.pend s hss).2
    omega)
  have f1' : ({ l with storage := st, applied := a } : RaftLog).ackPersisted
    l.unstable.entries (l.unstable.snapshot.getD {}) = .ok l2 := f1
  rw [f1', f4]
  dsimp only
  rw [hv2]

end LInv

/-- The log after handling a Ready, `st` being the storage then. -/
def readyLog (env : Env) (l : RaftLog) (st : Storage) : RaftLog :=
  { l with
    storage := st
    unstable := { snapshot := none, entries := [], offset := l.view.last + 1 }
    applied := max l.applied l.view.base + (nextOut env l).length }

/-- What a Ready contains. -/
def readyOf (env : Env) (n : RawNode) : Ready :=
  { entries := n.raft.log.unstable.entries
    committedEntries := nextOut env n.raft.log
    messages := n.raft.msgs
    softState := if n.raft.softState = n.prevSoftSt then none else some n.raft.softState
    hardState := if n.raft.hardState = n.prevHardSt then {} else n.raft.hardState
    snapshot := n.raft.log.unstable.snapshot.getD {}
    readStates := n.raft.readStates
    mustSync := Craft.mustSync n.raft.hardState n.prevHardSt n.raft.log.unstable.entries.length }

theorem readyWithoutAccept_eq {env : Env} {n : RawNode} (h : LInv n.raft.log) : n.readyWithoutAccept env = .ok (readyOf env n) := by
  unfold RawNode.readyWithoutAccept newReady
  rw [h.nextEnts_ok env]
  simp only [Res.ok_bind, Res.pure_eq, readyOf, RaftLog.unstableEntries]
  congr 1
  congr 1
  cases n.raft.log.unstable.snapshot <;> rfl

/-- The storage once the Ready is persisted. -/
theorem save_eq {env : Env} {n : RawNode} (h : LInv n.raft.log) :
    ∃ st, n.raft.log.storage.save (readyOf env n) = .ok st ∧ st.WF ∧ st.view = n.raft.log.view ∧
      st.snapshot = n.raft.log.unstable.snapshot.getD n.raft.log.storage.snapshot ∧
      st.hardState = (if isEmptyHardState (readyOf env n).hardState then n.raft.log.storage.hardState else (readyOf env n).hardState) := by
  obtain ⟨s, e1, e2, e3, e4, e5⟩ := h.wf.persist_eq (fun s hs => (h.pend s hs).2)
  have happ : (if isEmptySnap (readyOf env n).snapshot then n.raft.log.storage else (n.raft.log.storage.applySnapshot (readyOf env n).snapshot).1).append
      (readyOf env n).entries = .ok s := by
    unfold RaftLog.persist at e1
    obtain ⟨s1, h1, h2⟩ := Res.bind_eq_ok.1 e1
    simp only [Res.pure_eq, Res.ok.injEq, RaftLog.mk.injEq] at h2
    obtain ⟨rfl, _⟩ := h2
    rw [← h1]
    unfold readyOf isEmptySnap
    dsimp only
    cases hs : n.raft.log.unstable.snapshot with
    | none => rfl
    | some s => simp only [Option.getD_some, decide_eq_true_eq]
  unfold Storage.save
  dsimp only
  rw [happ]
  simp only [Res.ok_bind, Res.pure_eq]
  split
  · exact ⟨s, rfl, e2, e3, e5, e4⟩
  · refine ⟨_, rfl, ⟨e2.ne, e2.contig⟩, e3, e5, rfl⟩

theorem takeReady_eq {env : Env} {n : RawNode} (h : LInv n.raft.log) :
    ∃ st, n.raft.log.storage.save (readyOf env n) = .ok st ∧
      n.takeReady env = .ok (({ n.acceptReady (readyOf env n) with ready := some (readyOf env n) } : RawNode).withStorage st, readyOf env n) := by
  obtain ⟨st, h1, _⟩ := save_eq (env := env) h
  refine ⟨st, h1, ?_⟩
  unfold RawNode.takeReady RawNode.getReady
  rw [readyWithoutAccept_eq h]
  simp only [Res.ok_bind, Res.pure_eq]
  have : ({ n.acceptReady (readyOf env n) with ready := some (readyOf env n) } : RawNode).raft.log.storage = n.raft.log.storage := rfl
  rw [this, h1]
  rfl

theorem reduceUncommittedSize_eq (r : Raft) (es : List Entry) : ∃ u, r.reduceUncommittedSize es = { r with uncommittedSize := u } := by
  unfold Raft.reduceUncommittedSize
  split
  · exact ⟨r.uncommittedSize, rfl⟩
  · dsimp only
    split
    · exact ⟨_, rfl⟩
    · exact ⟨_, rfl⟩

/-- Handling a Ready without configuration changes. -/
theorem handleReady_eq {env : Env} {n : RawNode} (h : LInv n.raft.log) (ha : n.raft.trk.config.autoLeave = false) :
    ∃ st u, n.raft.log.storage.save (readyOf env n) = .ok st ∧
      n.handleReady env [] = .ok ({
        raft := { n.raft with log := readyLog env n.raft.log st, msgs := [], readStates := [], uncommittedSize := u },
        prevSoftSt := (readyOf env n).softState.getD n.prevSoftSt
        prevHardSt := if isEmptyHardState (readyOf env n).hardState then n.prevHardSt else (readyOf env n).hardState
        ready := none }, readyOf env n) := by
  obtain ⟨st, h1, w, v, _, _⟩ := save_eq (env := env) h
  obtain ⟨st', h1', h2⟩ := takeReady_eq (env := env) h
  rw [h1] at h1'
  cases h1'
  refine ⟨st, ?_⟩
  have hrs : (if (readyOf env n).readStates = [] then n.raft.readStates else []) = [] := by
    show (if n.raft.readStates = [] then n.raft.readStates else []) = []
    split
    · assumption
    · rfl
  generalize hr0 : (({ n.acceptReady (readyOf env n) with ready := some (readyOf env n) } : RawNode).withStorage st) = n1 at h2
  obtain ⟨u, hu⟩ := reduceUncommittedSize_eq n1.raft (readyOf env n).committedEntries
  refine ⟨u, h1, ?_⟩
  unfold RawNode.handleReady
  rw [h2]
  simp only [Res.ok_bind, RawNode.applyConfChanges]
  have hn1r : n1.ready = some (readyOf env n) := by rw [← hr0]; rfl
  have hn1 : n1.raft = { n.raft with log := { n.raft.log with storage := st }, msgs := [], readStates := [] } := by
    rw [← hr0]
    have : (n.acceptReady (readyOf env n)).raft = { n.raft with readStates := [], msgs := [] } := by
      unfold RawNode.acceptReady
      rw [hrs]
    show ({ (n.acceptReady (readyOf env n)).raft with log := { (n.acceptReady (readyOf env n)).raft.log with storage := st } } : Raft) = _
    rw [this]
  have hadv : n1.raft.advance (readyOf env n) =
      .ok { n.raft with log := readyLog env n.raft.log st, msgs := [], readStates := [], uncommittedSize := u } := by
    have hcur := h.cursor_eq env st
    have hack := h.ack_ok w v (max n.raft.log.applied n.raft.log.view.base + (nextOut env n.raft.log).length)
    unfold Raft.advance
    rw [hu]
    have h3 : ({ n1.raft with uncommittedSize := u } : Raft).advanceApplied (readyOf env n).appliedCursor =
        .ok { n.raft with
          log := { n.raft.log with storage := st, applied := max n.raft.log.applied n.raft.log.view.base + (nextOut env n.raft.log).length }
          msgs := [], readStates := [], uncommittedSize := u } := by
      rw [hn1]
      unfold RaftLog.appliedToCursor at hcur
      have hc : (readyOf env n).appliedCursor = appliedCursorOf (nextOut env n.raft.log) (n.raft.log.unstable.snapshot.getD {}) := rfl
      rw [hc]
      unfold Raft.advanceApplied
      split
      · rename_i h0
        rw [if_pos h0] at hcur
        dsimp only
        rw [hcur]
        simp only [Res.ok_bind]
        rw [if_neg (by intro hc; rw [ha] at hc; exact absurd hc.1 (by decide))]
        rfl
      · rename_i h0
        rw [if_neg h0] at hcur
        simp only [Res.ok.injEq] at hcur
        rw [hcur]
    rw [h3]
    simp only [Res.ok_bind]
    generalize hl0 : ({ n.raft.log with storage := st, applied := max n.raft.log.applied n.raft.log.view.base + (nextOut env n.raft.log).length } : RaftLog)
      = l0 at hack
    obtain ⟨l1, g1, g2⟩ : ∃ l1, Raft.advanceStable l0 (readyOf env n).entries = .ok l1 ∧
        (if (n.raft.log.unstable.snapshot.getD {}).metadata.index = 0 then l1 else l1.stableSnapTo (n.raft.log.unstable.snapshot.getD {}).metadata.index) =
          readyLog env n.raft.log st := by
      unfold RaftLog.ackPersisted at hack
      unfold Raft.advanceStable
      show ∃ l1, (match n.raft.log.unstable.entries.getLast? with | some e => l0.stableTo e.index e.term | none => .ok l0) = .ok l1 ∧ _
      cases hg : n.raft.log.unstable.entries.getLast? with
      | none =>
        rw [hg] at hack
        simp only [Res.pure_eq, Res.ok_bind, Res.ok.injEq] at hack
        exact ⟨l0, rfl, hack⟩
      | some e =>
        rw [hg] at hack
        obtain ⟨l1, g1, g2⟩ := Res.bind_eq_ok.1 hack
        simp only [Res.pure_eq, Res.ok.injEq] at g2
        exact ⟨l1, g1, g2⟩
    rw [g1]
    simp only [Res.ok_bind, Res.pure_eq, Res.ok.injEq]
    rw [← g2]
    unfold isEmptySnap
    simp only [decide_eq_true_eq]
    rfl
  have hp1 : n1.prevHardSt = n.prevHardSt := by rw [← hr0]; rfl
  have hp2 : n1.prevSoftSt = (readyOf env n).softState.getD n.prevSoftSt := by rw [← hr0]; rfl
  unfold RawNode.advance
  rw [hn1r]
  dsimp only
  rw [hadv]
  simp only [Res.ok_bind, Res.pure_eq]
  rw [hp1, hp2]

end Craft
