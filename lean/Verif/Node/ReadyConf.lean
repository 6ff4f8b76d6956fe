import Verif.Node.Plain

/-! # Handling a Ready with configuration changes: what happens to the log -/

namespace Craft
open Spec

/-- Acknowledging a persisted Ready when `es` was appended after it was taken. -/
theorem RaftLog.WF.ack_tail {l : RaftLog} (h : l.WF) (es : List Entry) (st : Storage) (a c : Nat)
    (hsn : ∀ s, l.unstable.snapshot = some s → s.metadata.index ≠ 0) :
    ({ l with storage := st, unstable := { l.unstable with entries := l.unstable.entries ++ es }, applied := a, committed := c } : RaftLog).ackPersisted
        l.unstable.entries (l.unstable.snapshot.getD {}) =
      .ok { l with storage := st, unstable := { snapshot := none, entries := es, offset := l.view.last + 1 }, applied := a, committed := c } := by
  have hl := h.last_eq
  have snapPart : ∀ (e : List Entry) (o : Nat), o = l.view.last + 1 → e = es →
      (if (l.unstable.snapshot.getD {}).metadata.index = 0
        then ({ l with storage := st, unstable := { snapshot := l.unstable.snapshot, entries := e, offset := o }, applied := a, committed := c } : RaftLog)
        else ({ l with storage := st, unstable := { snapshot := l.unstable.snapshot, entries := e, offset := o }, applied := a, committed := c } : RaftLog).stableSnapTo
          (l.unstable.snapshot.getD {}).metadata.index) =
      { l with storage := st, unstable := { snapshot := none, entries := es, offset := l.view.last + 1 }, applied := a, committed := c } := by
    rintro e o rfl rfl
    cases hs : l.unstable.snapshot with
    | none => simp
    | some s =>
      have := hsn s hs
      simp [this, RaftLog.stableSnapTo, Unstable.stableSnapTo]
  unfold RaftLog.ackPersisted
  cases hg : l.unstable.entries.getLast? with
  | none =>
    have hne : l.unstable.entries = [] := by simpa using hg
    simp only [Res.pure_eq, Res.ok_bind]
    have := snapPart (l.unstable.entries ++ es) l.unstable.offset (by rw [hl, hne]; rfl) (by rw [hne]; rfl)
    rw [← this]
  | some e =>
    have hi := h.contig.getLast hg
    have hne : l.unstable.entries ≠ [] := by intro hc; rw [hc] at hg; simp at hg
    have hpos := List.length_pos_iff.2 hne
    have hle : (l.unstable.entries ++ es)[e.index - l.unstable.offset]? = some e := by
      rw [List.getElem?_append_left (by omega)]
      rw [List.getLast?_eq_getElem?] at hg
      rw [← hg]; congr 1; omega
    have hst : ({ l with storage := st, unstable := { l.unstable with entries := l.unstable.entries ++ es }, applied := a, committed := c } : RaftLog).stableTo
        e.index e.term = .ok { l with storage := st, unstable := { l.unstable with entries := es, offset := l.view.last + 1 }, applied := a, committed := c } := by
      unfold RaftLog.stableTo Unstable.stableTo Unstable.maybeTerm
      rw [if_neg (by dsimp only; omega)]
      have hne' : l.unstable.entries ++ es ≠ [] := by simp [hne]
      simp only [Unstable.maybeLastIndex, ne_eq, hne', not_false_eq_true, if_true]
      rw [if_neg (by rw [List.length_append]; omega), hle]
      simp only [Res.ok_bind, true_and]
      rw [if_pos (by omega)]
      simp only [Res.pure_eq, Res.ok_bind]
      congr 3
      · rw [show e.index - l.unstable.offset + 1 = l.unstable.entries.length by omega]
        simp
      · omega
    simp only [hst, Res.ok_bind, Res.pure_eq]
    have := snapPart es (l.view.last + 1) rfl rfl
    rw [← this]

/-- A leader's append at the end of the log. -/
theorem RaftLog.WF.append_end {l l' : RaftLog} (h : l.WF) {es : List Entry} (hc : Contig (l.view.last + 1) es) (hne : es ≠ [])
    (ha : l.append es = .ok l') : l' = { l with unstable := { l.unstable with entries := l.unstable.entries ++ es } } ∧ l.committed ≤ l.view.last := by
  have hl := h.last_eq
  have hb : l.view.base < l.view.last + 1 := by unfold LogView.last; omega
  rw [h.append_eq hc hne hb (Nat.le_refl _)] at ha
  split at ha
  · cases ha
  · cases ha
    refine ⟨?_, by omega⟩
    unfold RaftLog.appended
    rw [show min l.unstable.offset (l.view.last + 1) = l.unstable.offset by omega, List.take_of_length_le (by omega)]

/-- The core of a node up to commits, the tracker, and outgoing messages. -/
structure ConfQuiet (r r' : Raft) : Prop where
  log : r'.log = { r.log with committed := r'.log.committed }
  le : r.log.committed ≤ r'.log.committed
  last : r.log.WF → r.log.committed ≤ r.log.view.last → r'.log.committed ≤ r.log.view.last
  term : r'.term = r.term
  vote : r'.vote = r.vote
  state : r'.state = r.state
  pci : r'.pendingConfIndex = r.pendingConfIndex
  id : r'.id = r.id
  size : r'.uncommittedSize = r.uncommittedSize

namespace ConfQuiet
variable {env : Env} {a b c : Raft}

theorem refl : ConfQuiet a a := ⟨rfl, Nat.le_refl _, fun _ h => h, rfl, rfl, rfl, rfl, rfl, rfl⟩

theorem trans (h1 : ConfQuiet a b) (h2 : ConfQuiet b c) : ConfQuiet a c where
  log := by rw [h2.log, h1.log]
  le := Nat.le_trans h1.le h2.le
  last := by
    intro w hl
    have hb := h1.last w hl
    have e := h1.log
    have hv : b.log.view = a.log.view := by rw [e]; rfl
    have hw : b.log.WF := by rw [e]; exact w.with_committed _
    have := h2.last hw (by rw [hv]; exact hb)
    rwa [hv] at this
  term := h2.term.trans h1.term
  vote := h2.vote.trans h1.vote
  state := h2.state.trans h1.state
  pci := h2.pci.trans h1.pci
  id := h2.id.trans h1.id
  size := h2.size.trans h1.size

theorem of_core (h : b.core = { a.core with progress := b.trk.progress, config := b.trk.config, reads := b.reads }) : ConfQuiet a b := by
  have e1 : b.log = a.log := congrArg Core.log h
  refine ⟨by rw [e1], by rw [e1]; exact Nat.le_refl _, fun _ h => by rw [e1]; exact h, congrArg Core.term h, congrArg Core.vote h,
    congrArg Core.state h, congrArg Core.pci h, congrArg Core.id h, congrArg Core.size h⟩

theorem maybeCommit {r r' : Raft} {b : Bool} (h : r.maybeCommit = .ok (r', b)) : ConfQuiet r r' := by
  obtain ⟨h1, h2⟩ := Raft.maybeCommit_ok h
  obtain ⟨h3, h4⟩ := RaftLog.maybeCommit_shape h2
  refine ⟨h3, h4, fun w hl => ?_, by rw [h1], by rw [h1], by rw [h1], by rw [h1], by rw [h1], by rw [h1]⟩
  rw [w.maybeCommit_eq] at h2
  split at h2
  · split at h2
    · cases h2
    · simp only [Res.ok.injEq, Prod.mk.injEq] at h2
      rw [← h2.1]; dsimp only; omega
  · simp only [Res.ok.injEq, Prod.mk.injEq] at h2
    rw [← h2.1]; exact hl

theorem qsim {im : Message} (h : QSim env im a b) : ConfQuiet a b := by
  have e := h.2
  have hc : b.trk.config = a.trk.config := congrArg Core.config e
  refine of_core ?_
  rw [e, hc]
  rfl

theorem switchSend {r r' : Raft} (hl : r.state = .leader) (h : r.switchSend env = .ok r') : ConfQuiet r r' := by
  unfold Raft.switchSend at h
  obtain ⟨⟨r1, c⟩, h1, h⟩ := Res.bind_eq_ok.1 h
  have s1 := maybeCommit h1
  have hl1 : r1.state = .leader := by rw [s1.state]; exact hl
  dsimp only at h
  cases c with
  | true =>
    simp only [if_true] at h
    exact s1.trans (qsim (im := {}) (Raft.bcastAppend_qsim hl1 h))
  | false =>
    simp only [Bool.false_eq_true, if_false] at h
    exact s1.trans (qsim (im := {}) (Raft.visitSend_qsim _ hl1 h))

theorem switchToConfig {r r' : Raft} {cfg : TConfig} {prs : ProgressMap} {cs : ConfState}
    (h : r.switchToConfig env cfg prs = .ok (r', cs)) : ConfQuiet r r' := by
  unfold Raft.switchToConfig at h
  dsimp only at h
  generalize hb : Raft.selfLearner _ = lrn at h
  have hq : ConfQuiet r (r.withConf cfg prs lrn) := of_core rfl
  split at h
  · simp only [Res.pure_eq, Res.ok.injEq, Prod.mk.injEq] at h
    rw [← h.1]; exact hq
  split at h
  · simp only [Res.pure_eq, Res.ok.injEq, Prod.mk.injEq] at h
    rw [← h.1]; exact hq
  rename_i h2
  have hl : r.state = .leader := Decidable.byContradiction fun h => h2 (Or.inl h)
  obtain ⟨r1, h1, h⟩ := Res.bind_eq_ok.1 h
  refine hq.trans ((switchSend (r := r.withConf cfg prs lrn) hl h1).trans ?_)
  split at h <;> simp only [Res.pure_eq, Res.ok.injEq, Prod.mk.injEq] at h <;> rw [← h.1]
  · exact of_core rfl
  · exact refl

theorem applyConfChanges : ∀ (ccs : List ConfChangeI) {n n' : RawNode}, RawNode.applyConfChanges env ccs n = .ok n' →
    ConfQuiet n.raft n'.raft ∧ n'.ready = n.ready ∧ n'.prevHardSt = n.prevHardSt ∧ n'.prevSoftSt = n.prevSoftSt
  | [], n, n', h => by cases h; exact ⟨refl, rfl, rfl, rfl⟩
  | cc :: ccs, n, n', h => by
    unfold RawNode.applyConfChanges at h
    obtain ⟨⟨n1, cs⟩, h1, h⟩ := Res.bind_eq_ok.1 h
    obtain ⟨q, k1, k2, k3⟩ := applyConfChanges ccs h
    unfold RawNode.applyConfChange at h1
    obtain ⟨⟨r, cs'⟩, h2, h1⟩ := Res.bind_eq_ok.1 h1
    simp only [Res.pure_eq, Res.ok.injEq, Prod.mk.injEq] at h1
    obtain ⟨rfl, _⟩ := h1
    refine ⟨?_, k1, k2, k3⟩
    unfold Raft.applyConfChange at h2
    dsimp only at h2
    split at h2
    · cases h2
    · exact (switchToConfig h2).trans q

end ConfQuiet

/-- The node after handling a Ready with the configuration changes `ccs`. `es` is what leaving a joint configuration
automatically appended. -/
structure ReadyDone (env : Env) (n n' : RawNode) (st : Storage) (es : List Entry) (c : Nat) : Prop where
  log : n'.raft.log = { n.raft.log with
    storage := st
    unstable := { snapshot := none, entries := es, offset := n.raft.log.view.last + 1 }
    applied := max n.raft.log.applied n.raft.log.view.base + (nextOut env n.raft.log).length
    committed := c }
  le : n.raft.log.committed ≤ c
  last : c ≤ n.raft.log.view.last + es.length
  term : n'.raft.term = n.raft.term
  vote : n'.raft.vote = n.raft.vote
  state : n'.raft.state = n.raft.state
  id : n'.raft.id = n.raft.id
  auto : (es = [] ∧ n'.raft.pendingConfIndex = n.raft.pendingConfIndex) ∨
    (n.raft.state = .leader ∧ n.raft.pendingConfIndex ≤ n'.raft.log.applied ∧
      es = [{ type := .confChangeV2, term := n.raft.term, index := n.raft.log.view.last + 1 }] ∧
      n'.raft.pendingConfIndex = n.raft.log.view.last + 1)

/-- The node before a Ready is acknowledged: `n1` is the node after the Ready was persisted, `n2` after the configuration changes. -/
theorem advance_log {env : Env} {n n1 n2 : RawNode} {st : Storage} {u : Nat} {ra : Raft} (h : LInv n.raft.log)
    (h1 : n.raft.log.storage.save (readyOf env n) = .ok st)
    (hr0 : (({ n.acceptReady (readyOf env n) with ready := some (readyOf env n) } : RawNode).withStorage st) = n1)
    (q : ConfQuiet n1.raft n2.raft)
    (h5 : ({ n2.raft with uncommittedSize := u } : Raft).advanceApplied (readyOf env n).appliedCursor = .ok ra) :
    ∃ es c, ra.log = { n.raft.log with
        storage := st
        unstable := { n.raft.log.unstable with entries := n.raft.log.unstable.entries ++ es }
        applied := max n.raft.log.applied n.raft.log.view.base + (nextOut env n.raft.log).length
        committed := c } ∧ n.raft.log.committed ≤ c ∧ c ≤ n.raft.log.view.last + es.length ∧
      ra.term = n.raft.term ∧ ra.vote = n.raft.vote ∧ ra.state = n.raft.state ∧ ra.id = n.raft.id ∧
      ((es = [] ∧ ra.pendingConfIndex = n.raft.pendingConfIndex) ∨
       (n.raft.state = .leader ∧ n.raft.pendingConfIndex ≤ max n.raft.log.applied n.raft.log.view.base + (nextOut env n.raft.log).length ∧
        es = [{ type := .confChangeV2, term := n.raft.term, index := n.raft.log.view.last + 1 }] ∧
        ra.pendingConfIndex = n.raft.log.view.last + 1)) := by
  obtain ⟨_, h1', w, v, _, _⟩ := save_eq (env := env) h
  rw [h1] at h1'
  cases h1'
  have hn1r : n1.ready = some (readyOf env n) := by rw [← hr0]; rfl
  have hlog1 : n1.raft.log = { n.raft.log with storage := st } := by rw [← hr0]; rfl
  have e1 : n1.raft.term = n.raft.term := by rw [← hr0]; rfl
  have e2 : n1.raft.vote = n.raft.vote := by rw [← hr0]; rfl
  have e3 : n1.raft.state = n.raft.state := by rw [← hr0]; rfl
  have e4 : n1.raft.id = n.raft.id := by rw [← hr0]; rfl
  have e5 : n1.raft.pendingConfIndex = n.raft.pendingConfIndex := by rw [← hr0]; rfl
  obtain ⟨w1, v1⟩ := h.wf.of_storage_eq w v
  have hc2 : n2.raft.log.committed ≤ n.raft.log.view.last := by
    have := q.last (by rw [hlog1]; exact w1) (by rw [hlog1, v1]; exact h.com_last)
    rwa [hlog1, v1] at this
  have hle2 : n.raft.log.committed ≤ n2.raft.log.committed := by
    have := q.le
    rw [hlog1] at this; exact this
  have hlog2 : n2.raft.log = { n.raft.log with storage := st, committed := n2.raft.log.committed } := by
    rw [q.log, hlog1]
  have hcur := h.cursor_eq env st
  have hcc : (readyOf env n).appliedCursor = appliedCursorOf (nextOut env n.raft.log) (n.raft.log.unstable.snapshot.getD {}) := rfl
  rw [hcc] at h5
  generalize appliedCursorOf (nextOut env n.raft.log) (n.raft.log.unstable.snapshot.getD {}) = cur at hcur h5
  generalize hA : max n.raft.log.applied n.raft.log.view.base + (nextOut env n.raft.log).length = A at hcur
  -- `appliedTo` on the log with the later commit index
  have happ : ∀ l, n2.raft.log.appliedTo cur = .ok l → 0 < cur →
      l = { n.raft.log with storage := st, applied := A, committed := n2.raft.log.committed } ∧ cur = A := by
    intro l hl h0
    unfold RaftLog.appliedToCursor at hcur
    rw [if_pos h0] at hcur
    obtain ⟨a1, a2⟩ := Raft.appliedTo_log hl
    obtain ⟨b1, b2⟩ := Raft.appliedTo_log hcur
    have hcA : cur = A := by
      rcases b2 with b2 | ⟨b2, _⟩
      · omega
      · exact b2.symm
    refine ⟨?_, hcA⟩
    rw [a1, hlog2]
    rcases a2 with a2 | ⟨a2, _⟩
    · omega
    · rw [a2, hcA]
  rcases Raft.advanceApplied_cases h5 with ⟨h0, rfl⟩ | ⟨h0, l, hl, rfl | ⟨g1, g2, g3, g4, rb, hb, rfl⟩⟩
  · refine ⟨[], n2.raft.log.committed, ?_, hle2, by simpa using hc2, q.term.trans e1, q.vote.trans e2, q.state.trans e3, q.id.trans e4,
      Or.inl ⟨rfl, q.pci.trans e5⟩⟩
    unfold RaftLog.appliedToCursor at hcur
    rw [if_neg (by omega)] at hcur
    simp only [Res.ok.injEq, RaftLog.mk.injEq, true_and, and_true] at hcur
    show n2.raft.log = _
    rw [← hcur]
    refine hlog2.trans ?_
    simp
  · obtain ⟨hl1, _⟩ := happ l hl h0
    refine ⟨[], n2.raft.log.committed, ?_, hle2, by simpa using hc2, q.term.trans e1, q.vote.trans e2, q.state.trans e3, q.id.trans e4,
      Or.inl ⟨rfl, q.pci.trans e5⟩⟩
    show l = _
    rw [hl1]
    simp
  · obtain ⟨hl1, hcA⟩ := happ l hl h0
    have hlw : l.WF := by
      rw [hl1]
      exact (w1.with_committed n2.raft.log.committed).with_applied A
    have hlv : l.view = n.raft.log.view := by rw [hl1]; exact v1
    -- the appended entry
    unfold Raft.appendEntry at hb
    dsimp only at hb
    have hi := Raft.increase_core { n2.raft with uncommittedSize := u, log := l } (Raft.stamp n2.raft.term (l.lastIndex + 1) [{ type := .confChangeV2 }])
    generalize Raft.increaseUncommittedSize _ _ = y at hb hi
    obtain ⟨r1, ok⟩ := y
    obtain ⟨hc, hk, _⟩ := hi
    dsimp only at hb hc hk
    cases ok with
    | false => simp at hb
    | true =>
      simp only [not_true_eq_false, if_false] at hb
      obtain ⟨l2, hl2, hb⟩ := Res.bind_eq_ok.1 hb
      obtain ⟨p, hp, hb⟩ := Res.bind_eq_ok.1 hb
      obtain ⟨⟨r2, b2⟩, hm, hb⟩ := Res.bind_eq_ok.1 hb
      simp only [Res.pure_eq, Res.ok.injEq, Prod.mk.injEq] at hb
      obtain ⟨rfl, -⟩ := hb
      have hr1l : r1.log = l := congrArg Core.log hc
      rw [hr1l] at hl2
      have hr1t : r1.term = n2.raft.term := congrArg Core.term hc
      have hlast : l.lastIndex = n.raft.log.view.last := by rw [hlw.lastIndex_eq, hlv]
      have hst : Raft.stamp n2.raft.term (l.lastIndex + 1) [{ type := .confChangeV2 }] =
          [{ type := .confChangeV2, term := n.raft.term, index := n.raft.log.view.last + 1 }] := by
        rw [hlast, q.term, e1]; rfl
      have hl2' : l.append [{ type := .confChangeV2, term := n.raft.term, index := n.raft.log.view.last + 1 }] = .ok l2 := by
        rw [← hst]; exact hl2
      obtain ⟨f1, f2⟩ := hlw.append_end (Contig.cons.2 ⟨by rw [hlv], .nil _⟩) (nomatch ·) hl2'
      have q2 := ConfQuiet.maybeCommit hm
      have hl2w : l2.WF := (Raft.append_view hlw _ hl2).1
      have hl2v : l2.view.last = n.raft.log.view.last + 1 := by
        rw [(Raft.append_view hlw _ hl2).2, hlv]
        unfold LogView.push LogView.last
        rw [hst, List.length_append]; rfl
      refine ⟨[{ type := .confChangeV2, term := n.raft.term, index := n.raft.log.view.last + 1 }], r2.log.committed, ?_, ?_, ?_, ?_, ?_, ?_, ?_,
        Or.inr ⟨?_, ?_, rfl, ?_⟩⟩
      · have : r2.log = { l2 with committed := r2.log.committed } := q2.log
        show r2.log = _
        rw [this, f1, hl1]
      · have h7 := q2.le
        have h8 : l2.committed = n2.raft.log.committed := by rw [f1, hl1]
        have : l2.committed ≤ r2.log.committed := h7
        omega
      · have h8 : l2.committed = n2.raft.log.committed := by rw [f1, hl1]
        have := q2.last hl2w (by show l2.committed ≤ l2.view.last; omega)
        have h9 : r2.log.committed ≤ l2.view.last := this
        rw [hl2v] at h9
        exact h9
      · exact q2.term.trans (hr1t.trans (q.term.trans e1))
      · exact q2.vote.trans ((congrArg Core.vote hc).trans (q.vote.trans e2))
      · exact q2.state.trans ((congrArg Core.state hc).trans (q.state.trans e3))
      · exact q2.id.trans ((congrArg Core.id hc).trans (q.id.trans e4))
      · rw [← e3, ← q.state]; exact g3
      · have : n2.raft.pendingConfIndex ≤ cur := g2
        rw [q.pci, e5] at this
        omega
      · show r2.log.lastIndex = _
        have : r2.log = { l2 with committed := r2.log.committed } := q2.log
        rw [this]
        show l2.lastIndex = _
        rw [hl2w.lastIndex_eq, hl2v]

/-- The end of handling a Ready: `n1` is the node after the Ready was persisted, `n2` after the configuration changes. -/
theorem advance_conf {env : Env} {n n1 n2 n' : RawNode} {st : Storage} (h : LInv n.raft.log)
    (h1 : n.raft.log.storage.save (readyOf env n) = .ok st)
    (hr0 : (({ n.acceptReady (readyOf env n) with ready := some (readyOf env n) } : RawNode).withStorage st) = n1)
    (q : ConfQuiet n1.raft n2.raft) (k1 : n2.ready = n1.ready) (h4 : n2.advance = .ok n') :
    ∃ es c, ReadyDone env n n' st es c ∧ ∃ u ra, ({ n2.raft with uncommittedSize := u } : Raft).advanceApplied (readyOf env n).appliedCursor = .ok ra ∧
      ra.log = { n.raft.log with
        storage := st
        unstable := { n.raft.log.unstable with entries := n.raft.log.unstable.entries ++ es }
        applied := max n.raft.log.applied n.raft.log.view.base + (nextOut env n.raft.log).length
        committed := c } ∧
      n'.raft = { ra with log := n'.raft.log } ∧
      n'.prevHardSt = (if isEmptyHardState (readyOf env n).hardState then n2.prevHardSt else (readyOf env n).hardState) := by
  obtain ⟨_, h1', w, v, _, _⟩ := save_eq (env := env) h
  rw [h1] at h1'
  cases h1'
  have hn1r : n1.ready = some (readyOf env n) := by rw [← hr0]; rfl
  have hlog1 : n1.raft.log = { n.raft.log with storage := st } := by rw [← hr0]; rfl
  have e1 : n1.raft.term = n.raft.term := by rw [← hr0]; rfl
  have e2 : n1.raft.vote = n.raft.vote := by rw [← hr0]; rfl
  have e3 : n1.raft.state = n.raft.state := by rw [← hr0]; rfl
  have e4 : n1.raft.id = n.raft.id := by rw [← hr0]; rfl
  have e5 : n1.raft.pendingConfIndex = n.raft.pendingConfIndex := by rw [← hr0]; rfl
  obtain ⟨w1, v1⟩ := h.wf.of_storage_eq w v
  have hc2 : n2.raft.log.committed ≤ n.raft.log.view.last := by
    have := q.last (by rw [hlog1]; exact w1) (by rw [hlog1, v1]; exact h.com_last)
    rwa [hlog1, v1] at this
  have hle2 : n.raft.log.committed ≤ n2.raft.log.committed := by
    have := q.le
    rw [hlog1] at this; exact this
  have hlog2 : n2.raft.log = { n.raft.log with storage := st, committed := n2.raft.log.committed } := by
    rw [q.log, hlog1]
  -- advance
  unfold RawNode.advance at h4
  rw [k1, hn1r] at h4
  dsimp only at h4
  obtain ⟨r3, h7, h8⟩ := Res.bind_eq_ok.1 h4
  clear h4
  simp only [Res.pure_eq, Res.ok.injEq] at h8
  subst h8
  unfold Raft.advance at h7
  obtain ⟨u, hu⟩ := reduceUncommittedSize_eq n2.raft (readyOf env n).committedEntries
  rw [hu] at h7
  obtain ⟨ra, h5, h8⟩ := Res.bind_eq_ok.1 h7
  clear h7
  obtain ⟨la, h6, h4⟩ := Res.bind_eq_ok.1 h8
  simp only [Res.pure_eq, Res.ok.injEq] at h4
  have key := advance_log h h1 hr0 q h5
  obtain ⟨es, c, hra, f1, f2, f3, f4, f5, f6, f7⟩ := key
  have hack := h.wf.ack_tail es st (max n.raft.log.applied n.raft.log.view.base + (nextOut env n.raft.log).length) c (by
    intro s hs
    have := (h.pend s hs).2
    omega)
  have hfin : r3.log = { n.raft.log with
      storage := st
      unstable := { snapshot := none, entries := es, offset := n.raft.log.view.last + 1 }
      applied := max n.raft.log.applied n.raft.log.view.base + (nextOut env n.raft.log).length
      committed := c } := by
    rw [← h4]
    dsimp only
    rw [hra] at h6
    generalize ({ n.raft.log with
        storage := st
        unstable := { n.raft.log.unstable with entries := n.raft.log.unstable.entries ++ es }
        applied := max n.raft.log.applied n.raft.log.view.base + (nextOut env n.raft.log).length
        committed := c } : RaftLog) = l0 at hack h6
    unfold RaftLog.ackPersisted at hack
    unfold Raft.advanceStable at h6
    have h6' : (match n.raft.log.unstable.entries.getLast? with | some e => l0.stableTo e.index e.term | none => .ok l0) = .ok la := h6
    unfold isEmptySnap
    simp only [decide_eq_true_eq]
    show (if (n.raft.log.unstable.snapshot.getD {}).metadata.index = 0 then la else la.stableSnapTo (n.raft.log.unstable.snapshot.getD {}).metadata.index) = _
    cases hg : n.raft.log.unstable.entries.getLast? with
    | none =>
      rw [hg] at hack h6'
      simp only [Res.ok.injEq] at h6'
      subst h6'
      simp only [Res.pure_eq, Res.ok_bind, Res.ok.injEq] at hack
      exact hack
    | some e =>
      rw [hg] at hack h6'
      dsimp only at h6' hack
      rw [h6'] at hack
      simp only [Res.pure_eq, Res.ok_bind, Res.ok.injEq] at hack
      exact hack
  refine ⟨es, c, ⟨hfin, f1, f2, ?_, ?_, ?_, ?_, ?_⟩, u, ra, h5, hra, ?_, ?_⟩
  · rw [← h4]; exact f3
  · rw [← h4]; exact f4
  · rw [← h4]; exact f5
  · rw [← h4]; exact f6
  · have hap : r3.log.applied = max n.raft.log.applied n.raft.log.view.base + (nextOut env n.raft.log).length := by rw [hfin]
    dsimp only
    rw [hap, ← h4]
    exact f7
  · rw [← h4]
  · rfl

theorem handleReady_conf {env : Env} {n n' : RawNode} {ccs : List ConfChangeI} {rd : Ready} (h : LInv n.raft.log)
    (hr : n.handleReady env ccs = .ok (n', rd)) :
    rd = readyOf env n ∧ ∃ st es c, n.raft.log.storage.save (readyOf env n) = .ok st ∧ ReadyDone env n n' st es c := by
  obtain ⟨st, h1, h2⟩ := takeReady_eq (env := env) h
  generalize hr0 : (({ n.acceptReady (readyOf env n) with ready := some (readyOf env n) } : RawNode).withStorage st) = n1 at h2
  unfold RawNode.handleReady at hr
  rw [h2] at hr
  simp only [Res.ok_bind] at hr
  obtain ⟨n2, h3, hr⟩ := Res.bind_eq_ok.1 hr
  obtain ⟨n3, h4, hr⟩ := Res.bind_eq_ok.1 hr
  simp only [Res.pure_eq, Res.ok.injEq, Prod.mk.injEq] at hr
  obtain ⟨rfl, rfl⟩ := hr
  obtain ⟨q, k1, _, _⟩ := ConfQuiet.applyConfChanges ccs h3
  obtain ⟨es, c, hd, _⟩ := advance_conf h h1 hr0 q k1 h4
  exact ⟨rfl, st, es, c, h1, hd⟩

/-- What a Ready hands out is taken off the uncommitted size when it is acknowledged. -/
theorem handleReady_size {env : Env} {n n' : RawNode} {ccs : List ConfChangeI} {rd : Ready} (h : LInv n.raft.log)
    (hr : n.handleReady env ccs = .ok (n', rd)) :
    n'.raft.uncommittedSize = n.raft.uncommittedSize - Raft.payloads (nextOut env n.raft.log) := by
  obtain ⟨st, h1, h2⟩ := takeReady_eq (env := env) h
  generalize hr0 : (({ n.acceptReady (readyOf env n) with ready := some (readyOf env n) } : RawNode).withStorage st) = n1 at h2
  unfold RawNode.handleReady at hr
  rw [h2] at hr
  simp only [Res.ok_bind] at hr
  obtain ⟨n2, h3, hr⟩ := Res.bind_eq_ok.1 hr
  obtain ⟨n3, h4, hr⟩ := Res.bind_eq_ok.1 hr
  simp only [Res.pure_eq, Res.ok.injEq, Prod.mk.injEq] at hr
  obtain ⟨rfl, rfl⟩ := hr
  obtain ⟨q, k1, _, _⟩ := ConfQuiet.applyConfChanges ccs h3
  have hn1r : n1.ready = some (readyOf env n) := by rw [← hr0]; rfl
  have hs1 : n1.raft.uncommittedSize = n.raft.uncommittedSize := by rw [← hr0]; rfl
  unfold RawNode.advance at h4
  rw [k1, hn1r] at h4
  dsimp only at h4
  obtain ⟨r3, h7, h8⟩ := Res.bind_eq_ok.1 h4
  clear h4
  simp only [Res.pure_eq, Res.ok.injEq] at h8
  subst h8
  unfold Raft.advance at h7
  obtain ⟨ra, h5, h8⟩ := Res.bind_eq_ok.1 h7
  clear h7
  obtain ⟨la, h6, h4⟩ := Res.bind_eq_ok.1 h8
  simp only [Res.pure_eq, Res.ok.injEq] at h4
  have hred := congrArg Core.size (Raft.reduce_core n2.raft (readyOf env n).committedEntries).1
  have hred' : (n2.raft.reduceUncommittedSize (readyOf env n).committedEntries).uncommittedSize =
      n.raft.uncommittedSize - Raft.payloads (nextOut env n.raft.log) := by
    refine hred.trans ?_
    show n2.raft.uncommittedSize - _ = _
    rw [q.size, hs1]; rfl
  have hra : ra.uncommittedSize = (n2.raft.reduceUncommittedSize (readyOf env n).committedEntries).uncommittedSize := by
    rcases Raft.advanceApplied_cases h5 with ⟨h0, rfl⟩ | ⟨h0, l, hl, rfl | ⟨g1, g2, g3, g4, rb, hb, rfl⟩⟩
    · rfl
    · rfl
    · show rb.uncommittedSize = _
      unfold Raft.appendEntry Raft.increaseUncommittedSize at hb
      dsimp only at hb
      rw [Raft.stamp_payloads] at hb
      split at hb
      · simp at hb
      · simp only [not_true_eq_false, if_false] at hb
        obtain ⟨l', _, hb⟩ := Res.bind_eq_ok.1 hb
        obtain ⟨p, _, hb⟩ := Res.bind_eq_ok.1 hb
        obtain ⟨⟨r2, b2⟩, hm, hb⟩ := Res.bind_eq_ok.1 hb
        simp only [Res.pure_eq, Res.ok.injEq, Prod.mk.injEq] at hb
        obtain ⟨rfl, _⟩ := hb
        rw [(Raft.maybeCommit_ok hm).1]
        rfl
  show r3.uncommittedSize = _
  rw [← h4]
  exact hra.trans hred'

end Craft
