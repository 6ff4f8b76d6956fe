import Verif.Safe.Switch
import Verif.Node.Leader

/-! # Acknowledging a Ready returns -/

namespace Craft
open Spec

/-! ## Appending does not look at the applied index -/

theorem RaftLog.append_app {l l' : RaftLog} {es : List Entry} (k : Nat) (h : l.append es = .ok l') :
    ({ l with applied := k } : RaftLog).append es = .ok { l' with applied := k } := by
  cases es with
  | nil => cases h; rfl
  | cons e0 es =>
    unfold RaftLog.append at h ⊢
    dsimp only at h ⊢
    split at h
    · cases h
    rename_i hc
    rw [if_neg hc]
    obtain ⟨u, hu, h⟩ := Res.bind_eq_ok.1 h
    simp only [Res.pure_eq, Res.ok.injEq] at h
    rw [hu, ← h]
    rfl

theorem RaftLog.maybeCommit_app {l l' : RaftLog} {i t : Nat} {b : Bool} (k : Nat) (h : l.maybeCommit i t = .ok (l', b)) :
    ({ l with applied := k } : RaftLog).maybeCommit i t = .ok ({ l' with applied := k }, b) := by
  unfold RaftLog.maybeCommit at h ⊢
  have ht : ({ l with applied := k } : RaftLog).term i = l.term i := rfl
  rw [ht]
  dsimp only
  split at h
  · rename_i hc
    rw [if_pos hc]
    obtain ⟨tt, h1, h⟩ := Res.bind_eq_ok.1 h
    obtain ⟨t2, h2, h⟩ := Res.bind_eq_ok.1 h
    rw [h1]
    simp only [Res.ok_bind]
    rw [h2]
    simp only [Res.ok_bind]
    split at h
    · rename_i he
      rw [if_pos he]
      obtain ⟨l1, h3, h⟩ := Res.bind_eq_ok.1 h
      simp only [Res.pure_eq, Res.ok.injEq, Prod.mk.injEq] at h
      obtain ⟨rfl, rfl⟩ := h
      have h4 : ({ l with applied := k } : RaftLog).commitTo i = .ok { l1 with applied := k } := by
        unfold RaftLog.commitTo at h3 ⊢
        have e : ({ l with applied := k } : RaftLog).lastIndex = l.lastIndex := rfl
        rw [e]
        dsimp only
        by_cases c1 : l.committed < i
        · rw [if_pos c1] at h3 ⊢
          by_cases c2 : l.lastIndex < i
          · rw [if_pos c2] at h3; cases h3
          · rw [if_neg c2] at h3 ⊢
            simp only [Res.ok.injEq] at h3
            rw [← h3]
        · rw [if_neg c1] at h3 ⊢
          simp only [Res.ok.injEq] at h3
          rw [← h3]
      rw [h4]
      rfl
    · rename_i he
      rw [if_neg he]
      cases h
      rfl
  · rename_i hc
    rw [if_neg hc]
    cases h
    rfl

namespace Raft
variable {K : Around} {env : Env} {r r' : Raft}

theorem maybeCommit_app {b : Bool} (k : Nat) (h : r.maybeCommit = .ok (r', b)) :
    ({ r with log := { r.log with applied := k } } : Raft).maybeCommit = .ok ({ r' with log := { r'.log with applied := k } }, b) := by
  unfold maybeCommit at h ⊢
  obtain ⟨⟨l, b'⟩, h1, h⟩ := Res.bind_eq_ok.1 h
  simp only [Res.pure_eq, Res.ok.injEq, Prod.mk.injEq] at h
  obtain ⟨rfl, rfl⟩ := h
  exact Res.bind_eq_ok.2 ⟨_, RaftLog.maybeCommit_app k h1, rfl⟩

theorem appendEntry_applied {es : List Entry} {b : Bool} (k : Nat) (h : r.appendEntry es = .ok (r', b)) :
    ({ r with log := { r.log with applied := k } } : Raft).appendEntry es = .ok ({ r' with log := { r'.log with applied := k } }, b) := by
  unfold appendEntry at h ⊢
  have hl : ({ r.log with applied := k } : RaftLog).lastIndex = r.log.lastIndex := rfl
  dsimp only at h ⊢
  rw [hl]
  unfold increaseUncommittedSize at h ⊢
  dsimp only at h ⊢
  split at h
  · rename_i hc
    rw [if_pos hc]
    dsimp only at h ⊢
    simp only [Bool.false_eq_true, not_false_eq_true, if_true, Res.ok.injEq, Prod.mk.injEq] at h ⊢
    obtain ⟨rfl, rfl⟩ := h
    exact ⟨rfl, rfl⟩
  · rename_i hc
    rw [if_neg hc]
    dsimp only at h ⊢
    simp only [not_true_eq_false, if_false] at h ⊢
    obtain ⟨l, h1, h⟩ := Res.bind_eq_ok.1 h
    rw [RaftLog.append_app k h1]
    simp only [Res.ok_bind]
    obtain ⟨p, h2, h⟩ := Res.bind_eq_ok.1 h
    have h2' : ∀ (u : Nat) (l : RaftLog), ({ r with uncommittedSize := u, log := l } : Raft).getPr r.id "raft.cc:526" = .ok p := fun u l => h2
    rw [h2']
    simp only [Res.ok_bind]
    obtain ⟨⟨r2, b2⟩, h3, h⟩ := Res.bind_eq_ok.1 h
    simp only [Res.pure_eq, Res.ok.injEq, Prod.mk.injEq] at h
    obtain ⟨rfl, rfl⟩ := h
    exact Res.bind_eq_ok.2 ⟨_, maybeCommit_app k h3, rfl⟩

/-- The entry of an automatic leave is never refused. -/
theorem appendEntry_auto {b : Bool} (h : r.appendEntry [{ type := .confChangeV2 }] = .ok (r', b)) : b = true := by
  unfold appendEntry increaseUncommittedSize at h
  dsimp only at h
  have h0 : payloads (stamp r.term (r.log.lastIndex + 1) [{ type := .confChangeV2 }]) = 0 := rfl
  rw [h0] at h
  simp only [Nat.lt_irrefl, gt_iff_lt, false_and, and_false, if_false] at h
  simp only [not_true_eq_false, if_false] at h
  obtain ⟨l, _, h⟩ := Res.bind_eq_ok.1 h
  obtain ⟨p, _, h⟩ := Res.bind_eq_ok.1 h
  obtain ⟨x, _, h⟩ := Res.bind_eq_ok.1 h
  simp only [Res.pure_eq, Res.ok.injEq, Prod.mk.injEq] at h
  exact h.2.symm

/-- Safe except perhaps for the log, which is only excused in a node that does not lead. -/
def MidSafe (K : Around) (env : Env) (r : Raft) : Prop := ∃ l, Safe K env { r with log := l } ∧ (r.state = .leader → l = r.log)

theorem MidSafe.leader (h : MidSafe K env r) (hl : r.state = .leader) : Safe K env r := by
  obtain ⟨l, h1, h2⟩ := h
  rw [h2 hl] at h1
  exact h1

/-- With a proper log, the node is safe. -/
theorem MidSafe.safe {l : RaftLog} (h : MidSafe K env r) (hl : LSafe l) (hlast : r.state = .leader → l.lastIndex = r.log.lastIndex) :
    Safe K env { r with log := l } := by
  obtain ⟨l0, h1, h2⟩ := h
  have := h1.withLog (l := l) hl fun hs => by rw [hlast hs, ← h2 hs]
  exact this

/-- The log with another applied index. -/
theorem advanceApplied_safe {k : Nat} (h : MidSafe K env r) (hk : k = 0 ∨ (k ≤ r.log.committed ∧ r.log.applied ≤ k))
    (hself : r.state = .leader → r.trk.config.autoLeave = true → ∃ p, r.pr r.id = some p) :
    (r.advanceApplied k).Sat fun ra => ∀ l, LSafe l → (ra.state = .leader → l.lastIndex = ra.log.lastIndex) → Safe K env { ra with log := l } := by
  unfold advanceApplied
  by_cases h0 : k > 0
  · rw [if_pos h0]
    have ha : r.log.appliedTo k = .ok { r.log with applied := k } := by
      unfold RaftLog.appliedTo
      rw [if_neg (by omega), if_neg (by omega)]
    rw [ha]
    simp only [Res.ok_bind]
    split
    · rename_i hc
      obtain ⟨c1, _, _, c4⟩ := hc
      have hs := h.leader c4
      obtain ⟨⟨r1, b⟩, h1, h2, _⟩ := appendEntry_safe (es := [{ type := .confChangeV2 }]) hs c4 (hself c4 c1)
      have hb := appendEntry_auto h1
      subst hb
      rw [appendEntry_applied k h1]
      simp only [Res.ok_bind, not_true_eq_false, if_false]
      refine .pure fun l hl hlast => ?_
      have h3 : Safe K env r1 := h2.safe
      have h4 := h3.withLog hl fun hs => hlast hs
      exact ⟨h4.log, h4.id, h4.self, h4.tpos, h4.infl, h4.next, h4.ro, h4.pend, h4.lead, h4.out⟩
    · exact .pure fun l hl hlast => h.safe hl hlast
  · rw [if_neg h0]
    exact .ok fun l hl hlast => h.safe hl hlast

end Raft

theorem RaftLog.WF.tail_last {l : RaftLog} (h : l.WF) {st : Storage} (w : st.WF) (v : st.view = l.view) (es : List Entry) (a c : Nat) :
    ({ l with storage := st, unstable := { l.unstable with entries := l.unstable.entries ++ es }, applied := a, committed := c } : RaftLog).lastIndex =
      l.view.last + es.length := by
  have e2 := h.last_eq
  have e3 := h.lastIndex_eq
  have e4 := w.lastIndex_eq
  rw [v] at e4
  unfold RaftLog.lastIndex Unstable.maybeLastIndex at e3 ⊢
  dsimp only at e3 ⊢
  by_cases hn : l.unstable.entries ++ es ≠ []
  · rw [if_pos hn]
    dsimp only
    have := List.length_pos_iff.2 hn
    rw [List.length_append] at this ⊢
    omega
  · have hn := Classical.not_not.1 hn
    obtain ⟨n1, n2⟩ := List.append_eq_nil_iff.1 hn
    rw [if_neg (by rw [hn]; simp)]
    rw [if_neg (by rw [n1]; simp)] at e3
    rw [n2, List.length_nil, Nat.add_zero]
    cases hs : l.unstable.snapshot with
    | none => exact e4
    | some s => rw [hs] at e3; exact e3

/-- `Advance` returns and leaves the node safe: `n` is the node before the Ready, `n1` after it was persisted, `n2` after the
configuration changes. -/
theorem advance_safe {K : Around} {env : Env} {n n1 n2 : RawNode} {st : Storage} (h : LInv n.raft.log)
    (h1 : n.raft.log.storage.save (readyOf env n) = .ok st)
    (hr0 : (({ n.acceptReady (readyOf env n) with ready := some (readyOf env n) } : RawNode).withStorage st) = n1)
    (q : ConfQuiet n1.raft n2.raft) (k1 : n2.ready = n1.ready) (hs : n2.raft.MidSafe K env)
    (hself : n2.raft.state = .leader → n2.raft.trk.config.autoLeave = true → ∃ p, n2.raft.pr n2.raft.id = some p) (ht : st.Tidy) :
    n2.advance.Sat fun n3 => n3.raft.log.view.termAt 0 = 0 → n3.raft.Safe K env := by
  have hlog1 : n1.raft.log = { n.raft.log with storage := st } := by rw [← hr0]; rfl
  have hn1r : n1.ready = some (readyOf env n) := by rw [← hr0]; rfl
  have hcur := h.cursor_eq env st
  have hcc : (readyOf env n).appliedCursor = appliedCursorOf (nextOut env n.raft.log) (n.raft.log.unstable.snapshot.getD {}) := rfl
  have hle : n.raft.log.committed ≤ n2.raft.log.committed := by
    have := q.le
    rw [hlog1] at this; exact this
  have hap2 : n2.raft.log.applied = n.raft.log.applied := by rw [q.log, hlog1]
  have hk : (readyOf env n).appliedCursor = 0 ∨ ((readyOf env n).appliedCursor ≤ n2.raft.log.committed ∧ n2.raft.log.applied ≤ (readyOf env n).appliedCursor) := by
    rw [hcc]
    generalize appliedCursorOf (nextOut env n.raft.log) (n.raft.log.unstable.snapshot.getD {}) = cur at hcur
    by_cases h0 : cur = 0
    · exact Or.inl h0
    · right
      unfold RaftLog.appliedToCursor at hcur
      rw [if_pos (by omega)] at hcur
      unfold RaftLog.appliedTo at hcur
      rw [if_neg h0] at hcur
      split at hcur
      · cases hcur
      · rename_i hc
        dsimp only at hc
        rw [hap2]
        omega
  obtain ⟨u, hu⟩ := reduceUncommittedSize_eq n2.raft (readyOf env n).committedEntries
  have hs' : ({ n2.raft with uncommittedSize := u } : Raft).MidSafe K env := by
    obtain ⟨l, m1, m2⟩ := hs
    exact ⟨l, ⟨m1.log, m1.id, m1.self, m1.tpos, m1.infl, m1.next, m1.ro, m1.pend, m1.lead, m1.out⟩, m2⟩
  obtain ⟨ra, h5, hra⟩ := Raft.advanceApplied_safe hs' hk hself
  obtain ⟨es, c, hralog, _⟩ := advance_log h h1 hr0 q h5
  have hack := h.wf.ack_tail es st (max n.raft.log.applied n.raft.log.view.base + (nextOut env n.raft.log).length) c (by
    intro s hs
    have := (h.pend s hs).2
    omega)
  rw [← hralog] at hack
  have hst : ∃ la, Raft.advanceStable ra.log (readyOf env n).entries = .ok la := by
    unfold RaftLog.ackPersisted at hack
    unfold Raft.advanceStable
    show ∃ la, (match n.raft.log.unstable.entries.getLast? with | some e => ra.log.stableTo e.index e.term | none => .ok ra.log) = .ok la
    cases hg : n.raft.log.unstable.entries.getLast? with
    | none => exact ⟨_, rfl⟩
    | some e =>
      rw [hg] at hack
      obtain ⟨l1, g1, _⟩ := Res.bind_eq_ok.1 hack
      exact ⟨l1, g1⟩
  obtain ⟨la, hla⟩ := hst
  have hadv : ∃ n3, n2.advance = .ok n3 := by
    unfold RawNode.advance
    rw [k1, hn1r]
    dsimp only
    unfold Raft.advance
    rw [hu, h5]
    simp only [Res.ok_bind]
    rw [hla]
    exact ⟨_, rfl⟩
  obtain ⟨n3, hadv⟩ := hadv
  obtain ⟨es', c', hd, u', ra', hra', hralog', hn3, _⟩ := advance_conf h h1 hr0 q k1 hadv
  have hru : ∀ u r1, ({ n2.raft with uncommittedSize := u } : Raft).advanceApplied (readyOf env n).appliedCursor = .ok r1 →
      ∀ l, LSafe l → (r1.state = .leader → l.lastIndex = r1.log.lastIndex) → Raft.Safe K env { r1 with log := l } := by
    intro u r1 hr1
    have hs' : ({ n2.raft with uncommittedSize := u } : Raft).MidSafe K env := by
      obtain ⟨l, m1, m2⟩ := hs
      exact ⟨l, ⟨m1.log, m1.id, m1.self, m1.tpos, m1.infl, m1.next, m1.ro, m1.pend, m1.lead, m1.out⟩, m2⟩
    obtain ⟨rx, h5, hrx⟩ := Raft.advanceApplied_safe hs' hk hself
    rw [hr1] at h5
    cases h5
    exact hrx
  refine ⟨n3, hadv, fun hz => ?_⟩
  obtain ⟨hli3, hview3, _⟩ := hd.linv h h1
  rw [hn3]
  refine hru u' ra' hra' _ ⟨hli3, hz, ?_⟩ fun _ => ?_
  · rw [hd.log]; exact ht
  · obtain ⟨_, h1', w, v, _, _⟩ := save_eq (env := env) h
    rw [h1] at h1'
    cases h1'
    rw [hli3.wf.lastIndex_eq, hview3, hralog']
    have e1 : (n.raft.log.view.push es').last = n.raft.log.view.last + es'.length := by
      unfold LogView.push LogView.last
      rw [List.length_append]; dsimp only; omega
    rw [e1, h.wf.tail_last w v]

end Craft
