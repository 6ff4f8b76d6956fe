import Verif.Props.Log

/-! # `RaftLog` over time: C22, C23, C24 -/

namespace Craft
open Spec

/-- What the application is handed: a snapshot up to an index, or a committed entry. -/
inductive Delivery where
  | snap (index : Nat)
  | ent (e : Entry)
deriving DecidableEq, Repr

/-- `ds` leads the applied position from `p` to `q`: each entry is the next one, each snapshot jumps forward. -/
def InOrder : Nat → List Delivery → Nat → Prop
  | p, [], q => p = q
  | p, .ent e :: ds, q => e.index = p + 1 ∧ InOrder (p + 1) ds q
  | p, .snap i :: ds, q => p < i ∧ InOrder i ds q

/-- A log and everything delivered from it so far. -/
structure LHist where
  log : RaftLog
  out : List Delivery

/-- One operation that did not abort, with what its caller in `raft.cc` (or the application) guarantees. -/
inductive LStep (env : Env) : LHist → LHist → Prop
  /-- `RaftLog::Append` of consecutive entries inside or right after the log (leader). -/
  | append (k : Nat) (es : List Entry) {l l' : RaftLog} {out} : Contig k es → 0 < k → k ≤ l.lastIndex + 1 →
      l.append es = .ok l' → LStep env ⟨l, out⟩ ⟨l', out⟩
  /-- `RaftLog::MaybeAppend` not before the compacted part (follower). -/
  | maybeAppend (index logTerm commit : Nat) (es : List Entry) {l l' : RaftLog} {out res} : l.firstIndex ≤ index + 1 →
      index ≤ l.lastIndex ∨ logTerm ≠ 0 → Contig (index + 1) es → (∀ e ∈ es, e.term ≠ 0) →
      l.maybeAppend index logTerm commit es = .ok (l', res) → LStep env ⟨l, out⟩ ⟨l', out⟩
  | commitTo (c : Nat) {l l' : RaftLog} {out} : l.commitTo c = .ok l' → LStep env ⟨l, out⟩ ⟨l', out⟩
  | maybeCommit (m t : Nat) {l l' : RaftLog} {b out} : l.maybeCommit m t = .ok (l', b) → LStep env ⟨l, out⟩ ⟨l', out⟩
  /-- `RaftLog::Restore` of a snapshot above the commit index. -/
  | restore (s : Snapshot) {l : RaftLog} {out} : l.committed < s.metadata.index → LStep env ⟨l, out⟩ ⟨l.restore s, out⟩
  /-- A Ready: persist, apply, advance. -/
  | ready {l l' : RaftLog} {snap es out} : l.readyCycle env = .ok (l', snap, es) →
      LStep env ⟨l, out⟩ ⟨l', out ++ (snap.map fun s => Delivery.snap s.metadata.index).toList ++ es.map .ent⟩
  /-- The application compacts its storage up to something it has applied. -/
  | compact (i : Nat) {l : RaftLog} {st e out} : i ≤ l.applied → l.storage.compact i = .ok (st, e) →
      LStep env ⟨l, out⟩ ⟨{ l with storage := st }, out⟩
  /-- The application creates a snapshot of something it has applied. -/
  | createSnapshot (i : Nat) (cs : Option ConfState) (data : Bytes) {l : RaftLog} {st e out} : i ≤ l.applied →
      l.storage.createSnapshot i cs data = .ok (st, e) → LStep env ⟨l, out⟩ ⟨{ l with storage := st }, out⟩

/-- A freshly opened log (`newLog`, `LoadState`, `Config::applied`): nothing unstable, commit inside the stored log, the
applied position between the compacted part and the commit index. -/
def LStart (l : RaftLog) : Prop :=
  ∃ (st : Storage) (mx commit applied : Nat), st.WF ∧ st.firstIndex ≤ applied + 1 ∧ applied ≤ commit ∧
    commit ≤ st.lastIndex ∧ st.snapshot.metadata.index ≤ commit ∧
    l = { RaftLog.new st mx with committed := commit, applied := applied }

/-- Histories starting at applied position `a`. -/
inductive LReach (env : Env) (a : Nat) : LHist → Prop
  | start {l : RaftLog} : LStart l → l.applied = a → LReach env a ⟨l, []⟩
  | step {x y : LHist} : LReach env a x → LStep env x y → LReach env a y

/-- The invariant behind the theorems. -/
structure LInv (l : RaftLog) : Prop where
  wf : l.WF
  app_com : l.applied ≤ l.committed
  com_last : l.committed ≤ l.view.last
  base_com : l.view.base ≤ l.committed
  base_app : l.unstable.snapshot = none → l.view.base ≤ l.applied
  app_off : l.applied < l.unstable.offset
  pend : ∀ s, l.unstable.snapshot = some s → l.applied < s.metadata.index ∧ l.storage.snapshot.metadata.index < s.metadata.index
  snap_com : l.storage.snapshot.metadata.index ≤ l.committed

theorem LStart.inv {l : RaftLog} (h : LStart l) : LInv l := by
  obtain ⟨st, mx, c, a, hw, h1, h2, h3, h4, rfl⟩ := h
  have hl := hw.lastIndex_eq
  have hb : st.view.base ≤ st.view.last := Nat.le_add_right _ _
  have hv : ({ RaftLog.new st mx with committed := c, applied := a } : RaftLog).view = st.view := by
    simp only [RaftLog.new, RaftLog.view, List.append_nil, hl, LogView.last]
    rw [List.take_of_length_le (by omega)]
  have hf : st.view.base ≤ a := by rw [Storage.firstIndex_eq] at h1; omega
  refine ⟨⟨hw, .nil _, ?_, fun _ => ⟨?_, ?_⟩, fun _ _ => ?_⟩, h2, ?_, ?_, fun _ => ?_, ?_, ?_, h4⟩
  · intro s hs; cases hs
  · show st.view.base < st.lastIndex + 1; omega
  · show st.lastIndex + 1 ≤ st.view.last + 1; omega
  · show st.lastIndex + 1 = st.view.last + 1; omega
  · rw [hv]; show c ≤ _; omega
  · rw [hv]; show _ ≤ c; omega
  · rw [hv]; exact hf
  · show a < st.lastIndex + 1; omega
  · intro s hs; cases hs

/-- What one operation does to the log, as the user sees it. -/
structure LEffect (l l' : RaftLog) : Prop where
  com_mono : l.committed ≤ l'.committed
  app_mono : l.applied ≤ l'.applied
  base_mono : l.view.base ≤ l'.view.base
  keep : ∀ i, i ≤ l.committed → l'.view.base < i → l'.view.entry i = l.view.entry i
  keepTerm : ∀ i, i ≤ l.committed → l'.view.base ≤ i → l'.view.termAt i = l.view.termAt i

theorem LEffect.of_view {l l' : RaftLog} (hc : l.committed ≤ l'.committed) (ha : l.applied ≤ l'.applied)
    (hv : l'.view = l.view) : LEffect l l' :=
  ⟨hc, ha, by rw [hv]; exact Nat.le_refl _, by intros; rw [hv], by intros; rw [hv]⟩

theorem LInv.readyCycle_eq {l : RaftLog} (h : LInv l) (env : Env) :
    ∃ st es, l.nextEnts env = .ok es ∧
      es = limitSize env.entSize (l.view.range (max l.applied l.view.base + 1) (l.committed + 1)) l.maxNextEntsSize ∧
      st.WF ∧ st.view = l.view ∧ st.snapshot = l.unstable.snapshot.getD l.storage.snapshot ∧
      l.readyCycle env = .ok ({ l with
        storage := st
        unstable := { snapshot := none, entries := [], offset := l.view.last + 1 }
        applied := max l.applied l.view.base + es.length }, l.unstable.snapshot, es) := by
  have hn := h.wf.nextEnts_eq env h.com_last
  have hca := h.app_com
  have hcb := h.base_com
  rw [show max (l.applied + 1) (l.view.base + 1) = max l.applied l.view.base + 1 by omega] at hn
  obtain ⟨st, e1, e2, e3, e4, e5⟩ := h.wf.persist_eq (fun s hs => (h.pend s hs).2)
  refine ⟨st, _, hn, rfl, e2, e3, e5, ?_⟩
  have hpre := limitSize_prefix env.entSize (l.view.range (max l.applied l.view.base + 1) (l.committed + 1)) l.maxNextEntsSize
  have hnn := limitSize_ne_nil env.entSize (l.view.range (max l.applied l.view.base + 1) (l.committed + 1)) l.maxNextEntsSize
  have hlen := RaftLog.range_length (v := l.view) (lo := max l.applied l.view.base + 1) (hi := l.committed + 1) (by omega) (by omega)
    (by have := h.com_last; omega)
  generalize limitSize env.entSize (l.view.range (max l.applied l.view.base + 1) (l.committed + 1)) l.maxNextEntsSize = es
    at hn hpre hnn
  have hple := hpre.length_le
  have hcont : Contig (max l.applied l.view.base + 1) es := by
    have : Contig (max l.applied l.view.base + 1) (l.view.range (max l.applied l.view.base + 1) (l.committed + 1)) := by
      unfold LogView.range
      have := (h.wf.view_wf.drop (n := max l.applied l.view.base + 1 - l.view.base - 1)).take
        (n := l.committed + 1 - (max l.applied l.view.base + 1))
      rwa [show l.view.base + 1 + (max l.applied l.view.base + 1 - l.view.base - 1) = max l.applied l.view.base + 1 by omega] at this
    obtain ⟨t, ht⟩ := hpre
    rw [← ht] at this
    exact this.left
  obtain ⟨w1, v1⟩ := h.wf.of_storage_eq e2 e3
  have cursor : ({ l with storage := st } : RaftLog).appliedToCursor
        (appliedCursorOf es (l.unstable.snapshot.getD {})) =
      .ok { l with storage := st, applied := max l.applied l.view.base + es.length } := by
    unfold RaftLog.appliedToCursor appliedCursorOf
    cases hg : es.getLast? with
    | some e =>
      have hge := hcont.getLast hg
      have : es.length ≠ 0 := by
        intro h0; rw [List.length_eq_zero_iff] at h0; rw [h0] at hg; simp at hg
      dsimp only
      rw [if_pos (by omega)]
      unfold RaftLog.appliedTo
      rw [if_neg (by omega), if_neg (by dsimp only; omega)]
      rw [show e.index = max l.applied l.view.base + es.length by omega]
    | none =>
      have he : es = [] := by simpa using hg
      subst he
      dsimp only
      cases hs : l.unstable.snapshot with
      | none =>
        have := h.base_app hs
        simp only [Option.getD_none]
        rw [if_neg (by show ¬ (0 : Nat) > 0; omega)]
        rw [show max l.applied l.view.base + ([] : List Entry).length = l.applied by simp; omega]
      | some s =>
        have hp := h.pend s hs
        have hvb : l.view.base = s.metadata.index := by rw [RaftLog.view_snap hs]
        simp only [Option.getD_some]
        rw [if_pos (by omega)]
        unfold RaftLog.appliedTo
        rw [if_neg (by omega), if_neg (by dsimp only; omega)]
        rw [show max l.applied l.view.base + ([] : List Entry).length = s.metadata.index by simp; omega]
  unfold RaftLog.readyCycle
  simp only [hn, Res.ok_bind, e1, Res.pure_eq]
  rw [cursor]
  simp only [Res.ok_bind]
  have hv2 : ({ l with storage := st, applied := max l.applied l.view.base + es.length } : RaftLog).view = l.view := v1
  obtain ⟨l2, f1, f2, f3, f4⟩ := (w1.with_applied (max l.applied l.view.base + es.length)).ack_eq (by
    show st.view = _
    rw [e3]; exact hv2.symm) (by
    intro s hss
    have := (h.pend s hss).2
    omega)
  have f1' : ({ l with storage := st, applied := max l.applied l.view.base + es.length } : RaftLog).ackPersisted
    l.unstable.entries (l.unstable.snapshot.getD {}) = .ok l2 := f1
  rw [f1']
  simp only [Res.ok_bind]
  rw [f4]
  dsimp only
  rw [hv2]

theorem LInv.view_readyCycle {l : RaftLog} {st : Storage} {a : Nat} (e3 : st.view = l.view) :
    ({ l with
        storage := st
        unstable := { snapshot := none, entries := [], offset := l.view.last + 1 }
        applied := a } : RaftLog).view = l.view := by
  rw [RaftLog.view_nosnap (by rfl)]
  dsimp only
  rw [e3]
  unfold LogView.last
  rw [List.append_nil, List.take_of_length_le (by omega)]

/-- Every operation keeps the invariant, and has the visible effect described by `LEffect`. -/
theorem LInv.step {env : Env} {x y : LHist} (h : LInv x.log) (hs : LStep env x y) : LInv y.log ∧ LEffect x.log y.log := by
  cases hs with
  | append k es hc h0 hk he =>
    rename_i l l' out
    dsimp only at *
    cases hes : es with
    | nil =>
      subst hes
      cases he
      exact ⟨h, .of_view (Nat.le_refl _) (Nat.le_refl _) rfl⟩
    | cons e0 es' =>
      have hne : es ≠ [] := by rw [hes]; simp
      have hkl : k ≤ l.view.last + 1 := by rw [h.wf.lastIndex_eq] at hk; exact hk
      have hcom : l.committed < k := by
        have he0 : e0.index = k := by rw [hes] at hc; exact (Contig.cons.1 hc).1
        rw [hes] at he
        unfold RaftLog.append at he
        dsimp only at he
        rw [he0, sub64_of_le (by omega)] at he
        by_cases c : k - 1 < l.committed
        · rw [if_pos c] at he; cases he
        · omega
      have hbc := h.base_com
      rw [h.wf.append_eq hc hne (by omega) hkl, if_neg (by omega)] at he
      cases he
      obtain ⟨w, v⟩ := h.wf.appended hc hne (by omega) hkl
      have hlast := LogView.splice_last (v := l.view) (k := k) (es := es) (by omega) hkl
      have hpos := List.length_pos_iff.2 hne
      have happ := h.app_com
      refine ⟨⟨w, h.app_com, ?_, ?_, ?_, ?_, h.pend, h.snap_com⟩, ⟨Nat.le_refl _, Nat.le_refl _, ?_, ?_, ?_⟩⟩
      · rw [v]; show l.committed ≤ _; omega
      · rw [v]; exact h.base_com
      · intro hs; rw [v]; exact h.base_app hs
      · show l.applied < min l.unstable.offset k
        have := h.app_off
        omega
      · rw [v]; exact Nat.le_refl _
      · intro i hi _; rw [v, LogView.splice_entry_lt (by omega) hkl]
      · intro i hi _
        rw [v]; unfold LogView.termAt
        rw [LogView.splice_entry_lt (by omega) hkl]; rfl
  | maybeAppend index lt c es hf hil hc ht he =>
    rename_i l l' out res
    dsimp only at *
    have hb : l.view.base ≤ index := by rw [RaftLog.firstIndex_eq] at hf; omega
    by_cases hm : l.view.termAt index = lt
    case neg =>
      rw [h.wf.maybeAppend_mismatch hm] at he
      cases he
      exact ⟨h, .of_view (Nat.le_refl _) (Nat.le_refl _) rfl⟩
    have hil : index ≤ l.view.last := by
      rcases hil with hi | hi
      · rw [h.wf.lastIndex_eq] at hi; exact hi
      · rcases Nat.lt_or_ge l.view.last index with h3 | h3
        · rw [LogView.termAt_out (Or.inr h3)] at hm
          exact absurd hm.symm hi
        · exact h3
    have hca := h.app_com
    have hcl := h.com_last
    have hbc := h.base_com
    rcases h.wf.maybeAppend_match hb hil hm hc ht (c := c) with ⟨hall, hle, he2⟩ | ⟨n, e, hn, hei, hpre, hne, hle, he2⟩
    · rw [he2] at he
      simp only [Res.ok.injEq, Prod.mk.injEq] at he
      obtain ⟨rfl, _⟩ := he
      exact ⟨⟨h.wf.with_committed _, by dsimp only; omega, by show max l.committed _ ≤ l.view.last; omega,
        by show l.view.base ≤ max l.committed _; omega, h.base_app, h.app_off, h.pend,
        by have := h.snap_com; dsimp only; omega⟩, .of_view (by dsimp only; omega) (Nat.le_refl _) rfl⟩
    · rw [he2] at he
      split at he
      · cases he
      rename_i hncom
      simp only [Res.ok.injEq, Prod.mk.injEq] at he
      obtain ⟨he, _⟩ := he
      have hlen : n < es.length := (List.getElem?_eq_some_iff.1 hn).1
      have hcd : Contig (index + 1 + n) (es.drop n) := hc.drop
      have hnn : es.drop n ≠ [] := by rw [ne_eq, List.drop_eq_nil_iff]; omega
      obtain ⟨w, v⟩ := h.wf.appended hcd hnn (by omega) (by omega)
      have hlast := LogView.splice_last (v := l.view) (k := index + 1 + n) (es := es.drop n) (by omega) (by omega)
      rw [List.length_drop] at hlast
      have hv' : l'.view = l.view.splice (index + 1 + n) (es.drop n) := by rw [← he]; exact v
      have hw' : l'.WF := by rw [← he]; exact w.with_committed _
      have hcom' : l'.committed = max l.committed (min c (index + es.length)) := by rw [← he]
      have happ' : l'.applied = l.applied := by rw [← he]; rfl
      have hsn' : l'.unstable.snapshot = l.unstable.snapshot := by rw [← he]; rfl
      have hst' : l'.storage = l.storage := by rw [← he]; rfl
      have hof' : l'.unstable.offset = min l.unstable.offset (index + 1 + n) := by rw [← he]; rfl
      refine ⟨⟨hw', by omega, ?_, ?_, ?_, ?_, ?_, ?_⟩, ⟨by omega, by omega, ?_, ?_, ?_⟩⟩
      · rw [hv']; omega
      · rw [hv']; show l.view.base ≤ _; omega
      · intro hs; rw [hv', happ']; exact h.base_app (by rw [← hsn']; exact hs)
      · have := h.app_off; omega
      · intro s hs; rw [happ', hst']; exact h.pend s (by rw [← hsn']; exact hs)
      · rw [hst']; have := h.snap_com; omega
      · rw [hv']; exact Nat.le_refl _
      · intro i hi _; rw [hv', LogView.splice_entry_lt (by omega) (by omega)]
      · intro i hi _
        rw [hv']; unfold LogView.termAt
        rw [LogView.splice_entry_lt (by omega) (by omega)]; rfl
  | commitTo c he =>
    rename_i l l' out
    dsimp only at *
    rw [h.wf.commitTo_eq] at he
    have hca := h.app_com
    have hcl := h.com_last
    have hbc := h.base_com
    have hsc := h.snap_com
    split at he
    · split at he
      · cases he
      · cases he
        exact ⟨⟨h.wf.with_committed _, by dsimp only; omega, by show c ≤ l.view.last; omega,
          by show l.view.base ≤ c; omega, h.base_app, h.app_off, h.pend,
          by dsimp only; omega⟩, .of_view (by dsimp only; omega) (Nat.le_refl _) rfl⟩
    · cases he
      exact ⟨h, .of_view (Nat.le_refl _) (Nat.le_refl _) rfl⟩
  | maybeCommit m t he =>
    rename_i l l' b out
    dsimp only at *
    rw [h.wf.maybeCommit_eq] at he
    have hca := h.app_com
    have hcl := h.com_last
    have hbc := h.base_com
    have hsc := h.snap_com
    split at he
    · rename_i hcm
      split at he
      · cases he
      · simp only [Res.ok.injEq, Prod.mk.injEq] at he
        obtain ⟨rfl, _⟩ := he
        exact ⟨⟨h.wf.with_committed _, by dsimp only; omega, by show m ≤ l.view.last; omega,
          by show l.view.base ≤ m; omega, h.base_app, h.app_off, h.pend,
          by dsimp only; omega⟩, .of_view (by dsimp only; omega) (Nat.le_refl _) rfl⟩
    · simp only [Res.ok.injEq, Prod.mk.injEq] at he
      obtain ⟨rfl, _⟩ := he
      exact ⟨h, .of_view (Nat.le_refl _) (Nat.le_refl _) rfl⟩
  | restore s hlt =>
    rename_i l out
    dsimp only at *
    obtain ⟨w, v⟩ := h.wf.restore s
    have hca := h.app_com
    have hcl := h.com_last
    have hbc := h.base_com
    have hsc := h.snap_com
    have hb : (l.restore s).view.base = s.metadata.index := by rw [v]
    refine ⟨⟨w, ?_, ?_, ?_, ?_, ?_, ?_, ?_⟩, ⟨?_, Nat.le_refl _, ?_, ?_, ?_⟩⟩
    · show l.applied ≤ s.metadata.index; omega
    · rw [v]; show s.metadata.index ≤ s.metadata.index + 0; omega
    · rw [v]; exact Nat.le_refl _
    · intro hs; cases hs
    · show l.applied < s.metadata.index + 1; omega
    · intro s' hs'; cases hs'
      exact ⟨by show l.applied < _; omega, by show l.storage.snapshot.metadata.index < _; omega⟩
    · show l.storage.snapshot.metadata.index ≤ s.metadata.index; omega
    · show l.committed ≤ s.metadata.index; omega
    · omega
    · intro i hi hb'; omega
    · intro i hi hb'; omega
  | ready he =>
    rename_i l l' snap es out
    dsimp only at *
    obtain ⟨st, es', e0, e1, e2, e3, e4, e5⟩ := h.readyCycle_eq env
    rw [e5] at he
    simp only [Res.ok.injEq, Prod.mk.injEq] at he
    obtain ⟨rfl, rfl, rfl⟩ := he
    have hca := h.app_com
    have hcl := h.com_last
    have hbc := h.base_com
    have hlen := RaftLog.range_length (v := l.view) (lo := max l.applied l.view.base + 1) (hi := l.committed + 1) (by omega) (by omega)
      (by omega)
    have hle : es'.length ≤ l.committed - max l.applied l.view.base := by
      have := (limitSize_prefix env.entSize (l.view.range (max l.applied l.view.base + 1) (l.committed + 1)) l.maxNextEntsSize).length_le
      rw [← e1] at this
      omega
    have hv := LInv.view_readyCycle (l := l) (a := max l.applied l.view.base + es'.length) e3
    have hbl : l.view.base ≤ l.view.last := Nat.le_add_right _ _
    refine ⟨⟨⟨e2, .nil _, ?_, fun _ => ?_, fun _ _ => ?_⟩, ?_, ?_, ?_, fun _ => ?_, ?_, ?_, ?_⟩, .of_view (Nat.le_refl _) ?_ hv⟩
    · intro s hs; cases hs
    · show st.view.base < l.view.last + 1 ∧ l.view.last + 1 ≤ st.view.last + 1
      rw [e3]; omega
    · show l.view.last + 1 = st.view.last + 1
      rw [e3]
    · dsimp only; omega
    · rw [hv]; exact hcl
    · rw [hv]; exact hbc
    · rw [hv]; dsimp only; omega
    · dsimp only; omega
    · intro s hs; cases hs
    · show st.snapshot.metadata.index ≤ l.committed
      rw [e4]
      cases hs : l.unstable.snapshot with
      | none => exact h.snap_com
      | some s =>
        have hvb : l.view.base = s.metadata.index := by rw [RaftLog.view_snap hs]
        simp only [Option.getD_some]; omega
    · dsimp only; omega
  | compact i hi he =>
    rename_i l st e out
    dsimp only at *
    obtain ⟨heq, hok⟩ := h.wf.stor.compact_eq i
    rw [heq] at he
    split at he
    · cases he
      exact ⟨h, .of_view (Nat.le_refl _) (Nat.le_refl _) rfl⟩
    split at he
    · cases he
    cases he
    rename_i hi1 hi2
    obtain ⟨w, v⟩ := hok (by omega) (by omega)
    have hao := h.app_off
    generalize hst : ({ l.storage with ents := l.storage.ents.drop (i - l.storage.offset) } : Storage) = st at w v
    have hss : st.snapshot = l.storage.snapshot := by rw [← hst]
    have hstl : st.view.last = l.storage.view.last := by rw [v, LogView.compact_last (by omega) (by omega)]
    have hstb : st.view.base = i := by rw [v]; rfl
    have hw' : ({ l with storage := st } : RaftLog).WF := by
      refine ⟨w, h.wf.contig, h.wf.snap, fun hs => ?_, fun hs he => ?_⟩
      · have := h.wf.nosnap hs
        show st.view.base < l.unstable.offset ∧ l.unstable.offset ≤ st.view.last + 1
        omega
      · have := h.wf.tight hs he
        show l.unstable.offset = st.view.last + 1
        omega
    have hca := h.app_com
    have hcl := h.com_last
    have hbc := h.base_com
    have hsc := h.snap_com
    cases hs : l.unstable.snapshot with
    | some s =>
      have hv : ({ l with storage := st } : RaftLog).view = l.view := by
        rw [RaftLog.view_snap hs, RaftLog.view_snap (l := { l with storage := st }) hs]
      exact ⟨⟨hw', hca, by rw [hv]; exact hcl, by rw [hv]; exact hbc, by intro hs'; rw [hv]; exact h.base_app hs',
        hao, by intro s hs'; dsimp only; rw [hss]; exact h.pend s hs', by dsimp only; rw [hss]; exact hsc⟩, .of_view (Nat.le_refl _) (Nat.le_refl _) hv⟩
    | none =>
      have hvb : l.view.base = l.storage.view.base := by rw [RaftLog.view_nosnap hs]
      have hnb := h.wf.nosnap hs
      have hv : ({ l with storage := st } : RaftLog).view = l.view.compact i := by
        rw [RaftLog.view_nosnap (l := { l with storage := st }) hs]
        dsimp only
        unfold LogView.compact
        have ht : l.view.termAt i = l.storage.view.termAt i := by
          unfold LogView.termAt
          rw [h.wf.entry_stored hs (by omega), hvb]
          rw [RaftLog.view_nosnap hs]
        rw [ht, hvb, v]
        unfold LogView.compact
        dsimp only
        congr 1
        rw [RaftLog.view_nosnap hs]
        dsimp only
        unfold LogView.last at hnb
        rw [List.drop_append_of_le_length (by rw [List.length_take]; omega), List.drop_take]
        congr 2
        omega
      have hbi : l.view.base ≤ i := by omega
      have hil : i ≤ l.view.last := by omega
      refine ⟨⟨hw', hca, ?_, ?_, fun _ => ?_, hao, ?_, ?_⟩, ⟨Nat.le_refl _, Nat.le_refl _, ?_, ?_, ?_⟩⟩
      · rw [hv, LogView.compact_last hbi hil]; exact hcl
      · rw [hv]; show i ≤ l.committed; omega
      · rw [hv]; exact hi
      · intro s hs'; rw [show l.unstable.snapshot = some s from hs'] at hs; cases hs
      · dsimp only; rw [hss]; exact hsc
      · rw [hv]; exact hbi
      · intro j hj hbj
        rw [hv] at hbj ⊢
        exact LogView.compact_entry hbi hbj
      · intro j hj hbj
        rw [hv] at hbj ⊢
        exact LogView.compact_termAt hbi hbj
  | createSnapshot i cs data hi he =>
    rename_i l st e out
    dsimp only at *
    have hst : st.ents = l.storage.ents ∧ (st.snapshot = l.storage.snapshot ∨ st.snapshot.metadata.index = i) := by
      unfold Storage.createSnapshot at he
      split at he
      · cases he; exact ⟨rfl, Or.inl rfl⟩
      · split at he
        · cases he
        · split at he
          · cases he
          · cases he; exact ⟨rfl, Or.inr rfl⟩
    obtain ⟨h1, h2⟩ := hst
    have hvs : st.view = l.storage.view := by unfold Storage.view Storage.offset; rw [h1]
    have hws : st.WF := ⟨by rw [h1]; exact h.wf.stor.ne, by have := h.wf.stor.contig; unfold Storage.offset at *; rw [h1]; exact this⟩
    have hv : ({ l with storage := st } : RaftLog).view = l.view := by
      cases hs : l.unstable.snapshot with
      | some s => rw [RaftLog.view_snap hs, RaftLog.view_snap (l := { l with storage := st }) hs]
      | none =>
        rw [RaftLog.view_nosnap hs, RaftLog.view_nosnap (l := { l with storage := st }) hs]
        dsimp only
        rw [hvs]
    have hca := h.app_com
    have hsc := h.snap_com
    refine ⟨⟨⟨hws, h.wf.contig, h.wf.snap, fun hs => ?_, fun hs he => ?_⟩, h.app_com, ?_, ?_, ?_, h.app_off, ?_, ?_⟩,
      .of_view (Nat.le_refl _) (Nat.le_refl _) hv⟩
    · have := h.wf.nosnap hs; show st.view.base < _ ∧ _ ≤ st.view.last + 1; rw [hvs]; exact this
    · have := h.wf.tight hs he; show _ = st.view.last + 1; rw [hvs]; exact this
    · rw [hv]; exact h.com_last
    · rw [hv]; exact h.base_com
    · intro hs; rw [hv]; exact h.base_app hs
    · intro s hs
      have := h.pend s hs
      refine ⟨this.1, ?_⟩
      dsimp only
      rcases h2 with h2 | h2
      · rw [h2]; exact this.2
      · omega
    · dsimp only
      rcases h2 with h2 | h2
      · rw [h2]; exact hsc
      · omega

theorem LReach.inv {env : Env} {a : Nat} {x : LHist} (h : LReach env a x) : LInv x.log := by
  induction h with
  | start hs _ => exact hs.inv
  | step _ hs ih => exact (ih.step hs).1

/-- C22. In every reachable log, no operation changes an entry (or the term known for an index) at or below the commit
index, as long as the log still reaches down to it; what disappears is covered by a compaction of applied entries or by a
snapshot above the old commit index. -/
theorem C22_committed_never_overwritten {env : Env} {a : Nat} {x y : LHist} (h : LReach env a x) (hs : LStep env x y) :
    (∀ i, i ≤ x.log.committed → y.log.view.base < i → y.log.view.entry i = x.log.view.entry i) ∧
    (∀ i, i ≤ x.log.committed → y.log.view.base ≤ i → y.log.term i = x.log.term i) ∧
    (x.log.view.base < y.log.view.base → y.log.view.base ≤ y.log.applied ∨
      (∃ s, y.log.unstable.snapshot = some s ∧ s.metadata.index = y.log.view.base ∧ x.log.committed < s.metadata.index)) := by
  have hi := h.inv
  obtain ⟨hi', he⟩ := hi.step hs
  refine ⟨he.keep, ?_, ?_⟩
  · intro i h1 h2
    rw [hi.wf.term_eq, hi'.wf.term_eq, he.keepTerm i h1 h2]
  · intro hlt
    cases hsn : y.log.unstable.snapshot with
    | none => exact Or.inl (hi'.base_app hsn)
    | some s =>
      have hvb : y.log.view.base = s.metadata.index := by rw [RaftLog.view_snap hsn]
      right
      refine ⟨s, rfl, hvb.symm, ?_⟩
      -- only `restore` can install a snapshot that moves the base
      cases hs with
      | restore s' hlt' =>
        cases hsn
        exact hlt'
      | append k es hc h0 hk hap =>
        exfalso
        rename_i l l' out
        dsimp only at *
        cases es with
        | nil => cases hap; omega
        | cons e0 es' =>
          unfold RaftLog.append at hap
          dsimp only at hap
          split at hap
          · cases hap
          · obtain ⟨u, hu, hap⟩ := Res.bind_eq_ok.1 hap
            cases hap
            have : u.snapshot = l.unstable.snapshot := by
              unfold Unstable.truncateAndAppend at hu
              dsimp only at hu
              split at hu
              · cases hu; rfl
              · split at hu
                · cases hu; rfl
                · split at hu
                  · cases hu
                  · cases hu; rfl
            have hs2 : l.unstable.snapshot = some s := by rw [← this]; exact hsn
            rw [RaftLog.view_snap hs2] at hlt
            dsimp only at hlt
            omega
      | maybeAppend index lt c es hf hil hc ht hap =>
        exfalso
        rename_i l l' out res
        dsimp only at *
        have hb : l.view.base ≤ index := by rw [RaftLog.firstIndex_eq] at hf; omega
        have := C21_maybeAppend hi.wf hb (by rw [← hi.wf.lastIndex_eq]; exact hil) hc ht hap
        cases res with
        | none => rw [this.2.1 rfl] at hlt; omega
        | some r => rw [(this.2.2 r rfl).2.2.1] at hlt; omega
      | commitTo c hc =>
        exfalso
        dsimp only at *
        unfold RaftLog.commitTo at hc
        split at hc
        · split at hc
          · cases hc
          · cases hc; exact absurd hlt (Nat.lt_irrefl _)
        · cases hc; exact absurd hlt (Nat.lt_irrefl _)
      | maybeCommit m t hc =>
        exfalso
        dsimp only at *
        rw [hi.wf.maybeCommit_eq] at hc
        split at hc
        · split at hc
          · cases hc
          · simp only [Res.ok.injEq, Prod.mk.injEq] at hc
            obtain ⟨rfl, _⟩ := hc
            exact absurd hlt (Nat.lt_irrefl _)
        · simp only [Res.ok.injEq, Prod.mk.injEq] at hc
          obtain ⟨rfl, _⟩ := hc
          exact absurd hlt (Nat.lt_irrefl _)
      | ready hr =>
        exfalso
        dsimp only at *
        obtain ⟨st, es', e0, e1, e2, e3, e4, e5⟩ := hi.readyCycle_eq env
        rw [e5] at hr
        simp only [Res.ok.injEq, Prod.mk.injEq] at hr
        obtain ⟨rfl, _⟩ := hr
        cases hsn
      | compact i hi2 hc =>
        exfalso
        rename_i l st e out
        dsimp only at *
        rw [RaftLog.view_snap (l := l) hsn] at hlt
        dsimp only at hlt
        omega
      | createSnapshot i cs data hi2 hc =>
        exfalso
        rename_i l st e out
        dsimp only at *
        rw [RaftLog.view_snap (l := l) hsn] at hlt
        dsimp only at hlt
        omega

/-- C22. Asked to append over a committed entry, the code aborts. -/
theorem C22_overwrite_aborts {l : RaftLog} {k : Nat} {es : List Entry} (hc : Contig k es) (hne : es ≠ []) (h0 : 0 < k)
    (hk : k ≤ l.committed) : l.append es = .fatal "log.cc:252" := by
  obtain ⟨e0, es', rfl⟩ := List.exists_cons_of_ne_nil hne
  have he0 : e0.index = k := (Contig.cons.1 hc).1
  unfold RaftLog.append
  dsimp only
  rw [he0, sub64_of_le (by omega), if_pos (by omega)]

/-- C23. In every reachable log: applied ≤ committed ≤ last, the compacted part is committed, and applied unless a received
snapshot is still pending. -/
theorem C23_ordered {env : Env} {a : Nat} {x : LHist} (h : LReach env a x) :
    x.log.applied ≤ x.log.committed ∧ x.log.committed ≤ x.log.lastIndex ∧ x.log.firstIndex ≤ x.log.committed + 1 ∧
    (x.log.hasPendingSnapshot = false → x.log.firstIndex ≤ x.log.applied + 1) := by
  have hi := h.inv
  refine ⟨hi.app_com, by rw [hi.wf.lastIndex_eq]; exact hi.com_last, ?_, ?_⟩
  · rw [RaftLog.firstIndex_eq]; have := hi.base_com; omega
  · intro hp
    rw [RaftLog.firstIndex_eq]
    have : x.log.unstable.snapshot = none := by
      cases hs : x.log.unstable.snapshot with
      | none => rfl
      | some s =>
        have := hi.pend s hs
        simp [RaftLog.hasPendingSnapshot, hs] at hp
        omega
    have := hi.base_app this
    omega

/-- C23. Committed and applied never decrease. -/
theorem C23_monotone {env : Env} {a : Nat} {x y : LHist} (h : LReach env a x) (hs : LStep env x y) :
    x.log.committed ≤ y.log.committed ∧ x.log.applied ≤ y.log.applied := by
  have he := (h.inv.step hs).2
  exact ⟨he.com_mono, he.app_mono⟩

theorem InOrder.append {p q r : Nat} {a b : List Delivery} (h1 : InOrder p a q) (h2 : InOrder q b r) : InOrder p (a ++ b) r := by
  induction a generalizing p with
  | nil => cases h1; exact h2
  | cons d ds ih =>
    cases d with
    | snap i => exact ⟨h1.1, ih h1.2⟩
    | ent e => exact ⟨h1.1, ih h1.2⟩

theorem InOrder.ents {p : Nat} {es : List Entry} (h : Contig (p + 1) es) : InOrder p (es.map .ent) (p + es.length) := by
  induction es generalizing p with
  | nil => rfl
  | cons e es ih =>
    have := Contig.cons.1 h
    refine ⟨this.1, ?_⟩
    have := ih this.2
    rwa [List.length_cons, show p + (es.length + 1) = p + 1 + es.length by omega]

theorem RaftLog.append_applied {l l' : RaftLog} {es : List Entry} (h : l.append es = .ok l') : l'.applied = l.applied := by
  unfold RaftLog.append at h
  split at h
  · cases h; rfl
  · dsimp only at h
    split at h
    · cases h
    · obtain ⟨u, _, h⟩ := Res.bind_eq_ok.1 h
      cases h; rfl

theorem RaftLog.commitTo_applied {l l' : RaftLog} {c : Nat} (h : l.commitTo c = .ok l') : l'.applied = l.applied := by
  unfold RaftLog.commitTo at h
  split at h
  · split at h
    · cases h
    · cases h; rfl
  · cases h; rfl

theorem RaftLog.maybeCommit_applied {l l' : RaftLog} {m t : Nat} {b : Bool} (h : l.maybeCommit m t = .ok (l', b)) :
    l'.applied = l.applied := by
  unfold RaftLog.maybeCommit at h
  split at h
  · obtain ⟨_, _, h⟩ := Res.bind_eq_ok.1 h
    obtain ⟨_, _, h⟩ := Res.bind_eq_ok.1 h
    split at h
    · obtain ⟨l2, h1, h⟩ := Res.bind_eq_ok.1 h
      cases h
      exact commitTo_applied h1
    · cases h; rfl
  · cases h; rfl

theorem RaftLog.maybeAppend_applied {l l' : RaftLog} {i t c : Nat} {es : List Entry} {r : Option Nat}
    (h : l.maybeAppend i t c es = .ok (l', r)) : l'.applied = l.applied := by
  unfold RaftLog.maybeAppend at h
  obtain ⟨m, _, h⟩ := Res.bind_eq_ok.1 h
  split at h
  · obtain ⟨ci, _, h⟩ := Res.bind_eq_ok.1 h
    dsimp only at h
    split at h
    · simp only [Res.pure_eq, Res.ok_bind] at h
      obtain ⟨l2, h1, h⟩ := Res.bind_eq_ok.1 h
      cases h
      exact commitTo_applied h1
    · split at h
      · cases h
      · split at h
        · cases h
        · obtain ⟨l3, h3, h⟩ := Res.bind_eq_ok.1 h
          obtain ⟨l2, h1, h⟩ := Res.bind_eq_ok.1 h
          cases h
          rw [commitTo_applied h1, append_applied h3]
  · cases h; rfl

theorem LReach.delivered {env : Env} {a : Nat} {x : LHist} (h : LReach env a x) :
    InOrder a x.out x.log.applied ∧
    ∀ e, Delivery.ent e ∈ x.out → e.index ≤ x.log.applied ∧
      (x.log.view.base < e.index → x.log.view.entry e.index = some e) := by
  induction h with
  | start hs ha => exact ⟨ha.symm, by intro e he; cases he⟩
  | step hr hs ih =>
    rename_i x y
    have hi := hr.inv
    obtain ⟨hi', he⟩ := hi.step hs
    -- old deliveries stay right
    have old : ∀ e, Delivery.ent e ∈ x.out → e.index ≤ y.log.applied ∧
        (y.log.view.base < e.index → y.log.view.entry e.index = some e) := by
      intro e hm
      have ⟨h1, h2⟩ := ih.2 e hm
      have hb := he.base_mono
      have hc := hi.app_com
      exact ⟨Nat.le_trans h1 he.app_mono, fun hlt => by rw [he.keep _ (by omega) hlt]; exact h2 (by omega)⟩
    cases hs with
    | ready hrc =>
      rename_i l l' snap es out
      dsimp only at *
      obtain ⟨st, es', e0, e1, e2, e3, e4, e5⟩ := hi.readyCycle_eq env
      rw [e5] at hrc
      simp only [Res.ok.injEq, Prod.mk.injEq] at hrc
      obtain ⟨rfl, rfl, rfl⟩ := hrc
      have hca := hi.app_com
      have hcl := hi.com_last
      have hbc := hi.base_com
      have hpre := limitSize_prefix env.entSize (l.view.range (max l.applied l.view.base + 1) (l.committed + 1)) l.maxNextEntsSize
      rw [← e1] at hpre
      have hcontR : Contig (max l.applied l.view.base + 1) (l.view.range (max l.applied l.view.base + 1) (l.committed + 1)) := by
        unfold LogView.range
        have := (hi.wf.view_wf.drop (n := max l.applied l.view.base + 1 - l.view.base - 1)).take
          (n := l.committed + 1 - (max l.applied l.view.base + 1))
        rwa [show l.view.base + 1 + (max l.applied l.view.base + 1 - l.view.base - 1) = max l.applied l.view.base + 1 by omega] at this
      have hcont : Contig (max l.applied l.view.base + 1) es' := by
        obtain ⟨t, ht⟩ := hpre
        rw [← ht] at hcontR
        exact hcontR.left
      have hv := LInv.view_readyCycle (l := l) (a := max l.applied l.view.base + es'.length) e3
      refine ⟨?_, ?_⟩
      · refine InOrder.append (q := max l.applied l.view.base) (InOrder.append ih.1 ?_) (InOrder.ents hcont)
        cases hsn : l.unstable.snapshot with
        | none =>
          have := hi.base_app hsn
          show l.applied = max l.applied l.view.base
          omega
        | some s =>
          have hvb : l.view.base = s.metadata.index := by rw [RaftLog.view_snap hsn]
          have := hi.pend s hsn
          refine ⟨this.1, ?_⟩
          show s.metadata.index = max l.applied l.view.base
          omega
      · intro e hm
        rcases List.mem_append.1 hm with hm | hm
        · rcases List.mem_append.1 hm with hm | hm
          · exact old e hm
          · cases hsn : l.unstable.snapshot with
            | none => simp [hsn] at hm
            | some s => simp [hsn] at hm
        · obtain ⟨e', hm', he'⟩ := List.mem_map.1 hm
          cases he'
          have ⟨m1, m2, m3⟩ := hcont.mem hm'
          refine ⟨by dsimp only; omega, fun _ => ?_⟩
          rw [hv]
          obtain ⟨t, ht⟩ := hpre
          have : (l.view.range (max l.applied l.view.base + 1) (l.committed + 1))[e.index - (max l.applied l.view.base + 1)]? = some e := by
            rw [← ht, List.getElem?_append_left (by omega)]; exact m3
          unfold LogView.range at this
          rw [List.getElem?_take] at this
          split at this
          · rw [List.getElem?_drop] at this
            unfold LogView.entry
            rw [if_neg (by omega), ← this]
            congr 1; omega
          · cases this
    | append k es hc h0 hk hap =>
      refine ⟨?_, old⟩
      dsimp only at *
      rw [RaftLog.append_applied hap]; exact ih.1
    | maybeAppend index lt c es hf hil hc ht hap =>
      refine ⟨?_, old⟩
      dsimp only at *
      rw [RaftLog.maybeAppend_applied hap]; exact ih.1
    | commitTo c hap =>
      refine ⟨?_, old⟩
      dsimp only at *
      rw [RaftLog.commitTo_applied hap]; exact ih.1
    | maybeCommit m t hap =>
      refine ⟨?_, old⟩
      dsimp only at *
      rw [RaftLog.maybeCommit_applied hap]; exact ih.1
    | restore => exact ⟨ih.1, old⟩
    | compact => exact ⟨ih.1, old⟩
    | createSnapshot => exact ⟨ih.1, old⟩

/-- C24. Everything delivered since the log was opened leads, entry by entry and without gap or repetition, from the
applied position it was opened with to the current one (a snapshot jumps forward over what it covers); every delivered
entry is a committed entry of the log and stays the entry the log has at that index. -/
theorem C24_delivered_once_in_order {env : Env} {a : Nat} {x : LHist} (h : LReach env a x) :
    InOrder a x.out x.log.applied ∧ x.log.applied ≤ x.log.committed ∧
    ∀ e, Delivery.ent e ∈ x.out → e.index ≤ x.log.applied ∧
      (x.log.view.base < e.index → x.log.view.entry e.index = some e) :=
  ⟨h.delivered.1, h.inv.app_com, h.delivered.2⟩

/-- C24. In every reachable log a Ready can be taken, persisted, applied and advanced without aborting; it hands out a
prefix of the committed entries after the applied position (all of them if they fit), never an empty one while some are
outstanding. -/
theorem C24_batch {env : Env} {a : Nat} {x : LHist} (h : LReach env a x) :
    ∃ l' snap es, x.log.readyCycle env = .ok (l', snap, es) ∧ x.log.nextEnts env = .ok es ∧
      es <+: x.log.view.range (max x.log.applied x.log.view.base + 1) (x.log.committed + 1) ∧
      (max x.log.applied x.log.view.base < x.log.committed → es ≠ []) ∧
      (x.log.hasNextEnts = true ↔ es ≠ []) ∧
      l'.applied = max x.log.applied x.log.view.base + es.length ∧ l'.committed = x.log.committed := by
  obtain ⟨st, es, e0, e1, _, _, _, e5⟩ := h.inv.readyCycle_eq env
  have hlen := RaftLog.range_length (v := x.log.view) (lo := max x.log.applied x.log.view.base + 1) (hi := x.log.committed + 1)
    (by omega) (by have := h.inv.app_com; have := h.inv.base_com; omega) (by have := h.inv.com_last; omega)
  have hne : max x.log.applied x.log.view.base < x.log.committed → es ≠ [] := by
    intro hlt
    rw [e1]
    apply limitSize_ne_nil
    intro h0
    rw [h0] at hlen
    simp at hlen
    omega
  refine ⟨_, _, es, e5, e0, by rw [e1]; exact limitSize_prefix .., hne, ?_, rfl, rfl⟩
  rw [RaftLog.hasNextEnts_eq]
  simp only [decide_eq_true_eq]
  refine ⟨hne, fun h1 => ?_⟩
  rcases Nat.lt_or_ge (max x.log.applied x.log.view.base) x.log.committed with h2 | h2
  · exact h2
  · exfalso
    apply h1
    have : x.log.view.range (max x.log.applied x.log.view.base + 1) (x.log.committed + 1) = [] := by
      rw [← List.length_eq_zero_iff]; omega
    rw [e1, this]; rfl

/-- An environment for examples: every entry has size 1. -/
def exampleEnv : Env :=
  { entSize := fun _ => 1, parseV1 := fun _ => none, parseV2 := fun _ => none, serV1 := fun _ => [], rand := fun _ _ => 0
    serV2 := fun _ => [] }

def exampleStorage : Storage := { ents := [{}, { term := 1, index := 1 }, { term := 1, index := 2 }] }

theorem exampleStorage_wf : exampleStorage.WF := by
  refine ⟨by decide, ?_⟩
  intro i e h
  match i, h with
  | 0, h => simp [exampleStorage] at h; subst h; rfl
  | 1, h => simp [exampleStorage] at h; subst h; rfl
  | 2, h => simp [exampleStorage] at h; subst h; rfl

/-- Witness: open a log holding entries 1..2 with commit 1, take a Ready, receive a third entry that commits everything,
take another Ready with one-entry pages. -/
example : ∃ x : LHist, LReach exampleEnv 0 x ∧
    x.out = [.ent { term := 1, index := 1 }, .ent { term := 1, index := 2 }] ∧ x.log.committed = 3 := by
  have h0 : LReach exampleEnv 0 ⟨{ RaftLog.new exampleStorage 1 with committed := 1, applied := 0 }, []⟩ :=
    .start ⟨exampleStorage, 1, 1, 0, exampleStorage_wf, by decide, by decide, by decide, by decide, rfl⟩ rfl
  have h1 := LReach.step h0 (.ready (env := exampleEnv) (l' := { RaftLog.new exampleStorage 1 with committed := 1, applied := 1 })
    (snap := none) (es := [{ term := 1, index := 1 }]) (by decide))
  have h2 := LReach.step h1 (.maybeAppend (env := exampleEnv) 2 1 9 [{ term := 1, index := 3 }]
    (l' := { RaftLog.new exampleStorage 1 with committed := 3, applied := 1, unstable := { offset := 3, entries := [{ term := 1, index := 3 }] } })
    (res := some 3) (by decide) (by decide)
    (Contig.cons.2 ⟨rfl, .nil _⟩) (by simp) (by decide))
  have h3 := LReach.step h2 (.ready (env := exampleEnv) (snap := none) (es := [{ term := 1, index := 2 }])
    (l' := { storage := { ents := exampleStorage.ents ++ [{ term := 1, index := 3 }] }, unstable := { offset := 4 }, committed := 3
             applied := 2, maxNextEntsSize := 1 }) (by decide))
  exact ⟨_, h3, by decide, by decide⟩

/-! ## C25, C26 -/

/-- C25. On a log whose position 0 has term 0 (every log whose compacted prefix starts with the empty log), the search
terminates without aborting and returns the largest index at or below the given one whose term is at most the given one. -/
theorem C25_findConflictByTerm {l : RaftLog} (h : l.WF) (hz : l.view.termAt 0 = 0) (index t : Nat) :
    ∃ r, l.findConflictByTerm index t = .ok r ∧ r ≤ index ∧ l.view.termAt r ≤ t ∧
      ∀ j, r < j → j ≤ index → t < l.view.termAt j :=
  h.findConflictByTerm_eq t index hz

example : exampleLog.view.termAt 0 = 0 ∧ exampleLog.findConflictByTerm 7 1 = .ok 5 := by decide

/-- C26. The up-to-date check never aborts and is the lexicographic order on (last term, last index). -/
theorem C26_isUpToDate_iff {l : RaftLog} (h : l.WF) (lasti t : Nat) :
    ∃ b, l.isUpToDate lasti t = .ok b ∧
      (b = true ↔ l.view.termAt l.view.last < t ∨ (l.view.termAt l.view.last = t ∧ l.view.last ≤ lasti)) := by
  refine ⟨_, h.isUpToDate_eq lasti t, ?_⟩
  rw [decide_eq_true_eq]
  constructor
  · rintro (h1 | h1)
    · exact Or.inl h1
    · exact Or.inr ⟨h1.1.symm, h1.2⟩
  · rintro (h1 | h1)
    · exact Or.inl h1
    · exact Or.inr ⟨h1.1.symm, h1.2⟩

/-- C26. Compared through the check, logs are totally preordered: any two are comparable and the check is transitive. -/
theorem C26_total_preorder {a b c : RaftLog} (ha : a.WF) (hb : b.WF) (hc : c.WF) :
    let le (x y : RaftLog) := x.isUpToDate y.view.last (y.view.termAt y.view.last) = .ok true
    (le a b ∨ le b a) ∧ (le a b → le b c → le a c) ∧
      (le a b → le b a → a.view.last = b.view.last ∧ a.view.termAt a.view.last = b.view.termAt b.view.last) := by
  dsimp only
  rw [ha.isUpToDate_eq, hb.isUpToDate_eq, hb.isUpToDate_eq, ha.isUpToDate_eq]
  simp only [Res.ok.injEq, decide_eq_true_eq]
  omega

example : exampleLog.isUpToDate 7 2 = .ok true ∧ exampleLog.isUpToDate 6 2 = .ok false ∧ exampleLog.isUpToDate 1 3 = .ok true := by
  decide

end Craft
