import Verif.Node.Leader
import Verif.Node.Durable
import Verif.Node.Plain

/-! # What is on disk, through the runs of a node -/

namespace Craft
open Spec

/-- Nothing in memory that is still to be persisted touches what is at or below `K`. -/
structure Above (K : Nat) (l : RaftLog) : Prop where
  offset : K < l.unstable.offset
  snap : ∀ s, l.unstable.snapshot = some s → K < s.metadata.index

theorem Above.append {K : Nat} {l l' : RaftLog} (h : LInv l) (hK : K ≤ l.committed) (ha : Above K l) {k : Nat} {es : List Entry}
    (hc : Contig k es) (h0 : 1 ≤ k) (hk : k ≤ l.view.last + 1) (he : l.append es = .ok l') : Above K l' := by
  cases hes : es with
  | nil => subst hes; cases he; exact ha
  | cons e0 es' =>
    have hne : es ≠ [] := by rw [hes]; simp
    have hcom : l.committed < k := by
      have he0 : e0.index = k := by rw [hes] at hc; exact (Contig.cons.1 hc).1
      rw [hes] at he
      unfold RaftLog.append at he
      dsimp only at he
      rw [he0, sub64_of_le (by omega)] at he
      by_cases c : k - 1 < l.committed
      · rw [if_pos c] at he; cases he
      · omega
    have hbc := h.base_com
    rw [h.wf.append_eq hc hne (by omega) hk, if_neg (by omega)] at he
    cases he
    have := ha.offset
    exact ⟨by show K < min l.unstable.offset k; omega, ha.snap⟩

theorem Above.maybeAppend {K : Nat} {l l' : RaftLog} (h : LInv l) (hK : K ≤ l.committed) (ha : Above K l) {index lt c : Nat} {es : List Entry}
    {res : Option Nat} (hb : l.view.base ≤ index) (hil : index ≤ l.view.last ∨ lt ≠ 0) (hc : Contig (index + 1) es)
    (ht : ∀ e ∈ es, e.term ≠ 0) (he : l.maybeAppend index lt c es = .ok (l', res)) : Above K l' := by
  by_cases hm : l.view.termAt index = lt
  case neg =>
    rw [h.wf.maybeAppend_mismatch hm] at he
    cases he
    exact ha
  have hil : index ≤ l.view.last := by
    rcases hil with hi | hi
    · exact hi
    · rcases Nat.lt_or_ge l.view.last index with h3 | h3
      · rw [LogView.termAt_out (Or.inr h3)] at hm
        exact absurd hm.symm hi
      · exact h3
  rcases h.wf.maybeAppend_match hb hil hm hc ht (c := c) with ⟨hall, hle, he2⟩ | ⟨n, e, hn, hei, hpre, hne, hle, he2⟩
  · rw [he2] at he
    simp only [Res.ok.injEq, Prod.mk.injEq] at he
    obtain ⟨rfl, _⟩ := he
    exact ⟨ha.offset, ha.snap⟩
  · rw [he2] at he
    split at he
    · cases he
    rename_i hncom
    simp only [Res.ok.injEq, Prod.mk.injEq] at he
    obtain ⟨he, _⟩ := he
    have hsn' : l'.unstable.snapshot = l.unstable.snapshot := by rw [← he]; rfl
    have hof' : l'.unstable.offset = min l.unstable.offset (index + 1 + n) := by rw [← he]; rfl
    have := ha.offset
    exact ⟨by omega, fun s hs => ha.snap s (by rw [← hsn']; exact hs)⟩

theorem Above.commitTo {K : Nat} {l l' : RaftLog} (ha : Above K l) {c : Nat} (he : l.commitTo c = .ok l') : Above K l' := by
  unfold RaftLog.commitTo at he
  split at he
  · split at he
    · cases he
    · cases he; exact ⟨ha.offset, ha.snap⟩
  · cases he; exact ha

theorem CStep.above {env : Env} {im : Message} {c c' : Core} {ms : List Message} {K : Nat} (h : CStep env im c ms c') (hw : AppWF im)
    (hi : LInv c.log) (hK : K ≤ c.log.committed) (ha : Above K c.log) : Above K c'.log := by
  have hl := hi.wf.lastIndex_eq
  have hbc := hi.base_com
  cases h with
  | append es l p pci h1 h2 h3 h4 => exact ha.append hi hK (Raft.stamp_contig _ _ _) (by omega) (by rw [hl]; exact Nat.le_refl _) h2
  | commit l h1 h2 =>
    rw [hi.wf.maybeCommit_eq] at h2
    split at h2
    · split at h2
      · cases h2
      · simp only [Res.ok.injEq, Prod.mk.injEq] at h2
        obtain ⟨rfl, _⟩ := h2
        exact ⟨ha.offset, ha.snap⟩
    · simp only [Res.ok.injEq, Prod.mk.injEq] at h2
      cases h2.2
  | recvApp l last h1 h2 h3 h4 h5 =>
    obtain ⟨w1, w2, w3⟩ := hw h2
    refine ha.maybeAppend hi hK (by omega) ?_ w1 w2 h5
    by_cases h0 : im.logTerm = 0
    · left; rw [w3 h0]; exact Nat.zero_le _
    · exact Or.inr h0
  | recvHeartbeat l h1 h2 h3 h4 => exact ha.commitTo h4
  | recvSnapCommit l h1 h2 h3 h4 h5 h6 => exact ha.commitTo h6
  | recvSnap cfg P0 p mi h1 h2 h3 h4 =>
    refine ⟨?_, ?_⟩
    · show K < (im.snapshot.getD {}).metadata.index + 1; omega
    · intro s hs
      have : s = im.snapshot.getD {} := (Option.some.inj hs).symm
      rw [this]; omega
  | _ => exact ha

theorem CPath.above {env : Env} {im : Message} {c c' : Core} {ms : List Message} {K : Nat} (h : CPath env im c ms c') (hw : AppWF im)
    (hi : LInv c.log) (hK : K ≤ c.log.committed) (ha : Above K c.log) : Above K c'.log := by
  induction h with
  | nil => exact ha
  | cons hs _ ih =>
    obtain ⟨h1, h2⟩ := hs.linv hw hi
    exact ih h1 (Nat.le_trans hK h2.com_mono) (hs.above hw hi hK ha)

/-- What the node believes to be on disk is there, and covers what is compacted, snapshotted and applied. -/
structure DiskInv (n : RawNode) : Prop where
  com : n.prevHardSt.commit ≤ n.raft.log.committed
  app : n.raft.log.applied ≤ n.prevHardSt.commit
  base : n.raft.log.storage.view.base ≤ n.prevHardSt.commit
  last : n.prevHardSt.commit ≤ n.raft.log.storage.view.last
  snap : n.raft.log.storage.snapshot.metadata.index ≤ n.prevHardSt.commit
  hard : n.raft.log.storage.hardState ≠ {} → n.raft.log.storage.hardState.commit = n.prevHardSt.commit
  none : n.raft.log.storage.hardState = {} → n.prevHardSt.commit ≤ n.raft.log.storage.view.base
  above : Above n.prevHardSt.commit n.raft.log

theorem DiskInv.new {env : Env} {cfg : Config} {st : Storage} {rng : Nat} {n : RawNode} (h : RawNode.new env cfg st rng = .ok n) (hs : st.Sound) :
    DiskInv n := by
  obtain ⟨hf, _, hp, _⟩ := RawNode.new_ok h
  have hi := (NInv.new h hs).linv
  have hlast := hs.wf.lastIndex_eq
  have hfirst : st.firstIndex = st.view.base + 1 := Storage.firstIndex_eq _
  have hbl : st.view.base ≤ st.view.last := Nat.le_add_right _ _
  have hsn := hs.snap
  have hpc : n.prevHardSt.commit = n.raft.log.committed := by rw [hp]; rfl
  have hst := hf.storage
  have hcom : st.view.base ≤ n.raft.log.committed ∧ n.raft.log.committed ≤ st.view.last := by
    rcases hf.commit with ⟨_, h4⟩ | ⟨h4, h5, h6⟩ <;> omega
  refine ⟨by omega, ?_, ?_, ?_, ?_, ?_, ?_, ?_, ?_⟩
  · rw [hpc]; exact hi.app_com
  · rw [hst]; omega
  · rw [hst]; omega
  · rw [hpc]; exact hi.snap_com
  · rw [hst, hpc]
    intro hne
    rcases hf.commit with ⟨h3, _⟩ | ⟨h4, _⟩
    · exact absurd h3 hne
    · exact h4.symm
  · rw [hst, hpc]
    intro he
    rcases hf.commit with ⟨_, h4⟩ | ⟨h4, _⟩
    · omega
    · rw [h4, he]; exact Nat.zero_le _
  · rw [hf.unstable, hpc]; show _ < st.lastIndex + 1; omega
  · rw [hf.unstable]; intro s hs; cases hs

theorem DiskInv.call {env : Env} {c : Call} {n n' : RawNode} (hd : DiskInv n) (hi : LInv n.raft.log) (hp : c.Plain) (hs : c.Stamped) (hw : c.WF)
    (h : c.run env n = .ok n') : DiskInv n' := by
  have e1 := Call.run_prevHard (by rintro rfl; exact hp) h
  have e2 := Call.run_storage hs h
  obtain ⟨_, ms, _, hpath⟩ := Call.plain_sim hp hs h
  obtain ⟨_, he⟩ := hpath.linv (Call.msg_wf hw) hi
  have hcm : n.raft.log.committed ≤ n'.raft.log.committed := he.com_mono
  have happ : n'.raft.log.applied = n.raft.log.applied := hpath.applied_eq
  have hab : Above n.prevHardSt.commit n'.raft.log := hpath.above (Call.msg_wf hw) hi hd.com hd.above
  have := hd.com
  exact ⟨by rw [e1]; omega, by rw [e1, happ]; exact hd.app, by rw [e1, e2]; exact hd.base, by rw [e1, e2]; exact hd.last,
    by rw [e1, e2]; exact hd.snap, by rw [e1, e2]; exact hd.hard, by rw [e1, e2]; exact hd.none, by rw [e1]; exact hab⟩

theorem readyOf_hard {env : Env} {n : RawNode} (hd : DiskInv n) :
    (if isEmptyHardState (readyOf env n).hardState then n.prevHardSt else (readyOf env n).hardState).commit = n.raft.log.committed := by
  have hc := hd.com
  by_cases he : n.raft.hardState = n.prevHardSt
  · have : (readyOf env n).hardState = {} := if_pos he
    rw [this, if_pos (by decide), ← he]
    rfl
  · have : (readyOf env n).hardState = n.raft.hardState := if_neg he
    rw [this]
    by_cases h0 : n.raft.hardState = {}
    · rw [if_pos (by simp [isEmptyHardState, h0])]
      have : n.raft.log.committed = 0 := congrArg HardState.commit h0
      omega
    · rw [if_neg (by simp [isEmptyHardState, h0])]
      rfl

theorem DiskInv.saved {env : Env} {n : RawNode} (hd : DiskInv n) (hi : LInv n.raft.log) {st : Storage}
    (hsv : n.raft.log.storage.save (readyOf env n) = .ok st) :
    st.WF ∧ st.view = n.raft.log.view ∧ st.snapshot.metadata.index ≤ n.raft.log.committed ∧
    (st.hardState ≠ {} → st.hardState.commit = n.raft.log.committed) ∧ (st.hardState = {} → n.raft.log.committed ≤ st.view.base) := by
  obtain ⟨st', h1, e2, e3, e4, e5⟩ := save_eq (env := env) hi
  rw [hsv] at h1
  cases h1
  have hc := readyOf_hard (env := env) hd
  have hsn := hi.snap_com
  have hbc := hi.base_com
  refine ⟨e2, e3, ?_, ?_, ?_⟩
  · rw [e4]
    cases hs : n.raft.log.unstable.snapshot with
    | none => exact hsn
    | some s =>
      have hvb : n.raft.log.view.base = s.metadata.index := by rw [RaftLog.view_snap hs]
      simp only [Option.getD_some]; omega
  · rw [e5]
    split at hc
    · next he =>
      rw [if_pos he]
      intro hne
      rw [hd.hard hne, hc]
    · next he =>
      rw [if_neg he]
      intro _
      exact hc
  · rw [e5]
    split at hc
    · next he =>
      rw [if_pos he]
      intro h0
      have := hd.none h0
      rw [e3]
      cases hs : n.raft.log.unstable.snapshot with
      | none =>
        have : n.raft.log.view.base = n.raft.log.storage.view.base := by rw [RaftLog.view_nosnap hs]
        omega
      | some s =>
        have hvb : n.raft.log.view.base = s.metadata.index := by rw [RaftLog.view_snap hs]
        have := hd.above.snap s hs
        omega
    · next he =>
      rw [if_neg he]
      intro h0
      exact absurd (by simp [isEmptyHardState, h0]) he

theorem DiskInv.ready {env : Env} {n n' : RawNode} {ccs : List ConfChangeI} {rd : Ready} (hd : DiskInv n) (hi : LInv n.raft.log)
    (h : n.handleReady env ccs = .ok (n', rd)) : DiskInv n' := by
  obtain ⟨e0, st, es, c, hsv, hdone⟩ := handleReady_conf hi h
  obtain ⟨e1, e2, _⟩ := RawNode.handleReady_hard h
  subst e0
  obtain ⟨s1, s2, s3, s4, s5⟩ := hd.saved hi hsv
  have hpc : n'.prevHardSt.commit = n.raft.log.committed := by rw [e2]; exact readyOf_hard hd
  have hlog := hdone.log
  have hst : n'.raft.log.storage = st := by rw [hlog]
  have hle := hi.nextOut_length env
  have h1 := hi.app_com
  have h2 := hi.base_com
  have h3 := hi.com_last
  have h4 := hdone.le
  refine ⟨?_, ?_, ?_, ?_, ?_, ?_, ?_, ?_, ?_⟩
  · rw [hpc, hlog]; exact h4
  · rw [hpc, hlog]; show max n.raft.log.applied n.raft.log.view.base + _ ≤ _; omega
  · rw [hpc, hst, s2]; exact h2
  · rw [hpc, hst, s2]; exact h3
  · rw [hpc, hst]; exact s3
  · rw [hpc, hst]; exact s4
  · rw [hpc, hst]; exact s5
  · rw [hpc, hlog]; show _ < n.raft.log.view.last + 1; omega
  · rw [hlog]; intro s hs; cases hs

theorem NodeRun.disk {env : Env} {n n' : RawNode} (h : NodeRun env n n') (hn : NInv n.raft.core) (hd : DiskInv n) : DiskInv n' := by
  induction h with
  | refl => exact hd
  | call c hr h1 h2 h3 h4 ih => exact ih.call (hr.ninv hn).linv h1 h2 h3 h4
  | ready ccs hr h1 ih => exact ih.ready (hr.ninv hn).linv h1
  | compact i hr h1 h2 ih =>
    have hl := (hr.ninv hn).linv
    rcases hl.compact_view h1 h2 with rfl | ⟨k1, k2, k3, k4, k5, k6, _⟩
    · exact ih
    · have := ih.app
      refine ⟨ih.com, ih.app, ?_, ?_, ?_, ?_, ?_, ⟨ih.above.offset, ih.above.snap⟩⟩
      · rw [RawNode.withStorage]; dsimp only; rw [k4]; show i ≤ _; omega
      · rw [RawNode.withStorage]; dsimp only; rw [k4, LogView.compact_last (by omega) k2]; exact ih.last
      · rw [RawNode.withStorage]; dsimp only; rw [k5]; exact ih.snap
      · rw [RawNode.withStorage]; dsimp only; rw [k6]; exact ih.hard
      · rw [RawNode.withStorage]; dsimp only; rw [k6, k4]; exact fun h0 => Nat.le_trans (ih.none h0) (Nat.le_of_lt k1)
  | createSnapshot i cs data hr h1 h2 ih =>
    have hl := (hr.ninv hn).linv
    rcases Storage.createSnapshot_cases hl.wf.stor h2 with rfl | ⟨k1, k2, k3, k4, _⟩
    · exact ih
    · have := ih.app
      refine ⟨ih.com, ih.app, ?_, ?_, ?_, ?_, ?_, ⟨ih.above.offset, ih.above.snap⟩⟩
      · rw [RawNode.withStorage]; dsimp only; rw [k3]; exact ih.base
      · rw [RawNode.withStorage]; dsimp only; rw [k3]; exact ih.last
      · rw [RawNode.withStorage]; dsimp only; rw [k4]; omega
      · rw [RawNode.withStorage]; dsimp only; rw [k3]; exact ih.hard
      · rw [RawNode.withStorage]; dsimp only; rw [k3]; exact ih.none

end Craft
