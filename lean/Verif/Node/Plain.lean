import Verif.Node.ReadyLog

/-! # Plain calls are core steps -/

namespace Craft
open Spec

/-- Calls made outside the handling of a Ready only take core steps. -/
theorem Call.plain_sim {env : Env} {c : Call} {n n' : RawNode} (hc : c.Plain) (hs : c.Stamped) (h : c.run env n = .ok n') :
    Sim env (c.msg env n) n.raft n'.raft := by
  have key : ∀ {im : Message} {e : Option Err}, Craft.Stamped im → n.raft.step env im = .ok (n'.raft, e) → Sim env im n.raft n'.raft :=
    fun hst h => Raft.step_sim hst h
  cases c with
  | step m =>
    obtain ⟨⟨n1, e⟩, h1, h⟩ := Res.bind_eq_ok.1 h
    simp only [Res.pure_eq, Res.ok.injEq] at h
    subst h
    unfold RawNode.step at h1
    split at h1
    · simp only [Res.ok.injEq, Prod.mk.injEq] at h1
      rw [← h1.1]; exact Sim.refl
    split at h1
    · exact key hs (onRaft_ok h1).1
    · simp only [Res.ok.injEq, Prod.mk.injEq] at h1
      rw [← h1.1]; exact Sim.refl
  | tick =>
    obtain ⟨r, h1, h⟩ := Res.bind_eq_ok.1 h
    simp only [Res.pure_eq, Res.ok.injEq] at h
    subst h
    exact Raft.tick_sim (fun hl => by simp [Call.msg, hl, CampMsg]) (fun hl => by simp [Call.msg, hl, CampMsg]) h1
  | tickQuiesced =>
    simp only [Call.run, Res.ok.injEq] at h
    subst h
    exact .of_core rfl rfl rfl
  | campaign =>
    obtain ⟨⟨n1, e⟩, h1, h⟩ := Res.bind_eq_ok.1 h
    simp only [Res.pure_eq, Res.ok.injEq] at h
    subst h
    exact key (by intro h; simp [Call.msg] at h) (onRaft_ok h1).1
  | propose d =>
    obtain ⟨⟨n1, e⟩, h1, h⟩ := Res.bind_eq_ok.1 h
    simp only [Res.pure_eq, Res.ok.injEq] at h
    subst h
    exact key (by intro h; simp [Call.msg] at h) (onRaft_ok h1).1
  | proposeConfChange cc =>
    obtain ⟨⟨n1, e⟩, h1, h⟩ := Res.bind_eq_ok.1 h
    simp only [Res.pure_eq, Res.ok.injEq] at h
    subst h
    exact key (by intro h; simp [Call.msg] at h) (onRaft_ok (f := fun r => r.step env (Call.msg env n (.proposeConfChange cc))) h1).1
  | applyConfChange cc => exact hc.elim
  | getReady => exact hc.elim
  | advance => exact hc.elim
  | reportUnreachable id =>
    obtain ⟨⟨n1, e⟩, h1, h⟩ := Res.bind_eq_ok.1 h
    simp only [Res.pure_eq, Res.ok.injEq] at h
    subst h
    exact key (by intro h; simp [Call.msg] at h) (onRaft_ok h1).1
  | reportSnapshot id f =>
    obtain ⟨⟨n1, e⟩, h1, h⟩ := Res.bind_eq_ok.1 h
    simp only [Res.pure_eq, Res.ok.injEq] at h
    subst h
    exact key (by intro h; simp [Call.msg] at h) (onRaft_ok h1).1
  | transferLeader id =>
    obtain ⟨⟨n1, e⟩, h1, h⟩ := Res.bind_eq_ok.1 h
    simp only [Res.pure_eq, Res.ok.injEq] at h
    subst h
    exact key (by intro h; simp [Call.msg] at h) (onRaft_ok h1).1
  | readIndex ctx =>
    obtain ⟨⟨n1, e⟩, h1, h⟩ := Res.bind_eq_ok.1 h
    simp only [Res.pure_eq, Res.ok.injEq] at h
    subst h
    exact key (by intro h; simp [Call.msg] at h) (onRaft_ok h1).1

theorem CStep.applied_eq {env : Env} {im : Message} {c c' : Core} {ms : List Message} (h : CStep env im c ms c') :
    c'.log.applied = c.log.applied := by
  cases h with
  | append es l p pci _ h _ _ => exact RaftLog.append_applied h
  | commit l _ h => rw [(RaftLog.maybeCommit_shape h).1]
  | recvApp l last _ _ _ _ h => exact RaftLog.maybeAppend_applied h
  | recvHeartbeat l _ _ _ h => exact RaftLog.commitTo_applied h
  | recvSnapCommit l _ _ _ _ _ h => exact RaftLog.commitTo_applied h
  | _ => rfl

theorem CPath.applied_eq {env : Env} {im : Message} {c c' : Core} {ms : List Message} (h : CPath env im c ms c') :
    c'.log.applied = c.log.applied := by
  induction h with
  | nil => rfl
  | cons hs _ ih => rw [ih, hs.applied_eq]

/-- The log after a Ready is in order again. -/
theorem LInv.readyLog {l : RaftLog} (h : LInv l) (env : Env) {st : Storage} (e2 : st.WF) (e3 : st.view = l.view)
    (e4 : st.snapshot = l.unstable.snapshot.getD l.storage.snapshot) :
    LInv (readyLog env l st) ∧ (Craft.readyLog env l st).view = l.view := by
  have hca := h.app_com
  have hcl := h.com_last
  have hbc := h.base_com
  have hle := h.nextOut_length env
  have hv : (Craft.readyLog env l st).view = l.view := LInv.view_readyCycle e3
  have hbl : l.view.base ≤ l.view.last := Nat.le_add_right _ _
  refine ⟨⟨⟨e2, .nil _, ?_, fun _ => ?_, fun _ _ => ?_⟩, ?_, ?_, ?_, fun _ => ?_, ?_, ?_, ?_⟩, hv⟩
  · intro s hs; cases hs
  · show st.view.base < l.view.last + 1 ∧ l.view.last + 1 ≤ st.view.last + 1
    rw [e3]; omega
  · show l.view.last + 1 = st.view.last + 1
    rw [e3]
  · show max l.applied l.view.base + _ ≤ l.committed; omega
  · rw [hv]; exact hcl
  · rw [hv]; exact hbc
  · rw [hv]; show _ ≤ max l.applied l.view.base + _; omega
  · show max l.applied l.view.base + _ < l.view.last + 1; omega
  · intro s hs; cases hs
  · show st.snapshot.metadata.index ≤ l.committed
    rw [e4]
    cases hs : l.unstable.snapshot with
    | none => exact h.snap_com
    | some s =>
      have hvb : l.view.base = s.metadata.index := by rw [RaftLog.view_snap hs]
      simp only [Option.getD_some]; omega

/-- Compacting the storage compacts the log, unless a snapshot is pending. -/
theorem LInv.compact_view {l : RaftLog} (h : LInv l) {i : Nat} (hi : i ≤ l.applied) {st : Storage} {e : Option Err}
    (he : l.storage.compact i = .ok (st, e)) :
    st = l.storage ∨ (l.storage.view.base < i ∧ i ≤ l.storage.view.last ∧ st.WF ∧ st.view = l.storage.view.compact i ∧ st.snapshot = l.storage.snapshot ∧
      st.hardState = l.storage.hardState ∧
      (({ l with storage := st } : RaftLog).view = l.view ∨
        l.unstable.snapshot = none ∧ l.view.base = l.storage.view.base ∧ ({ l with storage := st } : RaftLog).view = l.view.compact i)) := by
  obtain ⟨heq, hok⟩ := h.wf.stor.compact_eq i
  rw [heq] at he
  split at he
  · cases he; exact Or.inl rfl
  split at he
  · cases he
  cases he
  rename_i hi1 hi2
  obtain ⟨w, v⟩ := hok (by omega) (by omega)
  have hao := h.app_off
  generalize hst : ({ l.storage with ents := l.storage.ents.drop (i - l.storage.offset) } : Storage) = st at w v
  refine Or.inr ⟨by omega, by omega, w, v, by rw [← hst], by rw [← hst], ?_⟩
  cases hs : l.unstable.snapshot with
  | some s => exact Or.inl (by rw [RaftLog.view_snap hs, RaftLog.view_snap (l := { l with storage := st }) hs])
  | none =>
    have hvb : l.view.base = l.storage.view.base := by rw [RaftLog.view_nosnap hs]
    have hnb := h.wf.nosnap hs
    have hca := h.app_com
    have hcl := h.com_last
    refine Or.inr ⟨rfl, hvb, ?_⟩
    rw [RaftLog.view_nosnap (l := { l with storage := st }) hs]
    dsimp only
    unfold LogView.compact
    have ht : l.view.termAt i = l.storage.view.termAt i := by
      unfold LogView.termAt
      rw [h.wf.entry_stored hs (by omega), hvb]
      rw [RaftLog.view_nosnap hs]
    rw [ht, v]
    unfold LogView.compact
    dsimp only
    congr 1
    rw [RaftLog.view_nosnap hs]
    dsimp only
    unfold LogView.last at hnb
    rw [List.drop_append_of_le_length (by rw [List.length_take]; omega), List.drop_take]
    congr 2
    omega

/-- What `CreateSnapshot` does to the storage. -/
theorem Storage.createSnapshot_cases {s st : Storage} {i : Nat} {cs : Option ConfState} {data : Bytes} {e : Except Err Snapshot} (hw : s.WF)
    (h : s.createSnapshot i cs data = .ok (st, e)) :
    st = s ∨ (s.view.base ≤ i ∧ i ≤ s.view.last ∧ st = { s with snapshot := st.snapshot } ∧ st.snapshot.metadata.index = i ∧
      st.snapshot.metadata.term = s.view.termAt i ∧ st.snapshot.metadata.confState = cs.getD s.snapshot.metadata.confState) := by
  have hl := hw.lastIndex_eq
  unfold Storage.createSnapshot at h
  split at h
  · cases h; exact Or.inl rfl
  split at h
  · cases h
  split at h
  · cases h
  rename_i h1 h2 h3
  cases h
  have hb : s.view.base = s.offset := rfl
  refine Or.inr ⟨by omega, by omega, rfl, rfl, ?_, rfl⟩
  dsimp only
  obtain ⟨e0, es, hes⟩ := List.exists_cons_of_ne_nil hw.ne
  unfold LogView.termAt LogView.entry
  rw [hb]
  by_cases hi : i = s.offset
  · rw [if_pos hi, hi, Nat.sub_self]
    show _ = (s.ents.headD {}).term
    rw [hes]; rfl
  · rw [if_neg hi, if_neg (by omega)]
    show _ = (match s.ents.tail[i - s.offset - 1]? with | some e => e.term | none => 0)
    rw [hes, List.tail_cons, List.getD_eq_getElem?_getD]
    obtain ⟨k, hk⟩ : ∃ k, i - s.offset = k + 1 := ⟨i - s.offset - 1, by omega⟩
    rw [hk, List.getElem?_cons_succ, Nat.add_sub_cancel]
    cases es[k]? <;> rfl

end Craft
