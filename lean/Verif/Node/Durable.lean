import Verif.Node.History

/-! # What is durable: no call writes the storage, only the application does, when it handles a Ready -/

namespace Craft
open Spec

theorem RaftLog.append_storage {l l' : RaftLog} {es : List Entry} (h : l.append es = .ok l') : l'.storage = l.storage := by
  unfold RaftLog.append at h
  split at h
  · cases h; rfl
  · dsimp only at h
    split at h
    · cases h
    · obtain ⟨u, _, h⟩ := Res.bind_eq_ok.1 h
      cases h; rfl

theorem RaftLog.commitTo_storage {l l' : RaftLog} {i : Nat} (h : l.commitTo i = .ok l') : l'.storage = l.storage := by
  rw [RaftLog.commitTo_shape h]

theorem RaftLog.maybeAppend_storage {l l' : RaftLog} {i t c : Nat} {es : List Entry} {res : Option Nat}
    (h : l.maybeAppend i t c es = .ok (l', res)) : l'.storage = l.storage := by
  unfold RaftLog.maybeAppend at h
  obtain ⟨m, _, h⟩ := Res.bind_eq_ok.1 h
  cases m with
  | false =>
    simp only [Bool.false_eq_true, if_false, Res.pure_eq, Res.ok.injEq, Prod.mk.injEq] at h
    rw [h.1]
  | true =>
    simp only [if_true] at h
    obtain ⟨ci, _, h⟩ := Res.bind_eq_ok.1 h
    have fin : ∀ {l1 : RaftLog}, (do let l ← l1.commitTo (min c (i + es.length)); pure (l, some (i + es.length))) = Res.ok (l', res) →
        l'.storage = l1.storage := by
      intro l1 h
      obtain ⟨l2, h2, h⟩ := Res.bind_eq_ok.1 h
      simp only [Res.pure_eq, Res.ok.injEq, Prod.mk.injEq] at h
      rw [← h.1, RaftLog.commitTo_storage h2]
    split at h
    · exact fin h
    split at h
    · cases h
    split at h
    · cases h
    · obtain ⟨l1, h1, h⟩ := Res.bind_eq_ok.1 h
      rw [fin h, RaftLog.append_storage h1]

namespace NStep
variable {env : Env} {im : Message} {c c' : Core} {ms : List Message}

theorem storage_eq (h : NStep env im c ms c') : c'.log.storage = c.log.storage := by
  cases h with
  | applied i l h => rw [(Raft.appliedTo_log h).1]
  | stable i t l h => rw [(RaftLog.stableTo_shape h)]
  | stableSnap i => rfl
  | reduce es => rfl
  | handed => rfl
  | core h =>
    cases h with
    | append es l p pci _ h _ _ => exact RaftLog.append_storage h
    | commit l _ h => rw [(RaftLog.maybeCommit_shape h).1]
    | recvApp l last _ _ _ _ h => exact RaftLog.maybeAppend_storage h
    | recvHeartbeat l _ _ _ h => exact RaftLog.commitTo_storage h
    | recvSnapCommit l _ _ _ _ _ h => exact RaftLog.commitTo_storage h
    | _ => rfl

end NStep

theorem NPath.storage_eq {env : Env} {im : Message} {c c' : Core} {ms : List Message} (h : NPath env im c ms c') :
    c'.log.storage = c.log.storage := by
  induction h with
  | nil => rfl
  | cons hs _ ih => rw [ih, hs.storage_eq]

theorem Call.run_storage {env : Env} {c : Call} {n n' : RawNode} (hs : c.Stamped) (h : c.run env n = .ok n') :
    n'.raft.log.storage = n.raft.log.storage := by
  obtain ⟨_, cfg, P, _, ms, _, hp⟩ := Call.run_path hs h
  exact hp.storage_eq

/-- Only `Advance` moves the hard state the node believes to be persisted. -/
theorem Call.run_prevHard {env : Env} {c : Call} {n n' : RawNode} (hc : c ≠ .advance) (h : c.run env n = .ok n') :
    n'.prevHardSt = n.prevHardSt := by
  have key : ∀ {f : Raft → Res (Raft × Option Err)}, (do let (n, _) ← n.onRaft f; pure n) = Res.ok n' → n'.prevHardSt = n.prevHardSt := by
    intro f h
    obtain ⟨⟨n1, e⟩, h1, h⟩ := Res.bind_eq_ok.1 h
    simp only [Res.pure_eq, Res.ok.injEq] at h
    subst h
    rw [(onRaft_ok h1).2]
  cases c with
  | step m =>
    obtain ⟨⟨n1, e⟩, h1, h⟩ := Res.bind_eq_ok.1 h
    simp only [Res.pure_eq, Res.ok.injEq] at h
    subst h
    unfold RawNode.step at h1
    split at h1
    · simp only [Res.ok.injEq, Prod.mk.injEq] at h1; rw [← h1.1]
    split at h1
    · rw [(onRaft_ok h1).2]
    · simp only [Res.ok.injEq, Prod.mk.injEq] at h1; rw [← h1.1]
  | tick =>
    obtain ⟨r, h1, h⟩ := Res.bind_eq_ok.1 h
    simp only [Res.pure_eq, Res.ok.injEq] at h
    subst h; rfl
  | tickQuiesced => simp only [Call.run, Res.ok.injEq] at h; subst h; rfl
  | campaign => exact key h
  | propose d => exact key h
  | proposeConfChange cc =>
    obtain ⟨⟨n1, e⟩, h1, h⟩ := Res.bind_eq_ok.1 h
    simp only [Res.pure_eq, Res.ok.injEq] at h
    subst h
    rw [(onRaft_ok (f := fun r => r.step env (Call.msg env n (.proposeConfChange cc))) h1).2]
  | applyConfChange cc =>
    obtain ⟨⟨n1, cs⟩, h1, h⟩ := Res.bind_eq_ok.1 h
    simp only [Res.pure_eq, Res.ok.injEq] at h
    subst h
    unfold RawNode.applyConfChange at h1
    obtain ⟨⟨r, cs'⟩, h2, h1⟩ := Res.bind_eq_ok.1 h1
    simp only [Res.pure_eq, Res.ok.injEq, Prod.mk.injEq] at h1
    obtain ⟨rfl, rfl⟩ := h1
    rfl
  | getReady =>
    obtain ⟨⟨n1, cs⟩, h1, h⟩ := Res.bind_eq_ok.1 h
    simp only [Res.pure_eq, Res.ok.injEq] at h
    subst h
    rw [(getReady_ok h1).2]
    rfl
  | advance => exact absurd rfl hc
  | reportUnreachable id =>
    obtain ⟨n2, h1, h⟩ := Res.bind_eq_ok.1 h
    simp only [Res.pure_eq, Res.ok.injEq] at h
    rw [← h, (onRaft_ok h1).2]
  | reportSnapshot id f =>
    obtain ⟨n2, h1, h⟩ := Res.bind_eq_ok.1 h
    simp only [Res.pure_eq, Res.ok.injEq] at h
    rw [← h, (onRaft_ok h1).2]
  | transferLeader id =>
    obtain ⟨n2, h1, h⟩ := Res.bind_eq_ok.1 h
    simp only [Res.pure_eq, Res.ok.injEq] at h
    rw [← h, (onRaft_ok h1).2]
  | readIndex ctx =>
    obtain ⟨n2, h1, h⟩ := Res.bind_eq_ok.1 h
    simp only [Res.pure_eq, Res.ok.injEq] at h
    rw [← h, (onRaft_ok h1).2]

/-- A call other than `GetReady` and `Advance` leaves the Ready in flight alone. -/
theorem Call.run_ready {env : Env} {cc : ConfChangeI} {n n' : RawNode} (h : (Call.applyConfChange cc).run env n = .ok n') :
    n'.ready = n.ready := by
  obtain ⟨⟨n1, cs⟩, h1, h⟩ := Res.bind_eq_ok.1 h
  simp only [Res.pure_eq, Res.ok.injEq] at h
  subst h
  unfold RawNode.applyConfChange at h1
  obtain ⟨⟨r, cs'⟩, h2, h1⟩ := Res.bind_eq_ok.1 h1
  simp only [Res.pure_eq, Res.ok.injEq, Prod.mk.injEq] at h1
  obtain ⟨rfl, rfl⟩ := h1
  rfl

theorem RawNode.applyConfChanges_durable {env : Env} : ∀ (ccs : List ConfChangeI) {n n' : RawNode},
    RawNode.applyConfChanges env ccs n = .ok n' →
      n'.raft.log.storage = n.raft.log.storage ∧ n'.prevHardSt = n.prevHardSt ∧ n'.ready = n.ready
  | [], n, n', h => by cases h; exact ⟨rfl, rfl, rfl⟩
  | cc :: ccs, n, n', h => by
    unfold RawNode.applyConfChanges at h
    obtain ⟨⟨n1, cs⟩, h1, h⟩ := Res.bind_eq_ok.1 h
    have hr : (Call.applyConfChange cc).run env n = .ok n1 := by
      show (do let (n, _) ← n.applyConfChange env cc; pure n) = _
      rw [h1]; rfl
    obtain ⟨a, b, c⟩ := applyConfChanges_durable ccs h
    exact ⟨a.trans (Call.run_storage (c := .applyConfChange cc) trivial hr), b.trans (Call.run_prevHard (c := .applyConfChange cc) (fun h => by cases h) hr),
      c.trans (Call.run_ready hr)⟩

theorem Storage.append_hard {s s' : Storage} {es : List Entry} (h : s.append es = .ok s') : s'.hardState = s.hardState := by
  unfold Storage.append at h
  split at h
  · cases h; rfl
  · dsimp only at h
    split at h
    · cases h; rfl
    · split at h
      · split at h
        · cases h; rfl
        · split at h
          · cases h; rfl
          · cases h
      · split at h
        · cases h; rfl
        · split at h
          · cases h; rfl
          · cases h

theorem Storage.applySnapshot_hard (s : Storage) (sn : Snapshot) : (s.applySnapshot sn).1.hardState = s.hardState := by
  unfold Storage.applySnapshot
  split <;> rfl

/-- Persisting a Ready writes its hard state, if it has one. -/
theorem Storage.save_hard {s s' : Storage} {rd : Ready} (h : s.save rd = .ok s') :
    s'.hardState = if isEmptyHardState rd.hardState then s.hardState else rd.hardState := by
  unfold Storage.save at h
  dsimp only at h
  obtain ⟨s1, h1, h⟩ := Res.bind_eq_ok.1 h
  simp only [Res.pure_eq, Res.ok.injEq] at h
  subst h
  have := Storage.append_hard h1
  split
  · rw [this]
    split
    · rfl
    · exact Storage.applySnapshot_hard _ _
  · rfl

theorem Storage.compact_hard {s s' : Storage} {i : Nat} {e : Option Err} (h : s.compact i = .ok (s', e)) : s'.hardState = s.hardState := by
  unfold Storage.compact at h
  split at h
  · cases h; rfl
  split at h
  · cases h
  · cases h; rfl

theorem Storage.createSnapshot_hard {s s' : Storage} {i : Nat} {cs : Option ConfState} {d : Bytes} {e : Except Err Snapshot}
    (h : s.createSnapshot i cs d = .ok (s', e)) : s'.hardState = s.hardState := by
  unfold Storage.createSnapshot at h
  split at h
  · cases h; rfl
  split at h
  · cases h
  split at h
  · cases h
  · cases h; rfl

/-- What a handled Ready does to the hard state: node and storage both take the Ready's, if it has one. -/
theorem RawNode.handleReady_hard {env : Env} {n n' : RawNode} {ccs : List ConfChangeI} {rd : Ready} (h : n.handleReady env ccs = .ok (n', rd)) :
    n'.raft.log.storage.hardState = (if isEmptyHardState rd.hardState then n.raft.log.storage.hardState else rd.hardState) ∧
    n'.prevHardSt = (if isEmptyHardState rd.hardState then n.prevHardSt else rd.hardState) ∧
    n.readyWithoutAccept env = .ok rd := by
  obtain ⟨n1, st, n2, h1, hst, h2, h3⟩ := RawNode.handleReady_ok h
  obtain ⟨hr, rfl⟩ := getReady_ok h1
  obtain ⟨d1, d2, d3⟩ := RawNode.applyConfChanges_durable ccs h2
  have hs3 := Call.run_storage (env := env) (c := .advance) (n := n2) trivial h3
  unfold RawNode.advance at h3
  rw [d3] at h3
  dsimp only [RawNode.withStorage] at h3
  obtain ⟨r, hr3, h3⟩ := Res.bind_eq_ok.1 h3
  simp only [Res.pure_eq, Res.ok.injEq] at h3
  refine ⟨?_, ?_, hr⟩
  · rw [hs3, d1]
    exact Storage.save_hard hst
  · subst h3
    show (if _ then n2.prevHardSt else _) = _
    rw [d2]
    rfl


/-- `(term, vote)` of the hard state is not ahead of the node's. -/
def Behind (h : HardState) (term vote : Nat) : Prop := h.term ≤ term ∧ (h.term = term → h.vote ≠ 0 → vote = h.vote)

theorem Behind.path {env : Env} {im : Message} {c c' : Core} {ms : List Message} {h : HardState} (hb : Behind h c.term c.vote)
    (hp : NPath env im c ms c') : Behind h c'.term c'.vote := by
  have ht := hp.term_le
  obtain ⟨h1, h2⟩ := hb
  refine ⟨by omega, fun he hv => ?_⟩
  have e := h2 (by omega) hv
  rw [hp.vote_keep (by omega) (by rw [e]; exact hv), e]

/-- The node knows the term and vote that are durable, and is not behind them. -/
structure Dur (n : RawNode) : Prop where
  term : n.prevHardSt.term = n.raft.log.storage.hardState.term
  vote : n.prevHardSt.vote = n.raft.log.storage.hardState.vote
  behind : Behind n.prevHardSt n.raft.term n.raft.vote

theorem Behind.call {env : Env} {c : Call} {n n' : RawNode} {h : HardState} (hs : c.Stamped) (hr : c.run env n = .ok n')
    (hb : Behind h n.raft.term n.raft.vote) : Behind h n'.raft.term n'.raft.vote := by
  obtain ⟨_, cfg, P, _, ms, _, hp⟩ := Call.run_path hs hr
  exact Behind.path (c := { n.raft.core with config := cfg, progress := P }) hb hp

theorem Behind.applyConfChanges {env : Env} {h : HardState} : ∀ (ccs : List ConfChangeI) {n n' : RawNode},
    RawNode.applyConfChanges env ccs n = .ok n' → Behind h n.raft.term n.raft.vote → Behind h n'.raft.term n'.raft.vote
  | [], n, n', hr, hb => by cases hr; exact hb
  | cc :: ccs, n, n', hr, hb => by
    unfold RawNode.applyConfChanges at hr
    obtain ⟨⟨n1, cs⟩, h1, hr⟩ := Res.bind_eq_ok.1 hr
    have hr1 : (Call.applyConfChange cc).run env n = .ok n1 := by
      show (do let (n, _) ← n.applyConfChange env cc; pure n) = _
      rw [h1]; rfl
    exact Behind.applyConfChanges ccs hr (Behind.call (c := .applyConfChange cc) trivial hr1 hb)

theorem Behind.handleReady {env : Env} {n n' : RawNode} {ccs : List ConfChangeI} {rd : Ready} {h : HardState}
    (hr : n.handleReady env ccs = .ok (n', rd)) (hb : Behind h n.raft.term n.raft.vote) : Behind h n'.raft.term n'.raft.vote := by
  obtain ⟨n1, st, n2, h1, hst, h2, h3⟩ := RawNode.handleReady_ok hr
  obtain ⟨_, rfl⟩ := getReady_ok h1
  exact Behind.call (env := env) (c := .advance) (n := n2) trivial h3 (Behind.applyConfChanges ccs h2 hb)

theorem readyWithoutAccept_ok {env : Env} {n : RawNode} {rd : Ready} (h : n.readyWithoutAccept env = .ok rd) :
    ∃ es, n.raft.log.nextEnts env = .ok es ∧ rd =
    { entries := n.raft.log.unstableEntries
      committedEntries := es
      messages := n.raft.msgs
      softState := if n.raft.softState = n.prevSoftSt then none else some n.raft.softState
      hardState := if n.raft.hardState = n.prevHardSt then {} else n.raft.hardState
      snapshot := match n.raft.log.unstable.snapshot with
        | some s => s
        | none => {}
      readStates := n.raft.readStates
      mustSync := Craft.mustSync n.raft.hardState n.prevHardSt n.raft.log.unstableEntries.length } := by
  unfold RawNode.readyWithoutAccept newReady at h
  obtain ⟨es, h1, h⟩ := Res.bind_eq_ok.1 h
  simp only [Res.pure_eq, Res.ok.injEq] at h
  exact ⟨es, h1, h.symm⟩

/-- Whatever a Ready says about the hard state, once it is persisted the node's term and vote are durable. -/
theorem Dur.persisted {env : Env} {n : RawNode} {rd : Ready} (hd : Dur n) (h : n.readyWithoutAccept env = .ok rd) :
    (if isEmptyHardState rd.hardState then n.raft.log.storage.hardState else rd.hardState).term = n.raft.term ∧
    (if isEmptyHardState rd.hardState then n.raft.log.storage.hardState else rd.hardState).vote = n.raft.vote := by
  obtain ⟨es, _, rfl⟩ := readyWithoutAccept_ok h
  dsimp only
  by_cases he : n.raft.hardState = n.prevHardSt
  · rw [if_pos he]
    rw [if_pos (by decide), ← hd.term, ← hd.vote, ← he]
    exact ⟨rfl, rfl⟩
  · rw [if_neg he]
    by_cases h0 : n.raft.hardState = {}
    · rw [if_pos (by simp [isEmptyHardState, h0])]
      have ht : n.raft.term = 0 := congrArg HardState.term h0
      have hv : n.raft.vote = 0 := congrArg HardState.vote h0
      obtain ⟨b1, b2⟩ := hd.behind
      have b3 : n.prevHardSt.term = 0 := by omega
      refine ⟨by rw [← hd.term]; omega, ?_⟩
      rw [← hd.vote, hv]
      refine Decidable.byContradiction fun hne => hne ?_
      rw [← b2 (by omega) hne, hv]
    · rw [if_neg (by simp [isEmptyHardState, h0])]
      exact ⟨rfl, rfl⟩

theorem Dur.persisted_prev {env : Env} {n : RawNode} {rd : Ready} (hd : Dur n) (h : n.readyWithoutAccept env = .ok rd) :
    (if isEmptyHardState rd.hardState then n.prevHardSt else rd.hardState).term = n.raft.term ∧
    (if isEmptyHardState rd.hardState then n.prevHardSt else rd.hardState).vote = n.raft.vote := by
  have := hd.persisted h
  split
  · rename_i he
    rw [if_pos he] at this
    rw [hd.term, hd.vote]
    exact this
  · rename_i he
    rw [if_neg he] at this
    exact this

theorem Dur.new {env : Env} {c : Config} {st : Storage} {rng : Nat} {n : RawNode} (h : RawNode.new env c st rng = .ok n) : Dur n := by
  obtain ⟨hf, _, hp, _⟩ := RawNode.new_ok h
  have e1 := hf.term
  have e2 := hf.vote
  have e3 := hf.storage
  refine ⟨?_, ?_, ?_⟩
  · rw [hp, e3]; exact e1
  · rw [hp, e3]; exact e2
  · rw [hp]; exact ⟨Nat.le_refl _, fun _ _ => rfl⟩

theorem Dur.step {env : Env} {x y : NodeHist} (h : NodeStep env x y) (hd : Dur x.node) : Dur y.node := by
  cases h with
  | call c hp hs hsrc h =>
    have hc : c ≠ .advance := by rintro rfl; exact hp
    refine ⟨?_, ?_, ?_⟩
    · rw [Call.run_prevHard hc h, Call.run_storage hs h]; exact hd.term
    · rw [Call.run_prevHard hc h, Call.run_storage hs h]; exact hd.vote
    · rw [Call.run_prevHard hc h]; exact Behind.call hs h hd.behind
  | ready ccs h =>
    obtain ⟨e1, e2, e3⟩ := RawNode.handleReady_hard h
    have p1 := hd.persisted e3
    have p2 := hd.persisted_prev e3
    refine ⟨?_, ?_, ?_⟩
    · dsimp only; rw [e2, e1, p1.1, p2.1]
    · dsimp only; rw [e2, e1, p1.2, p2.2]
    · refine Behind.handleReady h ?_
      rw [e2]
      exact ⟨Nat.le_of_eq p2.1, fun _ _ => p2.2.symm⟩
  | compact i h =>
    have := Storage.compact_hard h
    refine ⟨?_, ?_, hd.behind⟩
    · exact hd.term.trans (congrArg HardState.term this.symm)
    · exact hd.vote.trans (congrArg HardState.vote this.symm)
  | createSnapshot i cs data h =>
    have := Storage.createSnapshot_hard h
    refine ⟨?_, ?_, hd.behind⟩
    · exact hd.term.trans (congrArg HardState.term this.symm)
    · exact hd.vote.trans (congrArg HardState.vote this.symm)

theorem RawNode.founder_storage {env : Env} {n : RawNode} {l : RaftLog} {k : Nat} {es : List Entry}
    (h : (n.raft.becomeFollower env 1 0).log.append es = .ok l) : (n.founder env l k).raft.log.storage = n.raft.log.storage :=
  (RaftLog.append_storage h).trans (congrArg RaftLog.storage (Raft.reset_log (env := env) n.raft 1))

/-- The disk of a node that is bootstrapped is empty, and it believes nothing to be persisted. -/
theorem RawNode.bootstrap_disk {env : Env} {c : Config} {rng : Nat} {peers : List (Nat × Bytes)} {n0 n : RawNode}
    (h0 : RawNode.new env c {} rng = .ok n0) (h : n0.bootstrap env peers = .ok (n, none)) :
    n.raft.log.storage = {} ∧ n.prevHardSt = {} := by
  refine RawNode.bootstrap_inv (fun n => n.raft.log.storage = {} ∧ n.prevHardSt = {}) h (fun l k es h => ⟨?_, rfl⟩)
    fun cc a b h p => ⟨(Call.run_storage (c := .applyConfChange cc) trivial h).trans p.1, (Call.run_prevHard (c := .applyConfChange cc) nofun h).trans p.2⟩
  rw [RawNode.founder_storage h, (RawNode.new_ok h0).1.storage]

theorem NodeReach.dur {env : Env} {x : NodeHist} (h : NodeReach env x) : Dur x.node := by
  refine h.inv Dur (fun _ _ _ _ h => Dur.new h) ?_ fun _ _ h => Dur.step h
  intro c rng peers n0 n h0 h _
  obtain ⟨h1, h2⟩ := RawNode.bootstrap_disk h0 h
  refine ⟨by rw [h1, h2], by rw [h1, h2], ?_⟩
  rw [h2]
  exact ⟨Nat.zero_le _, fun _ h => absurd rfl h⟩

end Craft
