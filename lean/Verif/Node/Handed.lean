import Verif.Node.From
import Verif.Node.Append

/-! # Where entries come from, by index

As in `Verif.Node.From`, but the condition may depend on the index of an entry: nothing is added to a log but empty entries, and on a
leader that is handed a proposal the entries of that proposal, once, behind the last entry. -/

namespace Craft

/-- Appends carry entries that satisfy the condition. -/
def Message.Holds (P : Entry → Prop) (m : Message) : Prop := m.type = .app → ∀ e ∈ m.entries, P e

/-- A log all of whose entries satisfy the condition. -/
def RaftLog.Holds (P : Entry → Prop) (l : RaftLog) : Prop := l.From P fun _ => True

variable {P : Entry → Prop} {env : Env} {im : Message}

theorem stamp_holds {t : Nat} (hP : ∀ e : Entry, e.data = [] → P e) : ∀ {es : List Entry} {i : Nat}, (∀ e ∈ es, e.data = []) → ∀ e ∈ Raft.stamp t i es, P e
  | [], i, _, e, he => by cases he
  | e0 :: es, i, hp, e, he => by
    rcases List.mem_cons.1 he with rfl | he
    · exact hP _ (hp e0 List.mem_cons_self)
    · exact stamp_holds hP (fun e he => hp e (List.mem_cons_of_mem _ he)) e he

theorem Emit.holds {c : Core} {m : Message} (hc : c.log.Holds P) (h : Emit env im c m) : m.Holds P := by
  intro t1
  unfold Emit at h
  rw [t1] at h
  obtain ⟨_, h2, h3, _, _, p, mx, _, _, _, _, h9, _⟩ := h
  exact RaftLog.From.entries hc h9

/-- The input is no proposal, or the node does not lead: then only empty entries are added. -/
def NoProp (im : Message) (c : Core) : Prop := im.type ≠ .prop ∨ c.state ≠ .leader

theorem CStep.holds {c c' : Core} {ms : List Message} (hP : ∀ e : Entry, e.data = [] → P e) (hi : im.Holds P) (hn : NoProp im c) (hc : c.log.Holds P)
    (h : CStep env im c ms c') : c'.log.Holds P ∧ NoProp im c' ∧ ∀ m ∈ ms, m.Holds P := by
  have one : ∀ {m : Message}, m.Holds P → ∀ x ∈ [m], x.Holds P := fun h x hx => by
    rw [List.mem_singleton.1 hx]; exact h
  have none : ∀ x ∈ ([] : List Message), x.Holds P := nofun
  cases h with
  | emit h => exact ⟨hc, hn, one (h.holds hc)⟩
  | prs P' h => exact ⟨hc, hn, none⟩
  | follower T P' h1 => exact ⟨hc, Or.inr nofun, none⟩
  | candidate P' => exact ⟨hc, Or.inr nofun, none⟩
  | preCandidate => exact ⟨hc, Or.inr nofun, none⟩
  | pollSelf => exact ⟨hc, hn, none⟩
  | pollResp => exact ⟨hc, hn, none⟩
  | leader P' h1 h2 h3 h4 =>
    refine ⟨hc, Or.inl fun k => ?_, none⟩
    rcases h4 with h4 | h4
    · unfold CampMsg at h4; rw [k] at h4; rcases h4 with h4 | h4 | h4 <;> cases h4
    · rw [k] at h4; cases h4
  | append es l p pci h1 h2 h3 h4 h5 h6 =>
    refine ⟨RaftLog.From.append hc (stamp_holds hP fun e he => ?_) h2, hn, none⟩
    rcases h6 e he with rfl | rfl | ⟨k1, k2⟩
    · rfl
    · rfl
    · exact (hn.elim (absurd k1) (absurd h1))
  | pciUp => exact ⟨hc, hn, none⟩
  | commit l h1 h2 => exact ⟨RaftLog.From.maybeCommit hc h2, hn, none⟩
  | ackRecv => exact ⟨hc, hn, none⟩
  | grant => exact ⟨hc, hn, one nofun⟩
  | recvApp l last h1 h2 h3 h4 h5 => exact ⟨RaftLog.From.maybeAppend hc (hi h2) h5, hn, one nofun⟩
  | recvHeartbeat l h1 h2 h3 h4 => exact ⟨RaftLog.From.commitTo hc h4, hn, one nofun⟩
  | recvSnapCommit l h1 h2 h3 h4 h5 h6 => exact ⟨RaftLog.From.commitTo hc h6, hn, none⟩
  | recvSnap cfg P0 p mi h1 h2 => exact ⟨RaftLog.From.restore hc trivial, hn, none⟩
  | readWait => exact ⟨hc, hn, none⟩
  | readTake => exact ⟨hc, hn, none⟩
  | readNext => exact ⟨hc, hn, none⟩
  | readSkip => exact ⟨hc, hn, none⟩
  | readState => exact ⟨hc, hn, none⟩
  | readAck => exact ⟨hc, hn, none⟩
  | readAdvance => exact ⟨hc, hn, none⟩
  | readResp => exact ⟨hc, hn, none⟩

theorem NStep.holds {c c' : Core} {ms : List Message} (hP : ∀ e : Entry, e.data = [] → P e) (hi : im.Holds P) (h : NStep env im c ms c') (hn : NoProp im c)
    (hc : c.log.Holds P) : c'.log.Holds P ∧ NoProp im c' ∧ ∀ m ∈ ms, m.Holds P := by
  cases h with
  | core h => exact h.holds hP hi hn hc
  | applied i l h => exact ⟨RaftLog.From.appliedTo hc h, hn, nofun⟩
  | stable i t l h => exact ⟨RaftLog.From.stableTo hc h, hn, nofun⟩
  | stableSnap i => exact ⟨RaftLog.From.stableSnapTo hc, hn, nofun⟩
  | reduce es => exact ⟨hc, hn, nofun⟩
  | handed x => exact ⟨hc, hn, nofun⟩

theorem NPath.holds {c c' : Core} {ms : List Message} (hP : ∀ e : Entry, e.data = [] → P e) (hi : im.Holds P) (h : NPath env im c ms c') (hn : NoProp im c)
    (hc : c.log.Holds P) : c'.log.Holds P ∧ ∀ m ∈ ms, m.Holds P := by
  induction h with
  | nil => exact ⟨hc, nofun⟩
  | cons hs _ ih =>
    obtain ⟨k1, k2, k3⟩ := hs.holds hP hi hn hc
    obtain ⟨j1, j2⟩ := ih k2 k1
    exact ⟨j1, fun m hm => (List.mem_append.1 hm).elim (k3 m) (j2 m)⟩

/-- A node whose log, storage and outbox are in order. -/
structure Raft.Holds (P : Entry → Prop) (r : Raft) : Prop where
  log : r.log.Holds P
  msgs : ∀ m ∈ r.msgs, m.Holds P

theorem Sim.holds {r r' : Raft} (hP : ∀ e : Entry, e.data = [] → P e) (hi : im.Holds P) (h : Sim env im r r') (hn : NoProp im r.core) (hr : r.Holds P) : r'.Holds P := by
  obtain ⟨_, ms, h1, h2⟩ := h
  obtain ⟨k1, k2⟩ := h2.npath.holds hP hi hn hr.log
  refine ⟨k1, fun m hm => ?_⟩
  rw [h1] at hm
  exact (List.mem_append.1 hm).elim (hr.msgs m) (k2 m)

/-- The entries of a list, with the indexes they get behind the given one. -/
def placed (i : Nat) (es : List Entry) : List (Nat × EntryType × Bytes) := (es.zipIdx (i + 1)).map fun q => (q.2, q.1.type, q.1.data)

theorem placed_types {i : Nat} {es : List Entry} : (placed i es).map (·.2) = es.map fun e => (e.type, e.data) := by
  unfold placed
  rw [List.map_map]
  have : ((fun x : Nat × EntryType × Bytes => x.2) ∘ fun q : Entry × Nat => (q.2, q.1.type, q.1.data)) = (fun e : Entry => (e.type, e.data)) ∘ Prod.fst := rfl
  rw [this, ← List.map_map]
  congr 1
  exact List.zipIdx_map_fst _ _

theorem placed_get {i j : Nat} {es : List Entry} {e : Entry} (h : es[j]? = some e) : (i + 1 + j, e.type, e.data) ∈ placed i es := by
  unfold placed
  refine List.mem_map.2 ⟨(e, i + 1 + j), ?_, rfl⟩
  rw [List.mem_zipIdx_iff_le_and_getElem?_sub]
  refine ⟨by dsimp only; omega, ?_⟩
  dsimp only
  rw [Nat.add_sub_cancel_left]; exact h

theorem stamp_get {t : Nat} : ∀ {es : List Entry} {i : Nat} {x : Entry}, x ∈ Raft.stamp t i es → ∃ (j : Nat) (e : Entry), es[j]? = some e ∧ x = { e with term := t, index := i + j }
  | [], _, _, h => by cases h
  | e0 :: es, i, x, h => by
    rcases List.mem_cons.1 h with rfl | h
    · exact ⟨0, e0, rfl, rfl⟩
    · obtain ⟨j, e, h1, h2⟩ := stamp_get h
      exact ⟨j + 1, e, h1, by rw [h2]; congr 1; omega⟩

/-- A leader puts the entries of a proposal behind its last entry, or refuses it. -/
theorem Raft.leaderProp_holds {r r' : Raft} {m : Message} {e : Option Err} (hP : ∀ e : Entry, e.data = [] → P e) (hl : r.state = .leader)
    (hx : ∀ x : Entry, (x.index, x.type, x.data) ∈ placed r.log.lastIndex m.entries → P x) (h : r.leaderProp env m = .ok (r', e)) (hr : r.Holds P) : r'.Holds P := by
  unfold leaderProp at h
  split at h
  · cases h
  split at h
  · cases h; exact hr
  split at h
  · cases h; exact hr
  obtain ⟨⟨es, pci⟩, hg, h⟩ := Res.bind_eq_ok.1 h
  obtain ⟨⟨r1, ok⟩, ha, h⟩ := Res.bind_eq_ok.1 h
  have hes : ∀ x ∈ stamp r.term (r.log.lastIndex + 1) es, P x := by
    intro x hxm
    obtain ⟨j, e0, h1, rfl⟩ := stamp_get hxm
    rcases (gateConf_spec _ hg).2.1 j e0 h1 with rfl | h2
    · exact hP _ rfl
    · have := placed_get (i := r.log.lastIndex) h2
      exact hx _ this
  have hr1 : r1.Holds P ∧ r1.state = .leader := by
    unfold appendEntry increaseUncommittedSize at ha
    dsimp only at ha
    split at ha
    · simp only [Bool.false_eq_true, not_false_eq_true, if_true, Res.ok.injEq, Prod.mk.injEq] at ha
      rw [← ha.1]; exact ⟨⟨hr.log, hr.msgs⟩, hl⟩
    · simp only [not_true_eq_false, if_false] at ha
      obtain ⟨l, h1, ha⟩ := Res.bind_eq_ok.1 ha
      obtain ⟨p, h2, ha⟩ := Res.bind_eq_ok.1 ha
      obtain ⟨⟨r2, b2⟩, h3, ha⟩ := Res.bind_eq_ok.1 ha
      simp only [Res.pure_eq, Res.ok.injEq, Prod.mk.injEq] at ha
      obtain ⟨rfl, _⟩ := ha
      obtain ⟨m1, m2⟩ := maybeCommit_ok h3
      refine ⟨⟨RaftLog.From.maybeCommit (RaftLog.From.append hr.log hes h1) m2, ?_⟩, ?_⟩
      · rw [m1]; exact hr.msgs
      · rw [m1]; exact hl
  dsimp only at h
  split at h
  · simp only [Res.pure_eq, Res.ok.injEq, Prod.mk.injEq] at h
    rw [← h.1]; exact hr1.1
  · obtain ⟨r2, hb, h⟩ := Res.bind_eq_ok.1 h
    simp only [Res.pure_eq, Res.ok.injEq, Prod.mk.injEq] at h
    rw [← h.1]
    exact (bcastAppend_qsim (im := { type := .beat }) hr1.2 hb).sim.holds hP (fun q => by cases q) (Or.inl (by decide)) hr1.1

/-- A proposal that is stepped on a leader. -/
theorem Raft.step_prop_holds {r r' : Raft} {m : Message} {e : Option Err} (hP : ∀ e : Entry, e.data = [] → P e) (ht : m.type = .prop) (hl : r.state = .leader)
    (hx : ∀ x : Entry, (x.index, x.type, x.data) ∈ placed r.log.lastIndex m.entries → P x) (h : r.step env m = .ok (r', e)) (hr : r.Holds P) : r'.Holds P := by
  unfold step at h
  obtain ⟨g, hg, h⟩ := Res.bind_eq_ok.1 h
  have lead : ∀ {x : Res (Raft × Option Err)}, x = r.stepBody env m → x = .ok (r', e) → r'.Holds P := by
    intro x k1 k2
    rw [k1] at k2
    unfold stepBody at k2
    simp only [ht] at k2
    unfold stepState at k2
    simp only [hl] at k2
    unfold stepLeader at k2
    simp only [ht] at k2
    exact leaderProp_holds hP hl hx k2 hr
  have follow : ∀ {r1 : Raft}, r1.Holds P → r1.state = .follower → r1.stepBody env m = .ok (r', e) → r'.Holds P := by
    intro r1 k1 k2 k3
    unfold stepBody at k3
    simp only [ht] at k3
    unfold stepState at k3
    simp only [k2] at k3
    unfold stepFollower at k3
    simp only [ht] at k3
    split at k3
    · cases k3; exact k1
    split at k3
    · cases k3; exact k1
    obtain ⟨r2, hs, k3⟩ := Res.bind_eq_ok.1 k3
    cases k3
    unfold send at hs
    dsimp only at hs
    repeat' split at hs
    all_goals first | (cases hs; done) | skip
    all_goals
      cases hs
      refine ⟨k1.log, fun x hx => ?_⟩
      rcases List.mem_append.1 hx with hx | hx
      · exact k1.msgs x hx
      · rw [List.mem_singleton.1 hx]; intro q; first | (rw [ht] at q; cases q) | cases q
  unfold stepGate at hg
  split at hg
  · cases hg; exact lead rfl h
  split at hg
  · simp only [ht, reduceCtorEq, or_self, false_and, if_false] at hg
    cases hg
    refine follow ⟨?_, ?_⟩ rfl h
    · show (r.becomeFollower env m.term 0).log.Holds P
      rw [show (r.becomeFollower env m.term 0).log = r.log from Raft.reset_log (env := env) r m.term]
      exact hr.log
    · rw [show (r.becomeFollower env m.term 0).msgs = r.msgs from Raft.reset_msgs (env := env) r m.term]
      exact hr.msgs
  split at hg
  · simp only [ht, reduceCtorEq, or_self, and_false, if_false] at hg
    cases hg
    cases h; exact hr
  · cases hg; exact lead rfl h

/-- A call of a node. `L` are the proposed entries with the indexes they get on a leader. -/
theorem Call.holds {c : Call} {n n' : RawNode} (hP : ∀ e : Entry, e.data = [] → P e) (hm : (c.msg env n).Holds P) (hs : c.Stamped)
    (hx : n.raft.state = .leader → (c.msg env n).type = .prop → ∀ x : Entry, (x.index, x.type, x.data) ∈ placed n.raft.log.lastIndex (c.msg env n).entries → P x)
    (h : c.run env n = .ok n') (hn : n.raft.Holds P) : n'.raft.Holds P := by
  by_cases hl : n.raft.state = .leader ∧ (c.msg env n).type = .prop
  · obtain ⟨hl, ht⟩ := hl
    have hx := hx hl ht
    have fin : ∀ {r' : Raft} {e : Option Err}, n.raft.step env (c.msg env n) = .ok (r', e) → r'.Holds P := fun k =>
      Raft.step_prop_holds hP ht hl hx k hn
    cases c with
    | step m =>
      obtain ⟨⟨n1, e⟩, h1, h⟩ := Res.bind_eq_ok.1 h
      cases h
      unfold RawNode.step at h1
      split at h1
      · cases h1; exact hn
      split at h1
      · exact fin (onRaft_ok h1).1
      · cases h1; exact hn
    | propose d =>
      obtain ⟨⟨n1, e⟩, h1, h⟩ := Res.bind_eq_ok.1 h
      cases h
      exact fin (onRaft_ok h1).1
    | proposeConfChange cc =>
      obtain ⟨⟨n1, e⟩, h1, h⟩ := Res.bind_eq_ok.1 h
      cases h
      have h1 : (n.onRaft fun r => r.step env { type := .prop, entries := [{ type := (cc.marshal env).1, data := (cc.marshal env).2 }] }) = .ok (n', e) := h1
      exact fin (onRaft_ok h1).1
    | tick => unfold Call.msg at ht; dsimp only at ht; split at ht <;> cases ht
    | tickQuiesced => cases ht
    | campaign => cases ht
    | applyConfChange => cases ht
    | getReady => cases ht
    | advance => cases ht
    | reportUnreachable => cases ht
    | reportSnapshot => cases ht
    | transferLeader => cases ht
    | readIndex => cases ht
  · obtain ⟨_, cfg, prs, _, ms, h1, h2⟩ := Call.run_path hs h
    have hnp : NoProp (c.msg env n) { n.raft.core with config := cfg, progress := prs } := by
      by_cases k : (c.msg env n).type = .prop
      · exact Or.inr fun q => hl ⟨q, k⟩
      · exact Or.inl k
    obtain ⟨k1, k2⟩ := h2.holds hP hm hnp hn.log
    refine ⟨k1, fun m hm => ?_⟩
    rw [h1] at hm
    rcases List.mem_append.1 hm with hm | hm
    · split at hm
      · cases hm
      · exact hn.msgs m hm
    · exact k2 m hm

end Craft
