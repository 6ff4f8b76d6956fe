import Verif.Node.Calls
import Verif.Proofs.Log

/-! # Where entries and snapshots come from

If all entries in a node's log and storage, in its outbox and in the message it is handed satisfy a condition that depends on
type and data only, and the empty entries satisfy it too, then all entries afterwards do; likewise for snapshots. -/

namespace Craft

/-- A condition on type and data of entries that holds for the entries a leader makes up. -/
structure Closed (P : Entry → Prop) : Prop where
  same : ∀ e e' : Entry, e'.type = e.type → e'.data = e.data → P e → P e'
  empty : P {}
  leave : P { type := .confChangeV2 }

structure Storage.From (P : Entry → Prop) (S : Snapshot → Prop) (st : Storage) : Prop where
  ents : ∀ e ∈ st.ents.tail, P e
  snap : S st.snapshot

structure RaftLog.From (P : Entry → Prop) (S : Snapshot → Prop) (l : RaftLog) : Prop where
  storage : l.storage.From P S
  ents : ∀ e ∈ l.unstable.entries, P e
  snap : ∀ s, l.unstable.snapshot = some s → S s

/-- Entries matter in appends and proposals only (in read requests they carry the context). -/
structure Message.From (P : Entry → Prop) (S : Snapshot → Prop) (m : Message) : Prop where
  ents : m.type = .app ∨ m.type = .prop → ∀ e ∈ m.entries, P e
  snap : m.type = .snap → S (m.snapshot.getD {})
  term : Stamped m

structure Core.From (P : Entry → Prop) (S : Snapshot → Prop) (c : Core) : Prop where
  log : c.log.From P S
  term : c.state = .leader ∨ c.state = .candidate → c.term ≠ 0

variable {P : Entry → Prop} {S : Snapshot → Prop}

theorem Closed.stamp (h : Closed P) {t : Nat} : ∀ {es : List Entry} {i : Nat}, (∀ e ∈ es, P e) → ∀ e ∈ Raft.stamp t i es, P e
  | [], i, _, e, he => by cases he
  | e0 :: es, i, hp, e, he => by
    rcases List.mem_cons.1 he with rfl | he
    · exact h.same e0 _ rfl rfl (hp e0 List.mem_cons_self)
    · exact h.stamp (fun e he => hp e (List.mem_cons_of_mem _ he)) e he

namespace Unstable
variable {u u' : Unstable} {es : List Entry}

theorem truncateAndAppend_mem (h : u.truncateAndAppend es = .ok u') : u'.snapshot = u.snapshot ∧ ∀ e ∈ u'.entries, e ∈ u.entries ∨ e ∈ es := by
  unfold truncateAndAppend at h
  split at h
  · cases h
  dsimp only at h
  split at h
  · cases h; exact ⟨rfl, fun e he => List.mem_append.1 he⟩
  split at h
  · cases h; exact ⟨rfl, fun e he => Or.inr he⟩
  split at h
  · cases h
  · cases h; exact ⟨rfl, fun e he => (List.mem_append.1 he).imp List.mem_of_mem_take id⟩

theorem stableTo_mem {i t : Nat} (h : u.stableTo i t = .ok u') : u'.snapshot = u.snapshot ∧ ∀ e ∈ u'.entries, e ∈ u.entries := by
  unfold stableTo at h
  obtain ⟨x, _, h⟩ := Res.bind_eq_ok.1 h
  split at h
  · cases h; exact ⟨rfl, fun _ h => h⟩
  split at h
  · cases h; exact ⟨rfl, fun _ h => List.mem_of_mem_drop h⟩
  · cases h; exact ⟨rfl, fun _ h => h⟩

end Unstable

theorem limitSize_mem {sz : Entry → Nat} {es : List Entry} {mx : Nat} {e : Entry} (h : e ∈ limitSize sz es mx) : e ∈ es :=
  (limitSize_prefix sz es mx).subset h

namespace Storage.From
variable {st st' : Storage}

theorem entries {env : Env} {lo hi mx : Nat} {es : List Entry} (h : st.From P S) (he : st.entries env lo hi mx = .ok (.ok es)) : ∀ e ∈ es, P e := by
  unfold Storage.entries at he
  split at he
  · cases he
  rename_i hlo
  split at he
  · cases he
  split at he
  · cases he
  split at he
  · cases he
  cases he
  intro e hm
  have hm := List.mem_of_mem_take (limitSize_mem hm)
  refine h.ents e ?_
  rw [← List.drop_one]
  have e1 : lo - st.offset = 1 + (lo - st.offset - 1) := by omega
  rw [e1, ← List.drop_drop] at hm
  exact List.mem_of_mem_drop hm

theorem append {es : List Entry} (h : st.From P S) (hes : ∀ e ∈ es, P e) (ha : st.append es = .ok st') : st'.From P S := by
  unfold Storage.append at ha
  split at ha
  · cases ha; exact h
  rename_i e0 es0
  dsimp only at ha
  split at ha
  · cases ha; exact h
  have hsub : ∀ e ∈ (if st.firstIndex > e0.index then List.drop (st.firstIndex - e0.index) (e0 :: es0) else e0 :: es0), P e := by
    intro e he
    split at he
    · exact hes e (List.mem_of_mem_drop he)
    · exact hes e he
  generalize (if st.firstIndex > e0.index then List.drop (st.firstIndex - e0.index) (e0 :: es0) else e0 :: es0) = xs at *
  have key : ∀ k, ∀ e ∈ (st.ents.take k ++ xs).tail, P e := by
    intro k e he
    cases hl : st.ents.take k with
    | nil => rw [hl] at he; exact hsub e (List.mem_of_mem_tail he)
    | cons a b =>
      rw [hl] at he
      rcases List.mem_append.1 (show e ∈ b ++ xs from he) with h1 | h1
      · refine h.ents e ?_
        have : b = (st.ents.take k).tail := by rw [hl]; rfl
        rw [this, ← List.drop_one] at h1
        rw [← List.drop_one]
        rw [List.drop_take] at h1
        exact List.mem_of_mem_take h1
      · exact hsub e h1
  split at ha
  · cases ha; exact ⟨key _, h.snap⟩
  split at ha
  · cases ha
    have := key st.ents.length
    rw [List.take_length] at this
    exact ⟨this, h.snap⟩
  · cases ha

theorem applySnapshot {s : Snapshot} (h : st.From P S) (hs : S s) : (st.applySnapshot s).1.From P S := by
  unfold Storage.applySnapshot
  split
  · exact h
  · exact ⟨(fun e he => by cases he), hs⟩

theorem setHardState {x : HardState} (h : st.From P S) : (st.setHardState x).From P S := ⟨h.ents, h.snap⟩

theorem compact {i : Nat} {e : Option Err} (h : st.From P S) (hc : st.compact i = .ok (st', e)) : st'.From P S := by
  unfold Storage.compact at hc
  split at hc
  · cases hc; exact h
  split at hc
  · cases hc
  cases hc
  refine ⟨fun e he => h.ents e ?_, h.snap⟩
  rw [← List.drop_one] at he ⊢
  simp only at he
  rw [List.drop_drop, Nat.add_comm, ← List.drop_drop] at he
  exact List.mem_of_mem_drop he

theorem createSnapshot {i : Nat} {cs : Option ConfState} {data : Bytes} {x : Except Err Snapshot} (h : st.From P S)
    (hs : ∀ s : Snapshot, s.metadata.index = i → (∀ x, cs = some x → s.metadata.confState = x) → s.data = data → S s) (hc : st.createSnapshot i cs data = .ok (st', x)) : st'.From P S := by
  unfold Storage.createSnapshot at hc
  split at hc
  · cases hc; exact h
  split at hc
  · cases hc
  split at hc
  · cases hc
  cases hc
  exact ⟨h.ents, hs _ rfl (fun x hx => by rw [hx]; rfl) rfl⟩

theorem save {rd : Ready} (h : st.From P S) (he : ∀ e ∈ rd.entries, P e) (hs : isEmptySnap rd.snapshot = true ∨ S rd.snapshot)
    (hv : st.save rd = .ok st') : st'.From P S := by
  unfold Storage.save at hv
  dsimp only at hv
  obtain ⟨s1, h1, hv⟩ := Res.bind_eq_ok.1 hv
  have k : s1.From P S := by
    refine From.append ?_ he h1
    split
    · exact h
    · rename_i hn
      exact h.applySnapshot (hs.resolve_left hn)
  cases hv
  split
  · exact k
  · exact k.setHardState

end Storage.From

namespace RaftLog.From
variable {l l' : RaftLog}

theorem slice {env : Env} {lo hi mx : Nat} {es : List Entry} (h : l.From P S) (he : l.slice env lo hi mx = .ok (.ok es)) : ∀ e ∈ es, P e := by
  unfold RaftLog.slice at he
  obtain ⟨x, _, he⟩ := Res.bind_eq_ok.1 he
  split at he
  · cases he
  split at he
  · cases he; intro e he; cases he
  dsimp only at he
  have fin : ∀ stored : List Entry, (∀ e ∈ stored, P e) → (if hi > l.unstable.offset then do
          let us ← l.unstable.slice (max lo l.unstable.offset) hi
          pure (.ok (limitSize env.entSize (stored ++ us) mx))
        else pure (.ok (limitSize env.entSize stored mx)) : Res (Except Err (List Entry))) = .ok (.ok es) → ∀ e ∈ es, P e := by
    intro stored hst he
    split at he
    · obtain ⟨us, hu, he⟩ := Res.bind_eq_ok.1 he
      cases he
      intro e he
      rcases List.mem_append.1 (limitSize_mem he) with h1 | h1
      · exact hst e h1
      · unfold Unstable.slice at hu
        split at hu
        · cases hu
        split at hu
        · cases hu
        cases hu
        exact h.ents e (List.mem_of_mem_drop (List.mem_of_mem_take h1))
    · cases he
      exact fun e he => hst e (limitSize_mem he)
  split at he
  · obtain ⟨z, hz, he⟩ := Res.bind_eq_ok.1 he
    split at he
    · cases he
    · cases he
    · cases he
    · rename_i stored
      have hst := h.storage.entries hz
      simp only [Res.pure_eq, Res.ok_bind] at he
      split at he
      · cases he
      · next a k =>
        simp only [Res.ok.injEq, Except.ok.injEq] at he
        subst he
        simp only [Except.ok.injEq, Prod.mk.injEq] at k
        rw [← k.1]; exact hst
      · next a k =>
        simp only [Except.ok.injEq, Prod.mk.injEq] at k
        exact fin a (by rw [← k.1]; exact hst) he
  · exact fin [] (fun e he => by cases he) he

theorem entries {env : Env} {i mx : Nat} {es : List Entry} (h : l.From P S) (he : l.entries env i mx = .ok (.ok es)) : ∀ e ∈ es, P e := by
  unfold RaftLog.entries at he
  split at he
  · cases he; intro e he; cases he
  · exact h.slice he

theorem nextEnts {env : Env} {es : List Entry} (h : l.From P S) (he : l.nextEnts env = .ok es) : ∀ e ∈ es, P e := by
  unfold RaftLog.nextEnts at he
  dsimp only at he
  split at he
  · obtain ⟨x, hx, he⟩ := Res.bind_eq_ok.1 he
    split at he
    · cases he; exact h.slice hx
    · cases he
  · cases he; intro e he; cases he

theorem snapshot (h : l.From P S) : S l.snapshot := by
  unfold RaftLog.snapshot
  split
  · rename_i s hs; exact h.snap s hs
  · exact h.storage.snap

theorem of (h : l.From P S) (h1 : l'.storage = l.storage) (h2 : l'.unstable = l.unstable) : l'.From P S := by
  refine ⟨?_, ?_, ?_⟩
  · rw [h1]; exact h.storage
  · rw [h2]; exact h.ents
  · rw [h2]; exact h.snap

theorem append {es : List Entry} (h : l.From P S) (hes : ∀ e ∈ es, P e) (ha : l.append es = .ok l') : l'.From P S := by
  unfold RaftLog.append at ha
  split at ha
  · cases ha; exact h
  dsimp only at ha
  split at ha
  · cases ha
  obtain ⟨u, hu, ha⟩ := Res.bind_eq_ok.1 ha
  cases ha
  obtain ⟨k1, k2⟩ := Unstable.truncateAndAppend_mem hu
  exact ⟨h.storage, fun e he => (k2 e he).elim (h.ents e) (hes e), fun s hs => h.snap s (k1.symm.trans hs)⟩

theorem commitTo {i : Nat} (h : l.From P S) (hc : l.commitTo i = .ok l') : l'.From P S := by
  unfold RaftLog.commitTo at hc
  split at hc
  · split at hc
    · cases hc
    · cases hc; exact h.of rfl rfl
  · cases hc; exact h

theorem maybeCommit {i t : Nat} {b : Bool} (h : l.From P S) (hc : l.maybeCommit i t = .ok (l', b)) : l'.From P S := by
  unfold RaftLog.maybeCommit at hc
  split at hc
  · obtain ⟨x, _, hc⟩ := Res.bind_eq_ok.1 hc
    obtain ⟨tt, _, hc⟩ := Res.bind_eq_ok.1 hc
    split at hc
    · obtain ⟨l1, h1, hc⟩ := Res.bind_eq_ok.1 hc
      cases hc
      exact h.commitTo h1
    · cases hc; exact h
  · cases hc; exact h

theorem maybeAppend {i t cm : Nat} {es : List Entry} {x : Option Nat} (h : l.From P S) (hes : ∀ e ∈ es, P e)
    (ha : l.maybeAppend i t cm es = .ok (l', x)) : l'.From P S := by
  unfold RaftLog.maybeAppend at ha
  obtain ⟨b, _, ha⟩ := Res.bind_eq_ok.1 ha
  split at ha
  · dsimp only at ha
    obtain ⟨ci, _, ha⟩ := Res.bind_eq_ok.1 ha
    split at ha
    · obtain ⟨l1, h1, ha⟩ := Res.bind_eq_ok.1 ha
      cases h1
      obtain ⟨l2, h2, ha⟩ := Res.bind_eq_ok.1 ha
      cases ha
      exact h.commitTo h2
    split at ha
    · cases ha
    split at ha
    · cases ha
    obtain ⟨l1, h1, ha⟩ := Res.bind_eq_ok.1 ha
    obtain ⟨l2, h2, ha⟩ := Res.bind_eq_ok.1 ha
    cases ha
    exact (h.append (fun e he => hes e (List.mem_of_mem_drop he)) h1).commitTo h2
  · cases ha; exact h

theorem appliedTo {i : Nat} (h : l.From P S) (ha : l.appliedTo i = .ok l') : l'.From P S := by
  unfold RaftLog.appliedTo at ha
  split at ha
  · cases ha; exact h
  split at ha
  · cases ha
  · cases ha; exact h.of rfl rfl

theorem stableTo {i t : Nat} (h : l.From P S) (ha : l.stableTo i t = .ok l') : l'.From P S := by
  unfold RaftLog.stableTo at ha
  obtain ⟨u, hu, ha⟩ := Res.bind_eq_ok.1 ha
  cases ha
  obtain ⟨k1, k2⟩ := Unstable.stableTo_mem hu
  exact ⟨h.storage, fun e he => h.ents e (k2 e he), fun s hs => h.snap s (k1.symm.trans hs)⟩

theorem stableSnapTo {i : Nat} (h : l.From P S) : (l.stableSnapTo i).From P S := by
  unfold RaftLog.stableSnapTo Unstable.stableSnapTo
  split
  · split
    · exact ⟨h.storage, h.ents, fun s hs => by cases hs⟩
    · exact h.of rfl rfl
  · exact h.of rfl rfl

theorem restore {s : Snapshot} (h : l.From P S) (hs : S s) : (l.restore s).From P S :=
  ⟨h.storage, (fun e he => by cases he), (fun x hx => by cases hx; exact hs)⟩

end RaftLog.From

variable {env : Env} {im : Message}

theorem Message.From.of {m : Message} (h : m.type ≠ .app ∧ m.type ≠ .prop ∧ m.type ≠ .snap ∧ m.type ≠ .heartbeat) : m.From P S :=
  ⟨fun k => k.elim (fun k => absurd k h.1) (fun k => absurd k h.2.1), fun k => absurd k h.2.2.1, fun k => by
    rcases k with k | k | k
    · exact absurd k h.1
    · first | exact absurd k h.2.2.1 | exact absurd k h.2.2.2
    · first | exact absurd k h.2.2.1 | exact absurd k h.2.2.2⟩

theorem Emit.from {c : Core} {m : Message} (hi : im.From P S) (hc : c.From P S) (h : Emit env im c m) : m.From P S := by
  unfold Emit at h
  by_cases t1 : m.type = .app
  · rw [t1] at h
    obtain ⟨_, h2, h3, _, _, p, mx, _, _, _, _, h9, _⟩ := h
    refine ⟨fun _ => hc.log.entries h9, fun k => by (rw [t1] at k; cases k), fun _ => ?_⟩
    rw [h2]; exact hc.term (Or.inl h3)
  by_cases t2 : m.type = .prop
  · rw [t2] at h
    obtain ⟨_, _, _, h1, h2⟩ := h
    refine ⟨fun _ => ?_, fun k => by (rw [t2] at k; cases k), (fun k => by rw [t2] at k; rcases k with k | k | k <;> cases k)⟩
    rw [h2]
    exact hi.ents (Or.inr (by first | exact h1.symm | exact h1))
  by_cases t3 : m.type = .snap
  · rw [t3] at h
    obtain ⟨_, h2, h3, h4, _⟩ := h
    refine ⟨(fun k => by rw [t3] at k; rcases k with k | k <;> cases k), fun _ => ?_, fun _ => ?_⟩
    · rw [h4]; exact hc.log.snapshot
    · rw [h2]; exact hc.term (Or.inl h3)
  by_cases t4 : m.type = .heartbeat
  · rw [t4] at h
    obtain ⟨_, h2, h3, _⟩ := h
    refine ⟨(fun k => by rw [t4] at k; rcases k with k | k <;> cases k), fun k => by (rw [t4] at k; cases k), fun _ => ?_⟩
    rw [h2]; exact hc.term (Or.inl h3)
  exact .of ⟨t1, t2, t3, t4⟩

theorem CStep.from {c c' : Core} {ms : List Message} (hP : Closed P) (hi : im.From P S) (hc : c.From P S) (h : CStep env im c ms c') :
    c'.From P S ∧ ∀ m ∈ ms, m.From P S := by
  have one : ∀ {m : Message}, m.From P S → ∀ x ∈ [m], x.From P S := fun h x hx => by
    rw [List.mem_singleton.1 hx]; exact h
  have none : ∀ x ∈ ([] : List Message), x.From P S := nofun
  cases h with
  | emit h => exact ⟨hc, one (h.from hi hc)⟩
  | prs P' h => exact ⟨⟨hc.log, hc.term⟩, none⟩
  | follower T P' h1 => exact ⟨⟨hc.log, fun h => by rcases h with h | h <;> cases h⟩, none⟩
  | candidate P' => exact ⟨⟨hc.log, fun _ => Nat.succ_ne_zero _⟩, none⟩
  | preCandidate => exact ⟨⟨hc.log, fun h => by rcases h with h | h <;> cases h⟩, none⟩
  | pollSelf => exact ⟨⟨hc.log, hc.term⟩, none⟩
  | pollResp => exact ⟨⟨hc.log, hc.term⟩, none⟩
  | leader P' h1 => exact ⟨⟨hc.log, fun _ => hc.term (Or.inr h1)⟩, none⟩
  | append es l p pci h1 h2 h3 h4 h5 h6 =>
    refine ⟨⟨hc.log.append (hP.stamp fun e he => ?_) h2, hc.term⟩, none⟩
    rcases h6 e he with rfl | rfl | ⟨k1, k2⟩
    · exact hP.empty
    · exact hP.leave
    · exact hi.ents (Or.inr k1) e k2
  | pciUp => exact ⟨⟨hc.log, hc.term⟩, none⟩
  | commit l h1 h2 => exact ⟨⟨hc.log.maybeCommit h2, hc.term⟩, none⟩
  | ackRecv => exact ⟨⟨hc.log, hc.term⟩, none⟩
  | grant => exact ⟨⟨hc.log, hc.term⟩, one (.of ⟨nofun, nofun, nofun, nofun⟩)⟩
  | recvApp l last h1 h2 h3 h4 h5 =>
    exact ⟨⟨hc.log.maybeAppend (hi.ents (Or.inl h2)) h5, hc.term⟩, one (.of ⟨nofun, nofun, nofun, nofun⟩)⟩
  | recvHeartbeat l h1 h2 h3 h4 => exact ⟨⟨hc.log.commitTo h4, hc.term⟩, one (.of ⟨nofun, nofun, nofun, nofun⟩)⟩
  | recvSnapCommit l h1 h2 h3 h4 h5 h6 => exact ⟨⟨hc.log.commitTo h6, hc.term⟩, none⟩
  | recvSnap cfg P0 p mi h1 h2 => exact ⟨⟨hc.log.restore (hi.snap h2), hc.term⟩, none⟩
  | readWait => exact ⟨⟨hc.log, hc.term⟩, none⟩
  | readTake => exact ⟨⟨hc.log, hc.term⟩, none⟩
  | readNext => exact ⟨⟨hc.log, hc.term⟩, none⟩
  | readSkip => exact ⟨⟨hc.log, hc.term⟩, none⟩
  | readState => exact ⟨⟨hc.log, hc.term⟩, none⟩
  | readAck => exact ⟨⟨hc.log, hc.term⟩, none⟩
  | readAdvance => exact ⟨⟨hc.log, hc.term⟩, none⟩
  | readResp => exact ⟨⟨hc.log, hc.term⟩, none⟩

theorem NStep.from {c c' : Core} {ms : List Message} (hP : Closed P) (hi : im.From P S) (h : NStep env im c ms c') (hc : c.From P S) :
    c'.From P S ∧ ∀ m ∈ ms, m.From P S := by
  cases h with
  | core h => exact h.from hP hi hc
  | applied i l h => exact ⟨⟨hc.log.appliedTo h, hc.term⟩, nofun⟩
  | stable i t l h => exact ⟨⟨hc.log.stableTo h, hc.term⟩, nofun⟩
  | stableSnap i => exact ⟨⟨hc.log.stableSnapTo, hc.term⟩, nofun⟩
  | reduce es => exact ⟨⟨hc.log, hc.term⟩, nofun⟩
  | handed x => exact ⟨⟨hc.log, hc.term⟩, nofun⟩

theorem NPath.from {c c' : Core} {ms : List Message} (hP : Closed P) (hi : im.From P S) (h : NPath env im c ms c') (hc : c.From P S) :
    c'.From P S ∧ ∀ m ∈ ms, m.From P S := by
  induction h with
  | nil => exact ⟨hc, nofun⟩
  | cons hs _ ih =>
    obtain ⟨k1, k2⟩ := hs.from hP hi hc
    obtain ⟨j1, j2⟩ := ih k1
    exact ⟨j1, fun m hm => (List.mem_append.1 hm).elim (k2 m) (j2 m)⟩

/-- A node whose log, storage and outbox are in order. -/
structure Raft.From (P : Entry → Prop) (S : Snapshot → Prop) (r : Raft) : Prop where
  core : r.core.From P S
  msgs : ∀ m ∈ r.msgs, m.From P S

theorem Call.from {c : Call} {n n' : RawNode} (hP : Closed P) (hm : (c.msg env n).From P S) (hs : c.Stamped) (h : c.run env n = .ok n') (hn : n.raft.From P S) :
    n'.raft.From P S := by
  obtain ⟨_, cfg, prs, _, ms, h1, h2⟩ := Call.run_path hs h
  obtain ⟨k1, k2⟩ := h2.from hP hm ⟨hn.core.log, hn.core.term⟩
  refine ⟨k1, fun m hm => ?_⟩
  rw [h1] at hm
  rcases List.mem_append.1 hm with hm | hm
  · split at hm
    · cases hm
    · exact hn.msgs m hm
  · exact k2 m hm

end Craft
