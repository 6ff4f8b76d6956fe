import Verif.Node.Disk
import Verif.Spec.Crash
import Verif.Props.NodeRestart

/-! # C84: a crash while a Ready is being saved -/

namespace Craft
open Spec

theorem append_part {st s' : Storage} (hw : st.WF) {k : Nat} {es : List Entry} (hb : st.view.base < k) (hk : k ≤ st.view.last + 1)
    (hc : Contig k es) (h : st.append es = .ok s') :
    s'.WF ∧ s'.hardState = st.hardState ∧ s'.snapshot = st.snapshot ∧ s'.view.base = st.view.base ∧ k ≤ s'.view.last + 1 ∧
    (∀ i, i < k → s'.view.entry i = st.view.entry i) ∧ (es ≠ [] → s'.view = st.view.splice k es) ∧ (es = [] → s' = st) := by
  by_cases hne : es = []
  · subst hne
    cases h
    exact ⟨hw, rfl, rfl, rfl, hk, fun _ _ => rfl, fun h => absurd rfl h, fun _ => rfl⟩
  · have hpos := List.length_pos_iff.2 hne
    obtain ⟨s1, e1, e2, e3, e4, e5⟩ := (hw.append_eq hc hne).2.1 (by omega) hk
    rw [h] at e1
    cases e1
    rw [show max k (st.view.base + 1) = k by omega, show st.view.base + 1 - k = 0 by omega, List.drop_zero] at e5
    have hl := LogView.splice_last (v := st.view) (k := k) (es := es) hb hk
    refine ⟨e2, e3, e4, by rw [e5]; rfl, by rw [e5]; omega, ?_, fun _ => e5, fun h => absurd h hne⟩
    intro i hi
    rw [e5, LogView.splice_entry_lt hi hk]

theorem contig_prefix {k : Nat} {es fs : List Entry} (h : Contig k fs) (hp : es <+: fs) : Contig k es := by
  obtain ⟨t, rfl⟩ := hp
  exact h.left

theorem getReady_eq {env : Env} {n n' : RawNode} {rd : Ready} (hi : LInv n.raft.log) (h : n.getReady env = .ok (n', rd)) : rd = readyOf env n := by
  obtain ⟨hr, _⟩ := getReady_ok h
  rw [readyWithoutAccept_eq hi] at hr
  exact (Res.ok.inj hr).symm

theorem readyOf_snap_none {env : Env} {n : RawNode} (hi : LInv n.raft.log) :
    isEmptySnap (readyOf env n).snapshot = true ↔ n.raft.log.unstable.snapshot = none := by
  unfold readyOf isEmptySnap
  dsimp only
  cases hs : n.raft.log.unstable.snapshot with
  | none => simp
  | some s =>
    have := (hi.pend s hs).1
    simp only [Option.getD_some, decide_eq_true_eq]
    constructor
    · intro h; omega
    · intro h; cases h

/-- The disk once the snapshot is written. -/
theorem saveSnap_eq {env : Env} {n : RawNode} (hi : LInv n.raft.log) {s : Snapshot} (hs : n.raft.log.unstable.snapshot = some s) :
    n.raft.log.storage.saveSnap (readyOf env n) =
      { n.raft.log.storage with snapshot := s, ents := [{ term := s.metadata.term, index := s.metadata.index }] } := by
  have h1 := hi.pend s hs
  unfold Storage.saveSnap
  rw [if_neg (by rw [readyOf_snap_none hi, hs]; simp)]
  have : (readyOf env n).snapshot = s := by show n.raft.log.unstable.snapshot.getD {} = s; rw [hs]; rfl
  rw [this]
  unfold Storage.applySnapshot
  rw [if_neg (by omega)]

/-- The disk while the entries are being written: `es` of them are there. -/
theorem torn_part {env : Env} {n : RawNode} (hi : LInv n.raft.log) (hd : DiskInv n) {es : List Entry} {st : Storage}
    (hp : es <+: (readyOf env n).entries) (h : (n.raft.log.storage.saveSnap (readyOf env n)).append es = .ok st) :
    st.WF ∧ st.hardState = n.raft.log.storage.hardState ∧ n.prevHardSt.commit ≤ st.view.last ∧
    (n.raft.log.unstable.snapshot = none → st.snapshot = n.raft.log.storage.snapshot ∧ st.view.base = n.raft.log.storage.view.base ∧
      ∀ i, i ≤ n.prevHardSt.commit → st.view.entry i = n.raft.log.storage.view.entry i) ∧
    (∀ s, n.raft.log.unstable.snapshot = some s → st.snapshot = s ∧ st.view.base = s.metadata.index) := by
  have hc : Contig n.raft.log.unstable.offset es := contig_prefix hi.wf.contig hp
  have hab := hd.above
  have ho := hab.offset
  cases hs : n.raft.log.unstable.snapshot with
  | none =>
    have he : n.raft.log.storage.saveSnap (readyOf env n) = n.raft.log.storage := if_pos ((readyOf_snap_none hi).2 hs)
    rw [he] at h
    obtain ⟨h1, h2⟩ := hi.wf.nosnap hs
    obtain ⟨e1, e2, e3, e4, e5, e6, _⟩ := append_part hi.wf.stor h1 h2 hc h
    refine ⟨e1, e2, by omega, fun _ => ⟨e3, e4, fun i hi => e6 i (by omega)⟩, fun s h => (nomatch h)⟩
  | some s =>
    rw [saveSnap_eq hi hs] at h
    have hoff := hi.wf.snap s hs
    have hw : ({ n.raft.log.storage with snapshot := s, ents := [{ term := s.metadata.term, index := s.metadata.index }] } : Storage).WF :=
      ⟨by simp, Contig.cons.2 ⟨rfl, .nil _⟩⟩
    obtain ⟨e1, e2, e3, e4, e5, e6, _⟩ := append_part hw (k := n.raft.log.unstable.offset)
      (by show s.metadata.index < _; omega) (by show _ ≤ s.metadata.index + 0 + 1; omega) hc h
    refine ⟨e1, e2, by omega, fun h => (nomatch h), fun s' h => ?_⟩
    cases h
    exact ⟨e3, e4⟩

theorem disk_sound {n : RawNode} (hi : LInv n.raft.log) (hd : DiskInv n) : n.raft.log.storage.Sound := by
  refine ⟨hi.wf.stor, ?_⟩
  have h1 := hd.snap
  by_cases h0 : n.raft.log.storage.hardState = {}
  · have := hd.none h0; omega
  · have := hd.hard h0; omega

theorem torn_sound {env : Env} {n : RawNode} (hi : LInv n.raft.log) (hd : DiskInv n) {st : Storage}
    (h : n.raft.log.storage.Torn (readyOf env n) st) : st.Sound := by
  cases h with
  | before => exact disk_sound hi hd
  | part es hp h =>
    obtain ⟨e1, e2, e3, e4, e5⟩ := torn_part hi hd hp h
    refine ⟨e1, ?_⟩
    cases hs : n.raft.log.unstable.snapshot with
    | none =>
      obtain ⟨k1, k2, _⟩ := e4 hs
      rw [k1, k2, e2]
      exact (disk_sound hi hd).snap
    | some s =>
      obtain ⟨k1, k2⟩ := e5 s hs
      rw [k1, k2]
      omega
  | all h =>
    obtain ⟨s1, s2, s3, s4, s5⟩ := hd.saved hi h
    refine ⟨s1, ?_⟩
    by_cases h0 : st.hardState = {}
    · have := s5 h0; omega
    · have := s4 h0; omega

theorem Life.inv {env : Env} {n : RawNode} (h : Life env n) : NInv n.raft.core ∧ DiskInv n := by
  induction h with
  | start cfg rng hs h => exact ⟨.new h hs, .new h hs⟩
  | run _ hr ih => exact ⟨hr.ninv ih.1, hr.disk ih.1 ih.2⟩
  | crash cfg rng _ h ih => exact ⟨.new h (disk_sound ih.1.linv ih.2), .new h (disk_sound ih.1.linv ih.2)⟩
  | torn cfg rng _ hr ht h ih =>
    have hs := torn_sound (env := env) ih.1.linv ih.2 (getReady_eq ih.1.linv hr ▸ ht)
    exact ⟨.new h hs, .new h hs⟩

theorem disk_hard {n : RawNode} (hd : DiskInv n) : n.raft.log.storage.hardState = {} ∨
    (n.raft.log.storage.view.base ≤ n.raft.log.storage.hardState.commit ∧ n.raft.log.storage.hardState.commit ≤ n.raft.log.storage.view.last) := by
  by_cases h0 : n.raft.log.storage.hardState = {}
  · exact Or.inl h0
  · right; rw [hd.hard h0]; exact ⟨hd.base, hd.last⟩

/-- Wherever in a life the node crashes while it is not saving, its disk can be restarted from. -/
theorem C84_crash_between {env : Env} {a : RawNode} (ha : Life env a) {cfg : TConfig} (hn : a.raft.log.storage.Names cfg) {c : Config}
    (hc : c.Sane a.raft.log.storage) (rng : Nat) :
    ∃ b, RawNode.new env c a.raft.log.storage rng = .ok b ∧ b.raft.log.view = a.raft.log.storage.view ∧ b.raft.trk.config = cfg ∧
      b.raft.term = a.raft.log.storage.hardState.term ∧ b.raft.vote = a.raft.log.storage.hardState.vote := by
  obtain ⟨hi, hd⟩ := ha.inv
  obtain ⟨b, h1, _, _, h2, h3, _, _, h4, _, _, h5, _⟩ := C51_restart (env := env) rng ⟨hi.linv.wf.stor, disk_hard hd, hn⟩ hc
  exact ⟨b, h1, h4, h5, h2, h3⟩

/-- A Ready without a snapshot can be torn anywhere: the node restarts from what was written, with a term, vote and commit index
that are those of before or those of after, and with every entry the old disk recorded as committed. -/
theorem C84_torn_entries {env : Env} {a a' : RawNode} {rd : Ready} (ha : Life env a) (hr : a.getReady env = .ok (a', rd))
    (hs : isEmptySnap rd.snapshot) {st : Storage} (ht : a.raft.log.storage.Torn rd st) {cfg : TConfig} (hn : a.raft.log.storage.Names cfg) {c : Config}
    (hc : c.Sane st) (rng : Nat) :
    ∃ b, RawNode.new env c st rng = .ok b ∧ b.raft.trk.config = cfg ∧ b.raft.log.view = st.view ∧
      (st.hardState = a.raft.log.storage.hardState ∨ st.hardState = rd.hardState) ∧
      b.raft.term = st.hardState.term ∧ b.raft.vote = st.hardState.vote ∧
      (st.hardState ≠ {} → b.raft.log.committed = st.hardState.commit) ∧
      ∀ i, i ≤ a.raft.log.storage.hardState.commit → b.raft.log.view.entry i = a.raft.log.storage.view.entry i := by
  obtain ⟨hi, hd⟩ := ha.inv
  have hi : LInv a.raft.log := hi.linv
  obtain rfl := getReady_eq hi hr
  have hsn := (readyOf_snap_none hi).1 hs
  have hle : a.raft.log.storage.hardState.commit ≤ a.prevHardSt.commit := by
    by_cases h0 : a.raft.log.storage.hardState = {}
    · rw [h0]; exact Nat.zero_le _
    · exact Nat.le_of_eq (hd.hard h0)
  have key : st.WF ∧ (st.hardState = {} ∨ (st.view.base ≤ st.hardState.commit ∧ st.hardState.commit ≤ st.view.last)) ∧
      st.snapshot = a.raft.log.storage.snapshot ∧ (st.hardState = a.raft.log.storage.hardState ∨ st.hardState = (readyOf env a).hardState) ∧
      ∀ i, i ≤ a.prevHardSt.commit → st.view.entry i = a.raft.log.storage.view.entry i := by
    cases ht with
    | before => exact ⟨hi.wf.stor, disk_hard hd, rfl, Or.inl rfl, fun _ _ => rfl⟩
    | part es hp h =>
      obtain ⟨e1, e2, e3, e4, _⟩ := torn_part hi hd hp h
      obtain ⟨k1, k2, k3⟩ := e4 hsn
      refine ⟨e1, ?_, k1, Or.inl e2, k3⟩
      by_cases h0 : a.raft.log.storage.hardState = {}
      · exact Or.inl (e2.trans h0)
      · right; rw [e2, hd.hard h0, k2]; exact ⟨hd.base, e3⟩
    | all h =>
      obtain ⟨s1, s2, s3, s4, s5⟩ := hd.saved hi h
      obtain ⟨st', h1, e2, e3, e4, e5⟩ := save_eq (env := env) hi
      rw [h] at h1
      cases h1
      rw [hsn] at e4
      refine ⟨s1, ?_, e4, ?_, ?_⟩
      · by_cases h0 : st.hardState = {}
        · exact Or.inl h0
        · right; rw [s4 h0, s2]; exact ⟨hi.base_com, hi.com_last⟩
      · rw [e5]
        split
        · exact Or.inl rfl
        · exact Or.inr rfl
      · intro i hle
        rw [s2]
        have hv := RaftLog.view_nosnap hsn
        have hab := hd.above.offset
        obtain ⟨h1, h2⟩ := hi.wf.nosnap hsn
        have : a.raft.log.view = a.raft.log.storage.view.splice a.raft.log.unstable.offset a.raft.log.unstable.entries := by
          rw [hv]; rfl
        rw [this, LogView.splice_entry_lt (by omega) h2]
  obtain ⟨k1, k2, k3, k4, k5⟩ := key
  have hn' : st.Names cfg := by unfold Storage.Names; rw [k3]; exact hn
  obtain ⟨b, h1, _, _, h2, h3, h6, _, h4, _, _, h5, _⟩ := C51_restart (env := env) rng ⟨k1, k2, hn'⟩ hc
  exact ⟨b, h1, h5, h4, k4, h2, h3, h6, fun i h => by rw [h4]; exact k5 i (by omega)⟩

/-- A Ready with a snapshot must be saved in one piece: once the snapshot is on the disk without the new hard state, the node
cannot be restarted, unless the disk had no hard state yet. -/
theorem C84_torn_snapshot {env : Env} {a a' : RawNode} {rd : Ready} (ha : Life env a) (hr : a.getReady env = .ok (a', rd))
    (hs : ¬ isEmptySnap rd.snapshot) {es : List Entry} (hes : es <+: rd.entries) {st : Storage}
    (ht : (a.raft.log.storage.saveSnap rd).append es = .ok st) {cfg : TConfig} (hn : st.Names cfg) {c : Config} (hc : c.Sane st) (rng : Nat) :
    (∃ b, RawNode.new env c st rng = .ok b) ↔ a.raft.log.storage.hardState = {} := by
  obtain ⟨hi, hd⟩ := ha.inv
  have hi : LInv a.raft.log := hi.linv
  obtain rfl := getReady_eq hi hr
  obtain ⟨s, hsn⟩ : ∃ s, a.raft.log.unstable.snapshot = some s := by
    cases h : a.raft.log.unstable.snapshot with
    | none => exact absurd ((readyOf_snap_none hi).2 h) hs
    | some s => exact ⟨s, rfl⟩
  obtain ⟨e1, e2, e3, _, e5⟩ := torn_part hi hd hes ht
  obtain ⟨k1, k2⟩ := e5 s hsn
  have hab := hd.above.snap s hsn
  constructor
  · rintro ⟨b, hb⟩
    refine Decidable.byContradiction fun h0 => ?_
    rcases (RawNode.new_ok hb).1.commit with ⟨h, _⟩ | ⟨_, h, _⟩
    · exact h0 (e2.symm.trans h)
    · have hf : st.firstIndex = st.view.base + 1 := Storage.firstIndex_eq _
      rw [e2, hd.hard h0] at h
      omega
  · intro h0
    obtain ⟨b, h1, _⟩ := C51_restart (env := env) rng ⟨e1, Or.inl (e2.trans h0), hn⟩ hc
    exact ⟨b, h1⟩

/-- If the hard state is written before the entries (and there is no snapshot), the node can be restarted exactly if it does not
record as committed an entry the disk does not have yet. -/
theorem C84_hard_state_first {env : Env} {a a' : RawNode} {rd : Ready} (ha : Life env a) (hr : a.getReady env = .ok (a', rd))
    (he : ¬ isEmptyHardState rd.hardState) (hs : isEmptySnap rd.snapshot) {cfg : TConfig} (hn : a.raft.log.storage.Names cfg) {c : Config}
    (hc : c.Sane (a.raft.log.storage.setHardState rd.hardState)) (rng : Nat) :
    (∃ b, RawNode.new env c (a.raft.log.storage.setHardState rd.hardState) rng = .ok b) ↔ rd.hardState.commit ≤ a.raft.log.storage.lastIndex := by
  obtain ⟨hi, hd⟩ := ha.inv
  have hi : LInv a.raft.log := hi.linv
  obtain rfl := getReady_eq hi hr
  have hl := hi.wf.stor.lastIndex_eq
  have hne : (readyOf env a).hardState ≠ {} := by intro h; exact he (by simp [isEmptyHardState, h])
  have hcm : (readyOf env a).hardState.commit = a.raft.log.committed := by
    have := readyOf_hard (env := env) hd
    rwa [if_neg he] at this
  constructor
  · rintro ⟨b, hb⟩
    rcases (RawNode.new_ok hb).1.commit with ⟨h, _⟩ | ⟨_, _, h⟩
    · exact absurd h hne
    · exact h
  · intro hle
    have hb := hd.base
    have hcom := hd.com
    obtain ⟨b, h1, _⟩ := C51_restart (env := env) (st := a.raft.log.storage.setHardState (readyOf env a).hardState) (cfg := cfg) rng
      ⟨⟨hi.wf.stor.ne, hi.wf.stor.contig⟩, Or.inr ⟨by show a.raft.log.storage.view.base ≤ (readyOf env a).hardState.commit; omega,
        by show (readyOf env a).hardState.commit ≤ a.raft.log.storage.view.last; rw [← hl]; exact hle⟩, hn⟩ hc
    exact ⟨b, h1⟩

/-! ## Examples: a node on a disk with one entry and a hard state -/

namespace CrashDemo

/-- The node on `usedStore` (term 5, one entry, nothing committed). -/
def base : RawNode := usedNode

/-- Two entries, of which one is committed. -/
def appMsg : Message :=
  { type := .app, src := 2, «to» := 1, term := 6, index := 1, logTerm := 5, commit := 2
    entries := [{ term := 6, index := 2 }, { term := 6, index := 3 }] }

def snapMsg : Message :=
  { type := .snap, src := 2, «to» := 1, term := 6
    snapshot := some { metadata := { index := 7, term := 6, confState := { voters := [1, 2, 3] } } } }

def after (m : Message) : RawNode :=
  match (Call.step m).run Demo.env base with
  | .ok n => n
  | _ => default

def appended : RawNode := after appMsg
def restored : RawNode := after snapMsg

theorem used_sound : usedStore.Sound := by
  refine ⟨⟨(nomatch ·), ?_⟩, by decide⟩
  intro i e h
  match i, h with
  | 0, h => cases h; rfl
  | 1, h => cases h; rfl
  | i + 2, h => simp [usedStore] at h

theorem base_life : Life Demo.env base := .start (Demo.cfg 1) (st := usedStore) 0 used_sound (by decide +kernel)

theorem appended_life : Life Demo.env appended := by
  refine .run base_life (.call (.step appMsg) .refl trivial (fun _ => by decide) ?_ (by decide +kernel))
  intro _
  refine ⟨?_, by decide, by decide⟩
  intro i e h
  match i, h with
  | 0, h => cases h; rfl
  | 1, h => cases h; rfl

theorem restored_life : Life Demo.env restored :=
  .run base_life (.call (.step snapMsg) .refl trivial (fun _ => by decide) (nomatch ·) (by decide +kernel))

/-- The Ready of a node. -/
def ready (n : RawNode) : Ready :=
  match n.getReady Demo.env with
  | .ok (_, rd) => rd
  | _ => {}

/-- One of the two entries is written: the restart returns. -/
example : (match appended.raft.log.storage.append ((ready appended).entries.take 1) with
    | .ok st => (match RawNode.new Demo.env (Demo.cfg 1) st 0 with
      | .ok n => (n.raft.log.view.ents.length, n.raft.term, n.raft.log.committed)
      | _ => (99, 99, 99))
    | _ => (99, 99, 99)) = (2, 5, 0) := by decide +kernel

/-- The hard state is written before the entries: it aborts. -/
example : (match RawNode.new Demo.env (Demo.cfg 1) (appended.raft.log.storage.setHardState (ready appended).hardState) 0 with
    | .fatal _ => true
    | _ => false) = true := by decide +kernel

/-- The snapshot is written without the hard state: it aborts. -/
example : ¬ isEmptySnap (ready restored).snapshot ∧ (match RawNode.new Demo.env (Demo.cfg 1) (restored.raft.log.storage.saveSnap (ready restored)) 0 with
    | .fatal _ => true
    | _ => false) = true := by decide +kernel

/-- The membership hypothesis is met. -/
example : base.raft.log.storage.Names { voters := { incoming := [1, 2, 3] } } := by
  refine ⟨(Demo.node 1 []).raft.trk, by decide, by decide +kernel, ?_, ?_, by decide⟩
  · exact (show (Demo.node 1 []).raft.trk.config = { voters := { incoming := [1, 2, 3] } } by decide) ▸ Demo.conf_inv
  · rintro (h | h | h | h) <;> revert h <;> decide

end CrashDemo

end Craft
