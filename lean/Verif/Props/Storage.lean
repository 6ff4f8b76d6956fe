import Verif.Proofs.Storage
import Verif.Model.StorageAlias

/-! # C18, C19: `MemoryStorage` -/

namespace Craft
open Spec

namespace Spec

/-- Operations on the storage. -/
inductive StorOp where
  | append (es : List Entry)
  | compact (i : Nat)
  | applySnapshot (s : Snapshot)
  | createSnapshot (i : Nat) (cs : Option ConfState) (data : Bytes)
  | setHardState (h : HardState)

/-- What a user thinks a storage is: a log, and the position of its latest snapshot. -/
structure Stor where
  log : LogView := {}
  snapIndex : Nat := 0
  snapTerm : Nat := 0

/-- Meaning of the operations; `none`: the call is outside the contract and does not return (a gap in `Append`, an index
beyond the log, a snapshot of a compacted index). Refused calls (old snapshot, already compacted) change nothing. -/
def Stor.step (a : Stor) : StorOp → Option Stor
  | .append [] => some a
  | .append (e :: es) =>
    if e.index + es.length ≤ a.log.base then some a
    else if e.index ≤ a.log.last + 1 then
      some { a with log := a.log.splice (max e.index (a.log.base + 1)) ((e :: es).drop (a.log.base + 1 - e.index)) }
    else none
  | .compact i =>
    if i ≤ a.log.base then some a else if i ≤ a.log.last then some { a with log := a.log.compact i } else none
  | .applySnapshot s =>
    if s.metadata.index ≤ a.snapIndex then some a
    else some { log := { base := s.metadata.index, baseTerm := s.metadata.term, ents := [] },
                snapIndex := s.metadata.index, snapTerm := s.metadata.term }
  | .createSnapshot i _ _ =>
    if i ≤ a.snapIndex then some a
    else if i ≤ a.log.last ∧ a.log.base ≤ i then some { a with snapIndex := i, snapTerm := a.log.termAt i }
    else none
  | .setHardState _ => some a

def Stor.run : Stor → List StorOp → Option Stor
  | a, [] => some a
  | a, o :: os => match a.step o with
    | none => none
    | some a => a.run os

/-- Calling contract: the appended entries are numbered consecutively, with 64-bit indexes. -/
def StorOp.Legal : StorOp → Prop
  | .append es => ∃ k, Contig k es ∧ k < 2 ^ 64
  | _ => True

end Spec

/-- The model's operations (results of refused calls ignored). -/
def Storage.opStep (s : Storage) : StorOp → Res Storage
  | .append es => s.append es
  | .compact i => do let (s, _) ← s.compact i; pure s
  | .applySnapshot x => .ok (s.applySnapshot x).1
  | .createSnapshot i cs d => do let (s, _) ← s.createSnapshot i cs d; pure s
  | .setHardState h => .ok (s.setHardState h)

def Storage.opRun : Storage → List StorOp → Res Storage
  | s, [] => .ok s
  | s, o :: os => do
    let s ← s.opStep o
    s.opRun os

/-- The storage holds the abstract log. -/
structure Storage.Rep (s : Storage) (a : Stor) : Prop where
  wf : s.WF
  log : s.view = a.log
  snapIndex : s.snapshot.metadata.index = a.snapIndex
  snapTerm : s.snapshot.metadata.term = a.snapTerm

theorem Storage.rep_step {s : Storage} {a : Stor} (h : s.Rep a) (o : StorOp) (hl : o.Legal) :
    (∀ a', a.step o = some a' → ∃ s', s.opStep o = .ok s' ∧ s'.Rep a') ∧
    (a.step o = none → (s.opStep o).isOk = false) := by
  obtain ⟨wf, hv, hi, ht⟩ := h
  have hb : s.offset = a.log.base := by rw [← hv]; rfl
  cases o with
  | append es =>
    obtain ⟨k, hk, h64⟩ := hl
    cases es with
    | nil => exact ⟨fun a' h => ⟨s, rfl, by cases h; exact ⟨wf, hv, hi, ht⟩⟩, fun h => by cases h⟩
    | cons e es =>
      obtain rfl : e.index = k := (Contig.cons.1 hk).1
      obtain ⟨h1, h2, h3⟩ := wf.append_eq hk (by simp)
      rw [hv] at h1 h2 h3
      simp only [List.length_cons] at h1 h2 h3
      simp only [Stor.step, Storage.opStep]
      split
      · rename_i hc
        exact ⟨fun a' h => ⟨s, h1 (by omega), by cases h; exact ⟨wf, hv, hi, ht⟩⟩, fun h => by cases h⟩
      · split
        · rename_i hc hc2
          refine ⟨fun a' h => ?_, fun h => by cases h⟩
          cases h
          obtain ⟨s', e1, e2, e3, e4, e5⟩ := h2 (by omega) hc2
          exact ⟨s', e1, e2, e5, by rw [e4]; exact hi, by rw [e4]; exact ht⟩
        · refine ⟨fun a' h => by (cases h), fun _ => ?_⟩
          rw [h3 (by omega) (by omega) h64]; rfl
  | compact i =>
    obtain ⟨h1, h2⟩ := wf.compact_eq i
    simp only [Stor.step, Storage.opStep, h1]
    rw [hv] at h2 ⊢
    by_cases c1 : i ≤ a.log.base
    · simp only [if_pos c1]
      exact ⟨fun a' h => ⟨s, rfl, by cases h; exact ⟨wf, hv, hi, ht⟩⟩, fun h => by cases h⟩
    · by_cases c2 : i ≤ a.log.last
      · have c3 : ¬ i > a.log.last := by omega
        simp only [if_neg c1, if_pos c2, if_neg c3]
        obtain ⟨w, v⟩ := h2 (by omega) (by omega)
        refine ⟨fun a' h => ?_, fun h => by cases h⟩
        cases h
        exact ⟨_, rfl, w, v, hi, ht⟩
      · have c3 : i > a.log.last := by omega
        simp only [if_neg c1, if_neg c2, if_pos c3]
        exact ⟨fun a' h => by (cases h), fun _ => rfl⟩
  | applySnapshot x =>
    simp only [Stor.step, Storage.opStep, Storage.applySnapshot]
    rw [hi]
    by_cases c : x.metadata.index ≤ a.snapIndex
    · simp only [ge_iff_le, if_pos c]
      exact ⟨fun a' h => ⟨s, rfl, by cases h; exact ⟨wf, hv, hi, ht⟩⟩, fun h => by cases h⟩
    · simp only [ge_iff_le, if_neg c]
      refine ⟨fun a' h => ?_, fun h => by cases h⟩
      cases h
      refine ⟨_, rfl, ⟨by simp, ?_⟩, rfl, rfl, rfl⟩
      exact Contig.cons.2 ⟨rfl, .nil _⟩
  | createSnapshot i cs d =>
    simp only [Stor.step, Storage.opStep, Storage.createSnapshot]
    rw [hi, wf.lastIndex_eq, hv, hb]
    by_cases c1 : i ≤ a.snapIndex
    · simp only [if_pos c1]
      exact ⟨fun a' h => ⟨s, rfl, by cases h; exact ⟨wf, hv, hi, ht⟩⟩, fun h => by cases h⟩
    · by_cases c2 : i > a.log.last
      · have c3 : ¬ (i ≤ a.log.last ∧ a.log.base ≤ i) := by omega
        simp only [if_neg c1, if_pos c2, if_neg c3]
        exact ⟨fun a' h => by (cases h), fun _ => rfl⟩
      · by_cases c4 : i < a.log.base
        · have c3 : ¬ (i ≤ a.log.last ∧ a.log.base ≤ i) := by omega
          simp only [if_neg c1, if_neg c2, if_neg c3, if_pos c4]
          exact ⟨fun a' h => by (cases h), fun _ => rfl⟩
        · have c3 : (i ≤ a.log.last ∧ a.log.base ≤ i) := by omega
          simp only [if_neg c1, if_neg c2, if_pos c3, if_neg c4]
          refine ⟨fun a' h => ?_, fun h => by cases h⟩
          cases h
          refine ⟨_, rfl, ⟨wf.ne, wf.contig⟩, hv, rfl, ?_⟩
          have := wf.term_eq i
          rw [hv, if_neg (by omega), if_pos (by omega)] at this
          unfold Storage.term at this
          rw [hb, if_neg (by omega)] at this
          simp only
          cases he : s.ents[i - a.log.base]? with
          | none => rw [he] at this; cases this
          | some e =>
            rw [he] at this
            injection this with this
            rw [List.getD_eq_getElem?_getD, he]
            exact this
  | setHardState h => exact ⟨fun a' h' => ⟨_, rfl, by cases h'; exact ⟨⟨wf.ne, wf.contig⟩, hv, hi, ht⟩⟩, fun h => by cases h⟩

/-- **C18.** After any sequence of calls the storage holds exactly the log the specification says, and answers every query
from it; a sequence the specification rejects does not return normally. -/
theorem C18_storage_is_a_log (ops : List StorOp) (hl : ∀ o ∈ ops, o.Legal) :
    (Stor.run {} ops = none → (Storage.new.opRun ops).isOk = false) ∧
    ∀ a, Stor.run {} ops = some a → ∃ s, Storage.new.opRun ops = .ok s ∧
      a.log.WF ∧
      s.firstIndex = a.log.base + 1 ∧ s.lastIndex = a.log.last ∧
      s.snapShot.metadata.index = a.snapIndex ∧ s.snapShot.metadata.term = a.snapTerm ∧
      (∀ i, s.term i = if i < a.log.base then .error .compacted
        else if i ≤ a.log.last then .ok (a.log.termAt i) else .error .unavailable) ∧
      (∀ env lo hi mx, a.log.base < lo → lo < hi → hi ≤ a.log.last + 1 →
        s.entries env lo hi mx = .ok (.ok (limitSize env.entSize (a.log.range lo hi) mx))) ∧
      (∀ env lo hi mx, lo ≤ a.log.base → s.entries env lo hi mx = .ok (.error .compacted)) := by
  suffices H : ∀ (ops : List StorOp) (s : Storage) (a : Stor), (∀ o ∈ ops, o.Legal) → s.Rep a →
      (a.run ops = none → (s.opRun ops).isOk = false) ∧ ∀ a', a.run ops = some a' → ∃ s', s.opRun ops = .ok s' ∧ s'.Rep a' by
    obtain ⟨h1, h2⟩ := H ops Storage.new {} hl ⟨Storage.wf_new, rfl, rfl, rfl⟩
    refine ⟨h1, fun a ha => ?_⟩
    obtain ⟨s, e, ⟨wf, hv, hi, ht⟩⟩ := h2 a ha
    refine ⟨s, e, hv ▸ wf.view_wf, by rw [← hv]; rfl, hv ▸ wf.lastIndex_eq, hi, ht, fun i => hv ▸ wf.term_eq i, ?_, ?_⟩
    · intro env lo hi mx h1 h2 h3
      rw [wf.entries_eq env lo hi mx (by omega), hv, if_neg (by omega), if_neg (by omega), if_neg]
      intro hnil
      unfold LogView.last at h3
      rw [hnil] at h3
      simp at h3
      omega
    · intro env lo hi mx h1
      unfold Storage.entries
      rw [if_pos (by rw [show s.offset = s.view.base from rfl, hv]; exact h1)]
  intro ops
  induction ops with
  | nil =>
    intro s a _ h
    refine ⟨fun h => by (cases h), fun a' h' => ⟨s, rfl, ?_⟩⟩
    cases h'
    exact h
  | cons o os ih =>
    intro s a hl h
    obtain ⟨h1, h2⟩ := Storage.rep_step h o (hl o List.mem_cons_self)
    simp only [Stor.run, Storage.opRun]
    cases hs : a.step o with
    | none =>
      refine ⟨fun _ => ?_, fun a' h => by cases h⟩
      have := h2 hs
      cases ho : s.opStep o <;> simp [ho, Res.isOk] at this ⊢
    | some a1 =>
      obtain ⟨s1, e1, r1⟩ := h1 a1 hs
      rw [e1]
      exact ih s1 a1 (fun o ho => hl o (List.mem_cons_of_mem _ ho)) r1

/-- **C18.** `Append` replaces exactly the suffix starting at its first index: indexes before it keep their entry, indexes
from it on hold the appended entries, nothing else remains. -/
theorem C18_append_replaces_suffix (s : Storage) (wf : s.WF) (k : Nat) (es : List Entry) (hc : Contig k es) (hne : es ≠ [])
    (h1 : s.view.base < k) (h2 : k ≤ s.view.last + 1) :
    ∃ s', s.append es = .ok s' ∧ s'.lastIndex + 1 = k + es.length ∧ s'.firstIndex = s.firstIndex ∧
      (∀ i, i < k → s'.view.entry i = s.view.entry i) ∧ (∀ i, k ≤ i → s'.view.entry i = es[i - k]?) := by
  have := List.length_pos_iff.2 hne
  obtain ⟨s', e1, e2, _, _, e5⟩ := (wf.append_eq hc hne).2.1 (by omega) h2
  rw [show max k (s.view.base + 1) = k by omega, show s.view.base + 1 - k = 0 by omega, List.drop_zero] at e5
  refine ⟨s', e1, ?_, ?_, ?_, ?_⟩
  · rw [e2.lastIndex_eq, e5]; exact LogView.splice_last h1 h2
  · rw [Storage.firstIndex_eq, Storage.firstIndex_eq, e5]; rfl
  · intro i hi; rw [e5]; exact LogView.splice_entry_lt hi h2
  · intro i hi; rw [e5]; exact LogView.splice_entry_ge hi h1 h2

-- a run with append, overwrite, compaction and snapshots meets the hypotheses and is accepted
example : ∃ a, Stor.run {} [.append [⟨1, 1, .normal, []⟩, ⟨1, 2, .normal, []⟩, ⟨1, 3, .normal, []⟩],
    .append [⟨2, 3, .normal, [7]⟩, ⟨2, 4, .normal, []⟩], .createSnapshot 3 none [9], .compact 2] = some a ∧
    a.log.base = 2 ∧ a.log.baseTerm = 1 ∧ a.log.ents = [⟨2, 3, .normal, [7]⟩, ⟨2, 4, .normal, []⟩] ∧ a.snapTerm = 2 := by
  exact ⟨_, rfl, rfl, rfl, rfl, rfl⟩

/-! ## C19 -/

/-- The heap model projects onto the value model used everywhere else. -/
theorem HStorage.val_createSnapshot (s : HStorage) (hp : s.ptr < s.heap.length) (i : Nat) (cs : Option ConfState) (d : Bytes) :
    s.val.createSnapshot i cs d = (s.createSnapshot i cs d >>= fun p =>
      (pure (p.1.val, p.2.map fun a => p.1.deref a) : Res (Storage × Except Err Snapshot))) := by
  unfold HStorage.createSnapshot Storage.createSnapshot
  dsimp only
  rw [show s.val.snapshot = s.deref s.ptr from rfl]
  split
  · rfl
  · split
    · rfl
    · split
      · rfl
      · simp [HStorage.val, HStorage.deref, hp, Except.map]

theorem HStorage.val_applySnapshot (s : HStorage) (a : Nat) :
    (s.applySnapshot a).1.val = (s.val.applySnapshot (s.deref a)).1 := by
  unfold HStorage.applySnapshot Storage.applySnapshot
  dsimp only
  rw [show s.val.snapshot = s.deref s.ptr from rfl]
  split <;> rfl

/-- Everything that can happen to the storage, pointers included. -/
inductive HOp where
  | alloc (v : Snapshot) | append (es : List Entry) | compact (i : Nat) | applySnapshot (a : Nat)
  | createSnapshot (i : Nat) (cs : Option ConfState) (data : Bytes) | setHardState (h : HardState)

def HStorage.opStep (s : HStorage) : HOp → Res HStorage
  | .alloc v => .ok (s.alloc v).1
  | .append es => s.append es
  | .compact i => do let (s, _) ← s.compact i; pure s
  | .applySnapshot a => .ok (s.applySnapshot a).1
  | .createSnapshot i cs d => do let (s, _) ← s.createSnapshot i cs d; pure s
  | .setHardState h => .ok (s.setHardState h)

def HStorage.opRun : HStorage → List HOp → Res HStorage
  | s, [] => .ok s
  | s, o :: os => do
    let s ← s.opStep o
    s.opRun os

/-- **C19 is false of the code.** There are a reachable storage and a later accepted call after which the snapshot object
obtained from `SnapShot()` reads differently. -/
theorem C19_snapshot_stable_false :
    ¬ ∀ (ops : List HOp) (s : HStorage) (o : HOp) (s' : HStorage), HStorage.opRun {} ops = .ok s → s.opStep o = .ok s' →
        s'.deref s.snapShot = s.deref s.snapShot := by
  intro h
  have := h [.append [⟨1, 1, .normal, []⟩, ⟨1, 2, .normal, []⟩], .createSnapshot 1 none [5]] _ (.createSnapshot 2 none [6]) _
    rfl rfl
  revert this
  decide

/-- **C19, the part that holds.** Every call other than an accepted `CreateSnapshot` leaves every snapshot object alone,
and `CreateSnapshot` changes only the object the storage currently points to; so a snapshot handed out earlier and replaced
by `ApplySnapshot` since is stable. Missing for C19: the current snapshot is overwritten in place by `CreateSnapshot`. -/
theorem C19_snapshot_stable_partial (s s' : HStorage) (o : HOp) (h : s.opStep o = .ok s') (a : Nat) (ha : a < s.heap.length)
    (hx : (∀ i cs d, o ≠ .createSnapshot i cs d) ∨ a ≠ s.ptr) : s'.deref a = s.deref a := by
  cases o with
  | alloc v =>
    cases h
    simp [HStorage.deref, HStorage.alloc, List.getElem?_append_left ha]
  | append es =>
    simp only [HStorage.opStep, HStorage.append, Res.bind_eq_ok] at h
    obtain ⟨t, _, h⟩ := h
    cases h; rfl
  | compact i =>
    simp only [HStorage.opStep, HStorage.compact, Res.bind_eq_ok] at h
    obtain ⟨t, ⟨u, _, h1⟩, h2⟩ := h
    cases h1; cases h2; rfl
  | applySnapshot b =>
    simp only [HStorage.opStep, HStorage.applySnapshot] at h
    split at h <;> cases h <;> rfl
  | setHardState hs => cases h; rfl
  | createSnapshot i cs d =>
    have hne : a ≠ s.ptr := hx.resolve_left fun h => h i cs d rfl
    simp only [HStorage.opStep, HStorage.createSnapshot] at h
    split at h
    · cases h; rfl
    · split at h
      · cases h
      · split at h
        · cases h
        · cases h
          simp [HStorage.deref, List.getElem?_set_ne (Ne.symm hne)]

-- a stable one: obtained, then replaced by an accepted ApplySnapshot, then CreateSnapshot
example : ∃ s s' : HStorage, HStorage.opRun {} [.alloc { metadata := { index := 4, term := 2 } }, .applySnapshot 1,
      .append [⟨2, 5, .normal, []⟩]] = .ok s ∧ s.opStep (.createSnapshot 5 none [1]) = .ok s' ∧
      (0 : Nat) < s.heap.length ∧ (0 : Nat) ≠ s.ptr := ⟨_, _, rfl, rfl, by decide, by decide⟩

end Craft
