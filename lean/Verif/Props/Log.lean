import Verif.Proofs.Log

/-! # `RaftLog`: C20 – C26 -/

namespace Craft
open Spec

/-! ## C20: one log -/

/-- C20. Every question asked of a `RaftLog` is answered as by the one contiguous log `l.view`. -/
theorem C20_answers_as_one_log (env : Env) {l : RaftLog} (h : l.WF) :
    l.firstIndex = l.view.base + 1 ∧ l.lastIndex = l.view.last ∧ l.view.WF ∧
    (∀ i, l.term i = .ok (.ok (l.view.termAt i))) ∧
    (∀ lo hi mx, lo ≤ hi → l.slice env lo hi mx =
      if lo ≤ l.view.base then .ok (.error .compacted)
      else if l.view.last + 1 < hi then .fatal "log.cc:350"
      else .ok (.ok (limitSize env.entSize (l.view.range lo hi) mx))) ∧
    (∀ i mx, l.entries env i mx =
      if l.view.last < i then .ok (.ok [])
      else if i ≤ l.view.base then .ok (.error .compacted)
      else .ok (.ok (limitSize env.entSize (l.view.ents.drop (i - l.view.base - 1)) mx))) := by
  refine ⟨l.firstIndex_eq, h.lastIndex_eq, h.view_wf, h.term_eq, ?_, h.entries_eq env⟩
  intro lo hi mx hlh
  rw [h.slice_eq, if_neg (by omega)]

/-- C20. Persisting what a Ready hands out (snapshot, then entries) and acknowledging it succeeds, empties the unstable
part and changes no answer. -/
theorem C20_persist_invisible (env : Env) {l : RaftLog} (h : l.WF)
    (hs : ∀ s, l.unstable.snapshot = some s → l.storage.snapshot.metadata.index < s.metadata.index) :
    ∃ l1 l2, l.persist = .ok l1 ∧ l1.ackPersisted l.unstable.entries (l.unstable.snapshot.getD {}) = .ok l2 ∧
      l2.unstable.entries = [] ∧ l2.unstable.snapshot = none ∧ l2.committed = l.committed ∧ l2.applied = l.applied ∧
      ∀ l' ∈ [l1, l2], l'.WF ∧ l'.firstIndex = l.firstIndex ∧ l'.lastIndex = l.lastIndex ∧
        (∀ i, l'.term i = l.term i) ∧ (∀ lo hi mx, l'.slice env lo hi mx = l.slice env lo hi mx) ∧
        (∀ i mx, l'.entries env i mx = l.entries env i mx) := by
  obtain ⟨s', e1, e2, e3, _, _⟩ := h.persist_eq hs
  obtain ⟨w1, v1⟩ := h.of_storage_eq e2 e3
  have hv : ({ l with storage := s' } : RaftLog).storage.view = ({ l with storage := s' } : RaftLog).view := by
    rw [v1]; exact e3
  obtain ⟨l2, f1, f2, f3, f4⟩ := w1.ack_eq hv (by
    intro s hss
    have := hs s hss
    omega)
  refine ⟨_, l2, e1, f1, by rw [f4], by rw [f4], by rw [f4], by rw [f4], ?_⟩
  have key : ∀ l' : RaftLog, l'.WF → l'.view = l.view → l'.WF ∧ l'.firstIndex = l.firstIndex ∧ l'.lastIndex = l.lastIndex ∧
        (∀ i, l'.term i = l.term i) ∧ (∀ lo hi mx, l'.slice env lo hi mx = l.slice env lo hi mx) ∧
        (∀ i mx, l'.entries env i mx = l.entries env i mx) := by
    intro l' hw hv
    refine ⟨hw, ?_, ?_, ?_, ?_, ?_⟩
    · rw [RaftLog.firstIndex_eq, RaftLog.firstIndex_eq, hv]
    · rw [hw.lastIndex_eq, h.lastIndex_eq, hv]
    · intro i; rw [hw.term_eq, h.term_eq, hv]
    · intro lo hi mx; rw [hw.slice_eq, h.slice_eq, hv]
    · intro i mx; rw [hw.entries_eq, h.entries_eq, hv]
  intro l' hl'
  simp only [List.mem_cons, List.not_mem_nil, or_false] at hl'
  rcases hl' with rfl | rfl
  · exact key _ w1 v1
  · exact key _ f2 (by rw [f3, v1])

/-- Witness: storage with two entries, of which the second is being replaced, and a third unstable one. -/
def exampleLog : RaftLog :=
  { storage := { ents := [{ term := 1, index := 4 }, { term := 1, index := 5 }, { term := 1, index := 6 }] }
    unstable := { offset := 6, entries := [{ term := 2, index := 6 }, { term := 2, index := 7 }] }
    committed := 5, applied := 4 }

theorem exampleLog_wf : exampleLog.WF := by
  refine ⟨⟨by decide, ?_⟩, ?_, ?_, ?_, ?_⟩
  · intro i e h
    match i, h with
    | 0, h => simp [exampleLog] at h; subst h; rfl
    | 1, h => simp [exampleLog] at h; subst h; rfl
    | 2, h => simp [exampleLog] at h; subst h; rfl
  · intro i e h
    match i, h with
    | 0, h => simp [exampleLog] at h; subst h; rfl
    | 1, h => simp [exampleLog] at h; subst h; rfl
  · intro s h; cases h
  · intro _; decide
  · intro _ h; cases h

example : exampleLog.view =
    { base := 4, baseTerm := 1, ents := [{ term := 1, index := 5 }, { term := 2, index := 6 }, { term := 2, index := 7 }] } := by
  decide

/-- C20. A late acknowledgement. The application persisted entries up to the storage's last index `i` with term `t`, but the
unstable part was changed (by a new leader's append) before it called `Advance`. If the log still has the entry it
persisted, the two logs agree up to there (log matching); whatever happened, acknowledging `(i, t)` changes no answer: in
particular an unstable entry of another term at `i`, which is not on disk, is not taken for stable. -/
theorem C20_late_ack {l : RaftLog} (h : l.WF) (hs : l.unstable.snapshot = none)
    (hm : l.view.termAt l.storage.view.last = l.storage.view.termAt l.storage.view.last →
      ∀ j, j ≤ l.storage.view.last → l.view.entry j = l.storage.view.entry j) :
    ∃ l', l.stableTo l.storage.view.last (l.storage.view.termAt l.storage.view.last) = .ok l' ∧ l'.WF ∧ l'.view = l.view ∧
      l'.storage = l.storage ∧ l'.committed = l.committed ∧ l'.applied = l.applied := by
  have hno := h.nosnap hs
  have hv := RaftLog.view_nosnap hs
  have hb : l.view.base = l.storage.view.base := by rw [hv]
  have hlast : l.storage.view.last = l.storage.view.base + l.storage.view.ents.length := rfl
  have hents : l.view.ents = l.storage.view.ents.take (l.unstable.offset - l.storage.view.base - 1) ++ l.unstable.entries := by
    rw [hv]
  generalize hi : l.storage.view.last = i at *
  generalize ht : l.storage.view.termAt i = t at *
  have keep : l.unstable.stableTo i t = .ok l.unstable → ∃ l', RaftLog.stableTo l i t = .ok l' ∧ l'.WF ∧
      l'.view = l.view ∧ l'.storage = l.storage ∧ l'.committed = l.committed ∧ l'.applied = l.applied := by
    intro e
    refine ⟨l, ?_, h, rfl, rfl, rfl, rfl⟩
    unfold RaftLog.stableTo
    rw [e]; rfl
  by_cases c : i < l.unstable.offset
  · apply keep
    unfold Unstable.stableTo Unstable.maybeTerm
    rw [if_pos c, hs]; rfl
  by_cases c2 : i < l.unstable.offset + l.unstable.entries.length
  · have hne : l.unstable.entries ≠ [] := by
      intro hc; rw [hc] at c2; simp at c2; omega
    have hlt : i - l.unstable.offset < l.unstable.entries.length := by omega
    have hterm : l.view.termAt i = (l.unstable.entries[i - l.unstable.offset]).term := by
      unfold LogView.termAt LogView.entry
      rw [hb, if_neg (by omega), if_neg (by omega), hents, List.getElem?_append_right (by simp; omega)]
      rw [List.getElem?_eq_getElem (by simp; omega)]
      simp only [List.length_take]
      congr 2; omega
    by_cases c3 : (l.unstable.entries[i - l.unstable.offset]).term = t
    · have hm := hm (by rw [hterm, c3])
      refine ⟨{ l with unstable := ⟨l.unstable.snapshot, l.unstable.entries.drop (i - l.unstable.offset + 1), i + 1⟩ },
        ?_, ?_, ?_, rfl, rfl, rfl⟩
      · unfold RaftLog.stableTo Unstable.stableTo Unstable.maybeTerm
        rw [if_neg c]
        simp only [Unstable.maybeLastIndex, ne_eq, hne, not_false_eq_true, if_true]
        rw [if_neg (by omega), List.getElem?_eq_getElem hlt]
        simp only [Res.ok_bind]
        rw [if_pos ⟨c3, by omega⟩]
        rfl
      · refine ⟨h.stor, ?_, ?_, ?_, ?_⟩
        · have := h.contig.drop (n := i - l.unstable.offset + 1)
          rwa [show l.unstable.offset + (i - l.unstable.offset + 1) = i + 1 by omega] at this
        · intro s hss; rw [hs] at hss; cases hss
        · intro _
          exact ⟨(show l.storage.view.base < i + 1 by omega), (show i + 1 ≤ l.storage.view.last + 1 by omega)⟩
        · intro _ _
          show i + 1 = l.storage.view.last + 1; omega
      · rw [RaftLog.view_nosnap (by exact hs)]
        show ({ base := l.storage.view.base, baseTerm := l.storage.view.baseTerm,
                 ents := l.storage.view.ents.take (i + 1 - l.storage.view.base - 1) ++
                   l.unstable.entries.drop (i - l.unstable.offset + 1) } : LogView) = _
        have hpre : l.storage.view.ents.take (i + 1 - l.storage.view.base - 1) = l.view.ents.take (i - l.view.base) := by
          apply List.ext_getElem?
          intro k
          by_cases ck : k < i - l.view.base
          · have := hm (l.view.base + 1 + k) (by omega)
            unfold LogView.entry at this
            rw [if_neg (by omega), if_neg (by omega)] at this
            rw [List.getElem?_take_of_lt (by omega), List.getElem?_take_of_lt (by omega)]
            rw [show l.view.base + 1 + k - l.view.base - 1 = k by omega,
              show l.view.base + 1 + k - l.storage.view.base - 1 = k by omega] at this
            exact this.symm
          · rw [List.getElem?_eq_none (by simp; omega), List.getElem?_eq_none (by simp; omega)]
        have hdr : l.unstable.entries.drop (i - l.unstable.offset + 1) = l.view.ents.drop (i - l.view.base) := by
          rw [hents, List.drop_append]
          rw [List.drop_eq_nil_of_le (as := l.storage.view.ents.take _) (by rw [List.length_take]; omega), List.nil_append]
          congr 1
          rw [List.length_take]; omega
        rw [hpre, hdr, List.take_append_drop, hv]
    · apply keep
      unfold Unstable.stableTo Unstable.maybeTerm
      rw [if_neg c]
      simp only [Unstable.maybeLastIndex, ne_eq, hne, not_false_eq_true, if_true]
      rw [if_neg (by omega), List.getElem?_eq_getElem hlt]
      simp only [Res.ok_bind]
      rw [if_neg (fun hh => c3 hh.1)]
      rfl
  · apply keep
    unfold Unstable.stableTo Unstable.maybeTerm
    rw [if_neg c]
    unfold Unstable.maybeLastIndex
    by_cases hne : l.unstable.entries = []
    · rw [if_neg (by simpa using hne), hs]; rfl
    · rw [if_pos hne]
      dsimp only
      have := List.length_pos_iff.2 hne
      rw [if_pos (by omega)]; rfl

/-- Both outcomes occur: in `exampleLog` the persisted entry `(6, 1)` has been replaced by `(6, 2)`, and acknowledging it
leaves the log alone. -/
example : exampleLog.storage.view.last = 6 ∧ exampleLog.view.termAt 6 ≠ exampleLog.storage.view.termAt 6 ∧
    exampleLog.stableTo 6 (exampleLog.storage.view.termAt 6) = .ok exampleLog := by decide

/-! ## C21: MaybeAppend -/

/-- C21. For an append starting inside the log: it is accepted iff the previous entry matches. If accepted, the log agrees
with every given entry, everything before the first conflicting entry is unchanged, nothing at all changes if there is no
conflict, nothing survives after the given entries if there is one, and commit becomes
`max(old, min(leader commit, last new index))`. If refused nothing changes. -/
theorem C21_maybeAppend {l l' : RaftLog} {index logTerm commit : Nat} {ents : List Entry} {res : Option Nat} (h : l.WF)
    (hb : l.view.base ≤ index) (hi : index ≤ l.view.last ∨ logTerm ≠ 0) (hc : Contig (index + 1) ents)
    (ht : ∀ e ∈ ents, e.term ≠ 0) (hr : l.maybeAppend index logTerm commit ents = .ok (l', res)) :
    (res.isSome ↔ index ≤ l.view.last ∧ l.view.termAt index = logTerm) ∧
    (res = none → l' = l) ∧
    (∀ last, res = some last →
      last = index + ents.length ∧ l'.WF ∧ l'.view.base = l.view.base ∧ l'.applied = l.applied ∧
      l'.committed = max l.committed (min commit (index + ents.length)) ∧
      (∀ e ∈ ents, l'.view.termAt e.index = e.term) ∧
      ((∀ e ∈ ents, l.view.termAt e.index = e.term) → l'.view = l.view) ∧
      (∀ e ∈ ents, l.view.termAt e.index ≠ e.term →
        (∀ x ∈ ents, x.index < e.index → l.view.termAt x.index = x.term) →
          (∀ i, i < e.index → l'.view.entry i = l.view.entry i) ∧
          (∀ x ∈ ents, e.index ≤ x.index → l'.view.entry x.index = some x) ∧ l'.view.last = index + ents.length)) := by
  by_cases hm : l.view.termAt index = logTerm
  case neg =>
    rw [h.maybeAppend_mismatch hm] at hr
    cases hr
    refine ⟨by simp [hm], fun _ => rfl, (by intro last hl; cases hl)⟩
  have hil : index ≤ l.view.last := by
    rcases hi with hi | hi
    · exact hi
    · rcases Nat.lt_or_ge l.view.last index with h3 | h3
      · rw [LogView.termAt_out (Or.inr h3)] at hm
        exact absurd hm.symm hi
      · exact h3
  rcases h.maybeAppend_match hb hil hm hc ht (c := commit) with ⟨hall, hle, he⟩ | ⟨n, e, hn, hei, hpre, hne, hle, he⟩
  · rw [he] at hr
    cases hr
    refine ⟨by simp [hm, hil], (by intro hl; cases hl), ?_⟩
    rintro last hl
    cases hl
    exact ⟨rfl, h.with_committed _, rfl, rfl, rfl, hall, fun _ => rfl, fun e he hne => absurd (hall e he) hne⟩
  · rw [he] at hr
    split at hr
    · cases hr
    dsimp only at hr
    simp only [Res.ok.injEq, Prod.mk.injEq] at hr
    obtain ⟨hr1, hr2⟩ := hr
    subst hr2
    refine ⟨by simp [hm, hil], (by intro hl; cases hl), ?_⟩
    rintro last hl
    cases hl
    have hlen : n < ents.length := (List.getElem?_eq_some_iff.1 hn).1
    have hcd : Contig (index + 1 + n) (ents.drop n) := hc.drop
    have hnn : ents.drop n ≠ [] := by rw [ne_eq, List.drop_eq_nil_iff]; omega
    obtain ⟨w, v⟩ := h.appended hcd hnn (by omega) (by omega)
    have hmem : e ∈ ents := List.mem_of_getElem? hn
    have hap0 : (l.appended (index + 1 + n) (ents.drop n)).applied = l.applied := rfl
    generalize l.appended (index + 1 + n) (ents.drop n) = A at w v hr1 hap0
    subst hr1
    have hge : ∀ x ∈ ents, e.index ≤ x.index → A.view.entry x.index = some x := by
      intro x hx hle
      have ⟨h1, h2, h3⟩ := hc.mem hx
      rw [v, LogView.splice_entry_ge (by omega) (by omega) (by omega), List.getElem?_drop, ← h3]
      congr 1; omega
    have hlt : ∀ i, i < e.index → A.view.entry i = l.view.entry i := by
      intro i hi
      rw [v, LogView.splice_entry_lt (by omega) (by omega)]
    have hlast : A.view.last = index + ents.length := by
      have := LogView.splice_last (v := l.view) (k := index + 1 + n) (es := ents.drop n) (by omega) (by omega)
      rw [v]
      rw [List.length_drop] at this
      omega
    have hap : A.applied = l.applied := hap0
    refine ⟨rfl, w.with_committed _, ?_, hap, rfl, ?_, ?_, ?_⟩
    · show A.view.base = l.view.base
      rw [v]; rfl
    · intro x hx
      show A.view.termAt x.index = x.term
      rcases Nat.lt_or_ge x.index e.index with hx2 | hx2
      · have ⟨h1, h2, h3⟩ := hc.mem hx
        have hxt : x ∈ ents.take n := by
          rw [List.mem_iff_getElem?]
          exact ⟨x.index - (index + 1), by rw [List.getElem?_take_of_lt (by omega)]; exact h3⟩
        have := hpre x hxt
        rw [← this]
        unfold LogView.termAt
        rw [hlt _ hx2, v]; rfl
      · exact LogView.termAt_entry (hge x hx hx2)
    · intro hall
      exact absurd (by rw [← hei]; exact hall e hmem) hne
    · intro e' he' hne' hpre'
      have hee : e'.index = e.index := by
        rcases Nat.lt_trichotomy e'.index e.index with h1 | h1 | h1
        · have ⟨g1, g2, g3⟩ := hc.mem he'
          have hxt : e' ∈ ents.take n := by
            rw [List.mem_iff_getElem?]
            exact ⟨e'.index - (index + 1), by rw [List.getElem?_take_of_lt (by omega)]; exact g3⟩
          exact absurd (hpre e' hxt) hne'
        · exact h1
        · exact absurd (by rw [← hei]; exact hpre' e hmem h1) hne
      rw [hee]
      exact ⟨hlt, hge, hlast⟩

/-- C21. Inside the log and above the commit index, `MaybeAppend` never aborts unless it is asked to overwrite a committed
entry. -/
theorem C21_maybeAppend_total {l : RaftLog} {index logTerm commit : Nat} {ents : List Entry} (h : l.WF)
    (hb : l.view.base ≤ index) (hi : index ≤ l.view.last ∨ logTerm ≠ 0) (hc : Contig (index + 1) ents)
    (ht : ∀ e ∈ ents, e.term ≠ 0) :
    (∃ r, l.maybeAppend index logTerm commit ents = .ok r) ∨
    (l.maybeAppend index logTerm commit ents = .fatal "log.cc:64" ∧
      ∃ e ∈ ents, e.index ≤ l.committed ∧ l.view.termAt e.index ≠ e.term) := by
  by_cases hm : l.view.termAt index = logTerm
  case neg => exact Or.inl ⟨_, h.maybeAppend_mismatch hm⟩
  have hil : index ≤ l.view.last := by
    rcases hi with hi | hi
    · exact hi
    · rcases Nat.lt_or_ge l.view.last index with h3 | h3
      · rw [LogView.termAt_out (Or.inr h3)] at hm
        exact absurd hm.symm hi
      · exact h3
  rcases h.maybeAppend_match hb hil hm hc ht (c := commit) with ⟨hall, hle, he⟩ | ⟨n, e, hn, hei, hpre, hne, hle, he⟩
  · exact Or.inl ⟨_, he⟩
  · by_cases c : index + 1 + n ≤ l.committed
    · rw [if_pos c] at he
      exact Or.inr ⟨he, e, List.mem_of_getElem? hn, by omega, by rw [hei]; exact hne⟩
    · rw [if_neg c] at he
      exact Or.inl ⟨_, he⟩

example : exampleLog.maybeAppend 6 2 9 [{ term := 3, index := 7 }, { term := 3, index := 8 }] =
    .ok ({ exampleLog with
            unstable := { offset := 6, entries := [{ term := 2, index := 6 }, { term := 3, index := 7 }, { term := 3, index := 8 }] }
            committed := 8 }, some 8) := by decide

end Craft
