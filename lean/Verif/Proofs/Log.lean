import Verif.Proofs.Storage
import Verif.Model.Log

namespace Craft
open Spec

/-! ## `limitSize` over a concatenation -/

theorem limitSizeLoop_append (sz : Entry → Nat) (mx n : Nat) (a b : List Entry) (h : limitSizeLoop sz mx n a ≠ a) :
    limitSizeLoop sz mx n (a ++ b) = limitSizeLoop sz mx n a := by
  induction a generalizing n with
  | nil => simp [limitSizeLoop] at h
  | cons e es ih =>
    simp only [limitSizeLoop, List.cons_append] at h ⊢
    by_cases hc : (n + sz e) % 2 ^ 64 > mx
    · simp only [if_pos hc]
    · simp only [if_neg hc, ne_eq, List.cons.injEq, true_and] at h ⊢
      exact ih _ h

theorem limitSizeLoop_prefix (sz : Entry → Nat) (mx n : Nat) (a : List Entry) : limitSizeLoop sz mx n a <+: a := by
  induction a generalizing n with
  | nil => simp [limitSizeLoop]
  | cons e es ih =>
    simp only [limitSizeLoop]
    split
    · simp
    · exact List.cons_prefix_cons.2 ⟨rfl, ih _⟩

theorem limitSize_prefix (sz : Entry → Nat) (a : List Entry) (mx : Nat) : limitSize sz a mx <+: a := by
  cases a with
  | nil => simp [limitSize]
  | cons e es => exact List.cons_prefix_cons.2 ⟨rfl, limitSizeLoop_prefix ..⟩

theorem limitSize_append_short (sz : Entry → Nat) (a b : List Entry) (mx : Nat)
    (h : (limitSize sz a mx).length < a.length) : limitSize sz (a ++ b) mx = limitSize sz a mx := by
  cases a with
  | nil => simp at h
  | cons e es =>
    simp only [limitSize, List.cons_append, List.length_cons] at *
    rw [limitSizeLoop_append]
    intro he; rw [he] at h; omega

theorem limitSize_full (sz : Entry → Nat) (a : List Entry) (mx : Nat)
    (h : ¬ (limitSize sz a mx).length < a.length) : limitSize sz a mx = a := by
  exact (limitSize_prefix sz a mx).eq_of_length_le (by omega)

theorem limitSize_idem (sz : Entry → Nat) (a : List Entry) (mx : Nat) :
    limitSize sz (limitSize sz a mx) mx = limitSize sz a mx := by
  have key : ∀ (n : Nat) (l : List Entry), limitSizeLoop sz mx n (limitSizeLoop sz mx n l) = limitSizeLoop sz mx n l := by
    intro n l
    induction l generalizing n with
    | nil => rfl
    | cons e es ih =>
      simp only [limitSizeLoop]
      by_cases h : (n + sz e) % 2 ^ 64 > mx
      · simp only [if_pos h, limitSizeLoop]
      · simp only [if_neg h, limitSizeLoop, ih]
  cases a with
  | nil => rfl
  | cons e es => simp only [limitSize, key]

/-- `kNoLimit` means no limit. -/
theorem limitSize_noLimit (sz : Entry → Nat) (a : List Entry) {mx : Nat} (h : 2 ^ 64 - 1 ≤ mx) : limitSize sz a mx = a := by
  have key : ∀ (n : Nat) (l : List Entry), limitSizeLoop sz mx n l = l := by
    intro n l
    induction l generalizing n with
    | nil => rfl
    | cons e es ih =>
      simp only [limitSizeLoop]
      have := Nat.mod_lt (n + sz e) (show 2 ^ 64 > 0 by decide)
      rw [if_neg (by omega), ih]
  cases a with
  | nil => rfl
  | cons e es => simp only [limitSize, key]

theorem limitSize_ne_nil (sz : Entry → Nat) (a : List Entry) (mx : Nat) (h : a ≠ []) : limitSize sz a mx ≠ [] := by
  cases a with
  | nil => exact absurd rfl h
  | cons e es => simp [limitSize]

namespace RaftLog

theorem WF.view_wf {l : RaftLog} (h : l.WF) : l.view.WF := by
  unfold view
  split
  · rename_i s hs
    unfold LogView.WF
    have := h.contig
    rwa [h.snap s hs] at this
  · rename_i hs
    unfold LogView.WF
    dsimp only
    have ⟨h1, h2⟩ := h.nosnap hs
    refine (Contig.take h.stor.view_wf).append ?_
    unfold LogView.last at h2
    rw [List.length_take, show l.storage.view.base + 1 + min (l.unstable.offset - l.storage.view.base - 1) l.storage.view.ents.length = l.unstable.offset by omega]
    exact h.contig

theorem WF.last_eq {l : RaftLog} (h : l.WF) : l.view.last + 1 = l.unstable.offset + l.unstable.entries.length := by
  unfold view
  split
  · rename_i s hs
    have := h.snap s hs
    unfold LogView.last; dsimp only
    omega
  · rename_i hs
    have ⟨h1, h2⟩ := h.nosnap hs
    unfold LogView.last at *; dsimp only
    rw [List.length_append, List.length_take]
    omega

theorem WF.base_lt {l : RaftLog} (h : l.WF) : l.view.base < l.unstable.offset := by
  unfold view
  split
  · rename_i s hs; have := h.snap s hs; dsimp only; omega
  · rename_i hs; exact (h.nosnap hs).1

theorem firstIndex_eq (l : RaftLog) : l.firstIndex = l.view.base + 1 := by
  unfold firstIndex view Unstable.maybeFirstIndex
  cases l.unstable.snapshot <;> rfl

theorem WF.lastIndex_eq {l : RaftLog} (h : l.WF) : l.lastIndex = l.view.last := by
  have hl := h.last_eq
  have hb := h.base_lt
  unfold lastIndex Unstable.maybeLastIndex
  by_cases he : l.unstable.entries = []
  · simp only [he, ne_eq, not_true_eq_false, if_false]
    rw [he] at hl
    cases hs : l.unstable.snapshot with
    | some s => simp [view, hs, LogView.last, he]
    | none =>
      have := h.tight hs he
      simp only [Option.map_none, List.length_nil] at *
      rw [h.stor.lastIndex_eq]
      omega
  · simp only [he, ne_eq, not_false_eq_true, if_true]
    have := List.length_pos_iff.2 he
    omega

theorem WF.entry_unstable {l : RaftLog} (h : l.WF) {i : Nat} (hi : l.unstable.offset ≤ i) :
    l.view.entry i = l.unstable.entries[i - l.unstable.offset]? := by
  have hb := h.base_lt
  unfold LogView.entry
  rw [if_neg (by omega)]
  unfold view at *
  cases hs : l.unstable.snapshot with
  | some s =>
    have := h.snap s hs
    simp only [hs] at *
    congr 1; omega
  | none =>
    have ⟨h1, h2⟩ := h.nosnap hs
    unfold LogView.last at h2
    simp only
    rw [List.getElem?_append_right (by rw [List.length_take]; omega), List.length_take]
    congr 1; omega

theorem WF.entry_stored {l : RaftLog} (h : l.WF) (hs : l.unstable.snapshot = none) {i : Nat} (hi : i < l.unstable.offset) :
    l.view.entry i = l.storage.view.entry i := by
  have ⟨h1, h2⟩ := h.nosnap hs
  unfold LogView.last at h2
  unfold LogView.entry view
  simp only [hs]
  split
  · rfl
  · rw [List.getElem?_append_left (by rw [List.length_take]; omega), List.getElem?_take_of_lt (by omega)]

/-- `Term`, exactly: never an error, never an abort. -/
theorem WF.term_eq {l : RaftLog} (h : l.WF) (i : Nat) : l.term i = .ok (.ok (l.view.termAt i)) := by
  have hl := h.last_eq
  have hb := h.base_lt
  unfold term
  rw [firstIndex_eq, h.lastIndex_eq]
  simp only [Nat.add_sub_cancel]
  by_cases ho : i < l.view.base ∨ i > l.view.last
  · rw [if_pos ho, LogView.termAt_out (by omega)]
  · rw [if_neg ho]
    unfold Unstable.maybeTerm
    by_cases hi : i < l.unstable.offset
    · rw [if_pos hi]
      cases hs : l.unstable.snapshot with
      | some s =>
        have := h.snap s hs
        have hvb : l.view.base = s.metadata.index := by simp [view, hs]
        have hvt : l.view.baseTerm = s.metadata.term := by simp [view, hs]
        have hi' : s.metadata.index = i := by omega
        simp only [hi', if_true, Res.ok_bind, Res.pure_eq]
        unfold LogView.termAt
        rw [if_pos (by omega), hvt]
      | none =>
        have ⟨h1, h2⟩ := h.nosnap hs
        have hvb : l.view.base = l.storage.view.base := by simp [view, hs]
        have hvt : l.view.baseTerm = l.storage.view.baseTerm := by simp [view, hs]
        simp only [Res.ok_bind]
        rw [h.stor.term_eq, if_neg (by omega), if_pos (by omega)]
        simp only [Res.pure_eq]
        unfold LogView.termAt
        rw [h.entry_stored hs hi, hvb, hvt]
    · rw [if_neg hi]
      have hne : l.unstable.entries ≠ [] := by
        intro hnil; rw [hnil] at hl; simp at hl; omega
      unfold Unstable.maybeLastIndex
      simp only [hne, ne_eq, not_false_eq_true, if_true]
      have := List.length_pos_iff.2 hne
      rw [if_neg (by omega), ← h.entry_unstable (by omega)]
      obtain ⟨e, he⟩ := LogView.entry_isSome (v := l.view) (i := i) (by omega) (by omega)
      rw [he, LogView.termAt_entry he]
      rfl

theorem WF.lastTerm_eq {l : RaftLog} (h : l.WF) : l.lastTerm = .ok (l.view.termAt l.view.last) := by
  unfold lastTerm
  rw [h.term_eq, h.lastIndex_eq]; rfl

theorem WF.matchTerm_eq {l : RaftLog} (h : l.WF) (i t : Nat) : l.matchTerm i t = .ok (decide (l.view.termAt i = t)) := by
  unfold matchTerm
  rw [h.term_eq]; rfl

theorem WF.isUpToDate_eq {l : RaftLog} (h : l.WF) (i t : Nat) :
    l.isUpToDate i t = .ok (decide (t > l.view.termAt l.view.last ∨ (t = l.view.termAt l.view.last ∧ i ≥ l.view.last))) := by
  unfold isUpToDate
  rw [h.lastTerm_eq, h.lastIndex_eq]; rfl

theorem WF.commitTo_eq {l : RaftLog} (h : l.WF) (c : Nat) :
    l.commitTo c = if l.committed < c then (if l.view.last < c then .fatal "log.cc:143" else .ok { l with committed := c })
      else .ok l := by
  unfold commitTo
  rw [h.lastIndex_eq]

theorem range_split (v : LogView) {lo mid hi : Nat} (h1 : lo ≤ mid) (h2 : mid ≤ hi) (hb : v.base < lo) :
    v.range lo hi = v.range lo mid ++ v.range mid hi := by
  unfold LogView.range
  rw [show hi - lo = (mid - lo) + (hi - mid) by omega, List.take_add, List.drop_drop]
  congr 2
  congr 1
  omega

theorem WF.range_stored {l : RaftLog} (h : l.WF) {lo hi : Nat} (hs : l.unstable.snapshot = none)
    (hhi : hi ≤ l.unstable.offset) (hlh : lo ≤ hi) (hlo : l.view.base < lo) :
    l.view.range lo hi = l.storage.view.range lo hi := by
  have ⟨h1, h2⟩ := h.nosnap hs
  unfold LogView.last at h2
  have hvb : l.view.base = l.storage.view.base := by simp [view, hs]
  rw [hvb] at hlo
  unfold LogView.range
  rw [hvb]
  have : l.view.ents = l.storage.view.ents.take (l.unstable.offset - l.storage.view.base - 1) ++ l.unstable.entries := by
    simp [view, hs]
  rw [this]
  rw [List.drop_append_of_le_length (by rw [List.length_take]; omega), List.take_append_of_le_length
      (by rw [List.length_drop, List.length_take]; omega), List.drop_take, List.take_take]
  congr 1
  omega

theorem WF.range_unstable {l : RaftLog} (h : l.WF) {lo hi : Nat} (hlo : l.unstable.offset ≤ lo) :
    l.view.range lo hi = (l.unstable.entries.drop (lo - l.unstable.offset)).take (hi - lo) := by
  unfold LogView.range
  congr 1
  cases hs : l.unstable.snapshot with
  | some s =>
    have := h.snap s hs
    simp only [view, hs]
    congr 1; omega
  | none =>
    have ⟨h1, h2⟩ := h.nosnap hs
    unfold LogView.last at h2
    simp only [view, hs]
    rw [List.drop_append, List.drop_eq_nil_of_le (by rw [List.length_take]; omega), List.nil_append, List.length_take]
    congr 1; omega

theorem range_length {v : LogView} {lo hi : Nat} (hb : v.base < lo) (hlh : lo ≤ hi) (hhi : hi ≤ v.last + 1) :
    (v.range lo hi).length = hi - lo := by
  unfold LogView.range LogView.last at *
  rw [List.length_take, List.length_drop]
  omega

/-- `Slice`, exactly. -/
theorem WF.slice_eq {l : RaftLog} (h : l.WF) (env : Env) (lo hi mx : Nat) :
    l.slice env lo hi mx =
      if lo > hi then .fatal "log.cc:342"
      else if lo ≤ l.view.base then .ok (.error .compacted)
      else if hi > l.view.last + 1 then .fatal "log.cc:350"
      else .ok (.ok (limitSize env.entSize (l.view.range lo hi) mx)) := by
  have hl := h.last_eq
  have hb := h.base_lt
  unfold slice mustCheckOutOfBounds
  rw [firstIndex_eq, h.lastIndex_eq]
  have hbl : l.view.base ≤ l.view.last := Nat.le_add_right _ _
  rw [sub64_of_le (by omega)]
  by_cases c1 : lo > hi
  · simp only [if_pos c1]; rfl
  · by_cases c2 : lo ≤ l.view.base
    · have c2' : lo < l.view.base + 1 := by omega
      simp only [if_neg c1, if_pos c2, if_pos c2']; rfl
    · have c2' : ¬ lo < l.view.base + 1 := by omega
      by_cases c3 : hi > l.view.last + 1
      · have c3' : hi > l.view.base + 1 + (l.view.last + 1 - (l.view.base + 1)) := by omega
        simp only [if_neg c1, if_neg c2, if_neg c2', if_pos c3, if_pos c3']; rfl
      · have c3' : ¬ hi > l.view.base + 1 + (l.view.last + 1 - (l.view.base + 1)) := by omega
        simp only [if_neg c1, if_neg c2, if_neg c2', if_neg c3, if_neg c3', Res.ok_bind]
        by_cases c4 : lo = hi
        · subst c4
          simp [LogView.range, limitSize]
        · simp only [if_neg c4]
          by_cases c5 : lo < l.unstable.offset
          · have hs : l.unstable.snapshot = none := by
              cases hs : l.unstable.snapshot with
              | none => rfl
              | some s =>
                have := h.snap s hs
                have hvb : l.view.base = s.metadata.index := by simp [view, hs]
                omega
            have ⟨h1, h2⟩ := h.nosnap hs
            have hvb : l.view.base = l.storage.view.base := by simp [view, hs]
            simp only [if_pos c5]
            rw [h.stor.entries_eq env lo (min hi l.unstable.offset) mx (by omega), if_neg (by omega), if_neg (by omega), if_neg]
            · simp only [Res.ok_bind, Res.pure_eq]
              rw [← h.range_stored hs (by omega) (by omega) (by omega)]
              have hlen := range_length (v := l.view) (lo := lo) (hi := min hi l.unstable.offset) (by omega) (by omega) (by omega)
              have hsplit := range_split l.view (lo := lo) (mid := min hi l.unstable.offset) (hi := hi) (by omega) (by omega) (by omega)
              by_cases c6 : (limitSize env.entSize (l.view.range lo (min hi l.unstable.offset)) mx).length < min hi l.unstable.offset - lo
              · simp only [c6, decide_true]
                rw [hsplit, limitSize_append_short _ _ _ _ (by rw [hlen]; exact c6)]
              · simp only [c6, decide_false]
                have hfull := limitSize_full env.entSize _ mx (by rw [hlen]; exact c6)
                rw [hfull]
                by_cases c7 : hi > l.unstable.offset
                · simp only [if_pos c7]
                  unfold Unstable.slice
                  rw [if_neg (by omega), if_neg (by omega)]
                  simp only [Res.ok_bind]
                  rw [hsplit, h.range_unstable (lo := min hi l.unstable.offset) (by omega)]
                  rw [show max lo l.unstable.offset = l.unstable.offset by omega, show min hi l.unstable.offset = l.unstable.offset by omega]
                · simp only [if_neg c7]
                  rw [show min hi l.unstable.offset = hi by omega]
            · intro hnil
              unfold LogView.last at h2
              rw [hnil] at h2
              simp at h2; omega
          · simp only [if_neg c5, Res.ok_bind, Res.pure_eq]
            have c7 : hi > l.unstable.offset := by omega
            simp only [if_pos c7]
            unfold Unstable.slice
            rw [if_neg (by omega), if_neg (by omega)]
            simp only [Res.ok_bind, List.nil_append]
            rw [h.range_unstable (by omega), show max lo l.unstable.offset = lo by omega]

theorem range_to_end {v : LogView} {i : Nat} : v.range i (v.last + 1) = v.ents.drop (i - v.base - 1) := by
  unfold LogView.range LogView.last
  rw [List.take_of_length_le]
  rw [List.length_drop]; omega

theorem WF.entries_eq {l : RaftLog} (h : l.WF) (env : Env) (i mx : Nat) :
    l.entries env i mx =
      if l.view.last < i then .ok (.ok [])
      else if i ≤ l.view.base then .ok (.error .compacted)
      else .ok (.ok (limitSize env.entSize (l.view.ents.drop (i - l.view.base - 1)) mx)) := by
  unfold entries
  rw [h.lastIndex_eq, h.slice_eq, range_to_end]
  by_cases c1 : l.view.last < i
  · rw [if_pos c1, if_pos c1]
  · rw [if_neg c1, if_neg c1, if_neg (by omega)]
    by_cases c2 : i ≤ l.view.base
    · rw [if_pos c2, if_pos c2]
    · rw [if_neg c2, if_neg c2, if_neg (by omega)]

theorem WF.nextEnts_eq {l : RaftLog} (h : l.WF) (env : Env) (hc : l.committed ≤ l.view.last) :
    l.nextEnts env = .ok (limitSize env.entSize
      (l.view.range (max (l.applied + 1) (l.view.base + 1)) (l.committed + 1)) l.maxNextEntsSize) := by
  unfold nextEnts
  rw [firstIndex_eq]
  dsimp only
  by_cases c : l.committed + 1 > max (l.applied + 1) (l.view.base + 1)
  · rw [if_pos c, h.slice_eq, if_neg (by omega), if_neg (by omega), if_neg (by omega)]
    rfl
  · rw [if_neg c]
    unfold LogView.range
    rw [show l.committed + 1 - max (l.applied + 1) (l.view.base + 1) = 0 by omega]
    simp [limitSize]

theorem hasNextEnts_eq (l : RaftLog) : l.hasNextEnts = decide (max l.applied l.view.base < l.committed) := by
  unfold hasNextEnts
  rw [firstIndex_eq]
  congr 1
  apply propext
  omega

/-- The first of the given entries whose term differs from the log's, as `FindConflict` sees it. -/
theorem WF.findConflict_eq {l : RaftLog} (h : l.WF) (ents : List Entry) :
    l.findConflict ents = .ok ((ents.find? fun e => decide (l.view.termAt e.index ≠ e.term)).elim 0 (·.index)) := by
  induction ents with
  | nil => rfl
  | cons e es ih =>
    unfold findConflict
    rw [h.matchTerm_eq]
    simp only [Res.ok_bind]
    by_cases c : l.view.termAt e.index = e.term
    · rw [if_pos (by simpa using c), ih, List.find?_cons_of_neg (by simpa using c)]
    · rw [if_neg (by simpa using c), List.find?_cons_of_pos (by simpa using c), h.term_eq]
      simp only [Res.ok_bind, zeroTermOnErrCompacted]
      split <;> rfl

/-- The state after an accepted `Append`. -/
def appended (l : RaftLog) (k : Nat) (es : List Entry) : RaftLog :=
  { l with unstable := { l.unstable with
      offset := min l.unstable.offset k
      entries := l.unstable.entries.take (k - l.unstable.offset) ++ es } }

/-- `Append` of a contiguous, non-empty list inside the log. -/
theorem WF.append_eq {l : RaftLog} (h : l.WF) {k : Nat} {es : List Entry} (hc : Contig k es) (hne : es ≠ [])
    (hk : l.view.base < k) (hk2 : k ≤ l.view.last + 1) :
    l.append es = if k - 1 < l.committed then .fatal "log.cc:252" else .ok (l.appended k es) := by
  unfold appended
  obtain ⟨e0, es', rfl⟩ := List.exists_cons_of_ne_nil hne
  have h0 : e0.index = k := (Contig.cons.1 hc).1
  have hl := h.last_eq
  have hb := h.base_lt
  unfold append
  dsimp only
  rw [h0, sub64_of_le (by omega)]
  by_cases c : k - 1 < l.committed
  · rw [if_pos c, if_pos c]
  · rw [if_neg c, if_neg c]
    unfold Unstable.truncateAndAppend
    dsimp only
    rw [h0]
    by_cases c1 : k = l.unstable.offset + l.unstable.entries.length
    · rw [if_pos c1]
      simp only [Res.ok_bind, Res.pure_eq]
      rw [show min l.unstable.offset k = l.unstable.offset by omega, List.take_of_length_le (by omega)]
    · rw [if_neg c1]
      by_cases c2 : k ≤ l.unstable.offset
      · rw [if_pos c2]
        simp only [Res.ok_bind, Res.pure_eq]
        rw [show min l.unstable.offset k = k by omega, show k - l.unstable.offset = 0 by omega]
        simp
      · rw [if_neg c2, if_neg (by omega)]
        simp only [Res.ok_bind, Res.pure_eq]
        rw [show min l.unstable.offset k = l.unstable.offset by omega]

theorem WF.appended {l : RaftLog} (h : l.WF) {k : Nat} {es : List Entry} (hc : Contig k es) (hne : es ≠ [])
    (hk : l.view.base < k) (hk2 : k ≤ l.view.last + 1) :
    (l.appended k es).WF ∧ (l.appended k es).view = l.view.splice k es := by
  have hl := h.last_eq
  have hb := h.base_lt
  constructor
  · refine ⟨h.stor, ?_, ?_, ?_, ?_⟩
    · show Contig (min l.unstable.offset k) (l.unstable.entries.take (k - l.unstable.offset) ++ es)
      refine Contig.append ?_ ?_
      · by_cases c : k ≤ l.unstable.offset
        · rw [show k - l.unstable.offset = 0 by omega]; simp; exact .nil _
        · rw [show min l.unstable.offset k = l.unstable.offset by omega]; exact h.contig.take
      · rw [List.length_take]
        rw [show min l.unstable.offset k + min (k - l.unstable.offset) l.unstable.entries.length = k by omega]
        exact hc
    · intro s hs
      have := h.snap s hs
      have hvb : l.view.base = s.metadata.index := by
        have hs' : l.unstable.snapshot = some s := hs
        simp [view, hs']
      show min l.unstable.offset k = _
      omega
    · intro hs
      have ⟨h1, h2⟩ := h.nosnap hs
      have hvb : l.view.base = l.storage.view.base := by
        have hs' : l.unstable.snapshot = none := hs
        simp [view, hs']
      show l.storage.view.base < min l.unstable.offset k ∧ min l.unstable.offset k ≤ l.storage.view.last + 1
      omega
    · intro _ hnil
      exfalso
      have : l.unstable.entries.take (k - l.unstable.offset) ++ es = [] := hnil
      rw [List.append_eq_nil_iff] at this
      exact hne this.2
  · unfold view RaftLog.appended LogView.splice
    dsimp only
    cases hs : l.unstable.snapshot with
    | some s =>
      have := h.snap s hs
      have hvb : l.view.base = s.metadata.index := by simp [view, hs]
      simp only
      congr 2
      congr 1
      omega
    | none =>
      have ⟨h1, h2⟩ := h.nosnap hs
      have hvb : l.view.base = l.storage.view.base := by simp [view, hs]
      simp only
      congr 1
      rw [List.take_append, List.take_take, List.length_take, ← List.append_assoc]
      unfold LogView.last at h2
      congr 2
      · congr 1; omega
      · congr 1; omega

theorem WF.with_committed {l : RaftLog} (h : l.WF) (c : Nat) : ({ l with committed := c } : RaftLog).WF :=
  ⟨h.stor, h.contig, h.snap, h.nosnap, h.tight⟩

theorem WF.with_applied {l : RaftLog} (h : l.WF) (c : Nat) : ({ l with applied := c } : RaftLog).WF :=
  ⟨h.stor, h.contig, h.snap, h.nosnap, h.tight⟩

theorem WF.commitTo_ok {l : RaftLog} (h : l.WF) {c : Nat} (hc : c ≤ l.view.last) :
    l.commitTo c = .ok { l with committed := max l.committed c } := by
  rw [h.commitTo_eq]
  by_cases c1 : l.committed < c
  · rw [if_pos c1, if_neg (by omega), show max l.committed c = c by omega]
  · rw [if_neg c1, show max l.committed c = l.committed by omega]

/-- `MaybeAppend` when the previous entry matches. -/
theorem WF.maybeAppend_match {l : RaftLog} (h : l.WF) {index lt c : Nat} {ents : List Entry}
    (hb : l.view.base ≤ index) (hil : index ≤ l.view.last) (hm : l.view.termAt index = lt)
    (hc : Contig (index + 1) ents) (ht : ∀ e ∈ ents, e.term ≠ 0) :
    ((∀ e ∈ ents, l.view.termAt e.index = e.term) ∧ index + ents.length ≤ l.view.last ∧
      l.maybeAppend index lt c ents =
        .ok ({ l with committed := max l.committed (min c (index + ents.length)) }, some (index + ents.length))) ∨
    (∃ n e, ents[n]? = some e ∧ e.index = index + 1 + n ∧ (∀ x ∈ ents.take n, l.view.termAt x.index = x.term) ∧
      l.view.termAt (index + 1 + n) ≠ e.term ∧ index + n ≤ l.view.last ∧
      l.maybeAppend index lt c ents =
        if index + 1 + n ≤ l.committed then .fatal "log.cc:64"
        else .ok ({ l.appended (index + 1 + n) (ents.drop n) with
              committed := max l.committed (min c (index + ents.length)) }, some (index + ents.length))) := by
  unfold maybeAppend
  rw [h.matchTerm_eq, h.findConflict_eq]
  simp only [Res.ok_bind, hm, decide_true, if_true]
  cases hf : ents.find? fun e => decide (l.view.termAt e.index ≠ e.term) with
  | none =>
    left
    have hall : ∀ e ∈ ents, l.view.termAt e.index = e.term := by
      intro e he
      have := List.find?_eq_none.1 hf e he
      simpa using this
    have hlast : index + ents.length ≤ l.view.last := by
      cases hl : ents.getLast? with
      | none => rw [List.getLast?_eq_none_iff] at hl; subst hl; simpa using hil
      | some e =>
        have he := List.mem_of_getLast? hl
        have h1 := hc.getLast hl
        have h2 := hall e he
        rcases Nat.lt_or_ge l.view.last e.index with h3 | h3
        · rw [LogView.termAt_out (Or.inr h3)] at h2
          exact absurd h2.symm (ht e he)
        · omega
    refine ⟨hall, hlast, ?_⟩
    simp only [Option.elim_none, if_true, Res.pure_eq, Res.ok_bind]
    rw [h.commitTo_ok (by omega)]
    rfl
  | some e =>
    right
    obtain ⟨hp, as, bs, rfl, hall⟩ := List.find?_eq_some_iff_append.1 hf
    have hall' : ∀ x ∈ as, l.view.termAt x.index = x.term := fun x hx => by simpa using hall x hx
    have hidx : e.index = index + 1 + as.length := (Contig.cons.1 hc.right).1
    have hne : l.view.termAt (index + 1 + as.length) ≠ e.term := by rw [← hidx]; simpa using hp
    have hlast : index + as.length ≤ l.view.last := by
      cases hl : as.getLast? with
      | none => rw [List.getLast?_eq_none_iff] at hl; subst hl; simpa using hil
      | some x =>
        have hx := List.mem_of_getLast? hl
        have h1 := hc.left.getLast hl
        have h2 := hall' x hx
        rcases Nat.lt_or_ge l.view.last x.index with h3 | h3
        · rw [LogView.termAt_out (Or.inr h3)] at h2
          exact absurd h2.symm (ht x (List.mem_append_left _ hx))
        · omega
    refine ⟨as.length, e, by simp, hidx, ?_, hne, hlast, ?_⟩
    · intro x hx
      rw [List.take_left] at hx
      exact hall' x hx
    · simp only [Option.elim_some, hidx]
      rw [if_neg (by omega)]
      by_cases c1 : index + 1 + as.length ≤ l.committed
      · rw [if_pos c1, if_pos c1]; rfl
      · rw [if_neg c1, if_neg c1, sub64_of_le (by omega), show index + 1 + as.length - (index + 1) = as.length by omega]
        rw [if_neg (by simp), List.drop_left]
        have hc' : Contig (index + 1 + as.length) (e :: bs) := hc.right
        rw [h.append_eq hc' (by simp) (by omega) (by omega), if_neg (by omega)]
        obtain ⟨w, v⟩ := h.appended hc' (by simp) (by omega) (by omega)
        have hl2 : (l.appended (index + 1 + as.length) (e :: bs)).view.last = index + (as ++ e :: bs).length := by
          rw [v]
          have := LogView.splice_last (v := l.view) (k := index + 1 + as.length) (es := e :: bs) (by omega) (by omega)
          simp only [List.length_append] at *
          omega
        simp only [Res.ok_bind]
        have := w.commitTo_ok (c := min c (index + (as ++ e :: bs).length)) (by rw [hl2]; omega)
        rw [this]
        rfl

theorem WF.maybeAppend_mismatch {l : RaftLog} (h : l.WF) {index lt c : Nat} {ents : List Entry}
    (hm : l.view.termAt index ≠ lt) : l.maybeAppend index lt c ents = .ok (l, none) := by
  unfold maybeAppend
  rw [h.matchTerm_eq]
  simp [hm]

theorem WF.maybeCommit_eq {l : RaftLog} (h : l.WF) (m t : Nat) :
    l.maybeCommit m t = if l.committed < m ∧ l.view.termAt m = t then
      (if l.view.last < m then .fatal "log.cc:143" else .ok ({ l with committed := m }, true)) else .ok (l, false) := by
  unfold maybeCommit
  by_cases c1 : m > l.committed
  · rw [if_pos c1, h.term_eq]
    simp only [Res.ok_bind, zeroTermOnErrCompacted]
    by_cases c2 : l.view.termAt m = t
    · rw [if_pos c2, if_pos ⟨c1, c2⟩, h.commitTo_eq, if_pos (by omega)]
      split <;> rfl
    · rw [if_neg c2, if_neg (by omega)]; rfl
  · rw [if_neg c1, if_neg (by omega)]

theorem WF.restore {l : RaftLog} (h : l.WF) (s : Snapshot) :
    (l.restore s).WF ∧ (l.restore s).view = { base := s.metadata.index, baseTerm := s.metadata.term, ents := [] } := by
  refine ⟨⟨h.stor, .nil _, ?_, ?_, ?_⟩, rfl⟩
  · intro s' hs; cases hs; rfl
  · intro hs; cases hs
  · intro hs; cases hs

/-- `FindConflictByTerm`: the largest index at or below `index` whose term is at most `t`. -/
theorem WF.findConflictByTermLoop_eq {l : RaftLog} (h : l.WF) (t : Nat) (hz : l.view.termAt 0 = 0) (fuel index : Nat)
    (hf : index + 2 ≤ fuel) :
    ∃ r, l.findConflictByTermLoop t fuel index = .ok r ∧ r ≤ index ∧ l.view.termAt r ≤ t ∧
      ∀ j, r < j → j ≤ index → t < l.view.termAt j := by
  induction index generalizing fuel with
  | zero =>
    obtain ⟨f, rfl⟩ : ∃ f, fuel = f + 1 := ⟨fuel - 1, by omega⟩
    unfold findConflictByTermLoop
    rw [h.term_eq]
    simp only [Res.ok_bind]
    rw [if_pos (by omega)]
    exact ⟨0, rfl, Nat.le_refl _, by omega, by intro j h1 h2; omega⟩
  | succ k ih =>
    obtain ⟨f, rfl⟩ : ∃ f, fuel = f + 1 := ⟨fuel - 1, by omega⟩
    unfold findConflictByTermLoop
    rw [h.term_eq]
    simp only [Res.ok_bind]
    by_cases c : l.view.termAt (k + 1) ≤ t
    · rw [if_pos c]
      exact ⟨k + 1, rfl, Nat.le_refl _, c, by intro j h1 h2; omega⟩
    · rw [if_neg c, sub64_of_le (by omega), Nat.add_sub_cancel]
      obtain ⟨r, e, h1, h2, h3⟩ := ih f (by omega)
      refine ⟨r, e, by omega, h2, fun j hj hj' => ?_⟩
      rcases Nat.lt_or_ge k j with hk | hk
      · rw [show j = k + 1 by omega]; omega
      · exact h3 j hj hk

theorem WF.findConflictByTerm_eq {l : RaftLog} (h : l.WF) (t index : Nat) (hz : l.view.termAt 0 = 0) :
    ∃ r, l.findConflictByTerm index t = .ok r ∧ r ≤ index ∧ l.view.termAt r ≤ t ∧
      ∀ j, r < j → j ≤ index → t < l.view.termAt j := by
  unfold findConflictByTerm
  rw [h.lastIndex_eq]
  by_cases c : index > l.view.last
  · rw [if_pos c]
    exact ⟨index, rfl, Nat.le_refl _, by rw [LogView.termAt_out (Or.inr c)]; omega, by intro j h1 h2; omega⟩
  · rw [if_neg c]
    exact h.findConflictByTermLoop_eq t hz _ _ (Nat.le_refl _)

/-! ## Persisting and acknowledging -/

theorem view_nosnap {l : RaftLog} (hs : l.unstable.snapshot = none) : l.view =
    { base := l.storage.view.base, baseTerm := l.storage.view.baseTerm,
      ents := l.storage.view.ents.take (l.unstable.offset - l.storage.view.base - 1) ++ l.unstable.entries } := by
  simp [view, hs]

theorem view_snap {l : RaftLog} {s : Snapshot} (hs : l.unstable.snapshot = some s) : l.view =
    { base := s.metadata.index, baseTerm := s.metadata.term, ents := l.unstable.entries } := by
  simp [view, hs]

/-- Nothing unstable: the storage is the log. -/
theorem WF.view_stable {l : RaftLog} (h : l.WF) (hs : l.unstable.snapshot = none) (he : l.unstable.entries = []) :
    l.view = l.storage.view := by
  have ht := h.tight hs he
  rw [view_nosnap hs, he, List.append_nil, List.take_of_length_le]
  unfold LogView.last at ht
  omega

/-- The application writes the unstable entries to the storage (no snapshot pending). -/
theorem WF.persist_entries {l : RaftLog} (h : l.WF) (hs : l.unstable.snapshot = none) :
    ∃ s', l.storage.append l.unstable.entries = .ok s' ∧ s'.WF ∧ s'.hardState = l.storage.hardState ∧
      s'.snapshot = l.storage.snapshot ∧ s'.view = l.view := by
  have ⟨h1, h2⟩ := h.nosnap hs
  by_cases hne : l.unstable.entries = []
  · exact ⟨l.storage, by rw [hne]; rfl, h.stor, rfl, rfl, (h.view_stable hs hne).symm⟩
  · have hpos := List.length_pos_iff.2 hne
    obtain ⟨s', e1, e2, e3, e4, e5⟩ := (h.stor.append_eq h.contig hne).2.1 (by omega) (by omega)
    rw [show max l.unstable.offset (l.storage.view.base + 1) = l.unstable.offset by omega,
      show l.storage.view.base + 1 - l.unstable.offset = 0 by omega, List.drop_zero] at e5
    refine ⟨s', e1, e2, e3, e4, ?_⟩
    rw [e5]; simp [view, hs, LogView.splice]

/-- With the storage holding the whole log, the state is still well formed and still the same log. -/
theorem WF.of_storage_eq {l : RaftLog} (h : l.WF) {s' : Storage} (hw : s'.WF) (hv : s'.view = l.view) :
    ({ l with storage := s' } : RaftLog).WF ∧ ({ l with storage := s' } : RaftLog).view = l.view := by
  have hb := h.base_lt
  have hl := h.last_eq
  refine ⟨⟨hw, h.contig, h.snap, fun _ => ?_, fun _ he => ?_⟩, ?_⟩
  · show s'.view.base < l.unstable.offset ∧ l.unstable.offset ≤ s'.view.last + 1
    rw [hv]; omega
  · show l.unstable.offset = s'.view.last + 1
    have he' : l.unstable.entries = [] := he
    rw [he'] at hl
    rw [hv]; exact hl.symm
  · cases hs : l.unstable.snapshot with
    | some s => rw [view_snap hs, view_snap (l := { l with storage := s' }) hs]
    | none =>
      rw [view_nosnap (l := { l with storage := s' }) hs]
      dsimp only
      rw [hv]
      have hvn := view_nosnap hs
      have ⟨h1, h2⟩ := h.nosnap hs
      unfold LogView.last at h2
      have h3 : l.view.ents.take (l.unstable.offset - l.view.base - 1) =
          l.storage.view.ents.take (l.unstable.offset - l.storage.view.base - 1) := by
        rw [hvn]
        dsimp only
        rw [List.take_append_of_le_length (by rw [List.length_take]; omega), List.take_take, Nat.min_self]
      rw [h3]
      rw [hvn]

theorem WF.persist_eq {l : RaftLog} (h : l.WF)
    (hsn : ∀ s, l.unstable.snapshot = some s → l.storage.snapshot.metadata.index < s.metadata.index) :
    ∃ s', l.persist = .ok { l with storage := s' } ∧ s'.WF ∧ s'.view = l.view ∧ s'.hardState = l.storage.hardState ∧
      s'.snapshot = l.unstable.snapshot.getD l.storage.snapshot := by
  unfold persist
  cases hs : l.unstable.snapshot with
  | none =>
    obtain ⟨s', e1, e2, e3, e4, e5⟩ := h.persist_entries hs
    simp only [e1, Res.ok_bind]
    exact ⟨s', rfl, e2, e5, e3, e4⟩
  | some s =>
    have hlt := hsn s hs
    have hoff := h.snap s hs
    simp only
    rw [if_neg (by omega)]
    unfold Storage.applySnapshot
    rw [if_neg (by omega)]
    dsimp only
    have hw : ({ l.storage with snapshot := s, ents := [{ term := s.metadata.term, index := s.metadata.index }] } : Storage).WF :=
      ⟨by simp, Contig.cons.2 ⟨rfl, .nil _⟩⟩
    have hv : ({ l.storage with snapshot := s, ents := [{ term := s.metadata.term, index := s.metadata.index }] } : Storage).view =
      { base := s.metadata.index, baseTerm := s.metadata.term, ents := [] } := rfl
    have hss : ({ l.storage with snapshot := s, ents := [{ term := s.metadata.term, index := s.metadata.index }] } : Storage).snapshot = s := rfl
    have hsh : ({ l.storage with snapshot := s, ents := [{ term := s.metadata.term, index := s.metadata.index }] } : Storage).hardState = l.storage.hardState := rfl
    generalize ({ l.storage with snapshot := s, ents := [{ term := s.metadata.term, index := s.metadata.index }] } : Storage) = st
      at hw hv hss hsh
    have hlv := view_snap hs
    by_cases hne : l.unstable.entries = []
    · refine ⟨st, by rw [hne]; rfl, hw, by rw [hv, hlv, hne], hsh, by simpa using hss⟩
    · have hpos := List.length_pos_iff.2 hne
      obtain ⟨s', e1, e2, e3, e4, e5⟩ := (hw.append_eq h.contig hne).2.1
        (by rw [hv]; dsimp only; omega) (by rw [hv]; simp only [LogView.last, List.length_nil]; omega)
      refine ⟨s', by rw [e1]; rfl, e2, ?_, by rw [e3, hsh], by rw [e4, hss]; rfl⟩
      rw [e5, hv, hlv]
      simp only [LogView.splice, List.take_nil, List.nil_append]
      rw [show s.metadata.index + 1 - l.unstable.offset = 0 by omega]
      rfl

/-- Acknowledging a persisted Ready empties the unstable part and leaves the log as it was. -/
theorem WF.ack_eq {l : RaftLog} (h : l.WF) (hv : l.storage.view = l.view)
    (hsn : ∀ s, l.unstable.snapshot = some s → s.metadata.index ≠ 0) :
    ∃ l', l.ackPersisted l.unstable.entries (l.unstable.snapshot.getD {}) = .ok l' ∧ l'.WF ∧ l'.view = l.view ∧
      l' = { l with unstable := { snapshot := none, entries := [], offset := l.view.last + 1 } } := by
  have hl := h.last_eq
  have key : l.ackPersisted l.unstable.entries (l.unstable.snapshot.getD {}) =
      .ok { l with unstable := { snapshot := none, entries := [], offset := l.view.last + 1 } } := by
    have snapPart : ∀ (e : List Entry) (o : Nat), o = l.view.last + 1 → e = [] →
        (if (l.unstable.snapshot.getD {}).metadata.index = 0
          then ({ l with unstable := { snapshot := l.unstable.snapshot, entries := e, offset := o } } : RaftLog)
          else ({ l with unstable := { snapshot := l.unstable.snapshot, entries := e, offset := o } } : RaftLog).stableSnapTo
            (l.unstable.snapshot.getD {}).metadata.index) =
        { l with unstable := { snapshot := none, entries := [], offset := l.view.last + 1 } } := by
      rintro e o rfl rfl
      cases hs : l.unstable.snapshot with
      | none => simp
      | some s =>
        have := hsn s hs
        simp [this, stableSnapTo, Unstable.stableSnapTo]
    unfold ackPersisted
    cases hg : l.unstable.entries.getLast? with
    | none =>
      have hne : l.unstable.entries = [] := by simpa using hg
      simp only [Res.pure_eq, Res.ok_bind]
      have := snapPart l.unstable.entries l.unstable.offset (by rw [hl, hne]; rfl) hne
      rw [← this]
    | some e =>
      have hi := h.contig.getLast hg
      have hne : l.unstable.entries ≠ [] := by intro hc; rw [hc] at hg; simp at hg
      have hpos := List.length_pos_iff.2 hne
      have hle : l.unstable.entries[e.index - l.unstable.offset]? = some e := by
        rw [List.getLast?_eq_getElem?] at hg
        rw [← hg]; congr 1; omega
      have hst : l.stableTo e.index e.term = .ok { l with unstable := { l.unstable with entries := [], offset := l.view.last + 1 } } := by
        unfold stableTo Unstable.stableTo Unstable.maybeTerm
        rw [if_neg (by omega)]
        simp only [Unstable.maybeLastIndex, ne_eq, hne, not_false_eq_true, if_true]
        rw [if_neg (by omega), hle]
        simp only [Res.ok_bind, true_and]
        rw [if_pos (by omega)]
        simp only [Res.pure_eq, Res.ok_bind]
        congr 3
        · rw [List.drop_eq_nil_iff]; omega
        · omega
      simp only [hst, Res.ok_bind, Res.pure_eq]
      have := snapPart [] (l.view.last + 1) rfl rfl
      rw [← this]
  refine ⟨_, key, ?_, ?_, rfl⟩
  · refine ⟨h.stor, .nil _, ?_, fun _ => ?_, fun _ _ => ?_⟩
    · intro s hs; cases hs
    · show l.storage.view.base < l.view.last + 1 ∧ l.view.last + 1 ≤ l.storage.view.last + 1
      rw [hv]; unfold LogView.last; omega
    · show l.view.last + 1 = l.storage.view.last + 1
      rw [hv]
  · rw [view_nosnap (by rfl)]
    dsimp only
    rw [hv]
    unfold LogView.last
    rw [List.append_nil, List.take_of_length_le (by omega)]

end RaftLog
end Craft
