import Verif.Spec.RaftLog

namespace Craft
open Spec

theorem Spec.Contig.nil (k : Nat) : Contig k [] := by intro i e h; simp at h

theorem Spec.Contig.take {k n : Nat} {es : List Entry} (h : Contig k es) : Contig k (es.take n) := by
  intro i e he
  rw [List.getElem?_take] at he
  split at he
  · exact h i e he
  · cases he

theorem Spec.Contig.drop {k n : Nat} {es : List Entry} (h : Contig k es) : Contig (k + n) (es.drop n) := by
  intro i e he
  rw [List.getElem?_drop] at he
  have := h _ _ he
  omega

theorem Spec.Contig.append {k : Nat} {es fs : List Entry} (h : Contig k es) (h2 : Contig (k + es.length) fs) :
    Contig k (es ++ fs) := by
  intro i e he
  rw [List.getElem?_append] at he
  split at he
  · exact h i e he
  · have := h2 _ _ he
    omega

theorem Spec.Contig.cons {k : Nat} {e : Entry} {es : List Entry} : Contig k (e :: es) ↔ e.index = k ∧ Contig (k + 1) es := by
  constructor
  · intro h
    refine ⟨by simpa using h 0 e rfl, fun i x hx => ?_⟩
    have := h (i + 1) x (by simpa using hx)
    omega
  · rintro ⟨h0, h⟩ i x hx
    cases i with
    | zero => simp at hx; subst hx; simpa using h0
    | succ i => have := h i x (by simpa using hx); omega

theorem Spec.Contig.head {k : Nat} {es : List Entry} (h : Contig k es) (hne : es ≠ []) : (es.headD {}).index = k := by
  cases es with
  | nil => exact absurd rfl hne
  | cons e es => exact (Contig.cons.1 h).1

theorem Spec.Contig.left {k : Nat} {es fs : List Entry} (h : Contig k (es ++ fs)) : Contig k es := by
  have := h.take (n := es.length)
  rwa [List.take_left] at this

theorem Spec.Contig.right {k : Nat} {es fs : List Entry} (h : Contig k (es ++ fs)) : Contig (k + es.length) fs := by
  have := h.drop (n := es.length)
  rwa [List.drop_left] at this

theorem Spec.Contig.mem {k : Nat} {es : List Entry} (h : Contig k es) {e : Entry} (he : e ∈ es) :
    k ≤ e.index ∧ e.index < k + es.length ∧ es[e.index - k]? = some e := by
  obtain ⟨i, hi⟩ := List.mem_iff_getElem?.1 he
  have := h i e hi
  have hl : i < es.length := by
    rcases Nat.lt_or_ge i es.length with h | h
    · exact h
    · rw [List.getElem?_eq_none h] at hi; cases hi
  refine ⟨by omega, by omega, ?_⟩
  rw [show e.index - k = i by omega]; exact hi

theorem Spec.Contig.getLast {k : Nat} {es : List Entry} (h : Contig k es) {e : Entry} (he : es.getLast? = some e) :
    e.index + 1 = k + es.length := by
  rw [List.getLast?_eq_getElem?] at he
  have h1 := h _ _ he
  have : es ≠ [] := by rintro rfl; simp at he
  have := List.length_pos_iff.2 this
  omega

namespace Spec.LogView

theorem entry_some_range {v : LogView} {i : Nat} {e : Entry} (h : v.entry i = some e) : v.base < i ∧ i ≤ v.last := by
  unfold entry at h
  split at h
  · cases h
  · have : i - v.base - 1 < v.ents.length := by
      rcases Nat.lt_or_ge (i - v.base - 1) v.ents.length with h' | h'
      · exact h'
      · rw [List.getElem?_eq_none h'] at h; cases h
    unfold last; omega

theorem entry_isSome {v : LogView} {i : Nat} (h1 : v.base < i) (h2 : i ≤ v.last) : ∃ e, v.entry i = some e := by
  unfold entry
  rw [if_neg (by omega)]
  unfold last at h2
  exact ⟨_, List.getElem?_eq_getElem (by omega)⟩

theorem entry_none_of {v : LogView} {i : Nat} (h : i ≤ v.base ∨ v.last < i) : v.entry i = none := by
  cases he : v.entry i with
  | none => rfl
  | some e => have := entry_some_range he; omega

theorem WF.entry_index {v : LogView} (h : v.WF) {i : Nat} {e : Entry} (he : v.entry i = some e) : e.index = i := by
  have := entry_some_range he
  unfold entry at he
  rw [if_neg (by omega)] at he
  have := h _ _ he
  omega

theorem termAt_out {v : LogView} {i : Nat} (h : i < v.base ∨ v.last < i) : v.termAt i = 0 := by
  unfold termAt
  have : v.base ≤ v.last := Nat.le_add_right _ _
  rw [if_neg (by omega), entry_none_of (by omega)]

theorem termAt_entry {v : LogView} {i : Nat} {e : Entry} (he : v.entry i = some e) : v.termAt i = e.term := by
  have := entry_some_range he
  unfold termAt
  rw [if_neg (by omega), he]

theorem splice_entry_lt {v : LogView} {k i : Nat} {es : List Entry} (hi : i < k) (hk : k ≤ v.last + 1) :
    (v.splice k es).entry i = v.entry i := by
  unfold entry splice last at *
  dsimp only
  split
  · rfl
  · rw [List.getElem?_append_left (by rw [List.length_take]; omega), List.getElem?_take_of_lt (by omega)]

theorem splice_entry_ge {v : LogView} {k i : Nat} {es : List Entry} (hi : k ≤ i) (hb : v.base < k) (hk : k ≤ v.last + 1) :
    (v.splice k es).entry i = es[i - k]? := by
  unfold entry splice last at *
  dsimp only
  rw [if_neg (by omega), List.getElem?_append_right (by rw [List.length_take]; omega), List.length_take]
  congr 1
  omega

theorem splice_last {v : LogView} {k : Nat} {es : List Entry} (hb : v.base < k) (hk : k ≤ v.last + 1) :
    (v.splice k es).last + 1 = k + es.length := by
  unfold splice last at *
  simp only [List.length_append, List.length_take]
  omega

theorem splice_base {v : LogView} {k : Nat} {es : List Entry} : (v.splice k es).base = v.base := rfl

theorem splice_WF {v : LogView} {k : Nat} {es : List Entry} (h : v.WF) (hb : v.base < k) (hk : k ≤ v.last + 1)
    (he : Contig k es) : (v.splice k es).WF := by
  unfold WF splice last at *
  refine h.take.append ?_
  rw [List.length_take]
  rw [show v.base + 1 + min (k - v.base - 1) v.ents.length = k by omega]
  exact he

theorem compact_entry {v : LogView} {k i : Nat} (hk : v.base ≤ k) (hi : k < i) : (v.compact k).entry i = v.entry i := by
  unfold entry compact
  dsimp only
  rw [if_neg (by omega), if_neg (by omega), List.getElem?_drop]
  congr 1; omega

theorem compact_last {v : LogView} {k : Nat} (hk : v.base ≤ k) (hl : k ≤ v.last) : (v.compact k).last = v.last := by
  unfold last compact at *
  simp only [List.length_drop]
  omega

theorem compact_WF {v : LogView} {k : Nat} (h : v.WF) (hk : v.base ≤ k) : (v.compact k).WF := by
  unfold WF compact
  have := Contig.drop (n := k - v.base) h
  rwa [show v.base + 1 + (k - v.base) = k + 1 by omega] at this

theorem compact_termAt {v : LogView} {k i : Nat} (hk : v.base ≤ k) (hi : k ≤ i) :
    (v.compact k).termAt i = v.termAt i := by
  by_cases h : i = k
  · subst h; simp [termAt, compact]
  · unfold termAt
    rw [compact_entry hk (by omega)]
    rw [if_neg (by show i ≠ k; exact h), if_neg (by omega)]

end Spec.LogView

namespace Storage

theorem WF.view_wf {s : Storage} (h : s.WF) : s.view.WF := by
  have hc := h.contig
  have hn := h.ne
  unfold LogView.WF view
  dsimp only
  cases he : s.ents with
  | nil => exact absurd he hn
  | cons e es => rw [he] at hc; exact (Contig.cons.1 hc).2

theorem WF.len {s : Storage} (h : s.WF) : s.ents.length = s.view.ents.length + 1 := by
  have := h.ne
  unfold view
  cases he : s.ents with
  | nil => exact absurd he this
  | cons e es => simp

theorem WF.lastIndex_eq {s : Storage} (h : s.WF) : s.lastIndex = s.view.last := by
  unfold lastIndex LogView.last
  rw [h.len]; rfl

theorem firstIndex_eq (s : Storage) : s.firstIndex = s.view.base + 1 := rfl

theorem wf_new : Storage.new.WF := ⟨by decide, by intro i e h; match i, h with | 0, h => simp [Storage.new] at h; subst h; rfl⟩

theorem WF.get {s : Storage} (_h : s.WF) {i : Nat} (hi : s.offset < i) : s.ents[i - s.offset]? = s.view.entry i := by
  unfold LogView.entry view
  dsimp only
  rw [if_neg (by omega), List.getElem?_tail]
  congr 1; omega

/-- `Term`, exactly. -/
theorem WF.term_eq {s : Storage} (h : s.WF) (i : Nat) :
    s.term i = if i < s.view.base then .error .compacted else if i ≤ s.view.last then .ok (s.view.termAt i)
      else .error .unavailable := by
  unfold term
  have hb : s.view.base = s.offset := rfl
  rw [hb]
  split
  · rfl
  · rename_i hlt
    rcases Nat.lt_or_eq_of_le (Nat.le_of_not_lt hlt) with hlt' | heq
    · rw [h.get hlt']
      split
      · rename_i hno
        rw [if_neg]
        intro hle
        obtain ⟨e, he⟩ := LogView.entry_isSome (v := s.view) (by rw [hb]; exact hlt') hle
        rw [he] at hno; cases hno
      · rename_i e he
        have := LogView.entry_some_range he
        rw [if_pos this.2, LogView.termAt_entry he]
    · subst heq
      have hne := h.ne
      have : s.view.base ≤ s.view.last := Nat.le_add_right _ _
      rw [if_pos (by rw [← hb]; exact this)]
      unfold LogView.termAt
      rw [if_pos hb.symm]
      unfold view
      cases he : s.ents with
      | nil => exact absurd he hne
      | cons e es => simp

/-- `Entries`, exactly (within the calling contract `lo ≤ hi`). -/
theorem WF.entries_eq {s : Storage} (h : s.WF) (env : Env) (lo hi mx : Nat) (hlh : lo ≤ hi) :
    s.entries env lo hi mx =
      if lo ≤ s.view.base then .ok (.error .compacted)
      else if hi > s.view.last + 1 then .fatal "storage.cc:67"
      else if s.view.ents = [] then .ok (.error .unavailable)
      else .ok (.ok (limitSize env.entSize (s.view.range lo hi) mx)) := by
  unfold entries
  rw [h.lastIndex_eq, h.len]
  have hb : s.view.base = s.offset := rfl
  rw [hb]
  split
  · rfl
  · split
    · rfl
    · by_cases hv : s.view.ents = []
      · simp [hv]
      · have := List.length_pos_iff.2 hv
        rw [if_neg (by omega), if_neg (by omega), if_neg hv]
        unfold LogView.range
        rw [show s.view.ents = s.ents.tail from rfl, ← List.drop_one, List.drop_drop, hb]
        rw [show 1 + (lo - s.offset - 1) = lo - s.offset by omega]

/-- `Append` of consecutive entries: entries at or below the base are skipped, the rest replaces the suffix of the log
starting at its first index; a gap aborts. -/
theorem WF.append_eq {s : Storage} (h : s.WF) {k : Nat} {es : List Entry} (he : Contig k es) (hne : es ≠ []) :
    (k + es.length ≤ s.view.base + 1 → s.append es = .ok s) ∧
    (s.view.base + 1 < k + es.length → k ≤ s.view.last + 1 →
      ∃ s', s.append es = .ok s' ∧ s'.WF ∧ s'.hardState = s.hardState ∧ s'.snapshot = s.snapshot ∧
        s'.view = s.view.splice (max k (s.view.base + 1)) (es.drop (s.view.base + 1 - k))) ∧
    (s.view.base + 1 < k + es.length → s.view.last + 1 < k → k < 2 ^ 64 → s.append es = .fatal "storage.cc:225") := by
  have hb : s.view.base = s.offset := rfl
  have hf : s.firstIndex = s.offset + 1 := rfl
  obtain ⟨e0, es', rfl⟩ := List.exists_cons_of_ne_nil hne
  have h0 : e0.index = k := (Contig.cons.1 he).1
  refine ⟨fun hle => ?_, fun hgt hk => ?_, fun hgt hk hk64 => ?_⟩
  · unfold append
    dsimp only
    simp only [List.length_cons] at *
    rw [if_pos (by omega)]
  · unfold append
    simp only [List.length_cons] at *
    rw [if_neg (by omega)]
    have hdrop : (if s.firstIndex > e0.index then (e0 :: es').drop (s.firstIndex - e0.index) else e0 :: es') =
        (e0 :: es').drop (s.view.base + 1 - k) := by
      split
      · congr 1; omega
      · rw [show s.view.base + 1 - k = 0 by omega]; rfl
    rw [hdrop]
    have hc : Contig (max k (s.view.base + 1)) ((e0 :: es').drop (s.view.base + 1 - k)) := by
      have := he.drop (n := s.view.base + 1 - k)
      rwa [show k + (s.view.base + 1 - k) = max k (s.view.base + 1) by omega] at this
    have hne' : (e0 :: es').drop (s.view.base + 1 - k) ≠ [] := by
      rw [Ne, List.drop_eq_nil_iff]
      simp only [List.length_cons]; omega
    have hh := hc.head hne'
    rw [hh]
    have hs : sub64 (max k (s.view.base + 1)) s.offset = max k (s.view.base + 1) - s.offset := sub64_of_le (by omega)
    rw [hs]
    have hln := h.len
    have hlast : s.view.last = s.view.base + s.view.ents.length := rfl
    have hpos : 0 < max k (s.view.base + 1) - s.offset := by omega
    have hle : max k (s.view.base + 1) - s.offset ≤ s.ents.length := by omega
    have hres : (if max k (s.view.base + 1) - s.offset < s.ents.length then
        (Res.ok { s with ents := s.ents.take (max k (s.view.base + 1) - s.offset) ++ (e0 :: es').drop (s.view.base + 1 - k) })
      else if max k (s.view.base + 1) - s.offset = s.ents.length then
        (Res.ok { s with ents := s.ents ++ (e0 :: es').drop (s.view.base + 1 - k) })
      else Res.fatal "storage.cc:225") =
        Res.ok { s with ents := s.ents.take (max k (s.view.base + 1) - s.offset) ++ (e0 :: es').drop (s.view.base + 1 - k) } := by
      split
      · rfl
      · rw [if_pos (by omega), List.take_of_length_le (by omega)]
    rw [hres]
    refine ⟨_, rfl, ?_, rfl, rfl, ?_⟩
    · have hoff : ({ s with ents := s.ents.take (max k (s.view.base + 1) - s.offset) ++ (e0 :: es').drop (s.view.base + 1 - k) } : Storage).offset = s.offset := by
        unfold offset
        cases hse : s.ents with
        | nil => exact absurd hse h.ne
        | cons a as =>
          have : ∃ n, max k (s.view.base + 1) - s.offset = n + 1 := ⟨_, (Nat.sub_add_cancel hpos).symm⟩
          unfold offset at this; rw [hse] at this
          obtain ⟨n, hn⟩ := this
          dsimp only
          simp only [List.headD_cons] at *
          rw [hn]; simp
      constructor
      · dsimp only
        intro hnil
        rw [List.append_eq_nil_iff] at hnil
        exact hne' hnil.2
      · rw [hoff]
        dsimp only
        refine h.contig.take.append ?_
        rw [List.length_take]
        rw [show s.offset + min (max k (s.view.base + 1) - s.offset) s.ents.length = max k (s.view.base + 1) by omega]
        exact hc
    · unfold LogView.splice
      cases hse : s.ents with
      | nil => exact absurd hse h.ne
      | cons a as =>
        have : ∃ n, max k (s.view.base + 1) - s.offset = n + 1 := ⟨_, (Nat.sub_add_cancel hpos).symm⟩
        obtain ⟨n, hn⟩ := this
        rw [hn]
        rw [show max k (s.view.base + 1) - s.view.base - 1 = n by omega]
        simp [view, offset, hse]
  · unfold append
    have hlast : s.view.last = s.view.base + s.view.ents.length := rfl
    have := h.len
    simp only [List.length_cons] at *
    have hfk : ¬ s.firstIndex > e0.index := by omega
    rw [if_neg (by omega)]
    simp only [hfk, if_false, List.headD_cons]
    rw [sub64_of_le (by omega), if_neg (by omega), if_neg (by omega)]

theorem WF.compact_eq {s : Storage} (h : s.WF) (ci : Nat) :
    s.compact ci = (if ci ≤ s.view.base then .ok (s, some .compacted)
      else if ci > s.view.last then .fatal "storage.cc:174"
      else .ok ({ s with ents := s.ents.drop (ci - s.offset) }, none)) ∧
    (s.view.base < ci → ci ≤ s.view.last →
      ({ s with ents := s.ents.drop (ci - s.offset) } : Storage).WF ∧
      ({ s with ents := s.ents.drop (ci - s.offset) } : Storage).view = s.view.compact ci) := by
  have hb : s.view.base = s.offset := rfl
  refine ⟨?_, fun h1 h2 => ?_⟩
  · unfold compact
    rw [h.lastIndex_eq, hb]
  · have hln := h.len
    have hlast : s.view.last = s.view.base + s.view.ents.length := rfl
    obtain ⟨e, he⟩ := LogView.entry_isSome h1 h2
    have hidx := h.view_wf.entry_index he
    have hta := LogView.termAt_entry he
    rw [← h.get (by omega)] at he
    have hd : s.ents.drop (ci - s.offset) = e :: s.ents.drop (ci - s.offset + 1) := by
      rw [List.getElem?_eq_some_iff] at he
      obtain ⟨hl, rfl⟩ := he
      exact List.drop_eq_getElem_cons hl
    have hoff : ({ s with ents := s.ents.drop (ci - s.offset) } : Storage).offset = ci := by
      unfold offset; dsimp only
      unfold offset at hd; rw [hd]; exact hidx
    constructor
    · constructor
      · dsimp only; rw [hd]; simp
      · rw [hoff]
        have := h.contig.drop (n := ci - s.offset)
        rwa [show s.offset + (ci - s.offset) = ci by omega] at this
    · unfold LogView.compact
      rw [hta]
      have : ({ s with ents := s.ents.drop (ci - s.offset) } : Storage).view =
          { base := ci, baseTerm := e.term, ents := (s.ents.drop (ci - s.offset)).tail } := by
        unfold view
        rw [hoff]
        dsimp only
        congr 1
        rw [hd]; rfl
      rw [this]
      congr 1
      show _ = s.ents.tail.drop _
      rw [hb, List.tail_drop, ← List.drop_one, List.drop_drop]
      congr 1; omega

end Storage
end Craft
