import Verif.Basic

/-! Lemmas about the ordered association lists and ordered sets of `Verif/Basic.lean`. -/

namespace Craft

namespace AMap
variable {β : Type}

@[simp] theorem find_nil (k : Nat) : AMap.find ([] : AMap β) k = none := rfl

theorem find_insert (m : AMap β) (k k' : Nat) (v : β) :
    (m.insert k v).find k' = if k = k' then some v else m.find k' := by
  induction m with
  | nil => simp [insert, find]
  | cons a m ih =>
    obtain ⟨a, b⟩ := a
    unfold insert
    split
    · subst_vars; simp only [find]; split <;> rfl
    · split
      · simp only [find]
      · simp only [find, ih]
        split
        · split
          · subst_vars; exact absurd rfl ‹_›
          · rfl
        · rfl

@[simp] theorem find_insert_self (m : AMap β) (k : Nat) (v : β) : (m.insert k v).find k = some v := by
  simp [find_insert]

theorem find_insert_ne (m : AMap β) {k k' : Nat} (v : β) (h : k ≠ k') : (m.insert k v).find k' = m.find k' := by
  simp [find_insert, h]

theorem find_erase (m : AMap β) (k k' : Nat) : (m.erase k).find k' = if k = k' then none else m.find k' := by
  induction m with
  | nil => simp [erase, find]
  | cons a m ih =>
    obtain ⟨a, b⟩ := a
    unfold erase
    split
    · subst_vars; rw [ih]; simp only [find]; split <;> simp_all
    · simp only [find, ih]
      split
      · split
        · subst_vars; exact absurd rfl ‹_›
        · rfl
      · rfl

theorem mem_of_find {m : AMap β} {k : Nat} {v : β} (h : m.find k = some v) : (k, v) ∈ m := by
  induction m with
  | nil => cases h
  | cons a m ih =>
    obtain ⟨a, b⟩ := a
    simp only [find] at h
    split at h
    · subst_vars; cases h; exact List.mem_cons_self
    · exact List.mem_cons_of_mem _ (ih h)

theorem find_isSome_iff (m : AMap β) (k : Nat) : (m.find k).isSome = true ↔ k ∈ m.keys := by
  induction m with
  | nil => simp [keys]
  | cons a m ih =>
    obtain ⟨a, b⟩ := a
    simp only [find, keys, List.map_cons, List.mem_cons]
    split
    · subst_vars; simp
    · rw [ih]; simp only [keys]; constructor
      · exact Or.inr
      · rintro (h | h)
        · exact absurd h.symm ‹_›
        · exact h

theorem find_eq_none_iff (m : AMap β) (k : Nat) : m.find k = none ↔ k ∉ m.keys := by
  rw [← find_isSome_iff]; cases m.find k <;> simp

theorem has_iff (m : AMap β) (k : Nat) : m.has k = true ↔ ∃ v, m.find k = some v := by
  unfold has; cases m.find k <;> simp

theorem find_map (m : AMap β) {γ : Type} (f : Nat → β → γ) (k : Nat) :
    AMap.find (m.map fun (p : Nat × β) => (p.1, f p.1 p.2)) k = (m.find k).map (f k) := by
  induction m with
  | nil => rfl
  | cons a m ih =>
    obtain ⟨a, b⟩ := a
    simp only [List.map_cons, find]
    split
    · subst_vars; rfl
    · exact ih

theorem keys_map (m : AMap β) {γ : Type} (f : Nat → β → γ) :
    AMap.keys (m.map fun (p : Nat × β) => (p.1, f p.1 p.2)) = m.keys := by
  simp [keys, Function.comp_def]

theorem mem_keys_insert (m : AMap β) (k k' : Nat) (v : β) : k' ∈ (m.insert k v).keys ↔ k' = k ∨ k' ∈ m.keys := by
  rw [← find_isSome_iff, ← find_isSome_iff, find_insert]
  by_cases h : k = k'
  · subst h; simp
  · simp [h, Ne.symm h]

/-- Replacing the value of a present key keeps the key list. -/
theorem keys_insert_of_mem {m : AMap β} {k : Nat} (v : β) (hs : m.keys.Pairwise (· < ·)) (h : k ∈ m.keys) :
    (m.insert k v).keys = m.keys := by
  induction m with
  | nil => cases h
  | cons a m ih =>
    obtain ⟨a, b⟩ := a
    simp only [keys, List.map_cons, List.pairwise_cons, List.mem_cons] at hs h
    unfold insert
    split
    · subst_vars; rfl
    · rcases h with h | h
      · exact absurd h.symm ‹_›
      · have := hs.1 k h
        rw [if_neg (by omega)]
        simp only [keys, List.map_cons]
        congr 1
        exact ih hs.2 h

theorem keys_insert_sorted {m : AMap β} (k : Nat) (v : β) (hs : m.keys.Pairwise (· < ·)) :
    (m.insert k v).keys.Pairwise (· < ·) := by
  induction m with
  | nil => simp [insert, keys]
  | cons a m ih =>
    obtain ⟨a, b⟩ := a
    have hs' := hs
    simp only [keys, List.map_cons, List.pairwise_cons] at hs
    unfold insert
    split
    · subst_vars; exact hs'
    · split
      · simp only [keys, List.map_cons, List.pairwise_cons]
        refine ⟨?_, hs⟩
        intro x hx
        rcases List.mem_cons.1 hx with rfl | hx
        · assumption
        · have := hs.1 x hx; omega
      · simp only [keys, List.map_cons, List.pairwise_cons]
        refine ⟨?_, ih hs.2⟩
        intro x hx
        rcases (mem_keys_insert m k x v).1 hx with rfl | hx
        · omega
        · exact hs.1 x hx

theorem keys_erase_sublist (m : AMap β) (k : Nat) : (m.erase k).keys.Sublist m.keys := by
  induction m with
  | nil => simp [erase, keys]
  | cons a m ih =>
    obtain ⟨a, b⟩ := a
    unfold erase
    split
    · simp only [keys, List.map_cons]; exact List.Sublist.cons _ ih
    · simp only [keys, List.map_cons]; exact List.Sublist.cons_cons _ ih

theorem keys_erase_sorted {m : AMap β} (k : Nat) (hs : m.keys.Pairwise (· < ·)) :
    (m.erase k).keys.Pairwise (· < ·) := hs.sublist (keys_erase_sublist m k)

end AMap

namespace USet

theorem mem_insert (s : USet) (k x : Nat) : x ∈ USet.insert s k ↔ x = k ∨ x ∈ s := by
  induction s with
  | nil => simp [insert]
  | cons a s ih =>
    unfold insert
    split
    · subst_vars; simp
    · split
      · simp
      · simp only [List.mem_cons, ih]
        constructor <;> rintro (h | h | h) <;> simp_all

theorem mem_erase (s : USet) (k x : Nat) : x ∈ USet.erase s k ↔ x ≠ k ∧ x ∈ s := by
  induction s with
  | nil => simp [erase]
  | cons a s ih =>
    unfold erase
    split
    · subst_vars; rw [ih]; simp only [List.mem_cons]
      constructor
      · rintro ⟨h, h'⟩; exact ⟨h, Or.inr h'⟩
      · rintro ⟨h, h' | h'⟩
        · exact absurd h' h
        · exact ⟨h, h'⟩
    · simp only [List.mem_cons, ih]
      constructor
      · rintro (h | ⟨h, h'⟩)
        · subst h; exact ⟨‹_›, Or.inl rfl⟩
        · exact ⟨h, Or.inr h'⟩
      · rintro ⟨h, h' | h'⟩
        · exact Or.inl h'
        · exact Or.inr ⟨h, h'⟩

theorem has_iff (s : USet) (k : Nat) : s.has k = true ↔ k ∈ s := by simp [has]

theorem mem_insertAll (s t : USet) (x : Nat) : x ∈ USet.insertAll s t ↔ x ∈ s ∨ x ∈ t := by
  unfold insertAll
  induction t generalizing s with
  | nil => simp
  | cons a t ih =>
    simp only [List.foldl_cons, ih, mem_insert, List.mem_cons]
    constructor
    · rintro ((h | h) | h)
      · exact Or.inr (Or.inl h)
      · exact Or.inl h
      · exact Or.inr (Or.inr h)
    · rintro (h | h | h)
      · exact Or.inl (Or.inr h)
      · exact Or.inl (Or.inl h)
      · exact Or.inr h

theorem insert_sorted {s : USet} (k : Nat) (hs : s.Pairwise (· < ·)) : (USet.insert s k).Pairwise (· < ·) := by
  induction s with
  | nil => simp [insert]
  | cons a s ih =>
    have hs' := hs
    rw [List.pairwise_cons] at hs
    unfold insert
    split
    · exact hs'
    · split
      · rw [List.pairwise_cons]
        refine ⟨?_, hs'⟩
        intro x hx
        rcases List.mem_cons.1 hx with rfl | hx
        · assumption
        · have := hs.1 x hx; omega
      · rw [List.pairwise_cons]
        refine ⟨?_, ih hs.2⟩
        intro x hx
        rcases (mem_insert s k x).1 hx with rfl | hx
        · omega
        · exact hs.1 x hx

theorem erase_sublist (s : USet) (k : Nat) : (USet.erase s k).Sublist s := by
  induction s with
  | nil => simp [erase]
  | cons a s ih =>
    unfold erase
    split
    · exact List.Sublist.cons _ ih
    · exact List.Sublist.cons_cons _ ih

theorem erase_sorted {s : USet} (k : Nat) (hs : s.Pairwise (· < ·)) : (USet.erase s k).Pairwise (· < ·) :=
  hs.sublist (erase_sublist s k)

/-- Strictly ascending lists are determined by their members. -/
theorem ext_sorted {s t : USet} (hs : s.Pairwise (· < ·)) (ht : t.Pairwise (· < ·)) (h : ∀ x, x ∈ s ↔ x ∈ t) :
    s = t := by
  induction s generalizing t with
  | nil =>
    cases t with
    | nil => rfl
    | cons b t => exact absurd ((h b).2 List.mem_cons_self) (by simp)
  | cons a s ih =>
    cases t with
    | nil => exact absurd ((h a).1 List.mem_cons_self) (by simp)
    | cons b t =>
      rw [List.pairwise_cons] at hs ht
      have hab : a = b := by
        have h1 := (h a).1 List.mem_cons_self
        have h2 := (h b).2 List.mem_cons_self
        rcases List.mem_cons.1 h1 with h1 | h1
        · exact h1
        · rcases List.mem_cons.1 h2 with h2 | h2
          · exact h2.symm
          · have := hs.1 b h2; have := ht.1 a h1; omega
      subst hab
      congr 1
      apply ih hs.2 ht.2
      intro x
      have := h x
      simp only [List.mem_cons] at this
      constructor
      · intro hx
        rcases this.1 (Or.inr hx) with rfl | h'
        · have := hs.1 x hx; omega
        · exact h'
      · intro hx
        rcases this.2 (Or.inr hx) with rfl | h'
        · have := ht.1 x hx; omega
        · exact h'

end USet
end Craft
