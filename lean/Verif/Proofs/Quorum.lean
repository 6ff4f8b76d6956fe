import Verif.Model.Quorum

/-! Helper lemmas for `Verif/Props/Quorum.lean`. -/

namespace Craft

theorem sinkRev_perm (x : Nat) (l : List Nat) : (sinkRev x l).Perm (x :: l) := by
  induction l with
  | nil => simp [sinkRev]
  | cons y ys ih =>
    unfold sinkRev
    split
    · exact (List.Perm.cons y ih).trans (List.Perm.swap x y ys)
    · exact List.Perm.refl _

theorem insertionSortLoop_perm (acc l : List Nat) : (insertionSortLoop acc l).Perm (acc ++ l) := by
  induction l generalizing acc with
  | nil => simpa [insertionSortLoop] using List.reverse_perm acc
  | cons x xs ih =>
    unfold insertionSortLoop
    refine (ih _).trans ?_
    refine ((sinkRev_perm x acc).append_right xs).trans ?_
    simpa using (List.perm_middle (a := x) (l₁ := acc) (l₂ := xs)).symm

theorem insertionSort_perm (l : List Nat) : (insertionSort l).Perm l := by
  simpa [insertionSort] using insertionSortLoop_perm [] l

theorem sinkRev_sorted (x : Nat) (l : List Nat) (h : l.Pairwise (· ≥ ·)) : (sinkRev x l).Pairwise (· ≥ ·) := by
  induction l with
  | nil => simp [sinkRev]
  | cons y ys ih =>
    rw [List.pairwise_cons] at h
    unfold sinkRev
    split
    · rename_i hlt
      rw [List.pairwise_cons]
      refine ⟨?_, ih h.2⟩
      intro a ha
      have := (sinkRev_perm x ys).mem_iff.1 ha
      rcases List.mem_cons.1 this with rfl | h'
      · exact Nat.le_of_lt hlt
      · exact h.1 _ h'
    · rename_i hge
      rw [List.pairwise_cons]
      refine ⟨?_, List.pairwise_cons.2 h⟩
      intro a ha
      rcases List.mem_cons.1 ha with rfl | h'
      · exact Nat.le_of_not_lt hge
      · exact Nat.le_trans (h.1 _ h') (Nat.le_of_not_lt hge)

theorem insertionSortLoop_sorted (acc l : List Nat) (h : acc.Pairwise (· ≥ ·)) :
    (insertionSortLoop acc l).Pairwise (· ≤ ·) := by
  induction l generalizing acc with
  | nil => simpa [insertionSortLoop, List.pairwise_reverse] using h
  | cons x xs ih => exact ih _ (sinkRev_sorted x acc h)

theorem insertionSort_sorted (l : List Nat) : (insertionSort l).Pairwise (· ≤ ·) :=
  insertionSortLoop_sorted [] l List.Pairwise.nil

/-- `filterMap` then padding with zeros is a permutation of mapping with default 0. -/
theorem filterMap_pad_perm (l : List Nat) (f : Nat → Option Nat) :
    (List.replicate (l.length - (l.filterMap f).length) 0 ++ l.filterMap f).Perm (l.map fun v => (f v).getD 0) := by
  induction l with
  | nil => simp
  | cons a l ih =>
    have hle : (l.filterMap f).length ≤ l.length := List.length_filterMap_le f l
    cases h : f a with
    | none =>
      simp only [List.filterMap_cons_none h, List.length_cons, List.map_cons, h, Option.getD_none]
      rw [show l.length + 1 - (l.filterMap f).length = (l.length - (l.filterMap f).length) + 1 by omega,
        List.replicate_succ, List.cons_append]
      exact ih.cons 0
    | some b =>
      simp only [List.filterMap_cons_some h, List.length_cons, List.map_cons, h, Option.getD_some]
      rw [Nat.add_sub_add_right]
      exact List.perm_middle.trans (ih.cons b)

theorem fill_perm (cfg : USet) (acked : Nat → Option Nat) :
    (Majority.fill cfg acked).Perm (cfg.map fun v => (acked v).getD 0) := by
  unfold Majority.fill
  refine List.Perm.trans ?_ (filterMap_pad_perm cfg acked)
  exact (List.reverse_perm _).append_left _

/-- In an ascending list, the element at position `p` is reached by at least `length - p` elements. -/
theorem sorted_count_ge (s : List Nat) (hs : s.Pairwise (· ≤ ·)) (p : Nat) (hp : p < s.length) :
    s.length - p ≤ s.countP (fun x => decide (s.getD p 0 ≤ x)) := by
  have hd : s.getD p 0 = s[p] := by simp [List.getD_eq_getElem?_getD, hp]
  have h1 : s.countP (fun x => decide (s.getD p 0 ≤ x)) =
      (s.take p).countP (fun x => decide (s.getD p 0 ≤ x)) + (s.drop p).countP (fun x => decide (s.getD p 0 ≤ x)) := by
    rw [← List.countP_append, List.take_append_drop]
  have h2 : (s.drop p).countP (fun x => decide (s.getD p 0 ≤ x)) = (s.drop p).length := by
    rw [List.countP_eq_length]
    intro a ha
    rw [List.mem_iff_getElem] at ha
    obtain ⟨i, hi, rfl⟩ := ha
    rw [List.getElem_drop, hd]
    simp only [decide_eq_true_eq]
    rcases Nat.eq_zero_or_pos i with h0 | h0
    · subst h0; simp
    · exact (List.pairwise_iff_getElem.1 hs) p (p + i) hp (by simp at hi; omega) (by omega)
  simp only [List.length_drop] at h2
  omega

/-- ... and anything larger is reached by fewer. -/
theorem sorted_count_lt (s : List Nat) (hs : s.Pairwise (· ≤ ·)) (p i : Nat) (hp : p < s.length)
    (hi : s.getD p 0 < i) : s.countP (fun x => decide (i ≤ x)) ≤ s.length - (p + 1) := by
  have hd : s.getD p 0 = s[p] := by simp [List.getD_eq_getElem?_getD, hp]
  have h1 : s.countP (fun x => decide (i ≤ x)) =
      (s.take (p+1)).countP (fun x => decide (i ≤ x)) + (s.drop (p+1)).countP (fun x => decide (i ≤ x)) := by
    rw [← List.countP_append, List.take_append_drop]
  have h2 : (s.take (p+1)).countP (fun x => decide (i ≤ x)) = 0 := by
    rw [List.countP_eq_zero]
    intro a ha
    rw [List.mem_iff_getElem] at ha
    obtain ⟨j, hj, rfl⟩ := ha
    rw [List.getElem_take]
    simp only [decide_eq_true_eq, Nat.not_le]
    simp at hj
    rcases Nat.lt_or_ge j p with h | h
    · have := (List.pairwise_iff_getElem.1 hs) j p (by omega) hp h
      omega
    · have : j = p := by omega
      subst this; omega
  have h3 := List.countP_le_length (l := s.drop (p+1)) (p := fun x => decide (i ≤ x))
  simp only [List.length_drop] at h3
  omega

theorem countVotes_yes (votes : AMap Bool) (cfg : USet) :
    (Majority.countVotes votes cfg).1 = cfg.countP (fun v => votes.find v == some true) := by
  induction cfg with
  | nil => rfl
  | cons a l ih =>
    unfold Majority.countVotes
    cases h : votes.find a with
    | none => simp [h, ih]
    | some b => cases b <;> simp [h, ih]

theorem countVotes_missing (votes : AMap Bool) (cfg : USet) :
    (Majority.countVotes votes cfg).2 = cfg.countP (fun v => votes.find v == none) := by
  induction cfg with
  | nil => rfl
  | cons a l ih =>
    unfold Majority.countVotes
    cases h : votes.find a with
    | none => simp [h, ih]
    | some b => cases b <;> simp [h, ih]

end Craft
