import Verif.Model.PbConf

/-! # C15, C16: textual conf changes and ConfState equality (`/repo/src/raftpb/confchange.cc`, `confstate.cc`) -/

namespace Craft

theorem digitsVal_eq (cs : List Char) (acc : Nat) (h : ∀ c ∈ cs, c.isDigit = true) :
    digitsVal acc cs = Nat.ofDigitChars 10 cs acc := by
  induction cs generalizing acc with
  | nil => simp [digitsVal]
  | cons c cs ih =>
    rw [digitsVal, if_pos (h c List.mem_cons_self), ih _ (fun x hx => h x (List.mem_cons_of_mem _ hx)),
      Nat.ofDigitChars_cons, Nat.mul_comm]
    rfl

theorem showNat_digit {n : Nat} {c : Char} (h : c ∈ showNat n) : c.isDigit = true :=
  Nat.isDigit_of_mem_toDigits (by decide) (by decide) h

theorem showNat_cons (n : Nat) : ∃ d ds, showNat n = d :: ds := by
  cases h : showNat n with
  | nil => exact absurd h Nat.toDigits_ne_nil
  | cons d ds => exact ⟨d, ds, rfl⟩

theorem digit_ne {c d : Char} (h : c.isDigit = true) (hd : d.isDigit = false) : c ≠ d := by
  rintro rfl; simp [h] at hd

theorem strtoull_showNat (n : Nat) (h : n < 2 ^ 64) : strtoull (showNat n) = n := by
  obtain ⟨d, ds, hd⟩ := showNat_cons n
  have hdig : ∀ c ∈ d :: ds, c.isDigit = true := fun c hc => showNat_digit (n := n) (hd ▸ hc)
  have h0 := hdig d List.mem_cons_self
  have hv : digitsVal 0 (d :: ds) = n := by
    rw [digitsVal_eq _ _ hdig, ← hd]; exact Nat.ofDigitChars_ten_toDigits
  have hsp : isSpaceC d = false := by
    unfold isSpaceC
    have : ∀ c : Char, c.isDigit = false → decide (d = c) = false := fun c hc => by
      simpa using digit_ne h0 hc
    simp only [this _ (rfl : Char.isDigit ' ' = false), this _ (rfl : Char.isDigit '\t' = false),
      this _ (rfl : Char.isDigit '\n' = false), this _ (rfl : Char.isDigit '\x0b' = false),
      this _ (rfl : Char.isDigit '\x0c' = false), this _ (rfl : Char.isDigit '\r' = false), Bool.or_false]
  unfold strtoull
  rw [hd]
  have hdw : List.dropWhile isSpaceC (d :: ds) = d :: ds := by simp [List.dropWhile, hsp]
  rw [hdw]
  dsimp only
  have n1 : d ≠ '-' := digit_ne h0 rfl
  have n2 : d ≠ '+' := digit_ne h0 rfl
  split
  · rename_i heq; cases heq; exact absurd rfl n1
  · rename_i heq; cases heq; exact absurd rfl n2
  · rw [hv]; unfold u64Max; omega

/-- A change whose type is one of the four the API defines. -/
def CCSingle.KnownType (cc : CCSingle) : Prop := ∀ n, cc.type ≠ .unknown n

theorem ccToString_shape (cc : CCSingle) (h : cc.KnownType) :
    ∃ k d ds, ccToString cc = k :: d :: ds ∧ showNat cc.nodeId = d :: ds ∧ k ≠ ' ' ∧
      ((cc.type = .addNode ∧ k = 'v') ∨ (cc.type = .addLearnerNode ∧ k = 'l') ∨ (cc.type = .removeNode ∧ k = 'r') ∨
        (cc.type = .updateNode ∧ k = 'u')) := by
  obtain ⟨d, ds, hd⟩ := showNat_cons cc.nodeId
  unfold ccToString
  rw [hd]
  cases ht : cc.type with
  | unknown n => exact absurd ht (h n)
  | addNode => exact ⟨'v', d, ds, rfl, rfl, by decide, by simp⟩
  | removeNode => exact ⟨'r', d, ds, rfl, rfl, by decide, by simp⟩
  | updateNode => exact ⟨'u', d, ds, rfl, rfl, by decide, by simp⟩
  | addLearnerNode => exact ⟨'l', d, ds, rfl, rfl, by decide, by simp⟩

theorem ccToString_no_space (cc : CCSingle) (h : cc.KnownType) : ∀ c ∈ ccToString cc, c ≠ ' ' := by
  obtain ⟨k, d, ds, h1, h2, h3, _⟩ := ccToString_shape cc h
  intro c hc
  rw [h1] at hc
  rcases List.mem_cons.1 hc with rfl | hc
  · exact h3
  · exact digit_ne (showNat_digit (h2 ▸ hc)) rfl

theorem splitLoop_token (d : Char) (tok rest cur : List Char) (h : ∀ c ∈ tok, c ≠ d) :
    splitLoop d cur (tok ++ rest) = splitLoop d (cur ++ tok) rest := by
  induction tok generalizing cur with
  | nil => simp
  | cons c cs ih =>
    rw [List.cons_append, splitLoop, if_neg (h c List.mem_cons_self), ih _ (fun x hx => h x (List.mem_cons_of_mem _ hx))]
    simp

theorem split_join (ccs : List CCSingle) (hne : ccs ≠ []) (h : ∀ cc ∈ ccs, cc.KnownType) :
    split ' ' (confChangesToString ccs) = ccs.map ccToString := by
  unfold split
  induction ccs with
  | nil => exact absurd rfl hne
  | cons cc ccs ih =>
    have ht := ccToString_no_space cc (h cc List.mem_cons_self)
    cases ccs with
    | nil =>
      have := splitLoop_token ' ' (ccToString cc) [] [] ht
      rw [List.append_nil] at this
      rw [confChangesToString, this]
      simp [splitLoop]
    | cons c2 ccs =>
      rw [confChangesToString, splitLoop_token ' ' _ _ [] ht]
      · simp only [splitLoop, List.nil_append, if_true, List.map_cons]
        rw [ih (by simp) (fun x hx => h x (List.mem_cons_of_mem _ hx))]
        simp
      · simp

theorem parseTokens_map (ccs : List CCSingle) (h : ∀ cc ∈ ccs, cc.KnownType ∧ cc.nodeId < 2 ^ 64) :
    parseTokens (ccs.map ccToString) = .ok ccs := by
  induction ccs with
  | nil => rfl
  | cons cc ccs ih =>
    have hc := h cc List.mem_cons_self
    obtain ⟨k, d, ds, h1, h2, _, h4⟩ := ccToString_shape cc hc.1
    have hs := strtoull_showNat cc.nodeId hc.2
    rw [h2] at hs
    rw [List.map_cons, h1, parseTokens, ih (fun x hx => h x (List.mem_cons_of_mem _ hx)), hs]
    obtain ⟨ty, id⟩ := cc
    rcases h4 with ⟨ht, rfl⟩ | ⟨ht, rfl⟩ | ⟨ht, rfl⟩ | ⟨ht, rfl⟩ <;> simp at ht <;> subst ht <;> rfl

theorem toString_ends (ccs : List CCSingle) (hne : ccs ≠ []) (h : ∀ cc ∈ ccs, cc.KnownType) :
    (∃ a s, confChangesToString ccs = a :: s ∧ a ≠ ' ') ∧ (∃ s z, confChangesToString ccs = s ++ [z] ∧ z ≠ ' ') := by
  induction ccs with
  | nil => exact absurd rfl hne
  | cons cc ccs ih =>
    have hc := h cc List.mem_cons_self
    obtain ⟨k, d, ds, h1, h2, h3, h4⟩ := ccToString_shape cc hc
    cases ccs with
    | nil =>
      rw [confChangesToString, h1]
      refine ⟨⟨k, d :: ds, rfl, h3⟩, (k :: d :: ds).dropLast, (k :: d :: ds).getLast (by simp), ?_, ?_⟩
      · exact (List.dropLast_concat_getLast _).symm
      · exact ccToString_no_space cc hc _ (by rw [h1]; exact List.getLast_mem _)
    | cons c2 ccs =>
      obtain ⟨_, s, z, e, hz⟩ := ih (by simp) (fun x hx => h x (List.mem_cons_of_mem _ hx))
      rw [confChangesToString, h1]
      · refine ⟨⟨k, _, rfl, h3⟩, (k :: d :: ds) ++ ' ' :: s, z, ?_, hz⟩
        rw [e]; simp
      · simp

/-- **C15.** Parsing the text of a list of known-type changes with 64-bit ids gives the list back. -/
theorem C15_confchange_text_roundtrip (ccs : List CCSingle)
    (h : ∀ cc ∈ ccs, cc.type ∈ [.addNode, .removeNode, .updateNode, .addLearnerNode] ∧ cc.nodeId < 2 ^ 64) :
    confChangesFromString (confChangesToString ccs) = .ok ccs := by
  have hk : ∀ cc ∈ ccs, cc.KnownType := by
    intro cc hc n hn
    have := (h cc hc).1
    rw [hn] at this
    simp at this
  unfold confChangesFromString
  dsimp only
  cases ccs with
  | nil => rfl
  | cons cc ccs =>
    obtain ⟨⟨a, s, e1, ha⟩, s2, z, e2, hz⟩ := toString_ends (cc :: ccs) (by simp) hk
    have htrim : trim ' ' (confChangesToString (cc :: ccs)) = confChangesToString (cc :: ccs) := by
      unfold trim
      have : List.dropWhile (fun x => x == ' ') (confChangesToString (cc :: ccs)) = confChangesToString (cc :: ccs) := by
        rw [e1]; simp [ha]
      rw [this, e2]
      simp [hz]
    rw [htrim, split_join _ (by simp) hk]
    obtain ⟨k, d, ds, h1, -⟩ := ccToString_shape cc (hk cc List.mem_cons_self)
    rw [if_neg (by simp [h1])]
    exact parseTokens_map _ fun c hc => ⟨hk c hc, (h c hc).2⟩

-- a list that meets the hypotheses, with its text
example : confChangesToString [⟨.addNode, 1⟩, ⟨.removeNode, 18446744073709551615⟩, ⟨.addLearnerNode, 0⟩] =
    "v1 r18446744073709551615 l0".toList := by decide

theorem insertU64_perm (x : Nat) (l : List Nat) : (insertU64 x l).Perm (x :: l) := by
  induction l with
  | nil => exact .refl _
  | cons y ys ih =>
    unfold insertU64
    split
    · exact .refl _
    · exact (ih.cons y).trans (.swap x y ys)

theorem sortU64_perm (l : List Nat) : (sortU64 l).Perm l := by
  induction l with
  | nil => exact .refl _
  | cons x xs ih => exact (insertU64_perm x _).trans (ih.cons x)

theorem insertU64_sorted (x : Nat) (l : List Nat) (h : l.Pairwise (· ≤ ·)) : (insertU64 x l).Pairwise (· ≤ ·) := by
  induction l with
  | nil => simp [insertU64]
  | cons y ys ih =>
    unfold insertU64
    rw [List.pairwise_cons] at h
    split
    · rename_i hxy
      rw [List.pairwise_cons, List.pairwise_cons]
      refine ⟨?_, h⟩
      intro z hz
      rcases List.mem_cons.1 hz with rfl | hz
      · exact hxy
      · exact Nat.le_trans hxy (h.1 z hz)
    · rename_i hxy
      rw [List.pairwise_cons]
      refine ⟨?_, ih h.2⟩
      intro z hz
      rcases List.mem_cons.1 ((insertU64_perm x ys).mem_iff.1 hz) with rfl | hz
      · omega
      · exact h.1 z hz

theorem sortU64_sorted (l : List Nat) : (sortU64 l).Pairwise (· ≤ ·) := by
  induction l with
  | nil => exact .nil
  | cons x xs ih => exact insertU64_sorted x _ ih

/-- **C16.** `operator==` holds iff the four id lists are permutations of each other and `auto_leave` agrees. -/
theorem C16_confstate_eq_iff (a b : ConfState) :
    confStateEq a b = true ↔
      a.voters.Perm b.voters ∧ a.learners.Perm b.learners ∧ a.votersOutgoing.Perm b.votersOutgoing ∧
      a.learnersNext.Perm b.learnersNext ∧ a.autoLeave = b.autoLeave := by
  have key : ∀ l m : List Nat, sortU64 l = sortU64 m ↔ l.Perm m := by
    intro l m
    constructor
    · intro h
      exact (sortU64_perm l).symm.trans (h ▸ sortU64_perm m)
    · intro h
      refine List.Perm.eq_of_pairwise (le := fun a b => a ≤ b) ?_ (sortU64_sorted l) (sortU64_sorted m)
        (((sortU64_perm l).trans h).trans (sortU64_perm m).symm)
      intro a b _ _ h1 h2; omega
  simp only [confStateEq, Bool.and_eq_true, decide_eq_true_eq, key, and_assoc]

/-- **C16.** It is an equivalence relation. -/
theorem C16_confstate_eq_equivalence : Equivalence (fun a b => confStateEq a b = true) where
  refl a := (C16_confstate_eq_iff a a).2 ⟨.refl _, .refl _, .refl _, .refl _, rfl⟩
  symm {a b} h := by
    obtain ⟨h1, h2, h3, h4, h5⟩ := (C16_confstate_eq_iff a b).1 h
    exact (C16_confstate_eq_iff b a).2 ⟨h1.symm, h2.symm, h3.symm, h4.symm, h5.symm⟩
  trans {a b c} h k := by
    obtain ⟨h1, h2, h3, h4, h5⟩ := (C16_confstate_eq_iff a b).1 h
    obtain ⟨k1, k2, k3, k4, k5⟩ := (C16_confstate_eq_iff b c).1 k
    exact (C16_confstate_eq_iff a c).2 ⟨h1.trans k1, h2.trans k2, h3.trans k3, h4.trans k4, h5.trans k5⟩

-- order does not matter, multiplicity does
example : confStateEq { voters := [3, 1, 2] } { voters := [1, 2, 3] } = true ∧
    confStateEq { voters := [1, 1] } { voters := [1] } = false := by
  constructor
  · rw [C16_confstate_eq_iff]
    exact ⟨by decide, by decide, by decide, by decide, rfl⟩
  · rw [← Bool.not_eq_true, C16_confstate_eq_iff]
    intro h
    exact absurd h.1.length_eq (by decide)

end Craft
