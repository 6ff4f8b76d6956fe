import Verif.Proofs.Quorum
import Verif.Spec.Quorum

/-! # C01–C04: quorum computations (`/repo/src/quorum`) -/

namespace Craft

open Spec (MajorityAcked MajorityYes Extends CanWin)

/-! ## C01 -/

/-- C01: the result is acknowledged by a strict majority and nothing larger is. -/
theorem C01_majority_committed_exact (cfg : USet) (acked : Nat → Option Nat) (hne : cfg ≠ []) :
    MajorityAcked cfg acked (Majority.committedIndex cfg acked) ∧
    ∀ i, MajorityAcked cfg acked i → i ≤ Majority.committedIndex cfg acked := by
  have hlen : 0 < cfg.length := List.length_pos_iff.2 hne
  let s := insertionSort (Majority.fill cfg acked)
  have hperm : s.Perm (cfg.map fun v => (acked v).getD 0) := (insertionSort_perm _).trans (fill_perm cfg acked)
  have hsl : s.length = cfg.length := by rw [hperm.length_eq, List.length_map]
  have hs : s.Pairwise (· ≤ ·) := insertionSort_sorted _
  have hci : Majority.committedIndex cfg acked = s.getD (cfg.length - (cfg.length / 2 + 1)) 0 := by
    unfold Majority.committedIndex
    rw [if_neg (by omega)]
  have hcount : ∀ i, s.countP (fun x => decide (i ≤ x)) =
      Spec.count cfg (fun v => decide (i ≤ (acked v).getD 0)) := by
    intro i
    rw [hperm.countP_eq, List.countP_map, List.countP_eq_length_filter]
    rfl
  constructor
  · unfold MajorityAcked Spec.Majority
    rw [← hcount, hci]
    have := sorted_count_ge s hs (cfg.length - (cfg.length / 2 + 1)) (by omega)
    omega
  · intro i hi
    unfold MajorityAcked Spec.Majority at hi
    rw [← hcount] at hi
    apply Nat.le_of_not_lt
    intro hlt
    rw [hci] at hlt
    have := sorted_count_lt s hs (cfg.length - (cfg.length / 2 + 1)) i (by omega) hlt
    omega

/-- C01, empty configuration. -/
theorem C01_majority_committed_empty (acked : Nat → Option Nat) :
    Majority.committedIndex [] acked = 2 ^ 64 - 1 := rfl

-- five voters, three reported: the majority index is 12
example : Majority.committedIndex [1, 2, 3, 4, 5] (fun v => if v = 1 then some 100 else if v = 4 then some 12
    else if v = 5 then some 13 else none) = 12 := by decide

/-! ## C02 -/

/-- Voting yes wherever no vote was cast is the best extension. -/
theorem canWin_iff (cfg : USet) (votes : AMap Bool) :
    CanWin cfg votes.find ↔
      cfg.length < 2 * (cfg.countP (fun v => votes.find v == some true) + cfg.countP (fun v => votes.find v == none)) := by
  have key : ∀ l : List Nat, l.countP (fun v => votes.find v == some true) + l.countP (fun v => votes.find v == none)
      = l.countP (fun v => votes.find v == some true || votes.find v == none) := by
    intro l
    induction l with
    | nil => rfl
    | cons a l ih =>
      simp only [List.countP_cons, ← ih]
      have h1 : (some true == (none : Option Bool)) = false := rfl
      have h2 : (none == (some true : Option Bool)) = false := rfl
      cases h : votes.find a with
      | none => simp only [h2, beq_self_eq_true, Bool.or_true, if_true]; simp; omega
      | some b => cases b <;> simp <;> omega
  rw [key]
  constructor
  · rintro ⟨v', hext, hmaj⟩
    unfold MajorityYes Spec.Majority Spec.count at hmaj
    rw [← List.countP_eq_length_filter] at hmaj
    refine Nat.lt_of_lt_of_le hmaj (Nat.mul_le_mul_left 2 ?_)
    apply List.countP_mono_left
    intro v _ hv
    cases h : votes.find v with
    | none => simp
    | some b =>
      have := hext v b h
      simp only [this, beq_iff_eq, Option.some.injEq] at hv
      subst hv; rfl
  · intro h
    refine ⟨fun v => some ((votes.find v).getD true), ?_, ?_⟩
    · intro v b hb
      simp [hb]
    · unfold MajorityYes Spec.Majority Spec.count
      rw [← List.countP_eq_length_filter]
      refine Nat.lt_of_lt_of_le h (Nat.mul_le_mul_left 2 ?_)
      apply List.countP_mono_left
      intro v _ hv
      cases h : votes.find v with
      | none => simp [h]
      | some b => simpa [h] using hv

theorem voteResult_won_iff (cfg : USet) (votes : AMap Bool) (hne : cfg ≠ []) :
    Majority.voteResult cfg votes = .won ↔ MajorityYes cfg votes.find := by
  unfold Majority.voteResult MajorityYes Spec.Majority Spec.count
  rw [if_neg hne, ← List.countP_eq_length_filter]
  simp only [countVotes_yes, countVotes_missing]
  constructor
  · intro h
    split at h
    · omega
    · split at h <;> cases h
  · intro h
    rw [if_pos (by omega)]

theorem voteResult_lost_iff (cfg : USet) (votes : AMap Bool) (hne : cfg ≠ []) :
    Majority.voteResult cfg votes = .lost ↔ ¬ CanWin cfg votes.find := by
  rw [canWin_iff]
  unfold Majority.voteResult
  rw [if_neg hne]
  simp only [countVotes_yes, countVotes_missing]
  constructor
  · intro h
    split at h
    · cases h
    · split at h
      · cases h
      · omega
  · intro h
    rw [if_neg (by omega), if_neg (by omega)]

/-- C02: won iff a strict majority voted yes; lost iff no further votes could produce one; pending otherwise. -/
theorem C02_majority_vote_exact (cfg : USet) (votes : AMap Bool) (hne : cfg ≠ []) :
    (Majority.voteResult cfg votes = .won ↔ MajorityYes cfg votes.find) ∧
    (Majority.voteResult cfg votes = .lost ↔ ¬ CanWin cfg votes.find) ∧
    (Majority.voteResult cfg votes = .pending ↔ ¬ MajorityYes cfg votes.find ∧ CanWin cfg votes.find) := by
  refine ⟨voteResult_won_iff cfg votes hne, voteResult_lost_iff cfg votes hne, ?_⟩
  have h1 := voteResult_won_iff cfg votes hne
  have h2 := voteResult_lost_iff cfg votes hne
  cases h : Majority.voteResult cfg votes <;> simp_all

/-- C02: a decision is final. -/
theorem C02_majority_vote_final (cfg : USet) (votes votes' : AMap Bool) (hext : Extends votes.find votes'.find)
    (hdec : Majority.voteResult cfg votes ≠ .pending) :
    Majority.voteResult cfg votes' = Majority.voteResult cfg votes := by
  by_cases hne : cfg = []
  · subst hne; rfl
  cases h : Majority.voteResult cfg votes with
  | pending => exact absurd h hdec
  | won =>
    rw [voteResult_won_iff cfg _ hne] at h ⊢
    unfold MajorityYes Spec.Majority Spec.count at *
    rw [← List.countP_eq_length_filter] at *
    refine Nat.lt_of_lt_of_le h (Nat.mul_le_mul_left 2 ?_)
    apply List.countP_mono_left
    intro v _ hv
    simp only [beq_iff_eq] at hv ⊢
    exact hext v true hv
  | lost =>
    rw [voteResult_lost_iff cfg _ hne] at h ⊢
    rintro ⟨v', hv', hm⟩
    exact h ⟨v', fun v b hb => hv' v b (hext v b hb), hm⟩

/-- C02, empty configuration: elections win by convention. -/
theorem C02_majority_vote_empty (votes : AMap Bool) : Majority.voteResult [] votes = .won := rfl

example : Majority.voteResult [1, 2, 3] [(1, true)] = .pending ∧
    Majority.voteResult [1, 2, 3] [(1, true), (2, false), (3, false)] = .lost ∧
    Majority.voteResult [1, 2, 3, 4] [(1, true), (2, true)] = .pending ∧
    Majority.voteResult [1, 2, 3, 4] [(1, true), (2, true), (4, true)] = .won := by decide

/-! ## C03 -/

/-- C03: the joint index is the largest one acknowledged by a majority of each non-empty half. -/
theorem C03_joint_committed_exact (c : JointConfig) (acked : Nat → Option Nat)
    (hb : ∀ v a, acked v = some a → a < 2 ^ 64) (i : Nat) :
    i ≤ c.committedIndex acked ↔
      (i ≤ 2 ^ 64 - 1) ∧ (c.incoming ≠ [] → MajorityAcked c.incoming acked i) ∧
      (c.outgoing ≠ [] → MajorityAcked c.outgoing acked i) := by
  have mono : ∀ (l : USet) (i j : Nat), i ≤ j → MajorityAcked l acked j → MajorityAcked l acked i := by
    intro l i j hij h
    unfold MajorityAcked Spec.Majority Spec.count at *
    rw [← List.countP_eq_length_filter] at *
    refine Nat.lt_of_lt_of_le h (Nat.mul_le_mul_left 2 ?_)
    apply List.countP_mono_left
    intro v _ hv
    simp only [decide_eq_true_eq] at *
    omega
  have half : ∀ (l : USet), i ≤ Majority.committedIndex l acked ↔ (i ≤ 2 ^ 64 - 1) ∧ (l ≠ [] → MajorityAcked l acked i) := by
    intro l
    by_cases hl : l = []
    · subst hl
      rw [C01_majority_committed_empty]
      simp
    · have h := C01_majority_committed_exact l acked hl
      constructor
      · intro hi
        have hm := mono l _ _ hi h.1
        refine ⟨?_, fun _ => hm⟩
        -- some voter acked at least i, so i is a 64-bit number
        have hpos : 0 < l.countP (fun v => decide (i ≤ (acked v).getD 0)) := by
          unfold MajorityAcked Spec.Majority Spec.count at hm
          rw [← List.countP_eq_length_filter] at hm
          omega
        obtain ⟨v, _, hv⟩ := List.countP_pos_iff.1 hpos
        simp only [decide_eq_true_eq] at hv
        cases hav : acked v with
        | none => simp [hav] at hv; omega
        | some a => have := hb v a hav; simp [hav] at hv; omega
      · intro hi
        exact h.2 i (hi.2 hl)
  unfold JointConfig.committedIndex
  rw [Nat.le_min, half, half]
  constructor
  · rintro ⟨h1, h2⟩; exact ⟨h1.1, h1.2, h2.2⟩
  · rintro ⟨h0, h1, h2⟩; exact ⟨⟨h0, h1⟩, ⟨h0, h2⟩⟩

/-- C03: won iff both halves are won, lost iff one is lost, pending otherwise. -/
theorem C03_joint_vote_exact (c : JointConfig) (votes : AMap Bool) :
    (c.voteResult votes = .won ↔
      (c.incoming ≠ [] → MajorityYes c.incoming votes.find) ∧ (c.outgoing ≠ [] → MajorityYes c.outgoing votes.find)) ∧
    (c.voteResult votes = .lost ↔
      (c.incoming ≠ [] ∧ ¬ CanWin c.incoming votes.find) ∨ (c.outgoing ≠ [] ∧ ¬ CanWin c.outgoing votes.find)) := by
  have hw : ∀ l : USet, Majority.voteResult l votes = .won ↔ (l ≠ [] → MajorityYes l votes.find) := by
    intro l
    by_cases hl : l = []
    · subst hl; simp [C02_majority_vote_empty]
    · rw [voteResult_won_iff l votes hl]; simp [hl]
  have hlo : ∀ l : USet, Majority.voteResult l votes = .lost ↔ (l ≠ [] ∧ ¬ CanWin l votes.find) := by
    intro l
    by_cases hl : l = []
    · subst hl; simp [C02_majority_vote_empty]
    · rw [voteResult_lost_iff l votes hl]; simp [hl]
  rw [← hw, ← hw, ← hlo, ← hlo]
  unfold JointConfig.voteResult
  cases Majority.voteResult c.incoming votes <;> cases Majority.voteResult c.outgoing votes <;> decide

example : (JointConfig.mk [1, 2, 3] [3, 4, 5]).voteResult [(1, true), (2, true)] = .pending ∧
    (JointConfig.mk [1, 2, 3] [3, 4, 5]).voteResult [(1, true), (3, true), (4, true)] = .won := by decide

/-! ## C04 -/

theorem majority_inter (cfg : List Nat) (P Q : Nat → Bool) (hp : Spec.Majority cfg P) (hq : Spec.Majority cfg Q) :
    ∃ v ∈ cfg, P v = true ∧ Q v = true := by
  apply Classical.byContradiction
  intro hno
  have key : ∀ l : List Nat, (∀ v ∈ l, ¬ (P v = true ∧ Q v = true)) → l.countP P + l.countP Q ≤ l.length := by
    intro l
    induction l with
    | nil => simp
    | cons a l ih =>
      intro h
      have h1 := ih (fun v hv => h v (List.mem_cons_of_mem _ hv))
      have h2 := h a List.mem_cons_self
      simp only [List.countP_cons, List.length_cons]
      cases hpa : P a <;> cases hqa : Q a <;> simp_all <;> omega
  have := key cfg (fun v hv h => hno ⟨v, hv, h⟩)
  unfold Spec.Majority Spec.count at hp hq
  rw [← List.countP_eq_length_filter] at hp hq
  omega

/-- C04, majority: two won elections share a voter that said yes in both. -/
theorem C04_majority_intersect (cfg : USet) (v1 v2 : AMap Bool) (hne : cfg ≠ [])
    (h1 : Majority.voteResult cfg v1 = .won) (h2 : Majority.voteResult cfg v2 = .won) :
    ∃ v ∈ cfg, v1.find v = some true ∧ v2.find v = some true := by
  rw [voteResult_won_iff cfg _ hne] at h1 h2
  obtain ⟨v, hv, ha, hb⟩ := majority_inter cfg _ _ h1 h2
  exact ⟨v, hv, by simpa using ha, by simpa using hb⟩

/-- C04, joint: in each non-empty half. -/
theorem C04_joint_intersect (c : JointConfig) (v1 v2 : AMap Bool)
    (h1 : c.voteResult v1 = .won) (h2 : c.voteResult v2 = .won) :
    (c.incoming ≠ [] → ∃ v ∈ c.incoming, v1.find v = some true ∧ v2.find v = some true) ∧
    (c.outgoing ≠ [] → ∃ v ∈ c.outgoing, v1.find v = some true ∧ v2.find v = some true) := by
  have e1 := (C03_joint_vote_exact c v1).1.1 h1
  have e2 := (C03_joint_vote_exact c v2).1.1 h2
  refine ⟨fun hne => ?_, fun hne => ?_⟩
  · exact C04_majority_intersect _ v1 v2 hne ((voteResult_won_iff _ _ hne).2 (e1.1 hne)) ((voteResult_won_iff _ _ hne).2 (e2.1 hne))
  · exact C04_majority_intersect _ v1 v2 hne ((voteResult_won_iff _ _ hne).2 (e1.2 hne)) ((voteResult_won_iff _ _ hne).2 (e2.2 hne))

/-- C04 as in the English text: if no voter supports both candidates, not both can win. -/
theorem C04_not_both_won (c : JointConfig) (v1 v2 : AMap Bool) (hne : c.incoming ≠ [] ∨ c.outgoing ≠ [])
    (hone : ∀ v, ¬ (v1.find v = some true ∧ v2.find v = some true)) :
    ¬ (c.voteResult v1 = .won ∧ c.voteResult v2 = .won) := by
  rintro ⟨h1, h2⟩
  have := C04_joint_intersect c v1 v2 h1 h2
  rcases hne with h | h
  · obtain ⟨v, _, hv⟩ := this.1 h; exact hone v hv
  · obtain ⟨v, _, hv⟩ := this.2 h; exact hone v hv

example : Majority.voteResult [1, 2, 3] [(1, true), (2, true)] = .won ∧
    Majority.voteResult [1, 2, 3] [(2, true), (3, true)] = .won := by decide

end Craft
