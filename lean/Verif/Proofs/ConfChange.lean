import Verif.Proofs.Sets
import Verif.Spec.ConfChange
import Verif.Model.ConfChange

/-! Helper lemmas for `Verif/Props/ConfChange.lean`. -/

namespace Craft
open Spec (ConfInv Member MConf)

theorem mem_ids (c : JointConfig) (x : Nat) : x ∈ c.ids ↔ x ∈ c.incoming ∨ x ∈ c.outgoing := by
  simp [JointConfig.ids, USet.mem_insertAll]

theorem find_none_of_not_member {cfg : TConfig} {prs : ProgressMap} (h : ConfInv cfg prs) {id : Nat}
    (hn : ¬ Member cfg id) : prs.find id = none := by
  cases hf : prs.find id with
  | none => rfl
  | some p => exact absurd ((h.prs_exact id).1 ⟨p, hf⟩) hn

theorem not_member_of_find_none {cfg : TConfig} {prs : ProgressMap} (h : ConfInv cfg prs) {id : Nat}
    (hn : prs.find id = none) : ¬ Member cfg id := by
  intro hm
  obtain ⟨p, hp⟩ := (h.prs_exact id).2 hm
  rw [hn] at hp; cases hp

namespace Changer

/-- The code's check accepts every configuration satisfying the invariants. -/
theorem checkInvariants_of_inv {cfg : TConfig} {prs : ProgressMap} (h : ConfInv cfg prs) :
    checkInvariants cfg prs = .ok () := by
  have hex : ∀ l : USet, (∀ x ∈ l, Member cfg x) → checkExist prs l = true := by
    intro l hl
    unfold checkExist
    rw [List.all_eq_true]
    intro x hx
    rw [AMap.has_iff]
    exact (h.prs_exact x).2 (hl x hx)
  have hflag : ∀ x, Member cfg x → ∃ p, prs.find x = some p ∧ (p.isLearner = true ↔ x ∈ cfg.learners) := by
    intro x hx
    obtain ⟨p, hp⟩ := (h.prs_exact x).2 hx
    exact ⟨p, hp, h.lrn_flag x p hp⟩
  unfold checkInvariants
  rw [if_neg, if_neg, if_neg, if_neg]
  · rintro ⟨hj, hh⟩
    have hout : cfg.voters.outgoing = [] := by
      simp only [TConfig.joint, decide_eq_true_eq, Nat.not_lt, Nat.le_zero, List.length_eq_zero_iff] at hj
      exact hj
    have := h.not_joint hout
    simp [hout, this.1, this.2] at hh
  · rw [Classical.not_not, List.all_eq_true]
    intro x hx
    obtain ⟨p, hp, hl⟩ := hflag x (Or.inr (Or.inr (Or.inl hx)))
    have h1 := h.lrn_not_inc x hx
    have h2 := h.lrn_not_out x hx
    have h3 : p.isLearner = true := hl.2 hx
    simp [USet.has, h1, h2, learnerFlag, hp, h3]
  · rw [Classical.not_not, List.all_eq_true]
    intro x hx
    obtain ⟨p, hp, hl⟩ := hflag x (Or.inr (Or.inr (Or.inr hx)))
    have h1 := h.nxt_out x hx
    have h3 : p.isLearner = false := by
      cases hb : p.isLearner with
      | false => rfl
      | true => exact absurd h1 (h.lrn_not_out x (hl.1 hb))
    simp [USet.has, h1, learnerFlag, hp, h3]
  · rw [Classical.not_not]
    refine ⟨hex _ ?_, hex _ ?_, hex _ ?_⟩
    · intro x hx
      rcases (mem_ids _ x).1 hx with h | h
      · exact Or.inl h
      · exact Or.inr (Or.inl h)
    · intro x hx; exact Or.inr (Or.inr (Or.inl hx))
    · intro x hx; exact Or.inr (Or.inr (Or.inr hx))

theorem checkAndReturn_of_inv {cfg : TConfig} {prs : ProgressMap} (h : ConfInv cfg prs) :
    checkAndReturn cfg prs = .ok (cfg, prs) := by
  simp [checkAndReturn, checkInvariants_of_inv h]

theorem checkAndReturn_ok {cfg cfg' : TConfig} {prs prs' : ProgressMap}
    (h : checkAndReturn cfg prs = .ok (cfg', prs')) : cfg' = cfg ∧ prs' = prs := by
  unfold checkAndReturn at h
  split at h
  · cases h
  · cases h; exact ⟨rfl, rfl⟩

/-- What one elementary change must establish. -/
structure StepOk (cfg : TConfig) (c : CCSingle) (cfg' : TConfig) (prs' : ProgressMap) : Prop where
  inv : ConfInv cfg' prs'
  out_eq : cfg'.voters.outgoing = cfg.voters.outgoing
  auto_eq : cfg'.autoLeave = cfg.autoLeave
  sets : ((MConf.of cfg).change (fun x => x ∈ cfg.voters.outgoing) c).Is cfg'

theorem initProgress_learner {cfg : TConfig} {prs : ProgressMap} (c : Changer) (h : ConfInv cfg prs) {id : Nat}
    (h0 : id ≠ 0) (hn : prs.find id = none) :
    StepOk cfg ⟨.addLearnerNode, id⟩ (c.initProgress cfg prs id true).1 (c.initProgress cfg prs id true).2 := by
  have hm := not_member_of_find_none h hn
  unfold Member at hm
  simp only [not_or] at hm
  obtain ⟨hm1, hm2, hm3, hm4⟩ := hm
  simp only [initProgress, if_true]
  refine ⟨⟨h.inc_sorted, h.out_sorted, USet.insert_sorted _ h.lrn_sorted, h.nxt_sorted,
    AMap.keys_insert_sorted _ _ h.prs_sorted, ?_, ?_, ?_, ?_, h.nxt_out, h.nxt_not_inc, h.not_joint⟩, rfl, rfl, ?_⟩
  · intro x
    rw [AMap.find_insert]
    by_cases hx : id = x
    · subst hx; simp [Member, USet.mem_insert]
    · have := h.prs_exact x
      simp only [hx, if_false, this, Member, USet.mem_insert, Ne.symm hx, false_or]
  · intro x p hp
    rw [AMap.find_insert] at hp
    by_cases hx : id = x
    · subst hx
      simp only [if_true, Option.some.injEq] at hp
      subst hp
      simp [Progress.new, USet.mem_insert]
    · simp only [hx, if_false] at hp
      have := h.lrn_flag x p hp
      simp only [this, USet.mem_insert, Ne.symm hx, false_or]
  · intro x hx
    rcases (USet.mem_insert _ _ _).1 hx with rfl | hx
    · exact hm1
    · exact h.lrn_not_inc x hx
  · intro x hx
    rcases (USet.mem_insert _ _ _).1 hx with rfl | hx
    · exact hm2
    · exact h.lrn_not_out x hx
  · refine ⟨?_, ?_, ?_⟩ <;> intro x <;> simp only [MConf.change, h0, if_false, MConf.of, USet.mem_insert]
    · constructor
      · intro hx; exact ⟨by rintro rfl; exact hm1 hx, hx⟩
      · exact fun hx => hx.2
    · simp [hm2]
    · simp [hm2]

theorem makeVoter_ok {cfg : TConfig} {prs : ProgressMap} (c : Changer) (h : ConfInv cfg prs) {id : Nat}
    (h0 : id ≠ 0) :
    StepOk cfg ⟨.addNode, id⟩ (c.makeVoter cfg prs id).1 (c.makeVoter cfg prs id).2 := by
  unfold makeVoter
  cases hf : prs.find id with
  | none =>
    have hm := not_member_of_find_none h hf
    unfold Member at hm
    simp only [not_or] at hm
    obtain ⟨hm1, hm2, hm3, hm4⟩ := hm
    simp only [initProgress, Bool.false_eq_true, if_false]
    refine ⟨⟨USet.insert_sorted _ h.inc_sorted, h.out_sorted, h.lrn_sorted, h.nxt_sorted,
      AMap.keys_insert_sorted _ _ h.prs_sorted, ?_, ?_, ?_, h.lrn_not_out, h.nxt_out, ?_, h.not_joint⟩, rfl, rfl, ?_⟩
    · intro x
      rw [AMap.find_insert]
      by_cases hx : id = x
      · subst hx; simp [Member, USet.mem_insert]
      · have := h.prs_exact x
        simp only [hx, if_false, this, Member, USet.mem_insert, Ne.symm hx, false_or]
    · intro x p hp
      rw [AMap.find_insert] at hp
      by_cases hx : id = x
      · subst hx
        simp only [if_true, Option.some.injEq] at hp
        subst hp
        simp [Progress.new, hm3]
      · simp only [hx, if_false] at hp
        exact h.lrn_flag x p hp
    · intro x hx hx'
      rcases (USet.mem_insert _ _ _).1 hx' with rfl | hx'
      · exact hm3 hx
      · exact h.lrn_not_inc x hx hx'
    · intro x hx hx'
      rcases (USet.mem_insert _ _ _).1 hx' with rfl | hx'
      · exact hm4 hx
      · exact h.nxt_not_inc x hx hx'
    · refine ⟨?_, ?_, ?_⟩ <;> intro x <;> simp only [MConf.change, h0, if_false, MConf.of, USet.mem_insert]
      · constructor
        · intro hx; exact ⟨by rintro rfl; exact hm3 hx, hx⟩
        · exact fun hx => hx.2
      · constructor
        · intro hx; exact ⟨by rintro rfl; exact hm4 hx, hx⟩
        · exact fun hx => hx.2
  | some pr =>
    simp only
    refine ⟨⟨USet.insert_sorted _ h.inc_sorted, h.out_sorted, USet.erase_sorted _ h.lrn_sorted,
      USet.erase_sorted _ h.nxt_sorted,
      AMap.keys_insert_sorted _ _ h.prs_sorted, ?_, ?_, ?_, ?_, ?_, ?_, ?_⟩, rfl, rfl, ?_⟩
    · intro x
      rw [AMap.find_insert]
      by_cases hx : id = x
      · subst hx; simp [Member, USet.mem_insert]
      · have := h.prs_exact x
        simp only [hx, if_false, this, Member, USet.mem_insert, USet.mem_erase, Ne.symm hx, false_or, ne_eq,
          not_false_eq_true, true_and]
    · intro x p hp
      rw [AMap.find_insert] at hp
      by_cases hx : id = x
      · subst hx
        simp only [if_true, Option.some.injEq] at hp
        subst hp
        simp [USet.mem_erase]
      · simp only [hx, if_false] at hp
        have := h.lrn_flag x p hp
        simp only [this, USet.mem_erase, Ne.symm hx, ne_eq, not_false_eq_true, true_and]
    · intro x hx hx'
      rw [USet.mem_erase] at hx
      rcases (USet.mem_insert _ _ _).1 hx' with rfl | hx'
      · exact hx.1 rfl
      · exact h.lrn_not_inc x hx.2 hx'
    · intro x hx
      rw [USet.mem_erase] at hx
      exact h.lrn_not_out x hx.2
    · intro x hx
      rw [USet.mem_erase] at hx
      exact h.nxt_out x hx.2
    · intro x hx hx'
      rw [USet.mem_erase] at hx
      rcases (USet.mem_insert _ _ _).1 hx' with rfl | hx'
      · exact hx.1 rfl
      · exact h.nxt_not_inc x hx.2 hx'
    · intro ho
      have := h.not_joint ho
      exact ⟨by simp [this.1, USet.erase], this.2⟩
    · refine ⟨?_, ?_, ?_⟩ <;> intro x <;>
        simp only [MConf.change, h0, if_false, MConf.of, USet.mem_insert, USet.mem_erase]

theorem remove_ok {cfg : TConfig} {prs : ProgressMap} (h : ConfInv cfg prs) {id : Nat}
    (h0 : id ≠ 0) :
    StepOk cfg ⟨.removeNode, id⟩ (remove cfg prs id).1 (remove cfg prs id).2 := by
  unfold remove
  cases hf : prs.find id with
  | none =>
    have hm := not_member_of_find_none h hf
    unfold Member at hm
    simp only [not_or] at hm
    obtain ⟨hm1, hm2, hm3, hm4⟩ := hm
    refine ⟨h, rfl, rfl, ?_⟩
    refine ⟨?_, ?_, ?_⟩ <;> intro x <;> simp only [MConf.change, h0, if_false, MConf.of]
    · exact ⟨fun hx => ⟨by rintro rfl; exact hm1 hx, hx⟩, fun hx => hx.2⟩
    · exact ⟨fun hx => ⟨by rintro rfl; exact hm3 hx, hx⟩, fun hx => hx.2⟩
    · exact ⟨fun hx => ⟨by rintro rfl; exact hm4 hx, hx⟩, fun hx => hx.2⟩
  | some pr =>
    simp only
    have hfind : ∀ x, AMap.find (if cfg.voters.outgoing.has id then prs else prs.erase id) x =
        if id = x ∧ id ∉ cfg.voters.outgoing then none else prs.find x := by
      intro x
      by_cases ho : id ∈ cfg.voters.outgoing
      · simp [USet.has, ho]
      · simp [USet.has, ho, AMap.find_erase]
    refine ⟨⟨USet.erase_sorted _ h.inc_sorted, h.out_sorted, USet.erase_sorted _ h.lrn_sorted,
      USet.erase_sorted _ h.nxt_sorted, ?_, ?_, ?_, ?_, ?_, ?_, ?_, ?_⟩, rfl, rfl, ?_⟩
    · split
      · exact h.prs_sorted
      · exact AMap.keys_erase_sorted _ h.prs_sorted
    · intro x
      rw [hfind]
      have hx := h.prs_exact x
      unfold Member at *
      simp only [USet.mem_erase]
      by_cases hi : id = x
      · subst hi
        by_cases ho : id ∈ cfg.voters.outgoing
        · simp [ho, hf]
        · simp [ho]
      · simp only [hi, false_and, if_false, hx, ne_eq, Ne.symm hi, not_false_eq_true, true_and]
    · intro x p hp
      rw [hfind] at hp
      split at hp
      · cases hp
      · rename_i hni
        have := h.lrn_flag x p hp
        rw [this, USet.mem_erase]
        constructor
        · intro hx
          refine ⟨?_, hx⟩
          rintro rfl
          exact hni ⟨rfl, h.lrn_not_out x hx⟩
        · exact fun hx => hx.2
    · intro x hx hx'
      rw [USet.mem_erase] at hx hx'
      exact h.lrn_not_inc x hx.2 hx'.2
    · intro x hx
      rw [USet.mem_erase] at hx
      exact h.lrn_not_out x hx.2
    · intro x hx
      rw [USet.mem_erase] at hx
      exact h.nxt_out x hx.2
    · intro x hx hx'
      rw [USet.mem_erase] at hx hx'
      exact h.nxt_not_inc x hx.2 hx'.2
    · intro ho
      have := h.not_joint ho
      exact ⟨by simp [this.1, USet.erase], this.2⟩
    · refine ⟨?_, ?_, ?_⟩ <;> intro x <;>
        simp only [MConf.change, h0, if_false, MConf.of, USet.mem_erase]

theorem makeLearner_ok {cfg : TConfig} {prs : ProgressMap} (c : Changer) (h : ConfInv cfg prs) {id : Nat}
    (h0 : id ≠ 0) :
    StepOk cfg ⟨.addLearnerNode, id⟩ (c.makeLearner cfg prs id).1 (c.makeLearner cfg prs id).2 := by
  unfold makeLearner
  cases hf : prs.find id with
  | none => exact initProgress_learner c h h0 hf
  | some pr =>
    simp only
    by_cases hl : pr.isLearner = true
    · rw [if_pos hl]
      have hmem : id ∈ cfg.learners := (h.lrn_flag id pr hf).1 hl
      have hni := h.lrn_not_inc id hmem
      have hno := h.lrn_not_out id hmem
      refine ⟨h, rfl, rfl, ?_⟩
      refine ⟨?_, ?_, ?_⟩ <;> intro x <;> simp only [MConf.change, h0, if_false, MConf.of]
      · exact ⟨fun hx => ⟨by rintro rfl; exact hni hx, hx⟩, fun hx => hx.2⟩
      · constructor
        · exact Or.inr
        · rintro (⟨rfl, _⟩ | hx)
          · exact hmem
          · exact hx
      · simp [hno]
    · rw [if_neg hl]
      have hnl : id ∉ cfg.learners := fun hm => hl ((h.lrn_flag id pr hf).2 hm)
      have hrem : remove cfg prs id =
          ({ cfg with
            voters := { cfg.voters with incoming := cfg.voters.incoming.erase id }
            learners := cfg.learners.erase id
            learnersNext := cfg.learnersNext.erase id },
          if cfg.voters.outgoing.has id then prs else prs.erase id) := by
        unfold remove; rw [hf]
      rw [hrem]
      simp only
      have hfind : ∀ (p' : Progress) x,
          AMap.find (AMap.insert (if cfg.voters.outgoing.has id then prs else prs.erase id) id p') x =
          if id = x then some p' else prs.find x := by
        intro p' x
        rw [AMap.find_insert]
        by_cases hx : id = x
        · simp [hx]
        · simp only [hx, if_false]
          split
          · rfl
          · simp [AMap.find_erase, hx]
      have hsorted : ∀ p', (AMap.keys (AMap.insert (if cfg.voters.outgoing.has id then prs else prs.erase id) id p')).Pairwise (· < ·) := by
        intro p'
        apply AMap.keys_insert_sorted
        split
        · exact h.prs_sorted
        · exact AMap.keys_erase_sorted _ h.prs_sorted
      by_cases ho : id ∈ cfg.voters.outgoing
      · rw [if_pos (by simp [USet.has, ho])]
        refine ⟨⟨USet.erase_sorted _ h.inc_sorted, h.out_sorted, USet.erase_sorted _ h.lrn_sorted,
          USet.insert_sorted _ (USet.erase_sorted _ h.nxt_sorted), hsorted pr, ?_, ?_, ?_, ?_, ?_, ?_, ?_⟩, rfl, rfl, ?_⟩
        · intro x
          rw [hfind]
          have hx := h.prs_exact x
          unfold Member at *
          simp only [USet.mem_erase, USet.mem_insert]
          by_cases hi : id = x
          · subst hi; simp
          · simp only [hi, if_false, hx, ne_eq, Ne.symm hi, not_false_eq_true, true_and, false_or]
        · intro x p hp
          rw [hfind] at hp
          simp only [USet.mem_erase]
          by_cases hi : id = x
          · subst hi
            simp only [if_true, Option.some.injEq] at hp
            subst hp
            simpa using hl
          · simp only [hi, if_false] at hp
            rw [h.lrn_flag x p hp]
            simp [Ne.symm hi]
        · intro x hx hx'
          rw [USet.mem_erase] at hx hx'
          exact h.lrn_not_inc x hx.2 hx'.2
        · intro x hx
          rw [USet.mem_erase] at hx
          exact h.lrn_not_out x hx.2
        · intro x hx
          simp only [USet.mem_insert, USet.mem_erase] at hx
          rcases hx with rfl | hx
          · exact ho
          · exact h.nxt_out x hx.2
        · intro x hx hx'
          simp only [USet.mem_insert, USet.mem_erase] at hx hx'
          rcases hx with rfl | hx
          · exact hx'.1 rfl
          · exact h.nxt_not_inc x hx.2 hx'.2
        · intro ho'
          simp only at ho'
          rw [ho'] at ho
          cases ho
        · refine ⟨?_, ?_, ?_⟩ <;> intro x <;>
            simp only [MConf.change, h0, if_false, MConf.of, USet.mem_erase, USet.mem_insert, ho, not_true_eq_false,
              and_false, false_or, and_true]
          · exact ⟨fun hx => hx.2, fun hx => ⟨by rintro rfl; exact hnl hx, hx⟩⟩
          · constructor
            · rintro (hx | hx)
              · exact Or.inl hx
              · exact Or.inr hx.2
            · rintro (hx | hx)
              · exact Or.inl hx
              · by_cases hxi : x = id
                · exact Or.inl hxi
                · exact Or.inr ⟨hxi, hx⟩
      · rw [if_neg (by simp [USet.has, ho])]
        have hnn : id ∉ cfg.learnersNext := fun hm => ho (h.nxt_out id hm)
        have hdouble : ∀ p1 p2 x, AMap.find (AMap.insert (AMap.insert (if cfg.voters.outgoing.has id then prs else prs.erase id) id p1) id p2) x =
            if id = x then some p2 else prs.find x := by
          intro p1 p2 x
          rw [AMap.find_insert, hfind]
          split <;> rfl
        refine ⟨⟨USet.erase_sorted _ h.inc_sorted, h.out_sorted, USet.insert_sorted _ (USet.erase_sorted _ h.lrn_sorted),
          USet.erase_sorted _ h.nxt_sorted, AMap.keys_insert_sorted _ _ (hsorted pr), ?_, ?_, ?_, ?_, ?_, ?_, ?_⟩, rfl, rfl, ?_⟩
        · intro x
          rw [hdouble]
          have hx := h.prs_exact x
          unfold Member at *
          simp only [USet.mem_erase, USet.mem_insert]
          by_cases hi : id = x
          · subst hi; simp
          · simp only [hi, if_false, hx, ne_eq, Ne.symm hi, not_false_eq_true, true_and, false_or]
        · intro x p hp
          rw [hdouble] at hp
          simp only [USet.mem_erase, USet.mem_insert]
          by_cases hi : id = x
          · subst hi
            simp only [if_true, Option.some.injEq] at hp
            subst hp
            simp
          · simp only [hi, if_false] at hp
            rw [h.lrn_flag x p hp]
            simp [Ne.symm hi]
        · intro x hx hx'
          simp only [USet.mem_insert, USet.mem_erase] at hx hx'
          rcases hx with rfl | hx
          · exact hx'.1 rfl
          · exact h.lrn_not_inc x hx.2 hx'.2
        · intro x hx
          simp only [USet.mem_insert, USet.mem_erase] at hx
          rcases hx with rfl | hx
          · exact ho
          · exact h.lrn_not_out x hx.2
        · intro x hx
          simp only [USet.mem_erase] at hx
          exact h.nxt_out x hx.2
        · intro x hx hx'
          simp only [USet.mem_erase] at hx hx'
          exact h.nxt_not_inc x hx.2 hx'.2
        · intro ho'
          have := h.not_joint ho'
          exact ⟨by simp [this.1, USet.erase], this.2⟩
        · refine ⟨?_, ?_, ?_⟩ <;> intro x <;>
            simp only [MConf.change, h0, if_false, MConf.of, USet.mem_erase, USet.mem_insert, ho, not_false_eq_true,
              and_false, false_or, and_true]
          · constructor
            · rintro (hx | hx)
              · exact Or.inl hx
              · exact Or.inr hx.2
            · rintro (hx | hx)
              · exact Or.inl hx
              · by_cases hxi : x = id
                · exact Or.inl hxi
                · exact Or.inr ⟨hxi, hx⟩
          · exact ⟨fun hx => hx.2, fun hx => ⟨by rintro rfl; exact hnn hx, hx⟩⟩

theorem change_congr {m m' : MConf}
    (h : (∀ x, m.inc x ↔ m'.inc x) ∧ (∀ x, m.lrn x ↔ m'.lrn x) ∧ (∀ x, m.nxt x ↔ m'.nxt x)) : m = m' := by
  cases m; cases m'
  simp only [MConf.mk.injEq]
  exact ⟨funext fun x => propext (h.1 x), funext fun x => propext (h.2.1 x), funext fun x => propext (h.2.2 x)⟩

theorem is_iff_of (m : MConf) (cfg : TConfig) : m.Is cfg ↔ MConf.of cfg = m := by
  constructor
  · intro h
    exact change_congr ⟨h.1, h.2.1, h.2.2⟩
  · rintro rfl
    exact ⟨fun _ => Iff.rfl, fun _ => Iff.rfl, fun _ => Iff.rfl⟩

/-- The type of a change is one of the four known ones. -/
def Known (c : CCSingle) : Prop := ∀ n, c.type ≠ .unknown n

theorem applyLoop_spec (c : Changer) : ∀ (ccs : List CCSingle) (cfg : TConfig) (prs : ProgressMap), ConfInv cfg prs →
    (∀ cfg' prs', c.applyLoop cfg prs ccs = .ok (cfg', prs') →
      ConfInv cfg' prs' ∧ cfg'.voters.outgoing = cfg.voters.outgoing ∧ cfg'.autoLeave = cfg.autoLeave ∧
      ((MConf.of cfg).changes (fun x => x ∈ cfg.voters.outgoing) ccs).Is cfg') ∧
    ((∀ cc ∈ ccs, Known cc) → ∃ r, c.applyLoop cfg prs ccs = .ok r) := by
  intro ccs
  induction ccs with
  | nil =>
    intro cfg prs h
    refine ⟨?_, fun _ => ⟨_, rfl⟩⟩
    intro cfg' prs' hr
    cases hr
    exact ⟨h, rfl, rfl, (is_iff_of _ _).2 rfl⟩
  | cons cc ccs ih =>
    intro cfg prs h
    by_cases h0 : cc.nodeId = 0
    · have hch : (MConf.of cfg).change (fun x => x ∈ cfg.voters.outgoing) cc = MConf.of cfg := by
        simp [MConf.change, h0]
      obtain ⟨h1, h2⟩ := ih cfg prs h
      constructor
      · intro cfg' prs' hr
        unfold applyLoop at hr
        rw [if_pos h0] at hr
        obtain ⟨a, b, d, e⟩ := h1 cfg' prs' hr
        refine ⟨a, b, d, ?_⟩
        simpa [MConf.changes, hch] using e
      · intro hk
        unfold applyLoop
        rw [if_pos h0]
        exact h2 (fun x hx => hk x (List.mem_cons_of_mem _ hx))
    · -- generic continuation after an elementary step
      have cont : ∀ cfg1 prs1, StepOk cfg cc cfg1 prs1 →
          (∀ cfg' prs', c.applyLoop cfg1 prs1 ccs = .ok (cfg', prs') →
            ConfInv cfg' prs' ∧ cfg'.voters.outgoing = cfg.voters.outgoing ∧ cfg'.autoLeave = cfg.autoLeave ∧
            ((MConf.of cfg).changes (fun x => x ∈ cfg.voters.outgoing) (cc :: ccs)).Is cfg') := by
        intro cfg1 prs1 hs cfg' prs' hr
        obtain ⟨a, b, d, e⟩ := (ih cfg1 prs1 hs.inv).1 cfg' prs' hr
        refine ⟨a, b.trans hs.out_eq, d.trans hs.auto_eq, ?_⟩
        rw [hs.out_eq, (is_iff_of _ _).1 hs.sets] at e
        exact e
      obtain ⟨ty, id⟩ := cc
      simp only at h0
      cases ty with
      | addNode =>
        have hs := makeVoter_ok c h h0
        constructor
        · intro cfg' prs' hr
          unfold applyLoop at hr
          rw [if_neg h0] at hr
          exact cont _ _ hs cfg' prs' hr
        · intro hk
          unfold applyLoop
          rw [if_neg h0]
          exact (ih _ _ hs.inv).2 (fun x hx => hk x (List.mem_cons_of_mem _ hx))
      | removeNode =>
        have hs := remove_ok h h0
        constructor
        · intro cfg' prs' hr
          unfold applyLoop at hr
          rw [if_neg h0] at hr
          exact cont _ _ hs cfg' prs' hr
        · intro hk
          unfold applyLoop
          rw [if_neg h0]
          exact (ih _ _ hs.inv).2 (fun x hx => hk x (List.mem_cons_of_mem _ hx))
      | addLearnerNode =>
        have hs := makeLearner_ok c h h0
        constructor
        · intro cfg' prs' hr
          unfold applyLoop at hr
          rw [if_neg h0] at hr
          exact cont _ _ hs cfg' prs' hr
        · intro hk
          unfold applyLoop
          rw [if_neg h0]
          exact (ih _ _ hs.inv).2 (fun x hx => hk x (List.mem_cons_of_mem _ hx))
      | updateNode =>
        have hs : StepOk cfg ⟨.updateNode, id⟩ cfg prs := ⟨h, rfl, rfl, by
          rw [is_iff_of]; simp [MConf.change, h0]⟩
        constructor
        · intro cfg' prs' hr
          unfold applyLoop at hr
          rw [if_neg h0] at hr
          exact cont _ _ hs cfg' prs' hr
        · intro hk
          unfold applyLoop
          rw [if_neg h0]
          exact (ih _ _ hs.inv).2 (fun x hx => hk x (List.mem_cons_of_mem _ hx))
      | unknown n =>
        constructor
        · intro cfg' prs' hr
          unfold applyLoop at hr
          rw [if_neg h0] at hr
          cases hr
        · intro hk
          exact absurd rfl (hk ⟨.unknown n, id⟩ List.mem_cons_self n)

theorem joint_false_iff (cfg : TConfig) : ¬ (cfg.joint = true) ↔ cfg.voters.outgoing = [] := by
  simp [TConfig.joint]

/-! LeaveJoint -/

theorem leaveLearners_spec : ∀ (ids : List Nat) (ls : USet) (prs : ProgressMap),
    (∀ id ∈ ids, ∃ p, prs.find id = some p) → ls.Pairwise (· < ·) → (prs.map Prod.fst).Pairwise (· < ·) →
    ∃ ls' prs', leaveLearners ids ls prs = .ok (ls', prs') ∧ (∀ x, x ∈ ls' ↔ x ∈ ls ∨ x ∈ ids) ∧
      ls'.Pairwise (· < ·) ∧ (prs'.map Prod.fst).Pairwise (· < ·) ∧
      (∀ x, AMap.find prs' x = if x ∈ ids then (prs.find x).map (fun p => { p with isLearner := true }) else prs.find x) := by
  intro ids
  induction ids with
  | nil => intro ls prs _ h1 h2; exact ⟨ls, prs, rfl, by simp, h1, h2, by simp⟩
  | cons id ids ih =>
    intro ls prs hm h1 h2
    obtain ⟨p, hp⟩ := hm id List.mem_cons_self
    obtain ⟨ls', prs', e1, e2, e3, e4, e5⟩ := ih (ls.insert id) (prs.insert id { p with isLearner := true }) (by
      intro x hx
      rw [AMap.find_insert]
      by_cases hxi : id = x
      · simp [hxi]
      · simp only [hxi, if_false]; exact hm x (List.mem_cons_of_mem _ hx)) (USet.insert_sorted _ h1)
      (AMap.keys_insert_sorted _ _ h2)
    refine ⟨ls', prs', ?_, ?_, e3, e4, ?_⟩
    · simp only [leaveLearners, hp]; exact e1
    · intro x
      rw [e2, USet.mem_insert, List.mem_cons]
      constructor
      · rintro ((h | h) | h)
        · exact Or.inr (Or.inl h)
        · exact Or.inl h
        · exact Or.inr (Or.inr h)
      · rintro (h | h | h)
        · exact Or.inl (Or.inr h)
        · exact Or.inl (Or.inl h)
        · exact Or.inr h
    · intro x
      rw [e5]
      by_cases hxi : id = x
      · subst hxi
        simp only [AMap.find_insert_self, List.mem_cons, true_or, if_true, hp, Option.map_some]
        split <;> rfl
      · rw [AMap.find_insert_ne _ _ hxi]
        simp [Ne.symm hxi]

theorem leaveErase_spec (inc ls : USet) : ∀ (ids : List Nat) (prs : ProgressMap), (prs.map Prod.fst).Pairwise (· < ·) →
    ((leaveErase inc ls ids prs).map Prod.fst).Pairwise (· < ·) ∧
    (∀ x, AMap.find (leaveErase inc ls ids prs) x = if x ∈ ids ∧ x ∉ inc ∧ x ∉ ls then none else prs.find x) := by
  intro ids
  induction ids with
  | nil => intro prs h; exact ⟨h, by simp [leaveErase]⟩
  | cons id ids ih =>
    intro prs h
    unfold leaveErase
    by_cases hc : id ∉ inc ∧ id ∉ ls
    · have : (!inc.has id && !ls.has id) = true := by simp [USet.has, hc.1, hc.2]
      rw [if_pos this]
      obtain ⟨a, b⟩ := ih (prs.erase id) (AMap.keys_erase_sorted _ h)
      refine ⟨a, ?_⟩
      intro x
      rw [b, AMap.find_erase]; simp only [List.mem_cons]
      by_cases hx : id = x
      · subst hx; simp [hc]
      · simp [hx, Ne.symm hx]
    · have : ¬ (!inc.has id && !ls.has id) = true := by
        simp only [USet.has, Bool.and_eq_true, Bool.not_eq_true', decide_eq_false_iff_not]
        exact hc
      rw [if_neg this]
      obtain ⟨a, b⟩ := ih prs h
      refine ⟨a, ?_⟩
      intro x
      rw [b]; simp only [List.mem_cons]
      by_cases hx : id = x
      · subst hx; simp [hc]
      · simp [Ne.symm hx]

end Changer
end Craft
