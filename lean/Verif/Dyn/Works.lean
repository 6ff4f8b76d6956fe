import Verif.Dyn.Conf
import Verif.Spec.Works

/-! # Which changes can be applied depends on the configuration only -/

namespace Craft.Dyn
open Spec

theorem applyLoop_known {c : Changer} : ∀ (ccs : List CCSingle) (cfg : TConfig) (prs : ProgressMap) {r}, c.applyLoop cfg prs ccs = .ok r →
    ∀ cc ∈ ccs, cc.nodeId ≠ 0 → ∀ k, cc.type ≠ .unknown k
  | [], _, _, _, _ => fun _ h => by cases h
  | cc :: ccs, cfg, prs, r, h => by
    unfold Changer.applyLoop at h
    intro x hx h0 k
    by_cases hz : cc.nodeId = 0
    · rw [if_pos hz] at h
      rcases List.mem_cons.1 hx with rfl | hx
      · exact absurd hz h0
      · exact applyLoop_known ccs _ _ h x hx h0 k
    · rw [if_neg hz] at h
      cases ht : cc.type with
      | unknown n => rw [ht] at h; cases h
      | _ =>
        rw [ht] at h
        rcases List.mem_cons.1 hx with rfl | hx
        · rw [ht]; exact fun h => nomatch h
        · exact applyLoop_known ccs _ _ h x hx h0 k

theorem applyLoop_total {c : Changer} : ∀ (ccs : List CCSingle) (cfg : TConfig) (prs : ProgressMap),
    (∀ cc ∈ ccs, cc.nodeId ≠ 0 → ∀ k, cc.type ≠ .unknown k) → ∃ r, c.applyLoop cfg prs ccs = .ok r
  | [], _, _, _ => ⟨_, rfl⟩
  | cc :: ccs, cfg, prs, h => by
    have ht := fun cfg prs => applyLoop_total (c := c) ccs cfg prs fun x hx => h x (List.mem_cons_of_mem _ hx)
    unfold Changer.applyLoop
    by_cases hz : cc.nodeId = 0
    · rw [if_pos hz]; exact ht _ _
    · rw [if_neg hz]
      have hk := h cc List.mem_cons_self hz
      cases hty : cc.type with
      | unknown n => exact absurd hty (hk n)
      | _ => exact ht _ _

/-- The voters do not depend on who is an outgoing voter. -/
theorem changes_inc (o o' : Nat → Prop) : ∀ (cs : List CCSingle) (m m' : MConf), (∀ x, m.inc x ↔ m'.inc x) →
    ∀ x, (m.changes o cs).inc x ↔ (m'.changes o' cs).inc x
  | [], _, _, h => h
  | c :: cs, m, m', h => by
    refine changes_inc o o' cs (m.change o c) (m'.change o' c) fun x => ?_
    unfold MConf.change
    by_cases h0 : c.nodeId = 0
    · rw [if_pos h0, if_pos h0]; exact h x
    · rw [if_neg h0, if_neg h0]
      cases c.type <;> simp [h]

theorem joint_eq (cfg : TConfig) : cfg.joint = true ↔ cfg.voters.outgoing ≠ [] := by
  have := Changer.joint_false_iff cfg
  constructor
  · intro h ho; exact this.2 ho h
  · intro h
    cases hj : cfg.joint with
    | true => rfl
    | false => exact absurd (this.1 (by rw [hj]; decide)) h

theorem leave_iff (cc : ConfChangeV2) : ccLeaveJoint cc = true ↔ cc.changes = [] ∧ cc.transition = .auto := by
  unfold ccLeaveJoint
  rw [Bool.and_eq_true, List.isEmpty_iff, decide_eq_true_eq]

theorem enter_false {cc : ConfChangeV2} (h : (ccEnterJoint cc).2 = false) : cc.transition = .auto ∧ cc.changes.length ≤ 1 := by
  unfold ccEnterJoint at h
  by_cases hc : cc.transition ≠ .auto ∨ cc.changes.length > 1
  · rw [if_pos hc] at h
    split at h <;> cases h
  · exact ⟨Classical.byContradiction fun h => hc (Or.inl h), Nat.le_of_not_lt fun h => hc (Or.inr h)⟩

theorem of_ne {l : USet} {P : Nat → Prop} (h : ∀ x, x ∈ l ↔ P x) : l ≠ [] ↔ ∃ x, P x := by
  constructor
  · intro hl
    obtain ⟨x, hx⟩ := List.exists_mem_of_ne_nil l hl
    exact ⟨x, (h x).1 hx⟩
  · rintro ⟨x, hx⟩ rfl
    exact absurd ((h x).2 hx) (by simp)

theorem change_works {c : Changer} {cc : ConfChangeV2} {r} (hi : ConfInv c.tracker.config c.tracker.progress)
    (h : change c cc = .ok r) : Works c.tracker.config cc := by
  obtain ⟨cfg', prs'⟩ := r
  obtain ⟨_, hs⟩ := change_sets hi h
  unfold Works
  rcases hs with ⟨l1, l2, _⟩ | ⟨l1, l2, l3, _, l5, l6⟩ | ⟨l1, l2, l3, l4, l5, l6, l7⟩
  · rw [if_pos l2]; exact (leave_iff cc).1 l1
  · unfold change at h
    rw [if_neg (by rw [l1]; decide), if_pos l2] at h
    obtain ⟨e1, _, cfg1, e2, _⟩ := Changer.enterJoint_ok h
    rw [if_neg (fun h => h e1)]
    refine ⟨(fun hh => by rw [(leave_iff cc).2 hh] at l1; cases l1), applyLoop_known _ _ _ e2, ?_⟩
    obtain ⟨x, hx⟩ := (of_ne l6.1).1 l5
    exact ⟨x, (changes_inc _ _ _ _ _ (fun _ => Iff.rfl) x).1 hx⟩
  · unfold change at h
    rw [if_neg (by rw [l1]; decide), if_neg (by rw [l2]; decide)] at h
    obtain ⟨e1, e2, _⟩ := Changer.simple_ok h
    rw [if_neg (fun h => h e1)]
    exact ⟨(fun hh => by rw [(leave_iff cc).2 hh] at l1; cases l1), applyLoop_known _ _ _ e2, (of_ne l7.1).1 l5⟩

theorem works_change {c : Changer} {cc : ConfChangeV2} (hi : ConfInv c.tracker.config c.tracker.progress)
    (hv : c.tracker.config.voters.incoming ≠ []) (h : Works c.tracker.config cc) : ∃ r, change c cc = .ok r := by
  unfold Works at h
  unfold change
  by_cases hj : c.tracker.config.voters.outgoing ≠ []
  · rw [if_pos hj] at h
    rw [if_pos ((leave_iff cc).2 h)]
    obtain ⟨x, y, e, _⟩ := (C12_leaveJoint c hi).2 hj
    exact ⟨_, e⟩
  · rw [if_neg hj] at h
    have ho : c.tracker.config.voters.outgoing = [] := Classical.byContradiction hj
    obtain ⟨h1, h2, h3⟩ := h
    rw [if_neg (fun hh => h1 ((leave_iff cc).1 hh))]
    have hjf : ¬ c.tracker.config.joint = true := (Changer.joint_false_iff _).2 ho
    by_cases he : (ccEnterJoint cc).2 = true
    · rw [if_pos he]
      unfold Changer.enterJoint Changer.checkAndCopy
      rw [Changer.checkAndReturn_of_inv hi]
      dsimp only
      rw [if_neg hjf, if_neg (by simpa using hv)]
      have hi' := Changer.inv_joint_start hi ho hv
      obtain ⟨⟨cfg1, prs1⟩, hl⟩ := applyLoop_total (c := c) cc.changes { c.tracker.config with
        voters := { c.tracker.config.voters with outgoing := c.tracker.config.voters.incoming } } c.tracker.progress h2
      obtain ⟨k1, k2, k3, k4⟩ := (Changer.applyLoop_spec c cc.changes _ _ hi').1 _ _ hl
      have hne : cfg1.voters.incoming ≠ [] := (of_ne k4.1).2 (by
        obtain ⟨x, hx⟩ := h3
        exact ⟨x, (changes_inc _ _ _ _ _ (fun _ => Iff.rfl) x).1 hx⟩)
      unfold Changer.apply
      rw [hl]
      dsimp only
      rw [if_neg (by simpa using hne)]
      dsimp only
      have hk : ConfInv { cfg1 with autoLeave := (ccEnterJoint cc).1 } prs1 :=
        { k1 with not_joint := fun h0 => absurd h0 (by
            show ¬ cfg1.voters.outgoing = []
            rw [k2]; exact hv) }
      exact ⟨_, Changer.checkAndReturn_of_inv hk⟩
    · rw [if_neg he]
      have he' : (ccEnterJoint cc).2 = false := by simpa using he
      obtain ⟨g1, g2⟩ := enter_false he'
      unfold Changer.simple Changer.checkAndCopy
      rw [Changer.checkAndReturn_of_inv hi]
      dsimp only
      rw [if_neg hjf]
      obtain ⟨⟨cfg1, prs1⟩, hl⟩ := applyLoop_total (c := c) cc.changes c.tracker.config c.tracker.progress h2
      obtain ⟨k1, k2, k3, k4⟩ := (Changer.applyLoop_spec c cc.changes _ _ hi).1 _ _ hl
      have hne : cfg1.voters.incoming ≠ [] := (of_ne k4.1).2 (by
        obtain ⟨x, hx⟩ := h3
        exact ⟨x, (changes_inc _ _ _ _ _ (fun _ => Iff.rfl) x).1 hx⟩)
      unfold Changer.apply
      rw [hl]
      dsimp only
      rw [if_neg (by simpa using hne)]
      dsimp only
      have hsd : Changer.symdiff c.tracker.config.voters.incoming cfg1.voters.incoming ≤ 1 := by
        cases hcs : cc.changes with
        | nil => exact absurd ⟨hcs, g1⟩ h1
        | cons x t =>
          cases t with
          | nil =>
            rw [hcs] at k4
            exact Changer.symdiff_single hi k1 x _ k4
          | cons y t => rw [hcs] at g2; simp at g2
      rw [if_neg (by omega)]
      exact ⟨_, Changer.checkAndReturn_of_inv k1⟩

theorem Next.works {cc : ConfChangeV2} {cfg cfg' : TConfig} (h : Next cc cfg cfg') : Works cfg cc := by
  obtain ⟨c, rfl, hi, prs, h1⟩ := h
  exact change_works hi h1

theorem Works.next {cc : ConfChangeV2} {cfg : TConfig} (h : Works cfg cc) (hg : GoodCfg cfg) : ∃ cfg', Next cc cfg cfg' := by
  obtain ⟨prs, hi⟩ := hg.inv
  obtain ⟨⟨cfg', prs'⟩, h1⟩ := works_change (c := { tracker := { config := cfg, progress := prs, maxInflight := 0 }, lastIndex := 0 }) hi hg.voter h
  exact ⟨cfg', _, rfl, hi, prs', h1⟩

end Craft.Dyn
