import Verif.Props.ConfChange

/-! # Malformed configurations are refused

The operations on configurations check what they are given and what they return. -/

namespace Craft.Spec

/-- What a configuration and the map of progresses must satisfy to be accepted: every voter, learner and staged learner has a
progress; staged learners are outgoing voters and not marked as learners; learners are no voters and are marked as learners;
outside a joint configuration nothing is staged and nothing is to be left automatically. -/
structure Acceptable (cfg : TConfig) (prs : ProgressMap) : Prop where
  known : ∀ id, Member cfg id → ∃ p, prs.find id = some p
  staged : ∀ id ∈ cfg.learnersNext, id ∈ cfg.voters.outgoing ∧ ∀ p, prs.find id = some p → p.isLearner = false
  learner : ∀ id ∈ cfg.learners, id ∉ cfg.voters.outgoing ∧ id ∉ cfg.voters.incoming ∧
    ∀ p, prs.find id = some p → p.isLearner = true
  simple : cfg.voters.outgoing = [] → cfg.learnersNext = [] ∧ cfg.autoLeave = false

end Craft.Spec

namespace Craft
open Spec

/-- The check of the code accepts exactly the acceptable configurations. -/
theorem Changer.checkInvariants_iff (cfg : TConfig) (prs : ProgressMap) :
    Changer.checkInvariants cfg prs = .ok () ↔ Acceptable cfg prs := by
  have hex : ∀ l : USet, Changer.checkExist prs l = true ↔ ∀ x ∈ l, ∃ p, prs.find x = some p := by
    intro l
    unfold Changer.checkExist
    rw [List.all_eq_true]
    exact ⟨fun h x hx => (AMap.has_iff _ _).1 (h x hx), fun h x hx => (AMap.has_iff _ _).2 (h x hx)⟩
  have hfl : ∀ (x : Nat) (b : Bool), Changer.learnerFlag prs x = some b ↔ ∃ p, prs.find x = some p ∧ p.isLearner = b := by
    intro x b
    unfold Changer.learnerFlag
    cases prs.find x <;> simp
  have hj : cfg.joint = true ↔ cfg.voters.outgoing ≠ [] := by
    constructor
    · intro h ho; exact (Changer.joint_false_iff _).2 ho h
    · intro h
      by_cases hb : cfg.joint = true
      · exact hb
      · exact absurd ((Changer.joint_false_iff _).1 hb) h
  unfold Changer.checkInvariants
  constructor
  · intro h
    split at h
    · cases h
    rename_i h1
    split at h
    · cases h
    rename_i h2
    split at h
    · cases h
    rename_i h3
    split at h
    · cases h
    rename_i h4
    rw [Classical.not_not] at h1 h2 h3
    obtain ⟨h1a, h1b, h1c⟩ := h1
    rw [hex] at h1a h1b h1c
    rw [List.all_eq_true] at h2 h3
    refine ⟨?_, ?_, ?_, ?_⟩
    · rintro id (hm | hm | hm | hm)
      · exact h1a id ((mem_ids _ _).2 (Or.inl hm))
      · exact h1a id ((mem_ids _ _).2 (Or.inr hm))
      · exact h1b id hm
      · exact h1c id hm
    · intro id hid
      have := h2 id hid
      rw [Bool.and_eq_true, USet.has_iff, decide_eq_true_eq, hfl] at this
      obtain ⟨a, p, hp, hb⟩ := this
      refine ⟨a, fun q hq => ?_⟩
      rw [hp] at hq; cases hq; exact hb
    · intro id hid
      have := h3 id hid
      rw [Bool.and_eq_true, Bool.and_eq_true, decide_eq_true_eq, hfl] at this
      obtain ⟨⟨a, b⟩, p, hp, hb⟩ := this
      refine ⟨?_, ?_, fun q hq => ?_⟩
      · intro hc; rw [(USet.has_iff _ _).2 hc] at a; cases a
      · intro hc; rw [(USet.has_iff _ _).2 hc] at b; cases b
      · rw [hp] at hq; cases hq; exact hb
    · intro ho
      have hnj : ¬ cfg.joint = true := fun hb => hj.1 hb ho
      refine ⟨?_, ?_⟩
      · apply Classical.byContradiction; intro hc; exact h4 ⟨hnj, Or.inr (Or.inl hc)⟩
      · cases hb : cfg.autoLeave with
        | false => rfl
        | true => exact absurd ⟨hnj, Or.inr (Or.inr hb)⟩ h4
  · intro h
    rw [if_neg, if_neg, if_neg, if_neg]
    · rintro ⟨a, b⟩
      have ho : cfg.voters.outgoing = [] := (Changer.joint_false_iff _).1 a
      obtain ⟨c, d⟩ := h.simple ho
      simp [ho, c, d] at b
    · rw [Classical.not_not, List.all_eq_true]
      intro x hx
      obtain ⟨a, b, c⟩ := h.learner x hx
      obtain ⟨p, hp⟩ := h.known x (Or.inr (Or.inr (Or.inl hx)))
      rw [Bool.and_eq_true, Bool.and_eq_true, decide_eq_true_eq, hfl]
      refine ⟨⟨?_, ?_⟩, p, hp, c p hp⟩
      · rw [Bool.not_eq_true', ← Bool.not_eq_true, USet.has_iff]; exact a
      · rw [Bool.not_eq_true', ← Bool.not_eq_true, USet.has_iff]; exact b
    · rw [Classical.not_not, List.all_eq_true]
      intro x hx
      obtain ⟨a, c⟩ := h.staged x hx
      obtain ⟨p, hp⟩ := h.known x (Or.inr (Or.inr (Or.inr hx)))
      rw [Bool.and_eq_true, USet.has_iff, decide_eq_true_eq, hfl]
      exact ⟨a, p, hp, c p hp⟩
    · rw [Classical.not_not, hex, hex, hex]
      refine ⟨fun x hx => ?_, fun x hx => h.known x (Or.inr (Or.inr (Or.inl hx))),
        fun x hx => h.known x (Or.inr (Or.inr (Or.inr hx)))⟩
      rcases (mem_ids _ _).1 hx with hm | hm
      · exact h.known x (Or.inl hm)
      · exact h.known x (Or.inr (Or.inl hm))

theorem Changer.checkAndReturn_acceptable {cfg cfg' : TConfig} {prs prs' : ProgressMap}
    (h : Changer.checkAndReturn cfg prs = .ok (cfg', prs')) : Acceptable cfg' prs' := by
  obtain ⟨rfl, rfl⟩ := Changer.checkAndReturn_ok h
  unfold Changer.checkAndReturn at h
  split at h
  · cases h
  · exact (Changer.checkInvariants_iff _ _).1 ‹_›

theorem Changer.checkAndReturn_refused {cfg : TConfig} {prs : ProgressMap} (h : ¬ Acceptable cfg prs) :
    ∃ e, Changer.checkAndReturn cfg prs = .error e := by
  cases hc : Changer.checkAndReturn cfg prs with
  | error e => exact ⟨e, rfl⟩
  | ok r =>
    obtain ⟨a, b⟩ := r
    obtain ⟨rfl, rfl⟩ := Changer.checkAndReturn_ok hc
    exact absurd (Changer.checkAndReturn_acceptable hc) h

/-- C10: whatever a changer is built from, it refuses to work on a configuration that is not acceptable ... -/
theorem C10_malformed_refused (c : Changer) (h : ¬ Acceptable c.tracker.config c.tracker.progress) (autoLeave : Bool)
    (ccs : List CCSingle) :
    (∃ e, c.simple ccs = .error e) ∧ (∃ e, c.enterJoint autoLeave ccs = .error e) ∧ ∃ e, c.leaveJoint = .error e := by
  obtain ⟨e, he⟩ := Changer.checkAndReturn_refused h
  unfold Changer.simple Changer.enterJoint Changer.leaveJoint Changer.checkAndCopy
  rw [he]
  exact ⟨⟨e, rfl⟩, ⟨e, rfl⟩, ⟨e, rfl⟩⟩

/-- ... and never returns one that is not. -/
theorem C10_results_acceptable (c : Changer) (autoLeave : Bool) (ccs : List CCSingle) (cfg' : TConfig) (prs' : ProgressMap)
    (hr : c.simple ccs = .ok (cfg', prs') ∨ c.enterJoint autoLeave ccs = .ok (cfg', prs') ∨
      c.leaveJoint = .ok (cfg', prs')) : Acceptable cfg' prs' := by
  rcases hr with hr | hr | hr
  · unfold Changer.simple at hr
    split at hr
    · cases hr
    split at hr
    · cases hr
    split at hr
    · cases hr
    split at hr
    · cases hr
    exact Changer.checkAndReturn_acceptable hr
  · unfold Changer.enterJoint at hr
    split at hr
    · cases hr
    split at hr
    · cases hr
    split at hr
    · cases hr
    dsimp only at hr
    split at hr
    · cases hr
    exact Changer.checkAndReturn_acceptable hr
  · unfold Changer.leaveJoint at hr
    split at hr
    · cases hr
    split at hr
    · cases hr
    split at hr
    · cases hr
    split at hr
    · cases hr
    exact Changer.checkAndReturn_acceptable hr

/-- Two lists of ids differ in more than one member iff two different ids are in one but not in the other. -/
theorem Changer.symdiff_gt_one {l r : USet} (hl : l.Pairwise (· < ·)) (hr : r.Pairwise (· < ·)) :
    Changer.symdiff l r > 1 ↔ ∃ x y, x ≠ y ∧ ¬ (x ∈ l ↔ x ∈ r) ∧ ¬ (y ∈ l ↔ y ∈ r) := by
  have hnd : ((l.filter fun id => !r.has id) ++ (r.filter fun id => !l.has id)).Nodup := by
    rw [List.nodup_append]
    refine ⟨(nodup_of_sorted hl).filter _, (nodup_of_sorted hr).filter _, ?_⟩
    intro a ha b hb hab
    subst hab
    simp [USet.has] at ha hb
    exact hb.2 ha.1
  have hmem : ∀ x, x ∈ ((l.filter fun id => !r.has id) ++ (r.filter fun id => !l.has id)) ↔ ¬ (x ∈ l ↔ x ∈ r) := by
    intro x
    simp only [List.mem_append, List.mem_filter, USet.has, Bool.not_eq_true', decide_eq_false_iff_not]
    tauto
  have hlen : Changer.symdiff l r = ((l.filter fun id => !r.has id) ++ (r.filter fun id => !l.has id)).length := by
    unfold Changer.symdiff; rw [List.length_append]
  rw [hlen]
  generalize ((l.filter fun id => !r.has id) ++ (r.filter fun id => !l.has id)) = d at hnd hmem
  constructor
  · intro h
    match d, h, hnd, hmem with
    | [], h, _, _ => simp at h
    | [_], h, _, _ => simp at h
    | x :: y :: t, _, hnd, hmem =>
      refine ⟨x, y, ?_, (hmem x).1 (by simp), (hmem y).1 (by simp)⟩
      intro e; subst e; simp at hnd
  · rintro ⟨x, y, hne, hx, hy⟩
    have h1 := (hmem x).2 hx
    have h2 := (hmem y).2 hy
    match d, h1, h2 with
    | [], h1, _ => cases h1
    | [a], h1, h2 => simp at h1 h2; exact absurd (h1.trans h2.symm) hne
    | _ :: _ :: _, _, _ => simp

/-- C10: on a valid configuration, `Simple` refuses changes of known kinds exactly when the configuration is joint, no voter
would remain, or two ids would become or cease to be voters. -/
theorem C10_simple_refused_iff (c : Changer) (h : ConfInv c.tracker.config c.tracker.progress) (ccs : List CCSingle)
    (hk : ∀ cc ∈ ccs, Changer.Known cc) (voter : Nat → Prop)
    (hv : voter = ((MConf.of c.tracker.config).changes (fun _ => False) ccs).inc) :
    (∃ e, c.simple ccs = .error e) ↔
      c.tracker.config.voters.outgoing ≠ [] ∨ (∀ id, ¬ voter id) ∨
      ∃ x y, x ≠ y ∧ ¬ (x ∈ c.tracker.config.voters.incoming ↔ voter x) ∧
        ¬ (y ∈ c.tracker.config.voters.incoming ↔ voter y) := by
  rw [C10_simple_fails_iff c h ccs hk]
  by_cases ho : c.tracker.config.voters.outgoing = []
  swap
  · exact ⟨fun _ => Or.inl ho, fun _ => Or.inl ho⟩
  obtain ⟨⟨cfg1, prs1⟩, hl⟩ := (Changer.applyLoop_spec c ccs _ _ h).2 hk
  obtain ⟨hi, -, -, hs⟩ := (Changer.applyLoop_spec c ccs _ _ h).1 _ _ hl
  have hin : ∀ x, x ∈ cfg1.voters.incoming ↔ voter x := by
    intro x; rw [hv]; simpa [ho] using hs.1 x
  have hemp : cfg1.voters.incoming = [] ↔ ∀ id, ¬ voter id := by
    rw [List.eq_nil_iff_forall_not_mem]
    exact ⟨fun a id b => a id ((hin id).2 b), fun a id b => a id ((hin id).1 b)⟩
  have hsd := Changer.symdiff_gt_one h.inc_sorted hi.inc_sorted
  simp only [hin] at hsd
  constructor
  · rintro (h' | ⟨cfg2, prs2, h2, h3⟩)
    · exact Or.inl h'
    · rw [hl] at h2; cases h2
      rcases h3 with h3 | h3
      · exact Or.inr (Or.inl (hemp.1 h3))
      · exact Or.inr (Or.inr (hsd.1 h3))
  · rintro (h' | h' | h')
    · exact Or.inl h'
    · exact Or.inr ⟨cfg1, prs1, hl, Or.inl (hemp.2 h')⟩
    · exact Or.inr ⟨cfg1, prs1, hl, Or.inr (hsd.2 h')⟩

/-- C10: on a valid configuration, `EnterJoint` refuses changes of known kinds exactly when the configuration is joint already,
has no voters, or no voter would remain. -/
theorem C10_enterJoint_refused_iff (c : Changer) (h : ConfInv c.tracker.config c.tracker.progress) (autoLeave : Bool)
    (ccs : List CCSingle) (hk : ∀ cc ∈ ccs, Changer.Known cc) (voter : Nat → Prop)
    (hv : voter = ((MConf.of c.tracker.config).changes (fun x => x ∈ c.tracker.config.voters.incoming) ccs).inc) :
    (∃ e, c.enterJoint autoLeave ccs = .error e) ↔
      c.tracker.config.voters.outgoing ≠ [] ∨ c.tracker.config.voters.incoming = [] ∨ ∀ id, ¬ voter id := by
  unfold Changer.enterJoint Changer.checkAndCopy
  rw [Changer.checkAndReturn_of_inv h]
  simp only
  by_cases hj : c.tracker.config.joint = true
  · rw [if_pos hj]
    have : c.tracker.config.voters.outgoing ≠ [] := fun ho => (Changer.joint_false_iff _).2 ho hj
    exact ⟨fun _ => Or.inl this, fun _ => ⟨_, rfl⟩⟩
  have ho := (Changer.joint_false_iff _).1 hj
  rw [if_neg hj]
  by_cases hz : c.tracker.config.voters.incoming = []
  · rw [if_pos (by simp [hz])]
    exact ⟨fun _ => Or.inr (Or.inl hz), fun _ => ⟨_, rfl⟩⟩
  rw [if_neg (by simpa using hz)]
  have hs0 := Changer.inv_joint_start h ho hz
  obtain ⟨⟨cfg1, prs1⟩, hl⟩ := (Changer.applyLoop_spec c ccs _ _ hs0).2 hk
  obtain ⟨hi, hout, -, hs⟩ := (Changer.applyLoop_spec c ccs _ _ hs0).1 _ _ hl
  have hin : ∀ x, x ∈ cfg1.voters.incoming ↔ voter x := by
    intro x; rw [hv]; exact hs.1 x
  have hemp : cfg1.voters.incoming = [] ↔ ∀ id, ¬ voter id := by
    rw [List.eq_nil_iff_forall_not_mem]
    exact ⟨fun a id b => a id ((hin id).2 b), fun a id b => a id ((hin id).1 b)⟩
  unfold Changer.apply
  rw [hl]
  simp only
  by_cases he : cfg1.voters.incoming = []
  · rw [if_pos (by simp [he])]
    exact ⟨fun _ => Or.inr (Or.inr (hemp.1 he)), fun _ => ⟨_, rfl⟩⟩
  rw [if_neg (by simpa using he)]
  simp only
  have hfin : ConfInv { cfg1 with autoLeave := autoLeave } prs1 := by
    refine ⟨hi.inc_sorted, hi.out_sorted, hi.lrn_sorted, hi.nxt_sorted, hi.prs_sorted, hi.prs_exact, hi.lrn_flag,
      hi.lrn_not_inc, hi.lrn_not_out, hi.nxt_out, hi.nxt_not_inc, ?_⟩
    intro ho'
    have ho' : cfg1.voters.outgoing = [] := ho'
    rw [hout] at ho'
    exact absurd ho' hz
  rw [Changer.checkAndReturn_of_inv hfin]
  constructor
  · rintro ⟨e, he⟩; cases he
  · rintro (h' | h' | h')
    · exact absurd ho h'
    · exact absurd h' hz
    · exact absurd (hemp.2 h') he

/-- Three ways not to be acceptable, and one acceptable configuration: a learner that is a voter, a learner that is an outgoing
voter, a learner marked as a voter. -/
example :
    let p : Progress := ⟨0, 1, .probe, 0, false, false, Inflights.new 1, false⟩
    let l : Progress := { p with isLearner := true }
    Acceptable { voters := ⟨[1], [2]⟩, learners := [3] } [(1, p), (2, p), (3, l)] ∧
    ¬ Acceptable { voters := ⟨[1, 3], [2]⟩, learners := [3] } [(1, p), (2, p), (3, l)] ∧
    ¬ Acceptable { voters := ⟨[1], [2, 3]⟩, learners := [3] } [(1, p), (2, p), (3, l)] ∧
    ¬ Acceptable { voters := ⟨[1], [2]⟩, learners := [3] } [(1, p), (2, p), (3, p)] := by
  refine ⟨(Changer.checkInvariants_iff _ _).1 (by rfl), ?_, ?_, ?_⟩ <;>
    (intro h; have := (Changer.checkInvariants_iff _ _).2 h; cases this)

end Craft
