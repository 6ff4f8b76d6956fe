import Verif.Proofs.ConfChange
import Verif.Spec.Quorum
import Mathlib.Data.Finset.Card

/-! # C10–C14: configuration changes (`/repo/src/confchange`) -/

namespace Craft
open Spec (ConfInv Member MConf)
open Changer (Known)

/-! ## what each operation does -/

namespace Changer

theorem apply_ok {c : Changer} {cfg cfg' : TConfig} {prs prs' : ProgressMap} {ccs : List CCSingle}
    (h : c.apply cfg prs ccs = .ok (cfg', prs')) :
    c.applyLoop cfg prs ccs = .ok (cfg', prs') ∧ cfg'.voters.incoming ≠ [] := by
  unfold apply at h
  split at h
  · cases h
  · rename_i cfg1 prs1 he
    split at h
    · cases h
    · rename_i hne
      cases h
      exact ⟨he, by simpa using hne⟩

theorem simple_ok {c : Changer} {ccs : List CCSingle} {cfg' : TConfig} {prs' : ProgressMap}
    (h : c.simple ccs = .ok (cfg', prs')) :
    c.tracker.config.voters.outgoing = [] ∧ c.applyLoop c.tracker.config c.tracker.progress ccs = .ok (cfg', prs') ∧
    cfg'.voters.incoming ≠ [] ∧ symdiff c.tracker.config.voters.incoming cfg'.voters.incoming ≤ 1 := by
  unfold simple at h
  split at h
  · cases h
  · rename_i cfg prs hcc
    obtain ⟨rfl, rfl⟩ := checkAndReturn_ok hcc
    split at h
    · cases h
    · rename_i hj
      split at h
      · cases h
      · rename_i cfg1 prs1 ha
        split at h
        · cases h
        · rename_i hsd
          obtain ⟨rfl, rfl⟩ := checkAndReturn_ok h
          obtain ⟨h1, h2⟩ := apply_ok ha
          exact ⟨(joint_false_iff _).1 hj, h1, h2, by omega⟩

theorem enterJoint_ok {c : Changer} {autoLeave : Bool} {ccs : List CCSingle} {cfg' : TConfig} {prs' : ProgressMap}
    (h : c.enterJoint autoLeave ccs = .ok (cfg', prs')) :
    c.tracker.config.voters.outgoing = [] ∧ c.tracker.config.voters.incoming ≠ [] ∧
    ∃ cfg1, c.applyLoop { c.tracker.config with
        voters := { c.tracker.config.voters with outgoing := c.tracker.config.voters.incoming } }
        c.tracker.progress ccs = .ok (cfg1, prs') ∧ cfg1.voters.incoming ≠ [] ∧
      cfg' = { cfg1 with autoLeave := autoLeave } := by
  unfold enterJoint at h
  split at h
  · cases h
  · rename_i cfg prs hcc
    obtain ⟨rfl, rfl⟩ := checkAndReturn_ok hcc
    split at h
    · cases h
    · rename_i hj
      split at h
      · cases h
      · rename_i hne
        simp only at h
        split at h
        · cases h
        · rename_i cfg1 prs1 ha
          obtain ⟨rfl, rfl⟩ := checkAndReturn_ok h
          obtain ⟨h1, h2⟩ := apply_ok ha
          exact ⟨(joint_false_iff _).1 hj, by simpa using hne, cfg1, h1, h2, rfl⟩

/-- Entering a joint configuration keeps the invariants before any change is applied. -/
theorem inv_joint_start {cfg : TConfig} {prs : ProgressMap} (h : ConfInv cfg prs) (ho : cfg.voters.outgoing = [])
    (hi : cfg.voters.incoming ≠ []) :
    ConfInv { cfg with voters := { cfg.voters with outgoing := cfg.voters.incoming } } prs := by
  have hn := (h.not_joint ho).1
  refine ⟨h.inc_sorted, h.inc_sorted, h.lrn_sorted, h.nxt_sorted, h.prs_sorted, ?_, h.lrn_flag, h.lrn_not_inc,
    h.lrn_not_inc, ?_, h.nxt_not_inc, ?_⟩
  · intro x
    rw [h.prs_exact x]
    simp only [Member, ho, List.not_mem_nil, false_or]
    constructor
    · rintro (h | h | h)
      · exact Or.inl h
      · exact Or.inr (Or.inr (Or.inl h))
      · exact Or.inr (Or.inr (Or.inr h))
    · rintro (h | h | h | h)
      · exact Or.inl h
      · exact Or.inl h
      · exact Or.inr (Or.inl h)
      · exact Or.inr (Or.inr h)
  · intro x hx; simp only [hn] at hx; cases hx
  · intro h'; exact absurd h' hi

theorem leaveJoint_spec {c : Changer} (h : ConfInv c.tracker.config c.tracker.progress) :
    (c.tracker.config.voters.outgoing = [] → ∃ e, c.leaveJoint = .error e) ∧
    (c.tracker.config.voters.outgoing ≠ [] → ∃ cfg' prs', c.leaveJoint = .ok (cfg', prs') ∧ ConfInv cfg' prs' ∧
      cfg'.voters.incoming = c.tracker.config.voters.incoming ∧ cfg'.voters.outgoing = [] ∧
      (∀ x, x ∈ cfg'.learners ↔ x ∈ c.tracker.config.learners ∨ x ∈ c.tracker.config.learnersNext) ∧
      cfg'.learnersNext = [] ∧ cfg'.autoLeave = false) := by
  constructor
  · intro ho
    unfold leaveJoint checkAndCopy
    rw [checkAndReturn_of_inv h]
    simp only
    rw [if_pos ((joint_false_iff _).2 ho)]
    exact ⟨_, rfl⟩
  · intro ho
    have hmem : ∀ id ∈ c.tracker.config.learnersNext, ∃ p, c.tracker.progress.find id = some p :=
      fun id hid => (h.prs_exact id).2 (Or.inr (Or.inr (Or.inr hid)))
    obtain ⟨ls', prs1, e1, e2, e3, e4, e5⟩ := leaveLearners_spec c.tracker.config.learnersNext c.tracker.config.learners
      c.tracker.progress hmem h.lrn_sorted h.prs_sorted
    obtain ⟨f1, f2⟩ := leaveErase_spec c.tracker.config.voters.incoming ls' c.tracker.config.voters.outgoing prs1 e4
    let cfg' : TConfig := { voters := { incoming := c.tracker.config.voters.incoming, outgoing := [] }
                            learners := ls', learnersNext := [], autoLeave := false }
    have hinv : ConfInv cfg' (leaveErase c.tracker.config.voters.incoming ls' c.tracker.config.voters.outgoing prs1) := by
      refine ⟨h.inc_sorted, List.Pairwise.nil, e3, List.Pairwise.nil, f1, ?_, ?_, ?_, ?_, ?_, ?_, fun _ => ⟨rfl, rfl⟩⟩
      · intro x
        rw [f2, e5]
        have hx := h.prs_exact x
        simp only [Member, cfg', List.not_mem_nil, or_false, false_or] at *
        rw [show (x ∈ c.tracker.config.voters.incoming ∨ x ∈ ls') ↔ (x ∈ c.tracker.config.voters.incoming ∨
          (x ∈ c.tracker.config.learners ∨ x ∈ c.tracker.config.learnersNext)) by rw [e2]]
        constructor
        · rintro ⟨p, hp⟩
          split at hp
          · cases hp
          · rename_i hnn
            have hfind : ∃ p, AMap.find c.tracker.progress x = some p := by
              split at hp
              · cases hf : AMap.find c.tracker.progress x with
                | none => rw [hf] at hp; cases hp
                | some q => exact ⟨q, rfl⟩
              · exact ⟨p, hp⟩
            rcases hx.1 hfind with h1 | h1 | h1 | h1
            · exact Or.inl h1
            · by_cases hin : x ∈ c.tracker.config.voters.incoming
              · exact Or.inl hin
              · by_cases hls : x ∈ ls'
                · exact Or.inr ((e2 x).1 hls)
                · exact absurd ⟨h1, hin, hls⟩ hnn
            · exact Or.inr (Or.inl h1)
            · exact Or.inr (Or.inr h1)
        · intro hm
          rw [if_neg]
          · have : ∃ p, AMap.find c.tracker.progress x = some p := by
              apply hx.2
              rcases hm with h1 | h1 | h1
              · exact Or.inl h1
              · exact Or.inr (Or.inr (Or.inl h1))
              · exact Or.inr (Or.inr (Or.inr h1))
            obtain ⟨p, hp⟩ := this
            split
            · exact ⟨_, by rw [hp]; rfl⟩
            · exact ⟨p, hp⟩
          · rintro ⟨_, h2, h3⟩
            rw [e2] at h3
            rcases hm with h1 | h1
            · exact h2 h1
            · exact h3 h1
      · intro x p hp
        rw [f2, e5] at hp
        simp only [cfg']
        rw [e2]
        split at hp
        · cases hp
        · split at hp
          · rename_i hx
            cases hf : AMap.find c.tracker.progress x with
            | none => rw [hf] at hp; cases hp
            | some q =>
              rw [hf] at hp
              simp only [Option.map_some, Option.some.injEq] at hp
              subst hp
              simp [hx]
          · rename_i hx
            rw [h.lrn_flag x p hp]
            simp [hx]
      · intro x hx
        rcases (e2 x).1 hx with hx | hx
        · exact h.lrn_not_inc x hx
        · exact h.nxt_not_inc x hx
      · intro x _ hx; cases hx
      · intro x hx; cases hx
      · intro x hx; cases hx
    refine ⟨cfg', _, ?_, hinv, rfl, rfl, e2, rfl, rfl⟩
    unfold leaveJoint checkAndCopy
    rw [checkAndReturn_of_inv h]
    simp only
    rw [if_neg (by rw [joint_false_iff]; exact ho), if_neg (by simpa using ho), e1]
    simp only
    exact checkAndReturn_of_inv hinv

end Changer

/-! ## C10 -/

/-- C10: every successful operation on a valid configuration yields a valid configuration. -/
theorem C10_confchange_invariants (c : Changer) (h : ConfInv c.tracker.config c.tracker.progress)
    (autoLeave : Bool) (ccs : List CCSingle) (cfg' : TConfig) (prs' : ProgressMap)
    (hr : c.simple ccs = .ok (cfg', prs') ∨ c.enterJoint autoLeave ccs = .ok (cfg', prs') ∨
      c.leaveJoint = .ok (cfg', prs')) : ConfInv cfg' prs' := by
  rcases hr with hr | hr | hr
  · obtain ⟨_, h2, _⟩ := Changer.simple_ok hr
    exact ((Changer.applyLoop_spec c ccs _ _ h).1 _ _ h2).1
  · obtain ⟨ho, hi, cfg1, h2, _, rfl⟩ := Changer.enterJoint_ok hr
    obtain ⟨a, b, _⟩ := (Changer.applyLoop_spec c ccs _ _ (Changer.inv_joint_start h ho hi)).1 _ _ h2
    refine ⟨a.inc_sorted, a.out_sorted, a.lrn_sorted, a.nxt_sorted, a.prs_sorted, a.prs_exact, a.lrn_flag,
      a.lrn_not_inc, a.lrn_not_out, a.nxt_out, a.nxt_not_inc, ?_⟩
    intro ho'
    simp only [b] at ho'
    exact absurd ho' hi
  · obtain ⟨h1, h2⟩ := Changer.leaveJoint_spec h
    by_cases ho : c.tracker.config.voters.outgoing = []
    · obtain ⟨e, he⟩ := h1 ho; rw [he] at hr; cases hr
    · obtain ⟨cfg1, prs1, e1, e2, _⟩ := h2 ho
      rw [e1] at hr; cases hr; exact e2

/-- C10: which requests fail on a valid configuration (changes of known type): exactly those in the wrong joint state,
those that would leave no voter and, for `Simple`, those that change more than one voter. -/
theorem C10_simple_fails_iff (c : Changer) (h : ConfInv c.tracker.config c.tracker.progress) (ccs : List CCSingle)
    (hk : ∀ cc ∈ ccs, Known cc) :
    (∃ e, c.simple ccs = .error e) ↔
      c.tracker.config.voters.outgoing ≠ [] ∨
      (∃ cfg1 prs1, c.applyLoop c.tracker.config c.tracker.progress ccs = .ok (cfg1, prs1) ∧
        (cfg1.voters.incoming = [] ∨ Changer.symdiff c.tracker.config.voters.incoming cfg1.voters.incoming > 1)) := by
  obtain ⟨⟨cfg1, prs1⟩, hl⟩ := (Changer.applyLoop_spec c ccs _ _ h).2 hk
  have hinv := ((Changer.applyLoop_spec c ccs _ _ h).1 _ _ hl).1
  unfold Changer.simple Changer.checkAndCopy
  rw [Changer.checkAndReturn_of_inv h]
  simp only
  by_cases hj : c.tracker.config.joint = true
  · rw [if_pos hj]
    have : c.tracker.config.voters.outgoing ≠ [] := by
      intro ho; exact (Changer.joint_false_iff _).2 ho hj
    exact ⟨fun _ => Or.inl this, fun _ => ⟨_, rfl⟩⟩
  · rw [if_neg hj]
    have ho := (Changer.joint_false_iff _).1 hj
    unfold Changer.apply
    rw [hl]
    simp only
    by_cases hz : cfg1.voters.incoming.length = 0
    · rw [if_pos hz]
      exact ⟨fun _ => Or.inr ⟨cfg1, prs1, rfl, Or.inl (by simpa using hz)⟩, fun _ => ⟨_, rfl⟩⟩
    · rw [if_neg hz]
      simp only
      by_cases hs : Changer.symdiff c.tracker.config.voters.incoming cfg1.voters.incoming > 1
      · rw [if_pos hs]
        exact ⟨fun _ => Or.inr ⟨cfg1, prs1, rfl, Or.inr hs⟩, fun _ => ⟨_, rfl⟩⟩
      · rw [if_neg hs, Changer.checkAndReturn_of_inv hinv]
        constructor
        · rintro ⟨e, he⟩; cases he
        · rintro (h' | ⟨cfg2, prs2, h2, h3⟩)
          · exact absurd ho h'
          · cases h2
            rcases h3 with h3 | h3
            · exact absurd (by simp [h3]) hz
            · exact absurd h3 hs

/-- The empty configuration of a new node satisfies the invariants. -/
theorem ConfInv.empty : ConfInv {} [] :=
  ⟨List.Pairwise.nil, List.Pairwise.nil, List.Pairwise.nil, List.Pairwise.nil, List.Pairwise.nil,
    (by intro x; simp [Member]), (by intro x p hp; cases hp), by simp, by simp, by simp, by simp, by simp⟩

/-- Example: a changer over voters `ids`. -/
def exampleChanger (ids : List Nat) : Changer :=
  { tracker := { config := { voters := { incoming := ids } }
                 progress := ids.map fun id => (id, .new 5 0 8 false true)
                 maxInflight := 8 }
    lastIndex := 5 }

-- a joint configuration with a staged learner is reachable: {1,2,3} -> add 4, demote 3, remove 2
example : ∃ cfg prs, (exampleChanger [1, 2, 3]).enterJoint true
      [⟨.addNode, 4⟩, ⟨.addLearnerNode, 3⟩, ⟨.removeNode, 2⟩] = .ok (cfg, prs) ∧
    cfg = { voters := { incoming := [1, 4], outgoing := [1, 2, 3] }, autoLeave := true, learnersNext := [3] } :=
  ⟨_, _, rfl, rfl⟩

/-! ## C11 -/

theorem card_filter_toFinset (l : List Nat) (hnd : l.Nodup) (P : Nat → Bool) :
    (l.toFinset.filter (fun x => P x = true)).card = Spec.count l P := by
  unfold Spec.count
  rw [← List.toFinset_card_of_nodup (hnd.filter P)]
  congr 1
  ext x; simp

theorem nodup_of_sorted {l : List Nat} (h : l.Pairwise (· < ·)) : l.Nodup := h.imp (fun h => Nat.ne_of_lt h)

/-- Two voter sets differing in at most one voter have intersecting majorities. -/
theorem majority_overlap {old new : List Nat} (ho : old.Pairwise (· < ·)) (hn : new.Pairwise (· < ·))
    (hd : Changer.symdiff old new ≤ 1) {P Q : Nat → Bool}
    (hp : Spec.Majority old P) (hq : Spec.Majority new Q) : ∃ v, v ∈ old ∧ v ∈ new ∧ P v = true ∧ Q v = true := by
  apply Classical.byContradiction
  intro hno
  have hno' : ∀ v, v ∈ old → v ∈ new → P v = true → Q v = true → False := fun v a b c d => hno ⟨v, a, b, c, d⟩
  let A := old.toFinset
  let B := new.toFinset
  let PA := A.filter (fun x => P x = true)
  let QB := B.filter (fun x => Q x = true)
  have hA : A.card = old.length := List.toFinset_card_of_nodup (nodup_of_sorted ho)
  have hB : B.card = new.length := List.toFinset_card_of_nodup (nodup_of_sorted hn)
  have hPA : PA.card = Spec.count old P := card_filter_toFinset old (nodup_of_sorted ho) P
  have hQB : QB.card = Spec.count new Q := card_filter_toFinset new (nodup_of_sorted hn) Q
  have hdisj : Disjoint PA QB := by
    rw [Finset.disjoint_left]
    intro x hx hx'
    simp only [PA, QB, A, B, Finset.mem_filter, List.mem_toFinset] at hx hx'
    exact hno' x hx.1 hx'.1 hx.2 hx'.2
  have hsub : PA ∪ QB ⊆ A ∪ B := by
    apply Finset.union_subset_union <;> exact Finset.filter_subset _ _
  have h1 := Finset.card_le_card hsub
  rw [Finset.card_union_of_disjoint hdisj] at h1
  have hAB : (A \ B).card = (old.filter fun id => !USet.has new id).length := by
    rw [← List.toFinset_card_of_nodup ((nodup_of_sorted ho).filter _)]
    congr 1
    ext x; simp [A, B, USet.has]
  have hBA : (B \ A).card = (new.filter fun id => !USet.has old id).length := by
    rw [← List.toFinset_card_of_nodup ((nodup_of_sorted hn).filter _)]
    congr 1
    ext x; simp [A, B, USet.has]
  unfold Changer.symdiff at hd
  have h2 : (A ∪ B).card = A.card + (B \ A).card := by
    rw [← Finset.union_sdiff_self_eq_union, Finset.card_union_of_disjoint Finset.disjoint_sdiff]
  have h3 : (A ∪ B).card = B.card + (A \ B).card := by
    rw [Finset.union_comm, ← Finset.union_sdiff_self_eq_union, Finset.card_union_of_disjoint Finset.disjoint_sdiff]
  unfold Spec.Majority at hp hq
  omega

/-- C11: a successful `Simple` change adds or removes at most one voter (as sets), so majorities before and after
intersect. -/
theorem C11_simple_overlap (c : Changer) (h : ConfInv c.tracker.config c.tracker.progress) (ccs : List CCSingle)
    (cfg' : TConfig) (prs' : ProgressMap) (hr : c.simple ccs = .ok (cfg', prs')) :
    ((∀ v, v ∈ cfg'.voters.incoming ↔ v ∈ c.tracker.config.voters.incoming) ∨
      (∃ a, ∀ v, v ∈ cfg'.voters.incoming ↔ v ∈ c.tracker.config.voters.incoming ∨ v = a) ∨
      (∃ a, ∀ v, v ∈ cfg'.voters.incoming ↔ v ∈ c.tracker.config.voters.incoming ∧ v ≠ a)) ∧
    cfg'.voters.outgoing = [] ∧
    ∀ P Q, Spec.Majority c.tracker.config.voters.incoming P → Spec.Majority cfg'.voters.incoming Q →
      ∃ v, v ∈ c.tracker.config.voters.incoming ∧ v ∈ cfg'.voters.incoming ∧ P v = true ∧ Q v = true := by
  obtain ⟨ho, h2, _, hd⟩ := Changer.simple_ok hr
  obtain ⟨hi, hout, _⟩ := (Changer.applyLoop_spec c ccs _ _ h).1 _ _ h2
  refine ⟨?_, hout.trans ho, fun P Q hP hQ => majority_overlap h.inc_sorted hi.inc_sorted hd hP hQ⟩
  unfold Changer.symdiff at hd
  set l := c.tracker.config.voters.incoming
  set r := cfg'.voters.incoming
  have hl0 : ∀ {a b : List Nat}, (a.filter fun id => !USet.has b id) = [] → ∀ x ∈ a, x ∈ b := by
    intro a b hab x hx
    rw [List.filter_eq_nil_iff] at hab
    simpa [USet.has] using hab x hx
  have hmem : ∀ {a b : List Nat} {y : Nat}, (a.filter fun id => !USet.has b id) = [y] → ∀ x, x ∈ a → x ∉ b → x = y := by
    intro a b y hab x hx hxb
    have : x ∈ a.filter fun id => !USet.has b id := by simp [USet.has, hx, hxb]
    rw [hab] at this
    simpa using this
  have hmem' : ∀ {a b : List Nat} {y : Nat}, (a.filter fun id => !USet.has b id) = [y] → y ∈ a ∧ y ∉ b := by
    intro a b y hab
    have : y ∈ a.filter fun id => !USet.has b id := by rw [hab]; simp
    simpa [USet.has] using this
  rcases hA : l.filter (fun id => !USet.has r id) with _ | ⟨a, t⟩
  · rcases hB : r.filter (fun id => !USet.has l id) with _ | ⟨b, t⟩
    · exact Or.inl fun v => ⟨hl0 hB v, hl0 hA v⟩
    · have : t = [] := by simp [hA, hB] at hd; exact hd
      subst this
      right; left
      refine ⟨b, fun v => ⟨fun hv => ?_, ?_⟩⟩
      · by_cases hvl : v ∈ l
        · exact Or.inl hvl
        · exact Or.inr (hmem hB v hv hvl)
      · rintro (hv | rfl)
        · exact hl0 hA v hv
        · exact (hmem' hB).1
  · have : t = [] ∧ r.filter (fun id => !USet.has l id) = [] := by
      rw [hA] at hd
      simp only [List.length_cons] at hd
      constructor <;> apply List.length_eq_zero_iff.1 <;> omega
    obtain ⟨rfl, hB⟩ := this
    right; right
    refine ⟨a, fun v => ⟨fun hv => ⟨hl0 hB v hv, ?_⟩, ?_⟩⟩
    · rintro rfl; exact (hmem' hA).2 hv
    · rintro ⟨hv, hne⟩
      apply Classical.byContradiction
      intro hvr
      exact hne (hmem hA v hv hvr)

/-! ## C12 -/

/-- C12: `EnterJoint` makes the old voters the outgoing half and applies the changes, as sets, to the incoming half
(and learners). -/
theorem C12_enterJoint (c : Changer) (h : ConfInv c.tracker.config c.tracker.progress) (autoLeave : Bool)
    (ccs : List CCSingle) (cfg' : TConfig) (prs' : ProgressMap) (hr : c.enterJoint autoLeave ccs = .ok (cfg', prs')) :
    cfg'.voters.outgoing = c.tracker.config.voters.incoming ∧ cfg'.autoLeave = autoLeave ∧
    ((MConf.of c.tracker.config).changes (fun x => x ∈ c.tracker.config.voters.incoming) ccs).Is cfg' := by
  obtain ⟨ho, hi, cfg1, h2, _, rfl⟩ := Changer.enterJoint_ok hr
  obtain ⟨_, b, _, d⟩ := (Changer.applyLoop_spec c ccs _ _ (Changer.inv_joint_start h ho hi)).1 _ _ h2
  exact ⟨b, rfl, d⟩

/-- C12: `Simple` applies the changes, as sets. -/
theorem C12_simple (c : Changer) (h : ConfInv c.tracker.config c.tracker.progress)
    (ccs : List CCSingle) (cfg' : TConfig) (prs' : ProgressMap) (hr : c.simple ccs = .ok (cfg', prs')) :
    ((MConf.of c.tracker.config).changes (fun _ => False) ccs).Is cfg' := by
  obtain ⟨ho, h2, _⟩ := Changer.simple_ok hr
  obtain ⟨_, _, _, d⟩ := (Changer.applyLoop_spec c ccs _ _ h).1 _ _ h2
  simpa [ho] using d

/-- C12: `LeaveJoint` succeeds exactly on joint configurations, keeps exactly the incoming voters, makes the staged learners
learners and drops the outgoing half. -/
theorem C12_leaveJoint (c : Changer) (h : ConfInv c.tracker.config c.tracker.progress) :
    (c.tracker.config.voters.outgoing = [] → ∃ e, c.leaveJoint = .error e) ∧
    (c.tracker.config.voters.outgoing ≠ [] → ∃ cfg' prs', c.leaveJoint = .ok (cfg', prs') ∧
      cfg'.voters.incoming = c.tracker.config.voters.incoming ∧ cfg'.voters.outgoing = [] ∧
      (∀ x, x ∈ cfg'.learners ↔ x ∈ c.tracker.config.learners ∨ x ∈ c.tracker.config.learnersNext) ∧
      cfg'.learnersNext = [] ∧ cfg'.autoLeave = false) := by
  refine ⟨(Changer.leaveJoint_spec h).1, fun ho => ?_⟩
  obtain ⟨cfg', prs', e1, _, e3⟩ := (Changer.leaveJoint_spec h).2 ho
  exact ⟨cfg', prs', e1, e3⟩

/-! ## C13 -/

/-- C13: no successful change results in a configuration without voters. -/
theorem C13_voters_nonempty (c : Changer) (h : ConfInv c.tracker.config c.tracker.progress)
    (hne : c.tracker.config.voters.incoming ≠ []) (autoLeave : Bool) (ccs : List CCSingle)
    (cfg' : TConfig) (prs' : ProgressMap)
    (hr : c.simple ccs = .ok (cfg', prs') ∨ c.enterJoint autoLeave ccs = .ok (cfg', prs') ∨
      c.leaveJoint = .ok (cfg', prs')) : cfg'.voters.incoming ≠ [] := by
  rcases hr with hr | hr | hr
  · exact (Changer.simple_ok hr).2.2.1
  · obtain ⟨_, _, cfg1, _, h3, rfl⟩ := Changer.enterJoint_ok hr
    exact h3
  · obtain ⟨h1, h2⟩ := Changer.leaveJoint_spec h
    by_cases ho : c.tracker.config.voters.outgoing = []
    · obtain ⟨e, he⟩ := h1 ho; rw [he] at hr; cases hr
    · obtain ⟨cfg1, prs1, e1, _, e3, _⟩ := h2 ho
      rw [e1] at hr; cases hr; rw [e3]; exact hne

/-- C13: removing the only voter fails. -/
example : ∃ e, (exampleChanger [1]).simple [⟨.removeNode, 1⟩] = .error e := ⟨_, rfl⟩

end Craft
