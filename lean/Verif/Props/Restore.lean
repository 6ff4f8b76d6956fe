import Verif.Props.ConfChange

/-! # C14: `confchange::Restore` reproduces any configuration from its `ConfState` (`/repo/src/confchange/restore.cc`) -/

namespace Craft
open Spec (ConfInv Member MConf)
open Changer (Known)

namespace Changer

theorem prefix_append_cases {α : Type} {p a b : List α} (h : p <+: a ++ b) :
    p <+: a ∨ ∃ q, p = a ++ q ∧ q <+: b := by
  rcases List.prefix_or_prefix_of_prefix h (List.prefix_append a b) with h' | ⟨q, rfl⟩
  · exact Or.inl h'
  · exact Or.inr ⟨q, rfl, (List.prefix_append_right_inj a).1 h⟩

theorem length_le_one {l : List Nat} (hnd : l.Nodup) {a : Nat} (h : ∀ x ∈ l, x = a) : l.length ≤ 1 := by
  match l, hnd, h with
  | [], _, _ => simp
  | [x], _, _ => simp
  | x :: y :: t, hnd, h =>
    have h1 := h x (by simp)
    have h2 := h y (by simp)
    subst h1
    subst h2
    simp at hnd

/-- One elementary change moves at most one voter. -/
theorem symdiff_single {cfg cfg' : TConfig} {prs prs' : ProgressMap} (h : ConfInv cfg prs) (h' : ConfInv cfg' prs')
    (cc : CCSingle) (out : Nat → Prop) (hs : ((MConf.of cfg).change out cc).Is cfg') :
    symdiff cfg.voters.incoming cfg'.voters.incoming ≤ 1 := by
  have hmem := hs.1
  have key : (∀ x, x ∈ cfg'.voters.incoming ↔ x ∈ cfg.voters.incoming) ∨
      (∀ x, x ∈ cfg'.voters.incoming ↔ x = cc.nodeId ∨ x ∈ cfg.voters.incoming) ∨
      (∀ x, x ∈ cfg'.voters.incoming ↔ x ≠ cc.nodeId ∧ x ∈ cfg.voters.incoming) := by
    unfold MConf.change at hmem
    split at hmem
    · exact Or.inl hmem
    · split at hmem
      · exact Or.inr (Or.inl hmem)
      · exact Or.inr (Or.inr hmem)
      · exact Or.inr (Or.inr hmem)
      · exact Or.inl hmem
      · exact Or.inl hmem
  unfold symdiff
  rcases key with k | k | k
  · have a : (cfg.voters.incoming.filter fun id => !cfg'.voters.incoming.has id) = [] := by
      rw [List.filter_eq_nil_iff]; intro x hx; simp [USet.has, k, hx]
    have b : (cfg'.voters.incoming.filter fun id => !cfg.voters.incoming.has id) = [] := by
      rw [List.filter_eq_nil_iff]; intro x hx; simp [USet.has, (k x).1 hx]
    simp [a, b]
  · have a : (cfg.voters.incoming.filter fun id => !cfg'.voters.incoming.has id) = [] := by
      rw [List.filter_eq_nil_iff]; intro x hx; simp [USet.has, k, hx]
    have b : (cfg'.voters.incoming.filter fun id => !cfg.voters.incoming.has id).length ≤ 1 := by
      apply length_le_one ((nodup_of_sorted h'.inc_sorted).filter _) (a := cc.nodeId)
      intro x hx
      simp only [List.mem_filter, USet.has, Bool.not_eq_true', decide_eq_false_iff_not] at hx
      rcases (k x).1 hx.1 with e | e
      · exact e
      · exact absurd e hx.2
    rw [a]; simpa using b
  · have a : (cfg'.voters.incoming.filter fun id => !cfg.voters.incoming.has id) = [] := by
      rw [List.filter_eq_nil_iff]; intro x hx; simp [USet.has, ((k x).1 hx).2]
    have b : (cfg.voters.incoming.filter fun id => !cfg'.voters.incoming.has id).length ≤ 1 := by
      apply length_le_one ((nodup_of_sorted h.inc_sorted).filter _) (a := cc.nodeId)
      intro x hx
      simp only [List.mem_filter, USet.has, Bool.not_eq_true', decide_eq_false_iff_not] at hx
      apply Classical.byContradiction
      intro hne
      exact hx.2 ((k x).2 ⟨hne, hx.1⟩)
    rw [a]; simpa using b

/-- A single known change on a valid non-joint configuration succeeds if a voter remains. -/
theorem simple_single (c : Changer) (h : ConfInv c.tracker.config c.tracker.progress)
    (ho : c.tracker.config.voters.outgoing = []) (cc : CCSingle) (hk : Known cc)
    (hne : ∃ x, ((MConf.of c.tracker.config).change (fun _ => False) cc).inc x) :
    ∃ cfg' prs', c.simple [cc] = .ok (cfg', prs') ∧ ConfInv cfg' prs' ∧ cfg'.voters.outgoing = [] ∧
      cfg'.autoLeave = c.tracker.config.autoLeave ∧
      MConf.of cfg' = (MConf.of c.tracker.config).change (fun _ => False) cc := by
  obtain ⟨⟨cfg', prs'⟩, hr⟩ := (applyLoop_spec c [cc] _ _ h).2 (by simpa using hk)
  obtain ⟨hi, hout, hal, hs⟩ := (applyLoop_spec c [cc] _ _ h).1 _ _ hr
  have hs' : ((MConf.of c.tracker.config).change (fun _ => False) cc).Is cfg' := by
    simpa [MConf.changes, ho] using hs
  have hni : cfg'.voters.incoming ≠ [] := by
    obtain ⟨x, hx⟩ := hne
    intro hnil
    have := (hs'.1 x).2 hx
    rw [hnil] at this; cases this
  refine ⟨cfg', prs', ?_, hi, hout.trans ho, hal, (is_iff_of _ _).1 hs'⟩
  unfold simple checkAndCopy
  rw [checkAndReturn_of_inv h]
  simp only
  rw [if_neg ((joint_false_iff _).2 ho)]
  unfold apply
  rw [hr]
  simp only
  rw [if_neg (by simpa using hni)]
  simp only
  have := symdiff_single h hi cc _ hs'
  rw [if_neg (by omega)]
  exact checkAndReturn_of_inv hi

/-- A chain of single changes succeeds if a voter remains after each. -/
theorem chainSimple_spec : ∀ (ccs : List CCSingle) (c : Changer), ConfInv c.tracker.config c.tracker.progress →
    c.tracker.config.voters.outgoing = [] → (∀ cc ∈ ccs, Known cc) →
    (∀ pre, pre <+: ccs → pre ≠ [] → ∃ x, ((MConf.of c.tracker.config).changes (fun _ => False) pre).inc x) →
    ∃ c', c.chainSimple ccs = .ok c' ∧ ConfInv c'.tracker.config c'.tracker.progress ∧
      c'.tracker.config.voters.outgoing = [] ∧ c'.tracker.config.autoLeave = c.tracker.config.autoLeave ∧
      MConf.of c'.tracker.config = (MConf.of c.tracker.config).changes (fun _ => False) ccs := by
  intro ccs
  induction ccs with
  | nil => intro c h ho _ _; exact ⟨c, rfl, h, ho, rfl, rfl⟩
  | cons cc ccs ih =>
    intro c h ho hk hne
    obtain ⟨cfg', prs', e1, e2, e3, e4, e5⟩ := simple_single c h ho cc (hk cc List.mem_cons_self)
      (by simpa [MConf.changes] using hne [cc] (by simp) (by simp))
    obtain ⟨c', f1, f2, f3, f4, f5⟩ := ih (c.withResult (cfg', prs')) e2 e3
      (fun x hx => hk x (List.mem_cons_of_mem _ hx)) (by
        intro pre hp hpn
        have := hne (cc :: pre) (List.cons_prefix_cons.2 ⟨rfl, hp⟩) (by simp)
        simp only [withResult, e5]
        simpa [MConf.changes] using this)
    refine ⟨c', ?_, f2, f3, f4.trans e4, ?_⟩
    · simp only [chainSimple, e1]; exact f1
    · rw [f5]; simp only [withResult, e5]; rfl

theorem changes_add (out : Nat → Prop) (ids : List Nat) (h0 : 0 ∉ ids) (m : MConf) :
    m.changes out (ids.map fun id => ⟨.addNode, id⟩) =
      ⟨fun x => x ∈ ids ∨ m.inc x, fun x => x ∉ ids ∧ m.lrn x, fun x => x ∉ ids ∧ m.nxt x⟩ := by
  induction ids generalizing m with
  | nil => simp [MConf.changes]
  | cons a ids ih =>
    have ha : a ≠ 0 := by rintro rfl; exact h0 List.mem_cons_self
    have := ih (fun h => h0 (List.mem_cons_of_mem _ h)) (m.change out ⟨.addNode, a⟩)
    simp only [MConf.changes, List.map_cons, List.foldl_cons] at this ⊢
    rw [this]
    apply change_congr
    simp only [MConf.change, ha, if_false, List.mem_cons]
    refine ⟨?_, ?_, ?_⟩ <;> intro x
    · constructor
      · rintro (h | h | h) <;> simp [h]
      · rintro ((h | h) | h) <;> simp [h]
    · simp only [not_or, ne_eq]
      exact ⟨fun ⟨a, b, c⟩ => ⟨⟨b, a⟩, c⟩, fun ⟨⟨a, b⟩, c⟩ => ⟨b, a, c⟩⟩
    · simp only [not_or, ne_eq]
      exact ⟨fun ⟨a, b, c⟩ => ⟨⟨b, a⟩, c⟩, fun ⟨⟨a, b⟩, c⟩ => ⟨b, a, c⟩⟩

theorem changes_remove (out : Nat → Prop) (ids : List Nat) (h0 : 0 ∉ ids) (m : MConf) :
    m.changes out (ids.map fun id => ⟨.removeNode, id⟩) =
      ⟨fun x => x ∉ ids ∧ m.inc x, fun x => x ∉ ids ∧ m.lrn x, fun x => x ∉ ids ∧ m.nxt x⟩ := by
  induction ids generalizing m with
  | nil => simp [MConf.changes]
  | cons a ids ih =>
    have ha : a ≠ 0 := by rintro rfl; exact h0 List.mem_cons_self
    have := ih (fun h => h0 (List.mem_cons_of_mem _ h)) (m.change out ⟨.removeNode, a⟩)
    simp only [MConf.changes, List.map_cons, List.foldl_cons] at this ⊢
    rw [this]
    apply change_congr
    simp only [MConf.change, ha, if_false, List.mem_cons]
    refine ⟨?_, ?_, ?_⟩ <;> intro x <;> simp only [not_or, ne_eq] <;>
      exact ⟨fun ⟨a, b, c⟩ => ⟨⟨b, a⟩, c⟩, fun ⟨⟨a, b⟩, c⟩ => ⟨b, a, c⟩⟩

theorem changes_learner (out : Nat → Prop) (ids : List Nat) (h0 : 0 ∉ ids) (m : MConf) :
    m.changes out (ids.map fun id => ⟨.addLearnerNode, id⟩) =
      ⟨fun x => x ∉ ids ∧ m.inc x, fun x => (x ∈ ids ∧ ¬ out x) ∨ m.lrn x, fun x => (x ∈ ids ∧ out x) ∨ m.nxt x⟩ := by
  induction ids generalizing m with
  | nil => simp [MConf.changes]
  | cons a ids ih =>
    have ha : a ≠ 0 := by rintro rfl; exact h0 List.mem_cons_self
    have := ih (fun h => h0 (List.mem_cons_of_mem _ h)) (m.change out ⟨.addLearnerNode, a⟩)
    simp only [MConf.changes, List.map_cons, List.foldl_cons] at this ⊢
    rw [this]
    apply change_congr
    simp only [MConf.change, ha, if_false, List.mem_cons]
    refine ⟨?_, ?_, ?_⟩ <;> intro x
    · simp only [not_or, ne_eq]
      exact ⟨fun ⟨a, b, c⟩ => ⟨⟨b, a⟩, c⟩, fun ⟨⟨a, b⟩, c⟩ => ⟨b, a, c⟩⟩
    · constructor
      · rintro (⟨h1, h2⟩ | ⟨h1, h2⟩ | h)
        · exact Or.inl ⟨Or.inr h1, h2⟩
        · exact Or.inl ⟨Or.inl h1, by rw [h1]; exact h2⟩
        · exact Or.inr h
      · rintro (⟨h1 | h1, h2⟩ | h)
        · exact Or.inr (Or.inl ⟨h1, by rw [← h1]; exact h2⟩)
        · exact Or.inl ⟨h1, h2⟩
        · exact Or.inr (Or.inr h)
    · constructor
      · rintro (⟨h1, h2⟩ | ⟨h1, h2⟩ | h)
        · exact Or.inl ⟨Or.inr h1, h2⟩
        · exact Or.inl ⟨Or.inl h1, by rw [h1]; exact h2⟩
        · exact Or.inr h
      · rintro (⟨h1 | h1, h2⟩ | h)
        · exact Or.inr (Or.inl ⟨h1, by rw [← h1]; exact h2⟩)
        · exact Or.inl ⟨h1, h2⟩
        · exact Or.inr (Or.inr h)

theorem changes_append (out : Nat → Prop) (m : MConf) (a b : List CCSingle) :
    m.changes out (a ++ b) = (m.changes out a).changes out b := by
  simp [MConf.changes]

theorem known_map (t : CCType) (ht : ∀ n, t ≠ .unknown n) (ids : List Nat) :
    ∀ cc ∈ ids.map (fun id => (⟨t, id⟩ : CCSingle)), Known cc := by
  intro cc hcc
  obtain ⟨id, _, rfl⟩ := List.mem_map.1 hcc
  exact ht

end Changer

open Changer in
/-- C14: for every valid configuration with at least one voter (or none at all) and no id 0, restoring a fresh tracker
from the reported `ConfState` succeeds and yields exactly that configuration, again valid. -/
theorem C14_restore_roundtrip (t : Tracker) (h : ConfInv t.config t.progress) (hz : ¬ Member t.config 0)
    (hne : t.config.voters.incoming ≠ [] ∨ t.config = {}) (maxInflight : Int) (lastIndex : Nat) :
    ∃ prs, Changer.restore { tracker := { maxInflight := maxInflight }, lastIndex := lastIndex } t.confState =
        .ok (t.config, prs) ∧ ConfInv t.config prs := by
  rcases hne with hne | hempty
  swap
  · refine ⟨[], ?_, ?_⟩
    · simp [restore, toConfChangeSingle, Tracker.confState, hempty, chainSimple]
    · rw [hempty]; exact ConfInv.empty
  have hz1 : 0 ∉ t.config.voters.incoming := fun hm => hz (Or.inl hm)
  have hz2 : 0 ∉ t.config.voters.outgoing := fun hm => hz (Or.inr (Or.inl hm))
  have hz3 : 0 ∉ t.config.learners := fun hm => hz (Or.inr (Or.inr (Or.inl hm)))
  have hz4 : 0 ∉ t.config.learnersNext := fun hm => hz (Or.inr (Or.inr (Or.inr hm)))
  let c0 : Changer := { tracker := { maxInflight := maxInflight }, lastIndex := lastIndex }
  have hc0 : ConfInv c0.tracker.config c0.tracker.progress := ConfInv.empty
  -- equality of configurations from equality of sets
  have heq : ∀ (cfg : TConfig) (prs : ProgressMap), ConfInv cfg prs →
      cfg.voters.outgoing = t.config.voters.outgoing → cfg.autoLeave = t.config.autoLeave →
      (∀ x, x ∈ cfg.voters.incoming ↔ x ∈ t.config.voters.incoming) → (∀ x, x ∈ cfg.learners ↔ x ∈ t.config.learners) →
      (∀ x, x ∈ cfg.learnersNext ↔ x ∈ t.config.learnersNext) → cfg = t.config := by
    intro cfg prs hc ho ha h1 h2 h3
    have e1 := USet.ext_sorted hc.inc_sorted h.inc_sorted h1
    have e2 := USet.ext_sorted hc.lrn_sorted h.lrn_sorted h2
    have e3 := USet.ext_sorted hc.nxt_sorted h.nxt_sorted h3
    cases cfg with
    | mk v a l ln =>
      cases v with
      | mk i o =>
        simp only at *
        rw [e1, ho, ha, e2, e3]
  by_cases ho : t.config.voters.outgoing = []
  · -- not joint
    obtain ⟨hln, hal⟩ := h.not_joint ho
    let ccs : List CCSingle := (t.config.voters.incoming.map fun id => (⟨.addNode, id⟩ : CCSingle)) ++
      (t.config.learners.map fun id => ⟨.addLearnerNode, id⟩)
    have hcalc : ∀ ls : List Nat, 0 ∉ ls → ∀ vs : List Nat, 0 ∉ vs →
        (MConf.of c0.tracker.config).changes (fun _ => False) ((vs.map fun id => (⟨.addNode, id⟩ : CCSingle)) ++
          (ls.map fun id => ⟨.addLearnerNode, id⟩)) =
        ⟨fun x => x ∉ ls ∧ x ∈ vs, fun x => x ∈ ls, fun _ => False⟩ := by
      intro ls hls vs hvs
      rw [changes_append, changes_add _ _ hvs, changes_learner _ _ hls]
      apply change_congr
      simp [MConf.of, c0]
    obtain ⟨c', e1, e2, e3, e4, e5⟩ := chainSimple_spec ccs c0 hc0 rfl (by
        intro cc hcc
        rcases List.mem_append.1 hcc with hcc | hcc
        · exact known_map _ (by simp) _ cc hcc
        · exact known_map _ (by simp) _ cc hcc) (by
        intro pre hpre hpn
        rcases prefix_append_cases hpre with hp | ⟨q, rfl, hq⟩
        · -- inside the voters
          obtain ⟨vs, hvs, rfl⟩ := List.prefix_map_iff.1 hp
          have h0 : 0 ∉ vs := fun hm => hz1 (hvs.subset hm)
          rw [changes_add _ _ h0]
          cases vs with
          | nil => simp at hpn
          | cons a vs => exact ⟨a, Or.inl List.mem_cons_self⟩
        · obtain ⟨ls, hls, rfl⟩ := List.prefix_map_iff.1 hq
          have h0 : 0 ∉ ls := fun hm => hz3 (hls.subset hm)
          rw [hcalc ls h0 _ hz1]
          obtain ⟨v, hv⟩ := List.exists_mem_of_ne_nil _ hne
          exact ⟨v, fun hm => h.lrn_not_inc v (hls.subset hm) hv, hv⟩)
    rw [hcalc _ hz3 _ hz1] at e5
    have hcfg : c'.tracker.config = t.config := by
      refine heq _ _ e2 (e3.trans ho.symm) (e4.trans hal.symm) ?_ ?_ ?_
      · intro x
        have : (MConf.of c'.tracker.config).inc x ↔ (x ∉ t.config.learners ∧ x ∈ t.config.voters.incoming) := by rw [e5]
        exact this.trans ⟨fun hx => hx.2, fun hx => ⟨fun hl => h.lrn_not_inc x hl hx, hx⟩⟩
      · intro x
        have : (MConf.of c'.tracker.config).lrn x ↔ x ∈ t.config.learners := by rw [e5]
        exact this
      · intro x
        have : (MConf.of c'.tracker.config).nxt x ↔ False := by rw [e5]
        rw [hln]
        exact this.trans (by simp)
    refine ⟨c'.tracker.progress, ?_, hcfg ▸ e2⟩
    have hcc : (toConfChangeSingle t.confState).2 = ccs := by
      simp [toConfChangeSingle, Tracker.confState, ho, hln, ccs]
    have ho1 : (toConfChangeSingle t.confState).1 = [] := by
      simp [toConfChangeSingle, Tracker.confState, ho]
    unfold restore
    rw [show toConfChangeSingle t.confState = ((toConfChangeSingle t.confState).1, (toConfChangeSingle t.confState).2) from rfl,
      hcc, ho1]
    simp only [List.length_nil, if_true]
    change (match chainSimple c0 ccs with | .error e => _ | .ok c => _) = _
    rw [e1]
    simp only [hcfg]
  · -- joint
    obtain ⟨c1, e1, e2, e3, e4, e5⟩ := chainSimple_spec (t.config.voters.outgoing.map fun id => (⟨.addNode, id⟩ : CCSingle))
      c0 hc0 rfl (known_map _ (by simp) _) (by
        intro pre hp hpn
        obtain ⟨vs, hvs, rfl⟩ := List.prefix_map_iff.1 hp
        have h0 : 0 ∉ vs := fun hm => hz2 (hvs.subset hm)
        rw [changes_add _ _ h0]
        cases vs with
        | nil => simp at hpn
        | cons a vs => exact ⟨a, Or.inl List.mem_cons_self⟩)
    rw [changes_add _ _ hz2] at e5
    have hinc1 : c1.tracker.config.voters.incoming = t.config.voters.outgoing := by
      apply USet.ext_sorted e2.inc_sorted h.out_sorted
      intro x
      have : (MConf.of c1.tracker.config).inc x ↔ (x ∈ t.config.voters.outgoing ∨ (MConf.of c0.tracker.config).inc x) := by
        rw [e5]
      exact this.trans (by simp [MConf.of, c0])
    have hne1 : c1.tracker.config.voters.incoming ≠ [] := by rw [hinc1]; exact ho
    have hj := inv_joint_start e2 e3 hne1
    let ccs : List CCSingle := (t.config.voters.outgoing.map fun id => (⟨.removeNode, id⟩ : CCSingle)) ++
      (t.config.voters.incoming.map fun id => ⟨.addNode, id⟩) ++
      (t.config.learners.map fun id => ⟨.addLearnerNode, id⟩) ++
      (t.config.learnersNext.map fun id => ⟨.addLearnerNode, id⟩)
    obtain ⟨⟨cfg2, prs2⟩, hl⟩ := (applyLoop_spec c1 ccs _ _ hj).2 (by
      intro cc hcc
      simp only [ccs, List.mem_append] at hcc
      rcases hcc with ((hcc | hcc) | hcc) | hcc <;> exact known_map _ (by simp) _ cc hcc)
    obtain ⟨i2, o2, a2, s2⟩ := (applyLoop_spec c1 ccs _ _ hj).1 _ _ hl
    have hsets := (is_iff_of _ _).1 s2
    have hof : MConf.of { c1.tracker.config with
        voters := { c1.tracker.config.voters with outgoing := c1.tracker.config.voters.incoming } } =
        ⟨fun x => x ∈ t.config.voters.outgoing, fun _ => False, fun _ => False⟩ := by
      have : MConf.of { c1.tracker.config with
        voters := { c1.tracker.config.voters with outgoing := c1.tracker.config.voters.incoming } } =
        MConf.of c1.tracker.config := rfl
      rw [this, e5]
      apply change_congr
      simp [MConf.of, c0]
    simp only [ccs, hinc1, changes_append, changes_learner _ _ hz4, changes_learner _ _ hz3, changes_add _ _ hz1,
      changes_remove _ _ hz2] at hsets
    rw [← hinc1, hof] at hsets
    have hm1 : ∀ x, x ∈ cfg2.voters.incoming ↔ x ∈ t.config.voters.incoming := by
      intro x
      show (MConf.of cfg2).inc x ↔ _
      rw [hsets]
      simp only
      constructor
      · rintro ⟨_, _, hx | ⟨hx, hx'⟩⟩
        · exact hx
        · exact absurd hx' (hinc1 ▸ hx)
      · intro hx
        exact ⟨fun hm => h.nxt_not_inc x hm hx, fun hm => h.lrn_not_inc x hm hx, Or.inl hx⟩
    have hm2 : ∀ x, x ∈ cfg2.learners ↔ x ∈ t.config.learners := by
      intro x
      show (MConf.of cfg2).lrn x ↔ _
      rw [hsets]
      simp only [hinc1]
      constructor
      · rintro (⟨hx, hx'⟩ | ⟨hx, _⟩ | ⟨_, _, hx⟩)
        · exact absurd (h.nxt_out x hx) hx'
        · exact hx
        · exact hx.elim
      · intro hx
        exact Or.inr (Or.inl ⟨hx, h.lrn_not_out x hx⟩)
    have hm3 : ∀ x, x ∈ cfg2.learnersNext ↔ x ∈ t.config.learnersNext := by
      intro x
      show (MConf.of cfg2).nxt x ↔ _
      rw [hsets]
      simp only [hinc1]
      constructor
      · rintro (⟨hx, _⟩ | ⟨hx, hx'⟩ | ⟨_, _, hx⟩)
        · exact hx
        · exact absurd hx' (h.lrn_not_out x hx)
        · exact hx.elim
      · intro hx
        exact Or.inl ⟨hx, h.nxt_out x hx⟩
    have hout2 : cfg2.voters.outgoing = t.config.voters.outgoing := o2.trans hinc1
    have hinv2 : ConfInv { cfg2 with autoLeave := t.config.autoLeave } prs2 :=
      ⟨i2.inc_sorted, i2.out_sorted, i2.lrn_sorted, i2.nxt_sorted, i2.prs_sorted, i2.prs_exact, i2.lrn_flag,
        i2.lrn_not_inc, i2.lrn_not_out, i2.nxt_out, i2.nxt_not_inc, fun hn => absurd (hout2.symm.trans hn) ho⟩
    have hcfg : { cfg2 with autoLeave := t.config.autoLeave } = t.config := heq _ _ hinv2 hout2 rfl hm1 hm2 hm3
    refine ⟨prs2, ?_, hcfg ▸ hinv2⟩
    have hcc : (toConfChangeSingle t.confState).2 = ccs := rfl
    have ho1 : (toConfChangeSingle t.confState).1 = t.config.voters.outgoing.map fun id => (⟨.addNode, id⟩ : CCSingle) := rfl
    unfold restore
    rw [show toConfChangeSingle t.confState = ((toConfChangeSingle t.confState).1, (toConfChangeSingle t.confState).2) from rfl,
      hcc, ho1]
    simp only [List.length_map]
    rw [if_neg (by simpa using ho)]
    change (match chainSimple c0 _ with | .error e => _ | .ok c => _) = _
    rw [e1]
    simp only
    have hal : t.confState.autoLeave = t.config.autoLeave := rfl
    have hni2 : cfg2.voters.incoming ≠ [] := by
      obtain ⟨v, hv⟩ := List.exists_mem_of_ne_nil _ hne
      intro hnil
      have := (hm1 v).2 hv
      rw [hnil] at this; cases this
    have : c1.enterJoint t.confState.autoLeave ccs = .ok (t.config, prs2) := by
      unfold enterJoint checkAndCopy
      rw [checkAndReturn_of_inv e2]
      simp only
      rw [if_neg ((joint_false_iff _).2 e3), if_neg (by simpa using hne1)]
      unfold apply
      rw [hl]
      simp only
      rw [if_neg (by simpa using hni2)]
      simp only [hal]
      rw [checkAndReturn_of_inv hinv2, hcfg]
    rw [this]

-- a joint configuration with learners and a staged learner round-trips
example : (Changer.restore { tracker := { maxInflight := 8 }, lastIndex := 5 }
    { voters := [1, 4], votersOutgoing := [1, 2, 3], learners := [7], learnersNext := [3], autoLeave := true }).toOption.map
      Prod.fst =
    some { voters := { incoming := [1, 4], outgoing := [1, 2, 3] }, autoLeave := true, learners := [7], learnersNext := [3] } := by
  rfl

end Craft
