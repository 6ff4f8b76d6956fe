import Verif.Cluster.Rel
import Verif.Dyn.Inv
import Verif.Props.Restore
import Verif.Spec.Members

/-! # The configuration of a prefix of the log, and its quorums -/

namespace Craft.Dyn
open Spec

/-! ## What a change does -/

/-- The operation of `ApplyConfChange` (`/repo/src/raft.cc` 1692-1714). -/
def change (c : Changer) (cc : ConfChangeV2) : Except Err (TConfig × ProgressMap) :=
  if ccLeaveJoint cc then c.leaveJoint
  else if (ccEnterJoint cc).2 then c.enterJoint (ccEnterJoint cc).1 cc.changes else c.simple cc.changes

theorem applyConfChange_ok {env : Env} {r r' : Raft} {cc : ConfChangeV2} {cs : ConfState} (h : r.applyConfChange env cc = .ok (r', cs)) :
    ∃ cfg prs, change { tracker := r.trk, lastIndex := r.log.lastIndex } cc = .ok (cfg, prs) ∧ r.switchToConfig env cfg prs = .ok (r', cs) := by
  unfold Raft.applyConfChange at h
  dsimp only at h
  split at h
  · cases h
  · rename_i cfg prs he
    exact ⟨cfg, prs, he, h⟩

/-- A configuration of a running cluster. -/
structure GoodCfg (cfg : TConfig) : Prop where
  inv : ∃ prs, ConfInv cfg prs
  zero : ¬ Member cfg 0
  voter : cfg.voters.incoming ≠ []

def Next (cc : ConfChangeV2) (cfg cfg' : TConfig) : Prop :=
  ∃ c : Changer, c.tracker.config = cfg ∧ ConfInv cfg c.tracker.progress ∧ ∃ prs', change c cc = .ok (cfg', prs')

/-- A configuration is determined by its sets. -/
theorem cfg_ext {a b : TConfig} {P Q : ProgressMap} (ha : ConfInv a P) (hb : ConfInv b Q)
    (h1 : ∀ x, x ∈ a.voters.incoming ↔ x ∈ b.voters.incoming) (h2 : ∀ x, x ∈ a.voters.outgoing ↔ x ∈ b.voters.outgoing)
    (h3 : ∀ x, x ∈ a.learners ↔ x ∈ b.learners) (h4 : ∀ x, x ∈ a.learnersNext ↔ x ∈ b.learnersNext) (h5 : a.autoLeave = b.autoLeave) : a = b := by
  have e1 := USet.ext_sorted ha.inc_sorted hb.inc_sorted h1
  have e2 := USet.ext_sorted ha.out_sorted hb.out_sorted h2
  have e3 := USet.ext_sorted ha.lrn_sorted hb.lrn_sorted h3
  have e4 := USet.ext_sorted ha.nxt_sorted hb.nxt_sorted h4
  obtain ⟨⟨ai, ao⟩, al, an, aa⟩ := a
  obtain ⟨⟨bi, bo⟩, bl, bn, ba⟩ := b
  simp only at e1 e2 e3 e4 h5
  subst e1 e2 e3 e4 h5
  rfl

/-- The outcome of a change, as sets. -/
theorem change_sets {c : Changer} {cc : ConfChangeV2} {cfg' : TConfig} {prs' : ProgressMap} (hi : ConfInv c.tracker.config c.tracker.progress)
    (h : change c cc = .ok (cfg', prs')) : ConfInv cfg' prs' ∧
    ((ccLeaveJoint cc = true ∧ c.tracker.config.voters.outgoing ≠ [] ∧ cfg'.voters.incoming = c.tracker.config.voters.incoming ∧ cfg'.voters.outgoing = [] ∧
      (∀ x, x ∈ cfg'.learners ↔ x ∈ c.tracker.config.learners ∨ x ∈ c.tracker.config.learnersNext) ∧ cfg'.learnersNext = [] ∧ cfg'.autoLeave = false) ∨
     (ccLeaveJoint cc = false ∧ (ccEnterJoint cc).2 = true ∧ cfg'.voters.outgoing = c.tracker.config.voters.incoming ∧ cfg'.autoLeave = (ccEnterJoint cc).1 ∧
      cfg'.voters.incoming ≠ [] ∧
      ((MConf.of c.tracker.config).changes (fun x => x ∈ c.tracker.config.voters.incoming) cc.changes).Is cfg') ∨
     (ccLeaveJoint cc = false ∧ (ccEnterJoint cc).2 = false ∧ c.tracker.config.voters.outgoing = [] ∧ cfg'.voters.outgoing = [] ∧
      cfg'.voters.incoming ≠ [] ∧ Changer.symdiff c.tracker.config.voters.incoming cfg'.voters.incoming ≤ 1 ∧
      ((MConf.of c.tracker.config).changes (fun _ => False) cc.changes).Is cfg')) := by
  unfold change at h
  by_cases hl : ccLeaveJoint cc = true
  · rw [if_pos hl] at h
    refine ⟨C10_confchange_invariants c hi false [] _ _ (Or.inr (Or.inr h)), Or.inl ?_⟩
    obtain ⟨h1, h2⟩ := C12_leaveJoint c hi
    by_cases ho : c.tracker.config.voters.outgoing = []
    · obtain ⟨e, he⟩ := h1 ho
      rw [he] at h; cases h
    · obtain ⟨x, y, e1, e2⟩ := h2 ho
      rw [e1] at h
      simp only [Except.ok.injEq, Prod.mk.injEq] at h
      obtain ⟨rfl, rfl⟩ := h
      exact ⟨hl, ho, e2⟩
  · rw [if_neg hl] at h
    have hl' : ccLeaveJoint cc = false := by simpa using hl
    by_cases hj : (ccEnterJoint cc).2 = true
    · rw [if_pos hj] at h
      obtain ⟨e1, e2, e3⟩ := C12_enterJoint c hi _ _ _ _ h
      obtain ⟨_, _, cfg1, _, e4, e5⟩ := Changer.enterJoint_ok h
      refine ⟨C10_confchange_invariants c hi _ _ _ _ (Or.inr (Or.inl h)), Or.inr (Or.inl ⟨hl', hj, e1, e2, ?_, e3⟩)⟩
      rw [e5]; exact e4
    · rw [if_neg hj] at h
      have hj' : (ccEnterJoint cc).2 = false := by simpa using hj
      obtain ⟨s1, _, s3, s4⟩ := Changer.simple_ok h
      exact ⟨C10_confchange_invariants c hi false _ _ _ (Or.inl h), Or.inr (Or.inr ⟨hl', hj', s1, (C11_simple_overlap c hi _ _ _ h).2.1, s3, s4,
        C12_simple c hi _ _ _ h⟩)⟩

theorem Next.det {cc : ConfChangeV2} {cfg a b : TConfig} (ha : Next cc cfg a) (hb : Next cc cfg b) : a = b := by
  obtain ⟨c, rfl, i1, P, h1⟩ := ha
  obtain ⟨d, he, i2, Q, h2⟩ := hb
  rw [← he] at i2
  obtain ⟨j1, k1⟩ := change_sets i1 h1
  obtain ⟨j2, k2⟩ := change_sets i2 h2
  rw [he] at k2
  rcases k1 with ⟨l1, _, a1, a2, a3, a4, a5⟩ | ⟨l1, l2, a1, a2, _, a3⟩ | ⟨l1, l2, _, a1, _, _, a2⟩ <;>
    rcases k2 with ⟨m1, _, b1, b2, b3, b4, b5⟩ | ⟨m1, m2, b1, b2, _, b3⟩ | ⟨m1, m2, _, b1, _, _, b2⟩ <;>
    first | (exfalso; rw [l1] at m1; cases m1; done) | (exfalso; rw [l2] at m2; cases m2; done) | skip
  · exact cfg_ext j1 j2 (by rw [a1, b1]; simp) (by rw [a2, b2]; simp) (fun x => (a3 x).trans (b3 x).symm) (by rw [a4, b4]; simp) (by rw [a5, b5])
  · exact cfg_ext j1 j2 (fun x => (a3.1 x).trans (b3.1 x).symm) (by rw [a1, b1]; simp) (fun x => (a3.2.1 x).trans (b3.2.1 x).symm)
      (fun x => (a3.2.2 x).trans (b3.2.2 x).symm) (by rw [a2, b2])
  · exact cfg_ext j1 j2 (fun x => (a2.1 x).trans (b2.1 x).symm) (by rw [a1, b1]; simp) (fun x => (a2.2.1 x).trans (b2.2.1 x).symm)
      (fun x => (a2.2.2 x).trans (b2.2.2 x).symm) (by rw [(j1.not_joint a1).2, (j2.not_joint b1).2])

/-- Changes never bring in the placeholder id 0. -/
theorem changes_zero (out : Nat → Prop) : ∀ (cs : List CCSingle) (m : MConf), ¬ m.inc 0 → ¬ m.lrn 0 → ¬ m.nxt 0 →
    ¬ (m.changes out cs).inc 0 ∧ ¬ (m.changes out cs).lrn 0 ∧ ¬ (m.changes out cs).nxt 0
  | [], m, h1, h2, h3 => ⟨h1, h2, h3⟩
  | c :: cs, m, h1, h2, h3 => by
    show _ ∧ _
    have key : ¬ (m.change out c).inc 0 ∧ ¬ (m.change out c).lrn 0 ∧ ¬ (m.change out c).nxt 0 := by
      unfold MConf.change
      by_cases h0 : c.nodeId = 0
      · rw [if_pos h0]; exact ⟨h1, h2, h3⟩
      · rw [if_neg h0]
        have h0' : ¬ (0 = c.nodeId) := fun h => h0 h.symm
        cases c.type <;> simp_all
    exact changes_zero out cs _ key.1 key.2.1 key.2.2

theorem Next.good {cc : ConfChangeV2} {cfg cfg' : TConfig} (h : Next cc cfg cfg') (hg : GoodCfg cfg) : GoodCfg cfg' := by
  obtain ⟨c, rfl, i1, P, h1⟩ := h
  obtain ⟨j1, k1⟩ := change_sets i1 h1
  have hz := hg.zero
  have z1 : 0 ∉ c.tracker.config.voters.incoming := fun h => hz (Or.inl h)
  have z3 : 0 ∉ c.tracker.config.learners := fun h => hz (Or.inr (Or.inr (Or.inl h)))
  have z4 : 0 ∉ c.tracker.config.learnersNext := fun h => hz (Or.inr (Or.inr (Or.inr h)))
  refine ⟨⟨P, j1⟩, ?_, ?_⟩
  · rcases k1 with ⟨l1, _, a1, a2, a3, a4, a5⟩ | ⟨l1, l2, a1, a2, _, a3⟩ | ⟨l1, l2, _, a1, _, _, a2⟩
    · rintro (h | h | h | h)
      · rw [a1] at h; exact z1 h
      · rw [a2] at h; cases h
      · rcases (a3 0).1 h with h | h
        · exact z3 h
        · exact z4 h
      · rw [a4] at h; cases h
    · obtain ⟨w1, w2, w3⟩ := changes_zero (fun x => x ∈ c.tracker.config.voters.incoming) cc.changes (MConf.of c.tracker.config) z1 z3 z4
      rintro (h | h | h | h)
      · exact w1 ((a3.1 0).1 h)
      · rw [a1] at h; exact z1 h
      · exact w2 ((a3.2.1 0).1 h)
      · exact w3 ((a3.2.2 0).1 h)
    · obtain ⟨w1, w2, w3⟩ := changes_zero (fun _ => False) cc.changes (MConf.of c.tracker.config) z1 z3 z4
      rintro (h | h | h | h)
      · exact w1 ((a2.1 0).1 h)
      · rw [a1] at h; cases h
      · exact w2 ((a2.2.1 0).1 h)
      · exact w3 ((a2.2.2 0).1 h)
  · rcases k1 with ⟨l1, _, a1, _⟩ | ⟨l1, l2, _, _, a1, _⟩ | ⟨l1, l2, _, _, a1, _⟩
    · rw [a1]; exact hg.voter
    · exact a1
    · exact a1

/-! ## Quorums -/

/-- A majority of each half of the configuration (one half if it is not joint). -/
def JQ (cfg : JointConfig) (S : Nat → Prop) : Prop :=
  (∃ P : Nat → Bool, Spec.Majority cfg.incoming P ∧ ∀ v ∈ cfg.incoming, P v = true → S v) ∧
    (cfg.outgoing ≠ [] → ∃ P : Nat → Bool, Spec.Majority cfg.outgoing P ∧ ∀ v ∈ cfg.outgoing, P v = true → S v)

theorem JQ.inter {cfg : JointConfig} {S S' : Nat → Prop} (h : JQ cfg S) (h' : JQ cfg S') : ∃ v, S v ∧ S' v := by
  obtain ⟨⟨P, h1, h2⟩, _⟩ := h
  obtain ⟨⟨P', h3, h4⟩, _⟩ := h'
  obtain ⟨v, hv, a, b⟩ := majority_inter cfg.incoming P P' h1 h3
  exact ⟨v, h2 v hv a, h4 v hv b⟩

theorem Next.overlap {cc : ConfChangeV2} {cfg cfg' : TConfig} (h : Next cc cfg cfg') (hv : cfg.voters.incoming ≠ []) {S S' : Nat → Prop}
    (hs : JQ cfg.voters S) (hs' : JQ cfg'.voters S') : ∃ v, S v ∧ S' v := by
  obtain ⟨c, rfl, i1, P, h1⟩ := h
  obtain ⟨j1, k1⟩ := change_sets i1 h1
  obtain ⟨⟨A, s1, s2⟩, s3⟩ := hs
  obtain ⟨⟨B, t1, t2⟩, t3⟩ := hs'
  rcases k1 with ⟨l1, _, a1, a2, a3, a4, a5⟩ | ⟨l1, l2, a1, a2, _, a3⟩ | ⟨l1, l2, _, a1, _, a4, a2⟩
  · rw [a1] at t1 t2
    obtain ⟨v, hv, a, b⟩ := majority_inter _ A B s1 t1
    exact ⟨v, s2 v hv a, t2 v hv b⟩
  · obtain ⟨B', t1', t2'⟩ := t3 (by rw [a1]; exact hv)
    rw [a1] at t1' t2'
    obtain ⟨v, hv, a, b⟩ := majority_inter _ A B' s1 t1'
    exact ⟨v, s2 v hv a, t2' v hv b⟩
  · obtain ⟨v, v1, v2, a, b⟩ := majority_overlap i1.inc_sorted j1.inc_sorted a4 s1 t1
    exact ⟨v, s2 v v1 a, t2 v v2 b⟩

/-! ## Configurations of prefixes -/

/-- What an applied entry does to the configuration, the applications reading conf changes with `dec`. -/
def EStep (dec : Entry → Option ConfChangeI) (e : Entry) (cfg cfg' : TConfig) : Prop :=
  match confOf dec e with
  | none => cfg' = cfg
  | some cc => Next cc.asV2 cfg cfg'

inductive CfgAt (dec : Entry → Option ConfChangeI) (cfg0 : TConfig) : List Entry → TConfig → Prop
  | nil : CfgAt dec cfg0 [] cfg0
  | snoc {x cfg e cfg'} : CfgAt dec cfg0 x cfg → EStep dec e cfg cfg' → CfgAt dec cfg0 (x ++ [e]) cfg'

variable {dec : Entry → Option ConfChangeI} {cfg0 : TConfig}

theorem EStep.det {e : Entry} {cfg a b : TConfig} (ha : EStep dec e cfg a) (hb : EStep dec e cfg b) : a = b := by
  unfold EStep at *
  split at ha
  · rw [ha]; rename_i h; rw [h] at hb; exact hb.symm
  · rename_i h; rw [h] at hb; exact Next.det ha hb

theorem EStep.good {e : Entry} {cfg cfg' : TConfig} (h : EStep dec e cfg cfg') (hg : GoodCfg cfg) : GoodCfg cfg' := by
  unfold EStep at h
  split at h
  · rw [h]; exact hg
  · exact Next.good h hg

theorem CfgAt.inv_snoc {x : List Entry} {e : Entry} {c : TConfig} (h : CfgAt dec cfg0 (x ++ [e]) c) :
    ∃ c0, CfgAt dec cfg0 x c0 ∧ EStep dec e c0 c := by
  generalize hy : x ++ [e] = y at h
  cases h with
  | nil => simp at hy
  | snoc h1 h2 =>
    obtain ⟨rfl, he⟩ := List.append_inj' hy rfl
    simp only [List.cons.injEq, and_true] at he
    subst he
    exact ⟨_, h1, h2⟩

theorem CfgAt.det {x : List Entry} {a : TConfig} (ha : CfgAt dec cfg0 x a) : ∀ {b}, CfgAt dec cfg0 x b → a = b := by
  induction ha with
  | nil =>
    intro b hb
    generalize hy : ([] : List Entry) = y at hb
    cases hb with
    | nil => rfl
    | snoc _ _ => simp at hy
  | snoc h1 h2 ih =>
    intro b hb
    obtain ⟨c0, h3, h4⟩ := hb.inv_snoc
    have := ih h3
    subst this
    exact h2.det h4

theorem CfgAt.good {x : List Entry} {a : TConfig} (ha : CfgAt dec cfg0 x a) (h0 : GoodCfg cfg0) : GoodCfg a := by
  induction ha with
  | nil => exact h0
  | snoc h1 h2 ih => exact h2.good ih

theorem EStep.normal {e : Entry} {cfg : TConfig} (h : e.type = .normal) : EStep dec e cfg cfg := by
  unfold EStep confOf
  rw [if_pos h]

theorem CfgAt.normals {x : List Entry} {cfg : TConfig} (h : CfgAt dec cfg0 x cfg) : ∀ t : List Entry, (∀ e ∈ t, e.type = .normal) →
    CfgAt dec cfg0 (x ++ t) cfg
  | [], _ => by simpa using h
  | e :: t, ht => by
    have := (h.snoc (EStep.normal (ht e (List.mem_cons_self ..)))).normals t fun y hy => ht y (List.mem_cons_of_mem _ hy)
    simpa using this

/-- Every conf change in the log can be applied where it is. -/
def Applies (dec : Entry → Option ConfChangeI) (cfg0 : TConfig) (x : List Entry) : Prop :=
  ∀ k e, x[k]? = some e → ∀ cfg, CfgAt dec cfg0 (x.take k) cfg → ∃ cfg', EStep dec e cfg cfg'

theorem Applies.prefix {x y : List Entry} (h : x <+: y) (hy : Applies dec cfg0 y) : Applies dec cfg0 x := by
  intro k e he cfg hc
  refine hy k e (Abs.prefix_getElem?_some h he) cfg ?_
  obtain ⟨t, rfl⟩ := h
  rw [List.take_append_of_le_length (by have := (List.getElem?_eq_some_iff.1 he).1; omega)]
  exact hc

/-- The quorums of the cluster; if `strict`, leaders see to it that the conf changes in their logs can be applied. -/
def quorums (dec : Entry → Option ConfChangeI) (cfg0 : TConfig) (h0 : GoodCfg cfg0) (strict : Prop) : CSys where
  ok x := strict → Applies dec cfg0 x
  okNil := by intro _ k e h; simp at h
  okPre := fun h hy hs => (hy hs).prefix h
  isQ x S := ∃ cfg, CfgAt dec cfg0 x cfg ∧ JQ cfg.voters S
  inter := by
    rintro x S S' ⟨a, h1, h2⟩ ⟨b, h3, h4⟩
    have := h1.det h3
    subst this
    exact h2.inter h4
  same := by
    intro x e S he
    constructor
    · rintro ⟨a, h1, h2⟩
      obtain ⟨c0, h3, h4⟩ := h1.inv_snoc
      have := h4.det (EStep.normal he)
      subst this
      exact ⟨_, h3, h2⟩
    · rintro ⟨a, h1, h2⟩
      exact ⟨a, h1.snoc (EStep.normal he), h2⟩
  adj := by
    rintro x e S S' ⟨a, h1, h2⟩ ⟨b, h3, h4⟩
    obtain ⟨c0, h5, h6⟩ := h3.inv_snoc
    have := h1.det h5
    subst this
    unfold EStep at h6
    split at h6
    · subst h6; exact h2.inter h4
    · exact Next.overlap h6 (h1.good h0).voter h2 h4

/-! ## What a change does to the progress of peers -/

/-- Peers known before keep their progress (up to the learner mark), new ones start from scratch. -/
def PrFrom (last : Nat) (P P' : ProgressMap) : Prop :=
  ∀ v pr', P'.find v = some pr' → (∃ pr b, P.find v = some pr ∧ pr' = { pr with isLearner := b }) ∨
    (pr'.mtch = 0 ∧ pr'.next = last ∧ pr'.pendingSnapshot = 0)

theorem PrFrom.refl {last : Nat} {P : ProgressMap} : PrFrom last P P := fun _ pr h => Or.inl ⟨pr, pr.isLearner, h, rfl⟩

theorem PrFrom.trans {last : Nat} {P P' P'' : ProgressMap} (h1 : PrFrom last P P') (h2 : PrFrom last P' P'') : PrFrom last P P'' := by
  intro v q hq
  rcases h2 v q hq with ⟨p, b, hp, rfl⟩ | h
  · rcases h1 v p hp with ⟨p0, b0, hp0, rfl⟩ | h
    · exact Or.inl ⟨p0, b, hp0, rfl⟩
    · exact Or.inr h
  · exact Or.inr h

theorem PrFrom.insert {last : Nat} {P P' : ProgressMap} {id : Nat} {p : Progress} (h : PrFrom last P P')
    (hp : (∃ pr b, P.find id = some pr ∧ p = { pr with isLearner := b }) ∨ (p.mtch = 0 ∧ p.next = last ∧ p.pendingSnapshot = 0)) :
    PrFrom last P (P'.insert id p) := by
  intro v q hq
  rw [AMap.find_insert] at hq
  split at hq
  · rename_i he; cases hq; subst he; exact hp
  · exact h v q hq

theorem PrFrom.erase {last : Nat} {P P' : ProgressMap} {id : Nat} (h : PrFrom last P P') : PrFrom last P (P'.erase id) := by
  intro v q hq
  rw [AMap.find_erase] at hq
  split at hq
  · cases hq
  · exact h v q hq

section
variable {c : Changer} {cfg cfg' : TConfig} {prs prs' : ProgressMap}

theorem initProgress_from {id : Nat} {b : Bool} : PrFrom c.lastIndex prs (c.initProgress cfg prs id b).2 :=
  PrFrom.insert .refl (Or.inr ⟨rfl, rfl, rfl⟩)

theorem remove_from {id last : Nat} : PrFrom last prs (Changer.remove cfg prs id).2 := by
  unfold Changer.remove
  split
  · exact .refl
  · dsimp only
    split
    · exact .refl
    · exact PrFrom.erase .refl

theorem makeVoter_from {id : Nat} : PrFrom c.lastIndex prs (c.makeVoter cfg prs id).2 := by
  unfold Changer.makeVoter
  split
  · exact initProgress_from
  · rename_i pr hp
    exact PrFrom.insert .refl (Or.inl ⟨pr, _, hp, rfl⟩)

theorem makeLearner_from {id : Nat} : PrFrom c.lastIndex prs (c.makeLearner cfg prs id).2 := by
  unfold Changer.makeLearner
  split
  · exact initProgress_from
  · rename_i pr hp
    split
    · exact .refl
    · have h1 : PrFrom c.lastIndex prs (AMap.insert (Changer.remove cfg prs id).2 id pr) :=
        PrFrom.insert remove_from (Or.inl ⟨pr, pr.isLearner, hp, rfl⟩)
      dsimp only
      split
      · exact h1
      · exact PrFrom.insert h1 (Or.inl ⟨pr, true, hp, rfl⟩)

theorem applyLoop_from : ∀ (ccs : List CCSingle) (cfg : TConfig) (prs : ProgressMap) {cfg' prs'}, c.applyLoop cfg prs ccs = .ok (cfg', prs') →
    PrFrom c.lastIndex prs prs'
  | [], cfg, prs, cfg', prs', h => by cases h; exact .refl
  | cc :: ccs, cfg, prs, cfg', prs', h => by
    unfold Changer.applyLoop at h
    by_cases h0 : cc.nodeId = 0
    · rw [if_pos h0] at h; exact applyLoop_from ccs _ _ h
    · rw [if_neg h0] at h
      cases ht : cc.type with
      | addNode => rw [ht] at h; exact makeVoter_from.trans (applyLoop_from ccs _ _ h)
      | addLearnerNode => rw [ht] at h; exact makeLearner_from.trans (applyLoop_from ccs _ _ h)
      | removeNode => rw [ht] at h; exact remove_from.trans (applyLoop_from ccs _ _ h)
      | updateNode => rw [ht] at h; exact applyLoop_from ccs _ _ h
      | unknown n => rw [ht] at h; cases h

theorem leaveLearners_from {last : Nat} : ∀ (ids : List Nat) (ls : USet) (prs : ProgressMap) {ls' prs'},
    Changer.leaveLearners ids ls prs = .ok (ls', prs') → PrFrom last prs prs'
  | [], ls, prs, ls', prs', h => by cases h; exact .refl
  | id :: ids, ls, prs, ls', prs', h => by
    unfold Changer.leaveLearners at h
    cases hp : prs.find id with
    | none => rw [hp] at h; cases h
    | some pr =>
      rw [hp] at h
      exact PrFrom.trans (PrFrom.insert .refl (Or.inl ⟨pr, true, hp, rfl⟩)) (leaveLearners_from ids _ _ h)

theorem leaveErase_from {last : Nat} (i l : USet) : ∀ (ids : List Nat) (prs : ProgressMap), PrFrom last prs (Changer.leaveErase i l ids prs)
  | [], prs => .refl
  | id :: ids, prs => by
    unfold Changer.leaveErase
    split
    · exact PrFrom.trans (PrFrom.erase .refl) (leaveErase_from i l ids _)
    · exact leaveErase_from i l ids _

theorem change_from {cc : ConfChangeV2} (h : change c cc = .ok (cfg', prs')) : PrFrom c.lastIndex c.tracker.progress prs' := by
  unfold change at h
  split at h
  · unfold Changer.leaveJoint at h
    split at h
    · cases h
    · rename_i cfg prs hcc
      obtain ⟨rfl, rfl⟩ := Changer.checkAndReturn_ok hcc
      split at h
      · cases h
      · split at h
        · cases h
        · split at h
          · cases h
          · rename_i ls P hl
            obtain ⟨_, rfl⟩ := Changer.checkAndReturn_ok h
            exact (leaveLearners_from _ _ _ hl).trans (leaveErase_from _ _ _ _)
  · split at h
    · obtain ⟨_, _, cfg1, h1, _⟩ := Changer.enterJoint_ok h
      exact applyLoop_from _ _ _ h1
    · exact applyLoop_from _ _ _ (Changer.simple_ok h).2.1

end
end Craft.Dyn
