import Verif.Abs.Lemmas

/-! # The invariant is inductive -/

namespace Craft.Abs
open Craft.Abs

section
variable {Q : QSys} {g : AState} {p : Nat} {out : List AMsg} {a' : ANode}

@[simp] theorem upd_self : (g.upd p a' out).node p = a' := by simp [AState.upd]
theorem upd_ne {v : Nat} (h : v ≠ p) : (g.upd p a' out).node v = g.node v := by simp [AState.upd, h]
theorem mem_upd {m : AMsg} : m ∈ (g.upd p a' out).net ↔ m ∈ g.net ∨ m ∈ out := by simp [AState.upd]

theorem mem_old {m : AMsg} (h : m ∈ g.net) : m ∈ (g.upd p a' out).net := mem_upd.2 (Or.inl h)

variable (hs : LStep Q p g.net (g.node p) out a')
include hs

theorem LStep.term_le : (g.node p).term ≤ a'.term := by
  cases hs <;> simp <;> omega

theorem term_mono (v : Nat) : (g.node v).term ≤ ((g.upd p a' out).node v).term := by
  by_cases hv : v = p
  · subst hv; simp; exact hs.term_le
  · rw [upd_ne hv]; exact Nat.le_refl _

theorem out_req {T c lg} (h : AMsg.voteReq T c lg ∈ out) : c = p ∧ p ≠ 0 ∧ T = (g.node p).term + 1 ∧ T = a'.term ∧
    lg = (g.node p).log ∧ a'.log = (g.node p).log := by
  cases hs <;> simp_all

theorem out_grant {T v c} (h : AMsg.voteGrant T v c ∈ out) : v = p ∧ T = a'.term ∧ a'.vote = c ∧ a'.log = (g.node p).log ∧
    ((c = p ∧ p ≠ 0 ∧ T = (g.node p).term + 1 ∧ AMsg.voteReq T p (g.node p).log ∈ out) ∨
     (T = (g.node p).term ∧ ((g.node p).vote = 0 ∨ (g.node p).vote = c) ∧
       ∃ lg, AMsg.voteReq T c lg ∈ g.net ∧ UpToDate lg (g.node p).log)) := by
  cases hs with
  | grant c' lg h1 h2 h3 =>
    simp at h
    obtain ⟨rfl, rfl, rfl⟩ := h
    exact ⟨rfl, rfl, rfl, rfl, Or.inr ⟨rfl, h2, lg, h1, h3⟩⟩
  | _ => simp_all

theorem out_lead {T c lg} (h : AMsg.lead T c lg ∈ out) : c = p ∧ T = (g.node p).term ∧ a'.term = (g.node p).term ∧ lg = a'.log ∧
    a'.role = .leader ∧ (((g.node p).role = .candidate ∧ a'.log = (g.node p).log ∧
      ∃ S, Q.isQ S ∧ ∀ u, S u → AMsg.voteGrant (g.node p).term u p ∈ g.net) ∨
      ((g.node p).role = .leader ∧ ∃ es, a'.log = (g.node p).log ++ es ∧ ∀ e ∈ es, e.term = (g.node p).term)) := by
  cases hs with
  | win S h1 h2 h3 =>
    simp at h
    obtain ⟨rfl, rfl, rfl⟩ := h
    exact ⟨rfl, rfl, rfl, rfl, rfl, Or.inl ⟨h1, rfl, S, h2, h3⟩⟩
  | append es h1 h2 =>
    simp at h
    obtain ⟨rfl, rfl, rfl⟩ := h
    exact ⟨rfl, rfl, rfl, rfl, h1, Or.inr ⟨h1, es, rfl, h2⟩⟩
  | _ => simp_all

theorem out_ack {T v j} (h : AMsg.ack T v j ∈ out) : v = p ∧ T = (g.node p).term ∧ a'.term = (g.node p).term := by
  cases hs <;> simp_all

/-- How the log of the stepping node changes. -/
theorem log_cases : a'.log = (g.node p).log ∨
    ((g.node p).role = .leader ∧ a'.term = (g.node p).term ∧
      ∃ es, a'.log = (g.node p).log ++ es ∧ (∀ e ∈ es, e.term = (g.node p).term) ∧ AMsg.lead (g.node p).term p a'.log ∈ out) ∨
    (a'.term = (g.node p).term ∧ a'.commit = (g.node p).commit ∧ ∃ c lg full, AMsg.lead (g.node p).term c lg ∈ g.net ∧ full <+: lg ∧
      a'.log = accept (g.node p).log full) := by
  cases hs with
  | append es h1 h2 => exact Or.inr (Or.inl ⟨h1, rfl, es, rfl, h2, by simp⟩)
  | recv c lg full h1 h2 h3 => exact Or.inr (Or.inr ⟨rfl, rfl, c, lg, full, h2, h3, rfl⟩)
  | _ => exact Or.inl rfl

theorem Blocked.mono {T i} (h : Blocked Q g T i) : Blocked Q (g.upd p a' out) T i := by
  obtain ⟨S, hq, hb⟩ := h
  refine ⟨S, hq, fun u hu => ⟨Nat.lt_of_lt_of_le (hb u hu).1 (term_mono hs u), fun j hj hm => ?_⟩⟩
  rw [mem_upd] at hm; rcases hm with hm | hm
  · exact (hb u hu).2 j hj hm
  · obtain ⟨rfl, hT, _⟩ := out_ack hs hm
    have := (hb u hu).1
    omega

theorem Matched.upd {X} (h : Matched g.net X) : Matched (g.upd p a' out).net X := h.mono fun _ hm => mem_old hm

variable (h : Inv Q g)
include h

/-- A candidate with a quorum of votes is the first leader of its term. -/
theorem no_lead {S : Nat → Prop} (h1 : (g.node p).role = .candidate) (hq : Q.isQ S)
    (hS : ∀ u, S u → AMsg.voteGrant (g.node p).term u p ∈ g.net) (c : Nat) (lg : List Entry) : AMsg.lead (g.node p).term c lg ∉ g.net := by
  intro hl
  obtain ⟨_, _, S', hq', hS'⟩ := h.leadOk _ _ _ hl
  obtain ⟨v, v1, v2⟩ := Q.inter hq hq'
  have := h.grantUnique _ _ _ _ (hS v v1) (hS' v v2)
  subst this
  exact (h.candNew p h1).2 lg hl

/-- Acknowledgements in the term of a leader are covered by its log. -/
theorem ack_le_leader {v j : Nat} (h1 : (g.node p).role = .leader) (ha : AMsg.ack (g.node p).term v j ∈ g.net) : j ≤ (g.node p).log.length := by
  obtain ⟨_, c, lg, hl, hj⟩ := h.ackLead _ _ _ ha
  obtain ⟨l1, l2⟩ := h.leadNode p h1
  obtain ⟨rfl, _⟩ := h.leadSame hl l1
  exact Nat.le_trans hj (l2 lg hl).length_le

/-- A new leader log together with an older acknowledgement covering its entry `k`: the entry was already in a published log. -/
theorem lead_old_of_ack {T v j c lg k e} (ha : AMsg.ack T v j ∈ g.net) (hl : AMsg.lead T c lg ∈ out) (hk : lg[k]? = some e) (hkj : k < j) :
    ∃ lg1, AMsg.lead T c lg1 ∈ g.net ∧ lg1[k]? = some e ∧ lg1.take (k + 1) = lg.take (k + 1) := by
  obtain ⟨rfl, rfl, _, rfl, _, ⟨r1, r2, S, q, hS⟩ | ⟨r1, es, r2, r3⟩⟩ := out_lead hs hl
  · obtain ⟨_, c1, lg1, hl1, _⟩ := h.ackLead _ _ _ ha
    exact absurd hl1 (no_lead hs h r1 q hS c1 lg1)
  · have hle := ack_le_leader hs h r1 ha
    refine ⟨(g.node c).log, (h.leadNode c r1).1, ?_, ?_⟩
    · rw [r2, List.getElem?_append_left (by omega)] at hk; exact hk
    · rw [r2, List.take_append_of_le_length (by omega)]

theorem inv_reqNode : ∀ T c lg, AMsg.voteReq T c lg ∈ (g.upd p a' out).net → c ≠ 0 ∧ T ≤ ((g.upd p a' out).node c).term := by
  intro T c lg hm
  rw [mem_upd] at hm; rcases hm with hm | hm
  · exact ⟨(h.reqNode _ _ _ hm).1, Nat.le_trans (h.reqNode _ _ _ hm).2 (term_mono hs c)⟩
  · obtain ⟨rfl, h1, _, h2, _⟩ := out_req hs hm
    exact ⟨h1, by rw [upd_self]; omega⟩

theorem inv_reqCand : ∀ c, ((g.upd p a' out).node c).role = .candidate → ∀ lg,
    AMsg.voteReq ((g.upd p a' out).node c).term c lg ∈ (g.upd p a' out).net → ((g.upd p a' out).node c).log = lg := by
  intro c hr lg hm
  by_cases hc : c = p
  · subst hc
    rw [upd_self] at hr hm ⊢
    rw [mem_upd] at hm; rcases hm with hm | hm
    · have hle := (h.reqNode _ _ _ hm).2
      have hrc := fun hr => h.reqCand c hr lg
      cases hs <;> simp_all
      omega
    · obtain ⟨_, _, _, _, rfl, h2⟩ := out_req hs hm
      exact h2
  · rw [upd_ne hc] at hr hm ⊢
    rw [mem_upd] at hm; rcases hm with hm | hm
    · exact h.reqCand c hr lg hm
    · exact absurd (out_req hs hm).1 hc

theorem inv_reqUnique : ∀ T c lg lg', AMsg.voteReq T c lg ∈ (g.upd p a' out).net → AMsg.voteReq T c lg' ∈ (g.upd p a' out).net → lg = lg' := by
  intro T c lg lg' h1 h2
  rw [mem_upd] at h1 h2; rcases h1 with h1 | h1 <;> rcases h2 with h2 | h2
  · exact h.reqUnique _ _ _ _ h1 h2
  · obtain ⟨rfl, _, h3, _⟩ := out_req hs h2
    have := (h.reqNode _ _ _ h1).2
    omega
  · obtain ⟨rfl, _, h3, _⟩ := out_req hs h1
    have := (h.reqNode _ _ _ h2).2
    omega
  · rw [(out_req hs h1).2.2.2.2.1, (out_req hs h2).2.2.2.2.1]

theorem inv_reqMatched : ∀ T c lg, AMsg.voteReq T c lg ∈ (g.upd p a' out).net → Matched (g.upd p a' out).net lg := by
  intro T c lg hm
  rw [mem_upd] at hm; rcases hm with hm | hm
  · exact (h.reqMatched _ _ _ hm).upd hs
  · rw [(out_req hs hm).2.2.2.2.1]
    exact (h.nodeMatched p).upd hs

theorem inv_candNew : ∀ c, ((g.upd p a' out).node c).role = .candidate → 0 < ((g.upd p a' out).node c).term ∧
    ∀ lg, AMsg.lead ((g.upd p a' out).node c).term c lg ∉ (g.upd p a' out).net := by
  intro c hr
  by_cases hc : c = p
  · subst hc
    rw [upd_self] at hr ⊢
    have hpos : 0 < a'.term := by
      have hcn := h.candNew c
      cases hs <;> simp_all
    refine ⟨hpos, fun lg hm => ?_⟩
    rw [mem_upd] at hm; rcases hm with hm | hm
    · have hle := (h.leadOk _ _ _ hm).2.1
      have hcn := h.candNew c
      cases hs <;> simp_all
      omega
    · have := (out_lead hs hm).2.2.2.2.1
      rw [this] at hr; cases hr
  · rw [upd_ne hc] at hr ⊢
    refine ⟨(h.candNew c hr).1, fun lg hm => ?_⟩
    rw [mem_upd] at hm; rcases hm with hm | hm
    · exact (h.candNew c hr).2 lg hm
    · exact hc (out_lead hs hm).1

theorem inv_grantNode : ∀ T v c, AMsg.voteGrant T v c ∈ (g.upd p a' out).net → c ≠ 0 ∧ T ≤ ((g.upd p a' out).node v).term ∧
    (T = ((g.upd p a' out).node v).term → ((g.upd p a' out).node v).vote = c) := by
  intro T v c hm
  rw [mem_upd] at hm; rcases hm with hm | hm
  · obtain ⟨h1, h2, h3⟩ := h.grantNode _ _ _ hm
    refine ⟨h1, Nat.le_trans h2 (term_mono hs v), fun hT => ?_⟩
    by_cases hv : v = p
    · subst hv
      rw [upd_self] at hT ⊢
      cases hs <;> simp_all <;> omega
    · rw [upd_ne hv] at hT ⊢
      exact h3 hT
  · obtain ⟨rfl, rfl, h3, _, h4⟩ := out_grant hs hm
    rw [upd_self]
    refine ⟨?_, Nat.le_refl _, fun _ => h3⟩
    rcases h4 with ⟨rfl, h5, _⟩ | ⟨_, _, lg, h5, _⟩
    · exact h5
    · exact (h.reqNode _ _ _ h5).1

theorem inv_grantUnique : ∀ T v c c', AMsg.voteGrant T v c ∈ (g.upd p a' out).net → AMsg.voteGrant T v c' ∈ (g.upd p a' out).net → c = c' := by
  have key : ∀ T v c c', AMsg.voteGrant T v c ∈ g.net → AMsg.voteGrant T v c' ∈ out → c = c' := by
    intro T v c c' h1 h2
    obtain ⟨h3, h4, h5⟩ := h.grantNode _ _ _ h1
    obtain ⟨rfl, _, _, _, ⟨_, _, h6, _⟩ | ⟨h6, h7, _⟩⟩ := out_grant hs h2
    · omega
    · have := h5 h6
      rcases h7 with h7 | h7
      · omega
      · omega
  intro T v c c' h1 h2
  rw [mem_upd] at h1 h2; rcases h1 with h1 | h1 <;> rcases h2 with h2 | h2
  · exact h.grantUnique _ _ _ _ h1 h2
  · exact key _ _ _ _ h1 h2
  · exact (key _ _ _ _ h2 h1).symm
  · rw [← (out_grant hs h1).2.2.1, ← (out_grant hs h2).2.2.1]

theorem inv_grantReq : ∀ T v c, AMsg.voteGrant T v c ∈ (g.upd p a' out).net → ∃ lg, AMsg.voteReq T c lg ∈ (g.upd p a' out).net ∧
    ∀ T0 j, T0 < T → AMsg.ack T0 v j ∈ (g.upd p a' out).net → ∀ c0 lg0 k e, AMsg.lead T0 c0 lg0 ∈ (g.upd p a' out).net →
      lg0[k]? = some e → e.term = T0 → k < j → lg0.take (k + 1) <+: lg ∨ Blocked Q (g.upd p a' out) T0 (k + 1) := by
  intro T v c hm
  rw [mem_upd] at hm; rcases hm with hm | hm
  · obtain ⟨lg, h1, h2⟩ := h.grantReq _ _ _ hm
    refine ⟨lg, mem_old h1, fun T0 j hT ha c0 lg0 k e hl hk he hkj => ?_⟩
    have ha' : AMsg.ack T0 v j ∈ g.net := by
      rcases mem_upd.1 ha with ha | ha
      · exact ha
      · obtain ⟨rfl, h3, _⟩ := out_ack hs ha
        have := (h.grantNode _ _ _ hm).2.1
        omega
    rw [mem_upd] at hl; rcases hl with hl | hl
    · exact (h2 T0 j hT ha' c0 lg0 k e hl hk he hkj).imp id (Blocked.mono hs)
    · obtain ⟨lg1, e1, e2, e3⟩ := lead_old_of_ack hs h ha' hl hk hkj
      rw [← e3]
      exact (h2 T0 j hT ha' c0 lg1 k e e1 e2 he hkj).imp id (Blocked.mono hs)
  · obtain ⟨rfl, h1, h2, h3, h4⟩ := out_grant hs hm
    have hold : ∀ T0 j, T0 < T → AMsg.ack T0 v j ∈ (g.upd v a' out).net → ∀ c0 lg0, AMsg.lead T0 c0 lg0 ∈ (g.upd v a' out).net →
        AMsg.ack T0 v j ∈ g.net ∧ AMsg.lead T0 c0 lg0 ∈ g.net := by
      intro T0 j hT ha c0 lg0 hl
      cases hs <;> simp_all [AState.upd]
    rcases h4 with ⟨rfl, h5, h6, h7⟩ | ⟨h5, h6, lg, h7, h8⟩
    · refine ⟨_, mem_upd.2 (Or.inr h7), fun T0 j hT ha c0 lg0 k e hl hk he hkj => ?_⟩
      obtain ⟨ha', hl'⟩ := hold T0 j hT ha c0 lg0 hl
      exact (h.ackKept _ _ _ _ _ _ _ ha' hl' hk he hkj).imp id (Blocked.mono hs)
    · refine ⟨lg, mem_old h7, fun T0 j hT ha c0 lg0 k e hl hk he hkj => ?_⟩
      obtain ⟨ha', hl'⟩ := hold T0 j hT ha c0 lg0 hl
      rcases h.ackKept _ _ _ _ _ _ _ ha' hl' hk he hkj with hp | hb
      · exact (h.upToDate_keeps (h.nodeMatched v) (h.reqMatched _ _ _ h7) h8 hl' hk he hp).imp id (Blocked.mono hs)
      · exact Or.inr (Blocked.mono hs hb)

theorem inv_leadOk : ∀ T c lg, AMsg.lead T c lg ∈ (g.upd p a' out).net → 0 < T ∧ T ≤ ((g.upd p a' out).node c).term ∧
    ∃ S, Q.isQ S ∧ ∀ u, S u → AMsg.voteGrant T u c ∈ (g.upd p a' out).net := by
  intro T c lg hm
  rw [mem_upd] at hm; rcases hm with hm | hm
  · obtain ⟨h1, h2, S, h3, h4⟩ := h.leadOk _ _ _ hm
    exact ⟨h1, Nat.le_trans h2 (term_mono hs c), S, h3, fun u hu => mem_old (h4 u hu)⟩
  · obtain ⟨rfl, rfl, h2, _, _, ⟨r1, r2, S, q, hS⟩ | ⟨r1, es, r2, r3⟩⟩ := out_lead hs hm
    · exact ⟨(h.candNew c r1).1, term_mono hs c, S, q, fun u hu => mem_old (hS u hu)⟩
    · obtain ⟨h1, h2, S, h3, h4⟩ := h.leadOk _ _ _ (h.leadNode c r1).1
      exact ⟨h1, term_mono hs c, S, h3, fun u hu => mem_old (h4 u hu)⟩

theorem inv_leadNode : ∀ c, ((g.upd p a' out).node c).role = .leader →
    AMsg.lead ((g.upd p a' out).node c).term c ((g.upd p a' out).node c).log ∈ (g.upd p a' out).net ∧
    ∀ lg, AMsg.lead ((g.upd p a' out).node c).term c lg ∈ (g.upd p a' out).net → lg <+: ((g.upd p a' out).node c).log := by
  intro c hr
  by_cases hc : c = p
  · subst hc
    rw [upd_self] at hr ⊢
    have hln := h.leadNode c
    have hcn := h.candNew c
    constructor
    · rw [mem_upd]
      cases hs <;> simp_all
    · intro lg hm
      rw [mem_upd] at hm; rcases hm with hm | hm
      · cases hs with
        | append es h1 h2 => exact ((hln h1).2 lg hm).trans (List.prefix_append _ _)
        | _ => simp_all
      · rw [(out_lead hs hm).2.2.2.1]
        exact List.prefix_refl _
  · rw [upd_ne hc] at hr ⊢
    refine ⟨mem_old (h.leadNode c hr).1, fun lg hm => ?_⟩
    rw [mem_upd] at hm; rcases hm with hm | hm
    · exact (h.leadNode c hr).2 lg hm
    · exact absurd (out_lead hs hm).1 hc

theorem inv_leadChain : ∀ T c lg lg', AMsg.lead T c lg ∈ (g.upd p a' out).net → AMsg.lead T c lg' ∈ (g.upd p a' out).net →
    lg <+: lg' ∨ lg' <+: lg := by
  have key : ∀ T c lg lg', AMsg.lead T c lg ∈ g.net → AMsg.lead T c lg' ∈ out → lg <+: lg' := by
    intro T c lg lg' h1 h2
    obtain ⟨rfl, rfl, _, rfl, _, ⟨r1, r2, S, q, hS⟩ | ⟨r1, es, r2, r3⟩⟩ := out_lead hs h2
    · exact absurd h1 (no_lead hs h r1 q hS _ _)
    · rw [r2]
      exact ((h.leadNode c r1).2 lg h1).trans (List.prefix_append _ _)
  intro T c lg lg' h1 h2
  rw [mem_upd] at h1 h2; rcases h1 with h1 | h1 <;> rcases h2 with h2 | h2
  · exact h.leadChain _ _ _ _ h1 h2
  · exact Or.inl (key _ _ _ _ h1 h2)
  · exact Or.inr (key _ _ _ _ h2 h1)
  · rw [(out_lead hs h1).2.2.2.1, (out_lead hs h2).2.2.2.1]
    exact Or.inl (List.prefix_refl _)

theorem inv_leadTerms : ∀ T c lg, AMsg.lead T c lg ∈ (g.upd p a' out).net → Sorted lg ∧ ∀ e ∈ lg, e.term ≤ T := by
  intro T c lg hm
  rw [mem_upd] at hm; rcases hm with hm | hm
  · exact h.leadTerms _ _ _ hm
  · have hso := h.matched_sorted (h.nodeMatched p)
    have hte := h.nodeTerms p
    obtain ⟨rfl, rfl, _, rfl, _, ⟨r1, r2, S, q, hS⟩ | ⟨r1, es, r2, r3⟩⟩ := out_lead hs hm
    · rw [r2]; exact ⟨hso, hte⟩
    · rw [r2]
      have hall : ∀ e ∈ (g.node c).log ++ es, e.term ≤ (g.node c).term := by
        intro e he
        rcases List.mem_append.1 he with he | he
        · exact hte e he
        · rw [r3 e he]; exact Nat.le_refl _
      refine ⟨fun i j a b hij ha hb => ?_, hall⟩
      by_cases hj : j < (g.node c).log.length
      · rw [List.getElem?_append_left hj] at hb
        rw [List.getElem?_append_left (by omega)] at ha
        exact hso i j a b hij ha hb
      · rw [List.getElem?_append_right (by omega)] at hb
        have hbm := List.mem_of_getElem? hb
        rw [r3 b hbm]
        exact hall a (List.mem_of_getElem? ha)

theorem inv_leadMatched : ∀ T c lg, AMsg.lead T c lg ∈ (g.upd p a' out).net → Matched (g.upd p a' out).net lg := by
  intro T c lg hm
  rw [mem_upd] at hm; rcases hm with hm | hm
  · exact (h.leadMatched _ _ _ hm).upd hs
  · have hnm := h.nodeMatched p
    obtain ⟨rfl, rfl, _, rfl, _, ⟨r1, r2, S, q, hS⟩ | ⟨r1, es, r2, r3⟩⟩ := out_lead hs hm
    · rw [r2]; exact hnm.upd hs
    · intro k e hk
      by_cases hlt : k < (g.node c).log.length
      · rw [r2] at hk ⊢
        rw [List.getElem?_append_left hlt] at hk
        rw [List.take_append_of_le_length (by omega)]
        exact hnm.upd hs k e hk
      · refine ⟨c, a'.log, ?_, List.take_prefix _ _⟩
        have : e.term = (g.node c).term := by
          rw [r2, List.getElem?_append_right (by omega)] at hk
          exact r3 e (List.mem_of_getElem? hk)
        rw [this]
        exact mem_upd.2 (Or.inr hm)

theorem inv_nodeTerms : ∀ v, ∀ e ∈ ((g.upd p a' out).node v).log, e.term ≤ ((g.upd p a' out).node v).term := by
  intro v e he
  by_cases hv : v = p
  · subst hv
    rw [upd_self] at he ⊢
    rcases log_cases hs with h1 | ⟨_, h1, es, h2, h3, _⟩ | ⟨h1, _, c, lg, full, h2, h3, h4⟩
    · rw [h1] at he; exact Nat.le_trans (h.nodeTerms v e he) hs.term_le
    · rw [h2] at he
      rw [h1]
      rcases List.mem_append.1 he with he | he
      · exact h.nodeTerms v e he
      · rw [h3 e he]; exact Nat.le_refl _
    · rw [h1]
      rw [h4] at he
      rcases accept_prefix (log := (g.node v).log) (full := full) with h5 | h5 <;> rw [h5] at he
      · exact h.nodeTerms v e he
      · exact (h.leadTerms _ _ _ h2).2 e (h3.subset he)
  · rw [upd_ne hv] at he ⊢
    exact h.nodeTerms v e he

theorem inv_nodeMatched : ∀ v, Matched (g.upd p a' out).net ((g.upd p a' out).node v).log := by
  intro v
  by_cases hv : v = p
  · subst hv
    rw [upd_self]
    rcases log_cases hs with h1 | ⟨_, h1, es, h2, h3, h4⟩ | ⟨h1, _, c, lg, full, h2, h3, h4⟩
    · rw [h1]; exact (h.nodeMatched v).upd hs
    · exact inv_leadMatched hs h _ _ _ (mem_upd.2 (Or.inr h4))
    · rw [h4]
      rcases accept_prefix (log := (g.node v).log) (full := full) with h5 | h5 <;> rw [h5]
      · exact (h.nodeMatched v).upd hs
      · exact ((h.leadMatched _ _ _ h2).upd hs).prefix h3
  · rw [upd_ne hv]
    exact (h.nodeMatched v).upd hs

/-- The committed part of a node's log is in a log of the leader of its term, if there is one. -/
theorem commit_lead {v c lg} (hl : AMsg.lead (g.node v).term c lg ∈ g.net) :
    ∃ lg2, AMsg.lead (g.node v).term c lg2 ∈ g.net ∧ (g.node v).commit ≤ lg2.length ∧ lg2.take (g.node v).commit <+: (g.node v).log := by
  obtain ⟨h1, h2⟩ := h.commitOk v
  have hgo : ∀ pre lg2, (g.node v).log.take (g.node v).commit <+: pre → pre <+: lg2 →
      (g.node v).commit ≤ lg2.length ∧ lg2.take (g.node v).commit <+: (g.node v).log := by
    intro pre lg2 hp1 hp2
    have hp := hp1.trans hp2
    have hl : ((g.node v).log.take (g.node v).commit).length = (g.node v).commit := by rw [List.length_take]; omega
    have := hp.length_le
    refine ⟨by omega, ?_⟩
    rw [take_eq_of_prefix hp (by omega), List.take_take]
    exact List.take_prefix _ _
  rcases h2 with h2 | ⟨T, pre, h2, h3, h4⟩
  · exact ⟨lg, hl, by omega, by rw [h2]; exact List.nil_prefix⟩
  · rcases Nat.lt_or_ge T (g.node v).term with hlt | hge
    · exact ⟨lg, hl, hgo pre lg h4 (h.chosen_later h2 hl hlt)⟩
    · have hT : T = (g.node v).term := by omega
      subst hT
      obtain ⟨c2, lg2, k, e, l1, rfl, _⟩ := h.chosenOk _ _ h2
      obtain ⟨rfl, _⟩ := h.leadSame hl l1
      exact ⟨lg2, l1, hgo _ lg2 h4 (List.take_prefix _ _)⟩

theorem inv_ackLead : ∀ T v j, AMsg.ack T v j ∈ (g.upd p a' out).net → T ≤ ((g.upd p a' out).node v).term ∧
    ∃ c lg, AMsg.lead T c lg ∈ (g.upd p a' out).net ∧ j ≤ lg.length := by
  intro T v j hm
  rw [mem_upd] at hm; rcases hm with hm | hm
  · obtain ⟨h1, c, lg, h2, h3⟩ := h.ackLead _ _ _ hm
    exact ⟨Nat.le_trans h1 (term_mono hs v), c, lg, mem_old h2, h3⟩
  · obtain ⟨rfl, rfl, h2⟩ := out_ack hs hm
    refine ⟨by rw [upd_self]; omega, ?_⟩
    have hcl := fun {c lg} => commit_lead hs h (v := v) (c := c) (lg := lg)
    cases hs with
    | win S h1 h2 h3 =>
      simp at hm
      exact ⟨v, _, mem_upd.2 (Or.inr (by simp)), Nat.le_of_eq hm⟩
    | append es h1 h2 =>
      simp at hm
      exact ⟨v, (g.node v).log ++ es, mem_upd.2 (Or.inr (by simp)), by rw [List.length_append]; omega⟩
    | recv c lg full r1 r2 h3 =>
      simp at hm
      exact ⟨c, lg, mem_old r2, by have := h3.length_le; omega⟩
    | ackCommit c lg h1 =>
      simp at hm
      obtain ⟨lg2, e1, e2, _⟩ := hcl h1
      exact ⟨c, lg2, mem_old e1, by omega⟩
    | _ => simp at hm

theorem inv_ackNow : ∀ v j, AMsg.ack ((g.upd p a' out).node v).term v j ∈ (g.upd p a' out).net →
    ∃ c lg, AMsg.lead ((g.upd p a' out).node v).term c lg ∈ (g.upd p a' out).net ∧ j ≤ lg.length ∧
      lg.take j <+: ((g.upd p a' out).node v).log := by
  intro v j hm
  by_cases hv : v = p
  · subst hv
    rw [upd_self] at hm ⊢
    rw [mem_upd] at hm; rcases hm with hm | hm
    · have hle := hs.term_le
      have h1 := (h.ackLead _ _ _ hm).1
      have hT : a'.term = (g.node v).term := by omega
      rw [hT] at hm ⊢
      obtain ⟨c, lg, e1, e2, e3⟩ := h.ackNow _ _ hm
      refine ⟨c, lg, mem_old e1, e2, ?_⟩
      rcases log_cases hs with h1 | ⟨_, h1, es, h2, h3, h4⟩ | ⟨h1, _, c', lg', full, h2, h3, h4⟩
      · rw [h1]; exact e3
      · rw [h2]; exact e3.trans (List.prefix_append _ _)
      · rw [h4]
        exact prefix_accept_left e3 (h.lead_cmp e1 h2 (List.take_prefix _ _) h3)
    · rw [(out_ack hs hm).2.2]
      have hcl := fun {c lg} => commit_lead hs h (v := v) (c := c) (lg := lg)
      cases hs with
      | win S h1 h2 h3 =>
        simp at hm
        exact ⟨v, _, mem_upd.2 (Or.inr (List.mem_cons_self ..)), Nat.le_of_eq hm, List.take_prefix _ _⟩
      | append es h1 h2 =>
        simp at hm
        exact ⟨v, (g.node v).log ++ es, mem_upd.2 (Or.inr (List.mem_cons_self ..)), by simp; omega, List.take_prefix _ _⟩
      | recv c lg full h1 h2 h3 =>
        simp at hm
        refine ⟨c, lg, mem_old h2, by have := h3.length_le; omega, ?_⟩
        rw [hm, take_eq_of_prefix h3 (Nat.le_refl _), List.take_of_length_le (Nat.le_refl _)]
        exact prefix_accept_right _ _
      | ackCommit c lg h1 =>
        simp at hm
        obtain ⟨lg2, e1, e2, e3⟩ := hcl h1
        exact ⟨c, lg2, mem_old e1, by omega, by rw [hm]; exact e3⟩
      | _ => simp at hm
  · rw [upd_ne hv] at hm ⊢
    rw [mem_upd] at hm; rcases hm with hm | hm
    · obtain ⟨c, lg, e1, e2, e3⟩ := h.ackNow _ _ hm
      exact ⟨c, lg, mem_old e1, e2, e3⟩
    · exact absurd (out_ack hs hm).1 hv

theorem inv_leadCmp {T c c' : Nat} {lg lg' x y : List Entry} (h1 : AMsg.lead T c lg ∈ (g.upd p a' out).net)
    (h2 : AMsg.lead T c' lg' ∈ (g.upd p a' out).net) (hx : x <+: lg) (hy : y <+: lg') : x <+: y ∨ y <+: x := by
  obtain ⟨_, _, S, q1, g1⟩ := inv_leadOk hs h _ _ _ h1
  obtain ⟨_, _, S', q2, g2⟩ := inv_leadOk hs h _ _ _ h2
  obtain ⟨v, v1, v2⟩ := Q.inter q1 q2
  have := inv_grantUnique hs h _ _ _ _ (g1 v v1) (g2 v v2)
  subst this
  rcases inv_leadChain hs h _ _ _ _ h1 h2 with hc | hc
  · exact List.prefix_or_prefix_of_prefix (hx.trans hc) hy
  · exact List.prefix_or_prefix_of_prefix hx (hy.trans hc)

theorem inv_ackKept : ∀ T v j c lg k e, AMsg.ack T v j ∈ (g.upd p a' out).net → AMsg.lead T c lg ∈ (g.upd p a' out).net →
    lg[k]? = some e → e.term = T → k < j → lg.take (k + 1) <+: ((g.upd p a' out).node v).log ∨ Blocked Q (g.upd p a' out) T (k + 1) := by
  intro T v j c lg k e ha hl hk he hkj
  rcases mem_upd.1 ha with ha' | ha'
  · obtain ⟨lg1, e1, e2, e3⟩ : ∃ lg1, AMsg.lead T c lg1 ∈ g.net ∧ lg1[k]? = some e ∧ lg1.take (k + 1) = lg.take (k + 1) := by
      rw [mem_upd] at hl; rcases hl with hl | hl
      · exact ⟨lg, hl, hk, rfl⟩
      · exact lead_old_of_ack hs h ha' hl hk hkj
    rw [← e3]
    rcases h.ackKept _ _ _ _ _ _ _ ha' e1 e2 he hkj with hp | hb
    · by_cases hv : v = p
      · subst hv
        rw [upd_self]
        rcases log_cases hs with h1 | ⟨_, h1, es, h2, h3, h4⟩ | ⟨h1, _, c', lg', full, h2, h3, h4⟩
        · rw [h1]; exact Or.inl hp
        · rw [h2]; exact Or.inl (hp.trans (List.prefix_append _ _))
        · have hT := (h.ackLead _ _ _ ha').1
          rw [h4]
          rcases Nat.lt_or_ge T (g.node v).term with hlt | hge
          · rcases h.complete _ _ _ _ _ _ _ _ h2 e1 hlt e2 he with hc | hb
            · exact Or.inl (prefix_accept_left hp (List.prefix_or_prefix_of_prefix hc h3))
            · exact Or.inr (Blocked.mono hs hb)
          · have : T = (g.node v).term := by omega
            subst this
            exact Or.inl (prefix_accept_left hp (h.lead_cmp e1 h2 (List.take_prefix _ _) h3))
      · rw [upd_ne hv]; exact Or.inl hp
    · exact Or.inr (Blocked.mono hs hb)
  · left
    obtain ⟨rfl, h1, h2⟩ := out_ack hs ha'
    rw [h1, ← h2] at ha hl
    have hnow := inv_ackNow hs h v j
    rw [upd_self] at hnow ⊢
    obtain ⟨c', lg', n1, n2, n3⟩ := hnow ha
    have hlen := take_length_of hk
    rcases inv_leadCmp hs h hl n1 (List.take_prefix (k + 1) lg) (List.take_prefix j lg') with hc | hc
    · exact hc.trans n3
    · have hlj : (List.take j lg').length = j := by rw [List.length_take]; omega
      have := hc.eq_of_length_le (by omega)
      rw [← this]; exact n3

theorem inv_complete : ∀ T' c' lg' T c lg k e, AMsg.lead T' c' lg' ∈ (g.upd p a' out).net → AMsg.lead T c lg ∈ (g.upd p a' out).net →
    T < T' → lg[k]? = some e → e.term = T → lg.take (k + 1) <+: lg' ∨ Blocked Q (g.upd p a' out) T (k + 1) := by
  intro T' c' lg' T c lg k e hl' hl hT hk he
  rw [mem_upd] at hl' hl; rcases hl' with hl' | hl' <;> rcases hl with hl | hl
  · exact (h.complete _ _ _ _ _ _ _ _ hl' hl hT hk he).imp id (Blocked.mono hs)
  · obtain ⟨rfl, rfl, h2, rfl, _, ⟨r1, r2, S, q, hS⟩ | ⟨r1, es, r2, r3⟩⟩ := out_lead hs hl
    · rw [r2] at hk
      obtain ⟨c1, lg1, m1, _⟩ := h.nodeMatched c k e hk
      rw [he] at m1
      exact absurd m1 (no_lead hs h r1 q hS _ _)
    · by_cases hlt : k < (g.node c).log.length
      · rw [r2, List.getElem?_append_left hlt] at hk
        rw [r2, List.take_append_of_le_length (by omega)]
        exact (h.complete _ _ _ _ _ _ _ _ hl' (h.leadNode c r1).1 hT hk he).imp id (Blocked.mono hs)
      · right
        refine Blocked.mono hs ?_
        obtain ⟨_, _, S, q, hS⟩ := h.leadOk _ _ _ hl'
        refine ⟨S, q, fun u hu => ?_⟩
        have hu2 := (h.grantNode _ _ _ (hS u hu)).2.1
        refine ⟨by omega, fun j hj ha => ?_⟩
        have := ack_le_leader hs h r1 ha
        omega
  · obtain ⟨rfl, rfl, h2, rfl, _, ⟨r1, r2, S, q, hS⟩ | ⟨r1, es, r2, r3⟩⟩ := out_lead hs hl'
    · by_cases hex : ∃ u, S u ∧ ∃ j, k + 1 ≤ j ∧ AMsg.ack T u j ∈ g.net
      · obtain ⟨u, hu, j, hj, ha⟩ := hex
        obtain ⟨lgr, q1, q2⟩ := h.grantReq _ _ _ (hS u hu)
        have := h.reqCand c' r1 lgr q1
        rw [r2, this]
        exact (q2 T j hT ha c lg k e hl hk he (by omega)).imp id (Blocked.mono hs)
      · right
        refine Blocked.mono hs ⟨S, q, fun u hu => ⟨?_, fun j hj ha => hex ⟨u, hu, j, hj, ha⟩⟩⟩
        have hu2 := (h.grantNode _ _ _ (hS u hu)).2.1
        omega
    · rw [r2]
      exact (h.complete _ _ _ _ _ _ _ _ (h.leadNode c' r1).1 hl hT hk he).imp (·.trans (List.prefix_append _ _)) (Blocked.mono hs)
  · have h1 := (out_lead hs hl').2.1
    have h2 := (out_lead hs hl).2.1
    omega

theorem inv_chosenOk : ∀ T pre, AMsg.chosen T pre ∈ (g.upd p a' out).net → ∃ c lg k e, AMsg.lead T c lg ∈ (g.upd p a' out).net ∧
    pre = lg.take (k + 1) ∧ lg[k]? = some e ∧ e.term = T ∧
    ∃ S, Q.isQ S ∧ ∀ u, S u → ∃ j, k + 1 ≤ j ∧ AMsg.ack T u j ∈ (g.upd p a' out).net := by
  intro T pre hm
  rw [mem_upd] at hm; rcases hm with hm | hm
  · obtain ⟨c, lg, k, e, l1, l2, l3, l4, S, q, hS⟩ := h.chosenOk _ _ hm
    exact ⟨c, lg, k, e, mem_old l1, l2, l3, l4, S, q, fun u hu => let ⟨j, h1, h2⟩ := hS u hu; ⟨j, h1, mem_old h2⟩⟩
  · cases hs with
    | commitL k e S h1 h2 h3 h4 h5 h6 =>
      simp at hm
      obtain ⟨rfl, rfl⟩ := hm
      exact ⟨p, (g.node p).log, k, e, mem_old (h.leadNode p h1).1, rfl, h3, h4, S, h5,
        fun u hu => let ⟨j, h1, h2⟩ := h6 u hu; ⟨j, h1, mem_old h2⟩⟩
    | _ => simp at hm

theorem inv_commitOk : ∀ v, ((g.upd p a' out).node v).commit ≤ ((g.upd p a' out).node v).log.length ∧
    (((g.upd p a' out).node v).commit = 0 ∨ ∃ T pre, AMsg.chosen T pre ∈ (g.upd p a' out).net ∧ T ≤ ((g.upd p a' out).node v).term ∧
      ((g.upd p a' out).node v).log.take ((g.upd p a' out).node v).commit <+: pre) := by
  intro v
  by_cases hv : v = p
  · subst hv
    rw [upd_self]
    obtain ⟨h1, h2⟩ := h.commitOk v
    have h2' : (g.node v).commit = 0 ∨ ∃ T pre, AMsg.chosen T pre ∈ (g.upd v a' out).net ∧ T ≤ a'.term ∧
        (g.node v).log.take (g.node v).commit <+: pre := by
      rcases h2 with h2 | ⟨T, pre, h2, h3, h4⟩
      · exact Or.inl h2
      · exact Or.inr ⟨T, pre, mem_old h2, Nat.le_trans h3 hs.term_le, h4⟩
    cases hs with
    | append es r1 r2 =>
      refine ⟨by simp; omega, ?_⟩
      simp only [List.take_append_of_le_length h1]
      exact h2'
    | recv c lg full r1 r2 r3 =>
      have hx : (g.node v).log.take (g.node v).commit <+: accept (g.node v).log full := by
        refine prefix_accept_left (List.take_prefix _ _) ?_
        rcases h2 with h2 | ⟨T, pre, h2, h3, h4⟩
        · rw [h2]; exact Or.inl List.nil_prefix
        · rcases h.chosen_cmp h2 r2 h3 r3 with hc | hc
          · exact Or.inl (h4.trans hc)
          · exact List.prefix_or_prefix_of_prefix h4 hc
      have hl : ((g.node v).log.take (g.node v).commit).length = (g.node v).commit := by rw [List.length_take]; omega
      have hle := hx.length_le
      refine ⟨by simp only; omega, ?_⟩
      have heq : (accept (g.node v).log full).take (g.node v).commit = (g.node v).log.take (g.node v).commit := by
        rw [take_eq_of_prefix hx (by omega), List.take_take, Nat.min_self]
      simp only [heq]
      exact h2'
    | commitL k e S r1 r2 r3 r4 r5 r6 =>
      refine ⟨(List.getElem?_eq_some_iff.1 r3).1, Or.inr ⟨_, _, mem_upd.2 (Or.inr (List.mem_singleton.2 rfl)), Nat.le_refl _, List.prefix_refl _⟩⟩
    | commitF T c pre r1 r2 r3 r4 r5 =>
      exact ⟨r4, Or.inr ⟨T, pre, mem_old r1, r2, r5⟩⟩
    | _ => exact ⟨h1, h2'⟩
  · rw [upd_ne hv]
    obtain ⟨h1, h2⟩ := h.commitOk v
    refine ⟨h1, h2.imp id ?_⟩
    rintro ⟨T, pre, h3, h4, h5⟩
    exact ⟨T, pre, mem_old h3, h4, h5⟩

theorem inv_step : Inv Q (g.upd p a' out) :=
  { reqNode := inv_reqNode hs h, reqCand := inv_reqCand hs h, reqUnique := inv_reqUnique hs h, reqMatched := inv_reqMatched hs h,
    candNew := inv_candNew hs h, grantNode := inv_grantNode hs h, grantUnique := inv_grantUnique hs h, grantReq := inv_grantReq hs h,
    leadOk := inv_leadOk hs h, leadNode := inv_leadNode hs h, leadChain := inv_leadChain hs h, leadTerms := inv_leadTerms hs h,
    leadMatched := inv_leadMatched hs h, nodeTerms := inv_nodeTerms hs h, nodeMatched := inv_nodeMatched hs h,
    ackLead := inv_ackLead hs h, ackNow := inv_ackNow hs h, ackKept := inv_ackKept hs h, complete := inv_complete hs h,
    chosenOk := inv_chosenOk hs h, commitOk := inv_commitOk hs h }

end

theorem inv_init (Q : QSys) (τ : Nat) : Inv Q (.init τ) := by
  constructor <;> simp [Matched, AState.init]

theorem AReach.inv {Q : QSys} {τ : Nat} {g : AState} (h : AReach Q τ g) : Inv Q g := by
  induction h with
  | init => exact inv_init Q τ
  | step _ hs ih => cases hs with | mk p hl => exact inv_step hl ih

/-- Candidates have published their request and their own vote; nothing happens in terms up to `τ`. -/
structure Aux (τ : Nat) (g : AState) : Prop where
  cand : ∀ c, (g.node c).role = .candidate →
    AMsg.voteReq (g.node c).term c (g.node c).log ∈ g.net ∧ AMsg.voteGrant (g.node c).term c c ∈ g.net
  low : ∀ v, τ ≤ (g.node v).term
  req : ∀ T c lg, AMsg.voteReq T c lg ∈ g.net → τ < T

/-- Only nodes that may run publish requests. -/
theorem AReach.reqMay {Q : QSys} {τ : Nat} {g : AState} (h : AReach Q τ g) : ∀ T c lg, AMsg.voteReq T c lg ∈ g.net → Q.may c := by
  induction h with
  | init => intro T c lg hm; cases hm
  | step _ hs ih =>
    cases hs with
    | mk p hl =>
      intro T c lg hm
      rcases mem_upd.1 hm with hm | hm
      · exact ih T c lg hm
      · cases hl <;> simp_all

theorem aux_step {Q : QSys} {τ : Nat} {g : AState} {p : Nat} {out : List AMsg} {a' : ANode}
    (hs : LStep Q p g.net (g.node p) out a') (h : Aux τ g) : Aux τ (g.upd p a' out) := by
  refine ⟨fun c hr => ?_, fun v => Nat.le_trans (h.low v) (term_mono hs v), fun T c lg hm => ?_⟩
  · by_cases hc : c = p
    · subst hc
      rw [upd_self] at hr ⊢
      have hcn := h.cand c
      rw [mem_upd, mem_upd]
      cases hs <;> simp_all
    · rw [upd_ne hc] at hr ⊢
      exact ⟨mem_old (h.cand c hr).1, mem_old (h.cand c hr).2⟩
  · rw [mem_upd] at hm
    rcases hm with hm | hm
    · exact h.req _ _ _ hm
    · have := (out_req hs hm).2.2.1
      have := h.low p
      omega

theorem AReach.aux {Q : QSys} {τ : Nat} {g : AState} (h : AReach Q τ g) : Aux τ g := by
  induction h with
  | init => constructor <;> simp [AState.init]
  | step _ hs ih => cases hs with | mk p hl => exact aux_step hl ih

theorem AReach.lead_gt {Q : QSys} {τ : Nat} {g : AState} (h : AReach Q τ g) {T c : Nat} {lg : List Entry}
    (hl : AMsg.lead T c lg ∈ g.net) : τ < T := by
  obtain ⟨_, _, S, q, hS⟩ := h.inv.leadOk _ _ _ hl
  obtain ⟨v, hv, _⟩ := Q.inter q q
  obtain ⟨lg, hr, _⟩ := h.inv.grantReq _ _ _ (hS v hv)
  exact h.aux.req _ _ _ hr

/-- Only nodes that may run lead. -/
theorem AReach.lead_may {Q : QSys} {τ : Nat} {g : AState} (h : AReach Q τ g) {T c : Nat} {lg : List Entry}
    (hl : AMsg.lead T c lg ∈ g.net) : Q.may c := by
  obtain ⟨_, _, S, q, hS⟩ := h.inv.leadOk _ _ _ hl
  obtain ⟨v, hv, _⟩ := Q.inter q q
  obtain ⟨lg, hr, _⟩ := h.inv.grantReq _ _ _ (hS v hv)
  exact h.reqMay _ _ _ hr

theorem LStep.commit_le {Q : QSys} {p : Nat} {N : List AMsg} {a a' : ANode} {out : List AMsg} (h : LStep Q p N a out a') :
    a.commit ≤ a'.commit := by
  cases h <;> first | exact Nat.le_refl _ | assumption

/-- A leader knows that what it committed is committed. -/
theorem AReach.chosenCommit {Q : QSys} {τ : Nat} {g : AState} (h : AReach Q τ g) :
    ∀ T pre c lg, AMsg.chosen T pre ∈ g.net → AMsg.lead T c lg ∈ g.net → pre.length ≤ (g.node c).commit := by
  induction h with
  | init => intro T pre c lg hm; cases hm
  | @step g _ hg hs ih =>
    cases hs with
    | @mk p out a' hl =>
      have mono : ∀ v, (g.node v).commit ≤ ((g.upd p a' out).node v).commit := by
        intro v
        by_cases hv : v = p
        · subst hv; rw [upd_self]; exact hl.commit_le
        · rw [upd_ne hv]; exact Nat.le_refl _
      intro T pre c lg k1 k2
      rcases mem_upd.1 k1 with h1 | h1
      · rcases mem_upd.1 k2 with h2 | h2
        · exact Nat.le_trans (ih T pre c lg h1 h2) (mono c)
        · obtain ⟨rfl, rfl, _, rfl, _, ⟨r1, r2, S, q, hS⟩ | ⟨r1, es, r2, r3⟩⟩ := out_lead hl h2
          · obtain ⟨c0, lg0, _, _, l1, _⟩ := hg.inv.chosenOk _ _ h1
            exact absurd l1 (no_lead hl hg.inv r1 q hS c0 lg0)
          · exact Nat.le_trans (ih _ pre c _ h1 (hg.inv.leadNode c r1).1) (mono c)
      · cases hl with
        | commitL k e S g1 g2 g3 g4 g5 g6 =>
          simp only [List.mem_singleton, AMsg.chosen.injEq] at h1
          obtain ⟨rfl, rfl⟩ := h1
          have h2 : AMsg.lead (g.node p).term c lg ∈ g.net := by
            rcases mem_upd.1 k2 with h2 | h2
            · exact h2
            · simp at h2
          obtain ⟨rfl, _⟩ := hg.inv.leadSame (hg.inv.leadNode p g1).1 h2
          rw [upd_self, take_length_of g3]
          exact Nat.le_refl _
        | _ => simp_all

/-- Every entry of a matched log has a term above `τ`. -/
theorem AReach.matched_gt {Q : QSys} {τ : Nat} {g : AState} (h : AReach Q τ g) {X : List Entry} (hm : Matched g.net X) {e : Entry}
    (he : e ∈ X) : τ < e.term := by
  obtain ⟨k, hk⟩ := List.getElem?_of_mem he
  obtain ⟨c, lg, hl, _⟩ := hm k e hk
  exact h.lead_gt hl

/-! ## Steps of one node -/

/-- `s` is reached from `g` by steps of node `p`. -/
inductive PPath (Q : QSys) (p : Nat) (g : AState) : AState → Prop
  | nil : PPath Q p g g
  | snoc {s : AState} {out a} : PPath Q p g s → LStep Q p s.net (s.node p) out a → PPath Q p g (s.upd p a out)

namespace PPath
variable {Q : QSys} {p : Nat} {g s t : AState}

theorem trans (h1 : PPath Q p g s) (h2 : PPath Q p s t) : PPath Q p g t := by
  induction h2 with
  | nil => exact h1
  | snoc _ hs ih => exact .snoc ih hs

theorem single {out a} (h : LStep Q p g.net (g.node p) out a) : PPath Q p g (g.upd p a out) := .snoc .nil h

theorem reach {τ : Nat} (h : PPath Q p g s) (hg : AReach Q τ g) : AReach Q τ s := by
  induction h with
  | nil => exact hg
  | snoc _ hs ih => exact .step ih (.mk p hs)

theorem net (h : PPath Q p g s) : ∀ m ∈ g.net, m ∈ s.net := by
  induction h with
  | nil => exact fun _ h => h
  | snoc _ hs ih => exact fun m hm => mem_old (ih m hm)

theorem other (h : PPath Q p g s) {q : Nat} (hq : q ≠ p) : s.node q = g.node q := by
  induction h with
  | nil => rfl
  | snoc _ hs ih => rw [upd_ne hq, ih]

theorem term_le (h : PPath Q p g s) : (g.node p).term ≤ (s.node p).term := by
  induction h with
  | nil => exact Nat.le_refl _
  | snoc _ hs ih => rw [upd_self]; exact Nat.le_trans ih hs.term_le

theorem _root_.Craft.Abs.LStep.mono {N N' : List AMsg} {a a' : ANode} {out : List AMsg} (h : LStep Q p N a out a')
    (hn : ∀ m ∈ N, m ∈ N') : LStep Q p N' a out a' := by
  cases h with
  | term T h => exact .term T h
  | down => exact .down
  | cand h1 h2 h3 => exact .cand h1 h2 h3
  | grant c lg h1 h2 h3 => exact .grant c lg (hn _ h1) h2 h3
  | win S h1 h2 h3 => exact .win S h1 h2 fun u hu => hn _ (h3 u hu)
  | append es h1 h2 => exact .append es h1 h2
  | recv c lg full h1 h2 h3 => exact .recv c lg full h1 (hn _ h2) h3
  | ackCommit c lg h => exact .ackCommit c lg (hn _ h)
  | commitL k e S h1 h2 h3 h4 h5 h6 => exact .commitL k e S h1 h2 h3 h4 h5 fun u hu => let ⟨j, e1, e2⟩ := h6 u hu; ⟨j, e1, hn _ e2⟩
  | commitF T c pre h1 h2 h3 h4 h5 => exact .commitF T c pre (hn _ h1) h2 h3 h4 h5

/-- The same steps are possible when other nodes have published more. -/
theorem rebase {g2 : AState} (h : PPath Q p g s) (hp : g2.node p = g.node p) (hn : ∀ m ∈ g.net, m ∈ g2.net) :
    ∃ s2, PPath Q p g2 s2 ∧ s2.node p = s.node p ∧ ∀ m ∈ s.net, m ∈ s2.net := by
  induction h with
  | nil => exact ⟨g2, .nil, hp, hn⟩
  | @snoc s out a hpath hs ih =>
    obtain ⟨s2, h1, h2, h3⟩ := ih
    refine ⟨s2.upd p a out, .snoc h1 ?_, by rw [upd_self, upd_self], ?_⟩
    · rw [h2]; exact hs.mono h3
    · intro m hm
      rw [mem_upd] at hm ⊢
      exact hm.imp (h3 m) id

end PPath

end Craft.Abs
