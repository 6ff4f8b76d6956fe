import Verif.Dyn.Lemmas

/-! # The invariant is inductive -/

namespace Craft.Dyn
open Abs

section
variable {Q : CSys} {g : DState} {p : Nat} {out : List DMsg} {a' : DNode}

@[simp] theorem upd_self : (g.upd p a' out).node p = a' := by simp [DState.upd]
theorem upd_ne {v : Nat} (h : v ≠ p) : (g.upd p a' out).node v = g.node v := by simp [DState.upd, h]
theorem mem_upd {m : DMsg} : m ∈ (g.upd p a' out).net ↔ m ∈ g.net ∨ m ∈ out := by simp [DState.upd]

theorem mem_old {m : DMsg} (h : m ∈ g.net) : m ∈ (g.upd p a' out).net := mem_upd.2 (Or.inl h)

/-- A candidate that counted a quorum in its own configuration has one in the configuration of its request. -/
theorem Inv.win_quorum (h : Inv Q g) {S : Nat → Prop} (hr : (g.node p).role = .candidate) (hq : Q.isQ ((g.node p).log.take (g.node p).conf) S)
    (hS : ∀ u, S u → DMsg.voteGrant (g.node p).term u p ∈ g.net) :
    ∃ cf, DMsg.voteReq (g.node p).term p (g.node p).log cf ∈ g.net ∧ Q.isQ ((g.node p).log.take cf) S := by
  obtain ⟨u, hu, _⟩ := Q.inter hq hq
  obtain ⟨lg, cf, h1, _⟩ := h.grantReq _ _ _ (hS u hu)
  obtain ⟨e1, e2, e3⟩ := h.reqCand p hr lg cf h1
  subst e1
  refine ⟨cf, h1, ?_⟩
  refine (CSys.isQ_of_prefix (List.take_prefix_take_left e2) ?_).1 hq
  have := nconf_take_mono (g.node p).log (h.commitOk p).1
  omega

variable (hs : LStep Q p g.net (g.node p) out a')
include hs

theorem LStep.term_le : (g.node p).term ≤ a'.term := by
  cases hs <;> simp <;> omega

theorem term_mono (v : Nat) : (g.node v).term ≤ ((g.upd p a' out).node v).term := by
  by_cases hv : v = p
  · subst hv; simp; exact hs.term_le
  · rw [upd_ne hv]; exact Nat.le_refl _

theorem out_req {T c lg cf} (h : DMsg.voteReq T c lg cf ∈ out) : c = p ∧ p ≠ 0 ∧ T = (g.node p).term + 1 ∧ T = a'.term ∧
    lg = (g.node p).log ∧ a'.log = (g.node p).log ∧ cf = (g.node p).conf ∧ a'.conf = (g.node p).conf ∧ a'.commit = (g.node p).commit ∧
    nconf ((g.node p).log.take (g.node p).commit) ≤ nconf ((g.node p).log.take (g.node p).conf) := by
  cases hs <;> simp_all

theorem out_grant {T v c} (h : DMsg.voteGrant T v c ∈ out) : v = p ∧ T = a'.term ∧ a'.vote = c ∧ a'.log = (g.node p).log ∧
    ((c = p ∧ p ≠ 0 ∧ T = (g.node p).term + 1 ∧ DMsg.voteReq T p (g.node p).log (g.node p).conf ∈ out) ∨
     (T = (g.node p).term ∧ ((g.node p).vote = 0 ∨ (g.node p).vote = c) ∧
       ∃ lg cf, DMsg.voteReq T c lg cf ∈ g.net ∧ UpToDate lg (g.node p).log)) := by
  cases hs with
  | grant c' lg cf h1 h2 h3 =>
    simp at h
    obtain ⟨rfl, rfl, rfl⟩ := h
    exact ⟨rfl, rfl, rfl, rfl, Or.inr ⟨rfl, h2, lg, cf, h1, h3⟩⟩
  | _ => simp_all

theorem out_lead {T c lg} (h : DMsg.lead T c lg ∈ out) : c = p ∧ T = (g.node p).term ∧ a'.term = (g.node p).term ∧ lg = a'.log ∧
    a'.role = .leader ∧ (((g.node p).role = .candidate ∧ a'.log = (g.node p).log ∧
      ∃ S, Q.isQ ((g.node p).log.take (g.node p).conf) S ∧ ∀ u, S u → DMsg.voteGrant (g.node p).term u p ∈ g.net) ∨
      ((g.node p).role = .leader ∧ ∃ es, a'.log = (g.node p).log ++ es ∧ ∀ e ∈ es, e.term = (g.node p).term)) := by
  cases hs with
  | win S h1 h2 h3 =>
    simp at h
    obtain ⟨rfl, rfl, rfl⟩ := h
    exact ⟨rfl, rfl, rfl, rfl, rfl, Or.inl ⟨h1, rfl, S, h2, h3⟩⟩
  | append es h1 h2 =>
    simp at h
    obtain ⟨rfl, rfl, rfl⟩ := h
    exact ⟨rfl, rfl, rfl, rfl, h1, Or.inr ⟨h1, es, rfl, h2⟩⟩
  | _ => simp_all

theorem out_ack {T v j} (h : DMsg.ack T v j ∈ out) : v = p ∧ T = (g.node p).term ∧ a'.term = (g.node p).term := by
  cases hs <;> simp_all

theorem out_chosen {T pre cf} (h : DMsg.chosen T pre cf ∈ out) : ∃ k e S, T = (g.node p).term ∧ pre = (g.node p).log.take (k + 1) ∧
    cf = (g.node p).conf ∧ (g.node p).role = .leader ∧ (g.node p).commit ≤ k + 1 ∧ (g.node p).log[k]? = some e ∧ e.term = (g.node p).term ∧
    Q.isQ ((g.node p).log.take (g.node p).conf) S ∧ (∀ u, S u → ∃ j, k + 1 ≤ j ∧ DMsg.ack (g.node p).term u j ∈ g.net) ∧
    out = [.chosen T pre cf] ∧ a' = { g.node p with commit := k + 1 } := by
  cases hs with
  | commitL k e S h1 h2 h3 h4 h5 h6 =>
    simp only [List.mem_singleton, DMsg.chosen.injEq] at h
    obtain ⟨rfl, rfl, rfl⟩ := h
    exact ⟨k, e, S, rfl, rfl, rfl, h1, h2, h3, h4, h5, h6, rfl, rfl⟩
  | _ => simp at h

/-- How the log of the stepping node changes. -/
theorem log_cases : a'.log = (g.node p).log ∨
    ((g.node p).role = .leader ∧ a'.term = (g.node p).term ∧
      ∃ es, a'.log = (g.node p).log ++ es ∧ (∀ e ∈ es, e.term = (g.node p).term) ∧ DMsg.lead (g.node p).term p a'.log ∈ out) ∨
    (a'.term = (g.node p).term ∧ ∃ c lg full, DMsg.lead (g.node p).term c lg ∈ g.net ∧ full <+: lg ∧
      a'.log = accept (g.node p).log full) := by
  cases hs with
  | append es h1 h2 => exact Or.inr (Or.inl ⟨h1, rfl, es, rfl, h2, by simp⟩)
  | recv c lg full k h1 h2 h3 => exact Or.inr (Or.inr ⟨rfl, c, lg, full, h2, h3, rfl⟩)
  | _ => exact Or.inl rfl

theorem Matched.upd {X} (h : Matched g.net X) : Matched (g.upd p a' out).net X := h.mono fun _ hm => mem_old hm

theorem Lacks.upd {T B B' : Nat} {pre : List Entry} (h : Lacks g.net T B pre) (hB : B ≤ B') : Lacks (g.upd p a' out).net T B' pre :=
  h.mono (fun _ hm => mem_old hm) hB

theorem Cov.upd {T T' : Nat} {x : List Entry} (h : Cov g.net T x) (hT : T ≤ T') : Cov (g.upd p a' out).net T' x :=
  h.mono (fun _ hm => mem_old hm) hT

variable (h : Inv Q g)
include h

/-- A candidate with a quorum of votes is the first leader of its term. -/
theorem no_lead {S : Nat → Prop} (h1 : (g.node p).role = .candidate) (hq : Q.isQ ((g.node p).log.take (g.node p).conf) S)
    (hS : ∀ u, S u → DMsg.voteGrant (g.node p).term u p ∈ g.net) (c : Nat) (lg : List Entry) : DMsg.lead (g.node p).term c lg ∉ g.net := by
  obtain ⟨cf, r1, r2⟩ := h.win_quorum h1 hq hS
  exact h.no_lead h1 r1 r2 hS c lg

/-- Acknowledgements in the term of a leader are covered by its log. -/
theorem ack_le_leader {v j : Nat} (h1 : (g.node p).role = .leader) (ha : DMsg.ack (g.node p).term v j ∈ g.net) : j ≤ (g.node p).log.length := by
  obtain ⟨_, c, lg, hl, hj⟩ := h.ackLead _ _ _ ha
  obtain ⟨l1, l2⟩ := h.leadNode p h1
  obtain ⟨rfl, _⟩ := h.leadSame hl l1
  exact Nat.le_trans hj (l2 lg hl).length_le

/-- A new leader log together with an older acknowledgement covering its entry `k`: the entry was already in a published log. -/
theorem lead_old_of_ack {T v j c lg k e} (ha : DMsg.ack T v j ∈ g.net) (hl : DMsg.lead T c lg ∈ out) (hk : lg[k]? = some e) (hkj : k < j) :
    ∃ lg1, DMsg.lead T c lg1 ∈ g.net ∧ lg1[k]? = some e ∧ lg1.take (k + 1) = lg.take (k + 1) := by
  obtain ⟨rfl, rfl, _, rfl, _, ⟨r1, r2, S, q, hS⟩ | ⟨r1, es, r2, r3⟩⟩ := out_lead hs hl
  · obtain ⟨_, c1, lg1, hl1, _⟩ := h.ackLead _ _ _ ha
    exact absurd hl1 (no_lead hs h r1 q hS c1 lg1)
  · have hle := ack_le_leader hs h r1 ha
    refine ⟨(g.node c).log, (h.leadNode c r1).1, ?_, ?_⟩
    · rw [r2, List.getElem?_append_left (by omega)] at hk; exact hk
    · rw [r2, List.take_append_of_le_length (by omega)]

/-- Votes stay good. -/
theorem Good.upd {T B v lg} (hT : T ≤ (g.node v).term) (hg : Good g.net T B v lg) : Good (g.upd p a' out).net T B v lg := by
  intro T0 j c0 lg0 k e hT0 ha hl hk he hkj
  have ha' : DMsg.ack T0 v j ∈ g.net := by
    rcases mem_upd.1 ha with ha | ha
    · exact ha
    · obtain ⟨rfl, h3, _⟩ := out_ack hs ha
      omega
  rw [mem_upd] at hl; rcases hl with hl | hl
  · exact (hg T0 j c0 lg0 k e hT0 ha' hl hk he hkj).imp id fun hb => hb.upd hs (Nat.le_refl _)
  · obtain ⟨lg1, e1, e2, e3⟩ := lead_old_of_ack hs h ha' hl hk hkj
    rw [← e3]
    exact (hg T0 j c0 lg1 k e hT0 ha' e1 e2 he hkj).imp id fun hb => hb.upd hs (Nat.le_refl _)

theorem inv_reqNode : ∀ T c lg cf, DMsg.voteReq T c lg cf ∈ (g.upd p a' out).net → c ≠ 0 ∧ T ≤ ((g.upd p a' out).node c).term := by
  intro T c lg cf hm
  rw [mem_upd] at hm; rcases hm with hm | hm
  · exact ⟨(h.reqNode _ _ _ _ hm).1, Nat.le_trans (h.reqNode _ _ _ _ hm).2 (term_mono hs c)⟩
  · obtain ⟨rfl, h1, _, h2, _⟩ := out_req hs hm
    exact ⟨h1, by rw [upd_self]; omega⟩

theorem inv_reqCand : ∀ c, ((g.upd p a' out).node c).role = .candidate → ∀ lg cf,
    DMsg.voteReq ((g.upd p a' out).node c).term c lg cf ∈ (g.upd p a' out).net → ((g.upd p a' out).node c).log = lg ∧
      cf ≤ ((g.upd p a' out).node c).conf ∧
      nconf (((g.upd p a' out).node c).log.take ((g.upd p a' out).node c).commit) ≤ nconf (lg.take cf) := by
  intro c hr lg cf hm
  by_cases hc : c = p
  · subst hc
    rw [upd_self] at hr hm ⊢
    rw [mem_upd] at hm; rcases hm with hm | hm
    · have hle := (h.reqNode _ _ _ _ hm).2
      have hrc := fun hr => h.reqCand c hr lg cf
      cases hs with
      | conf k h1 h2 =>
        rcases h2 with h2 | h2
        · rw [h2] at hr; cases hr
        · obtain ⟨e1, e2, e3⟩ := hrc hr hm
          exact ⟨e1, Nat.le_trans e2 h2, e3⟩
      | cand => simp at hle; omega
      | ackCommit => exact hrc hr hm
      | _ => simp_all
    · obtain ⟨_, _, _, _, rfl, h2, rfl, h3, h4, h5⟩ := out_req hs hm
      rw [h2, h3, h4]
      exact ⟨rfl, Nat.le_refl _, h5⟩
  · rw [upd_ne hc] at hr hm ⊢
    rw [mem_upd] at hm; rcases hm with hm | hm
    · exact h.reqCand c hr lg cf hm
    · exact absurd (out_req hs hm).1 hc

theorem inv_reqUnique : ∀ T c lg cf lg' cf', DMsg.voteReq T c lg cf ∈ (g.upd p a' out).net →
    DMsg.voteReq T c lg' cf' ∈ (g.upd p a' out).net → lg = lg' ∧ cf = cf' := by
  intro T c lg cf lg' cf' h1 h2
  rw [mem_upd] at h1 h2; rcases h1 with h1 | h1 <;> rcases h2 with h2 | h2
  · exact h.reqUnique _ _ _ _ _ _ h1 h2
  · obtain ⟨rfl, _, h3, _⟩ := out_req hs h2
    have := (h.reqNode _ _ _ _ h1).2
    omega
  · obtain ⟨rfl, _, h3, _⟩ := out_req hs h1
    have := (h.reqNode _ _ _ _ h2).2
    omega
  · obtain ⟨_, _, _, _, e1, _, e2, _⟩ := out_req hs h1
    obtain ⟨_, _, _, _, e3, _, e4, _⟩ := out_req hs h2
    rw [e1, e2, e3, e4]
    exact ⟨rfl, rfl⟩

theorem inv_reqOk : ∀ T c lg cf, DMsg.voteReq T c lg cf ∈ (g.upd p a' out).net → Matched (g.upd p a' out).net lg ∧ (∀ e ∈ lg, e.term < T) ∧
    nconf lg ≤ nconf (lg.take cf) + 1 ∧ Cov (g.upd p a' out).net T (lg.take cf) := by
  intro T c lg cf hm
  rw [mem_upd] at hm; rcases hm with hm | hm
  · obtain ⟨h1, h2, h3, h4⟩ := h.reqOk _ _ _ _ hm
    exact ⟨h1.upd hs, h2, h3, h4.upd hs (Nat.le_refl _)⟩
  · obtain ⟨_, _, e1, _, e2, _, e3, _, _, e4⟩ := out_req hs hm
    subst e1 e2 e3
    obtain ⟨h1, h2, h3⟩ := h.commitOk p
    have := h.nconfOk p
    refine ⟨(h.nodeMatched p).upd hs, fun e he => Nat.lt_succ_of_le (h.nodeTerms p e he), by omega, ?_⟩
    exact (h3.prefix (List.take_prefix_take_left h1)).upd hs (Nat.le_refl _)

theorem inv_candNew : ∀ c, ((g.upd p a' out).node c).role = .candidate → 0 < ((g.upd p a' out).node c).term ∧
    ∀ lg, DMsg.lead ((g.upd p a' out).node c).term c lg ∉ (g.upd p a' out).net := by
  intro c hr
  by_cases hc : c = p
  · subst hc
    rw [upd_self] at hr ⊢
    have hpos : 0 < a'.term := by
      have hcn := h.candNew c
      cases hs <;> simp_all
    refine ⟨hpos, fun lg hm => ?_⟩
    rw [mem_upd] at hm; rcases hm with hm | hm
    · have hle := (h.leadOk _ _ _ hm).2.1
      have hcn := h.candNew c
      cases hs <;> simp_all
      omega
    · have := (out_lead hs hm).2.2.2.2.1
      rw [this] at hr; cases hr
  · rw [upd_ne hc] at hr ⊢
    refine ⟨(h.candNew c hr).1, fun lg hm => ?_⟩
    rw [mem_upd] at hm; rcases hm with hm | hm
    · exact (h.candNew c hr).2 lg hm
    · exact hc (out_lead hs hm).1

theorem inv_grantNode : ∀ T v c, DMsg.voteGrant T v c ∈ (g.upd p a' out).net → c ≠ 0 ∧ T ≤ ((g.upd p a' out).node v).term ∧
    (T = ((g.upd p a' out).node v).term → ((g.upd p a' out).node v).vote = c) := by
  intro T v c hm
  rw [mem_upd] at hm; rcases hm with hm | hm
  · obtain ⟨h1, h2, h3⟩ := h.grantNode _ _ _ hm
    refine ⟨h1, Nat.le_trans h2 (term_mono hs v), fun hT => ?_⟩
    by_cases hv : v = p
    · subst hv
      rw [upd_self] at hT ⊢
      cases hs <;> simp_all <;> omega
    · rw [upd_ne hv] at hT ⊢
      exact h3 hT
  · obtain ⟨rfl, rfl, h3, _, h4⟩ := out_grant hs hm
    rw [upd_self]
    refine ⟨?_, Nat.le_refl _, fun _ => h3⟩
    rcases h4 with ⟨rfl, h5, _⟩ | ⟨_, _, lg, cf, h5, _⟩
    · exact h5
    · exact (h.reqNode _ _ _ _ h5).1

theorem inv_grantUnique : ∀ T v c c', DMsg.voteGrant T v c ∈ (g.upd p a' out).net → DMsg.voteGrant T v c' ∈ (g.upd p a' out).net → c = c' := by
  have key : ∀ T v c c', DMsg.voteGrant T v c ∈ g.net → DMsg.voteGrant T v c' ∈ out → c = c' := by
    intro T v c c' h1 h2
    obtain ⟨h3, h4, h5⟩ := h.grantNode _ _ _ h1
    obtain ⟨rfl, _, _, _, ⟨_, _, h6, _⟩ | ⟨h6, h7, _⟩⟩ := out_grant hs h2
    · omega
    · have := h5 h6
      rcases h7 with h7 | h7
      · omega
      · omega
  intro T v c c' h1 h2
  rw [mem_upd] at h1 h2; rcases h1 with h1 | h1 <;> rcases h2 with h2 | h2
  · exact h.grantUnique _ _ _ _ h1 h2
  · exact key _ _ _ _ h1 h2
  · exact (key _ _ _ _ h2 h1).symm
  · rw [← (out_grant hs h1).2.2.1, ← (out_grant hs h2).2.2.1]

theorem inv_grantReq : ∀ T v c, DMsg.voteGrant T v c ∈ (g.upd p a' out).net → ∃ lg cf, DMsg.voteReq T c lg cf ∈ (g.upd p a' out).net ∧
    Good (g.upd p a' out).net T (T + 1) v lg := by
  intro T v c hm
  rw [mem_upd] at hm; rcases hm with hm | hm
  · obtain ⟨lg, cf, h1, h2⟩ := h.grantReq _ _ _ hm
    exact ⟨lg, cf, mem_old h1, Good.upd hs h (h.grantNode _ _ _ hm).2.1 h2⟩
  · obtain ⟨rfl, h1, h2, h3, h4⟩ := out_grant hs hm
    have hold : ∀ T0 j, T0 < T → DMsg.ack T0 v j ∈ (g.upd v a' out).net → ∀ c0 lg0, DMsg.lead T0 c0 lg0 ∈ (g.upd v a' out).net →
        DMsg.ack T0 v j ∈ g.net ∧ DMsg.lead T0 c0 lg0 ∈ g.net := by
      intro T0 j hT ha c0 lg0 hl
      cases hs <;> simp_all [DState.upd]
    rcases h4 with ⟨rfl, h5, h6, h7⟩ | ⟨h5, h6, lg, cf, h7, h8⟩
    · refine ⟨_, _, mem_upd.2 (Or.inr h7), fun T0 j c0 lg0 k e hT ha hl hk he hkj => ?_⟩
      obtain ⟨ha', hl'⟩ := hold T0 j hT ha c0 lg0 hl
      exact (h.ackKept _ _ _ _ _ _ _ ha' hl' hk he hkj).imp id fun hb => hb.upd hs (by omega)
    · refine ⟨lg, cf, mem_old h7, fun T0 j c0 lg0 k e hT ha hl hk he hkj => ?_⟩
      obtain ⟨ha', hl'⟩ := hold T0 j hT ha c0 lg0 hl
      rcases h.ackKept _ _ _ _ _ _ _ ha' hl' hk he hkj with hp | hb
      · obtain ⟨q1, q2, _⟩ := h.reqOk _ _ _ _ h7
        exact (h.upToDate_keeps (h.nodeMatched v) q1 h8 hl' hk he hp q2).imp id fun hb => hb.upd hs (by omega)
      · exact Or.inr (hb.upd hs (by omega))

theorem inv_leadOk : ∀ T c lg, DMsg.lead T c lg ∈ (g.upd p a' out).net → 0 < T ∧ T ≤ ((g.upd p a' out).node c).term ∧
    ∃ lg0 cf S, DMsg.voteReq T c lg0 cf ∈ (g.upd p a' out).net ∧ lg0 <+: lg ∧
    (∀ e ∈ lg.drop lg0.length, e.term = T) ∧ Q.isQ (lg0.take cf) S ∧
    ∀ u, S u → DMsg.voteGrant T u c ∈ (g.upd p a' out).net ∧ Good (g.upd p a' out).net T T u lg0 := by
  intro T c lg hm
  rw [mem_upd] at hm; rcases hm with hm | hm
  · obtain ⟨h1, h2, lg0, cf, S, r1, r2, r3, r4, r5⟩ := h.leadOk _ _ _ hm
    refine ⟨h1, Nat.le_trans h2 (term_mono hs c), lg0, cf, S, mem_old r1, r2, r3, r4, fun u hu => ?_⟩
    exact ⟨mem_old (r5 u hu).1, Good.upd hs h (h.grantNode _ _ _ (r5 u hu).1).2.1 (r5 u hu).2⟩
  · obtain ⟨rfl, rfl, h2, rfl, _, ⟨r1, r2, S, q, hS⟩ | ⟨r1, es, r2, r3⟩⟩ := out_lead hs hm
    · obtain ⟨cf, w1, w2⟩ := h.win_quorum r1 q hS
      refine ⟨(h.candNew c r1).1, term_mono hs c, (g.node c).log, cf, S, mem_old w1, by rw [r2]; exact List.prefix_refl _, ?_, w2, fun u hu => ?_⟩
      · rw [r2, List.drop_length]; simp
      · refine ⟨mem_old (hS u hu), Good.upd hs h (h.grantNode _ _ _ (hS u hu)).2.1 ?_⟩
        obtain ⟨lg, cf2, g1, g2⟩ := h.grantReq _ _ _ (hS u hu)
        obtain ⟨rfl, rfl⟩ := h.reqUnique _ _ _ _ _ _ w1 g1
        intro T0 j c0 lg0 k e hT0 ha hl hk he hkj
        refine (g2 T0 j c0 lg0 k e hT0 ha hl hk he hkj).imp id ?_
        rintro ⟨T1, c1, lg1, t1, t2, t3, t4⟩
        refine ⟨T1, c1, lg1, t1, ?_, t3, t4⟩
        rcases Nat.lt_or_ge T1 (g.node c).term with hlt | hge
        · exact hlt
        · have : T1 = (g.node c).term := by omega
          subst this
          exact absurd t3 (no_lead hs h r1 q hS _ _)
    · obtain ⟨h1, h2, lg0, cf, S, k1, k2, k3, k4, k5⟩ := h.leadOk _ _ _ (h.leadNode c r1).1
      refine ⟨h1, term_mono hs c, lg0, cf, S, mem_old k1, ?_, ?_, k4, fun u hu => ?_⟩
      · rw [r2]; exact k2.trans (List.prefix_append _ _)
      · rw [r2, List.drop_append_of_le_length k2.length_le]
        intro e he
        rcases List.mem_append.1 he with he | he
        · exact k3 e he
        · exact r3 e he
      · exact ⟨mem_old (k5 u hu).1, Good.upd hs h (h.grantNode _ _ _ (k5 u hu).1).2.1 (k5 u hu).2⟩

theorem inv_leadNode : ∀ c, ((g.upd p a' out).node c).role = .leader →
    DMsg.lead ((g.upd p a' out).node c).term c ((g.upd p a' out).node c).log ∈ (g.upd p a' out).net ∧
    ∀ lg, DMsg.lead ((g.upd p a' out).node c).term c lg ∈ (g.upd p a' out).net → lg <+: ((g.upd p a' out).node c).log := by
  intro c hr
  by_cases hc : c = p
  · subst hc
    rw [upd_self] at hr ⊢
    have hln := h.leadNode c
    have hcn := h.candNew c
    constructor
    · rw [mem_upd]
      cases hs <;> simp_all
    · intro lg hm
      rw [mem_upd] at hm; rcases hm with hm | hm
      · cases hs with
        | append es h1 h2 => exact ((hln h1).2 lg hm).trans (List.prefix_append _ _)
        | _ => simp_all
      · rw [(out_lead hs hm).2.2.2.1]
        exact List.prefix_refl _
  · rw [upd_ne hc] at hr ⊢
    refine ⟨mem_old (h.leadNode c hr).1, fun lg hm => ?_⟩
    rw [mem_upd] at hm; rcases hm with hm | hm
    · exact (h.leadNode c hr).2 lg hm
    · exact absurd (out_lead hs hm).1 hc

theorem inv_leadConf : ∀ c, ((g.upd p a' out).node c).role = .leader →
    nconf ((g.upd p a' out).node c).log ≤ nconf (((g.upd p a' out).node c).log.take ((g.upd p a' out).node c).conf) + 1 := by
  intro c hr
  by_cases hc : c = p
  · subst hc
    rw [upd_self] at hr ⊢
    have hlc := h.leadConf c
    cases hs with
    | conf k h1 h2 =>
      rcases h2 with h2 | h2
      · rw [h2] at hr; cases hr
      · have := hlc hr
        have := nconf_take_mono (g.node c).log h2
        simp only; omega
    | win S h1 h2 h3 =>
      have := h.candConf c h1
      have := h.nconfOk c
      simp only; omega
    | append es h1 h2 h3 =>
      obtain ⟨k1, k2, _⟩ := h.commitOk c
      simp only [List.take_append_of_le_length (show (g.node c).conf ≤ (g.node c).log.length by omega)]
      exact h3
    | _ => simp_all
  · rw [upd_ne hc] at hr ⊢
    exact h.leadConf c hr

theorem inv_leadUnique : ∀ T c lg c' lg', DMsg.lead T c lg ∈ (g.upd p a' out).net → DMsg.lead T c' lg' ∈ (g.upd p a' out).net → c = c' := by
  have key : ∀ T c lg c' lg', DMsg.lead T c lg ∈ g.net → DMsg.lead T c' lg' ∈ out → c = c' := by
    intro T c lg c' lg' h1 h2
    obtain ⟨rfl, rfl, _, rfl, _, ⟨r1, r2, S, q, hS⟩ | ⟨r1, es, r2, r3⟩⟩ := out_lead hs h2
    · exact absurd h1 (no_lead hs h r1 q hS _ _)
    · exact h.leadUnique _ _ _ _ _ h1 (h.leadNode _ r1).1
  intro T c lg c' lg' h1 h2
  rw [mem_upd] at h1 h2; rcases h1 with h1 | h1 <;> rcases h2 with h2 | h2
  · exact h.leadUnique _ _ _ _ _ h1 h2
  · exact key _ _ _ _ _ h1 h2
  · exact (key _ _ _ _ _ h2 h1).symm
  · rw [(out_lead hs h1).1, (out_lead hs h2).1]

theorem inv_leadChain : ∀ T c lg lg', DMsg.lead T c lg ∈ (g.upd p a' out).net → DMsg.lead T c lg' ∈ (g.upd p a' out).net →
    lg <+: lg' ∨ lg' <+: lg := by
  have key : ∀ T c lg lg', DMsg.lead T c lg ∈ g.net → DMsg.lead T c lg' ∈ out → lg <+: lg' := by
    intro T c lg lg' h1 h2
    obtain ⟨rfl, rfl, _, rfl, _, ⟨r1, r2, S, q, hS⟩ | ⟨r1, es, r2, r3⟩⟩ := out_lead hs h2
    · exact absurd h1 (no_lead hs h r1 q hS _ _)
    · rw [r2]
      exact ((h.leadNode c r1).2 lg h1).trans (List.prefix_append _ _)
  intro T c lg lg' h1 h2
  rw [mem_upd] at h1 h2; rcases h1 with h1 | h1 <;> rcases h2 with h2 | h2
  · exact h.leadChain _ _ _ _ h1 h2
  · exact Or.inl (key _ _ _ _ h1 h2)
  · exact Or.inr (key _ _ _ _ h2 h1)
  · rw [(out_lead hs h1).2.2.2.1, (out_lead hs h2).2.2.2.1]
    exact Or.inl (List.prefix_refl _)

theorem inv_leadTerms : ∀ T c lg, DMsg.lead T c lg ∈ (g.upd p a' out).net → Sorted lg ∧ ∀ e ∈ lg, e.term ≤ T := by
  intro T c lg hm
  rw [mem_upd] at hm; rcases hm with hm | hm
  · exact h.leadTerms _ _ _ hm
  · have hso := h.matched_sorted (h.nodeMatched p)
    have hte := h.nodeTerms p
    obtain ⟨rfl, rfl, _, rfl, _, ⟨r1, r2, S, q, hS⟩ | ⟨r1, es, r2, r3⟩⟩ := out_lead hs hm
    · rw [r2]; exact ⟨hso, hte⟩
    · rw [r2]
      have hall : ∀ e ∈ (g.node c).log ++ es, e.term ≤ (g.node c).term := by
        intro e he
        rcases List.mem_append.1 he with he | he
        · exact hte e he
        · rw [r3 e he]; exact Nat.le_refl _
      refine ⟨fun i j a b hij ha hb => ?_, hall⟩
      by_cases hj : j < (g.node c).log.length
      · rw [List.getElem?_append_left hj] at hb
        rw [List.getElem?_append_left (by omega)] at ha
        exact hso i j a b hij ha hb
      · rw [List.getElem?_append_right (by omega)] at hb
        have hbm := List.mem_of_getElem? hb
        rw [r3 b hbm]
        exact hall a (List.mem_of_getElem? ha)

theorem inv_leadMatched : ∀ T c lg, DMsg.lead T c lg ∈ (g.upd p a' out).net → Matched (g.upd p a' out).net lg := by
  intro T c lg hm
  rw [mem_upd] at hm; rcases hm with hm | hm
  · exact (h.leadMatched _ _ _ hm).upd hs
  · have hnm := h.nodeMatched p
    obtain ⟨rfl, rfl, _, rfl, _, ⟨r1, r2, S, q, hS⟩ | ⟨r1, es, r2, r3⟩⟩ := out_lead hs hm
    · rw [r2]; exact hnm.upd hs
    · intro k e hk
      by_cases hlt : k < (g.node c).log.length
      · rw [r2] at hk ⊢
        rw [List.getElem?_append_left hlt] at hk
        rw [List.take_append_of_le_length (by omega)]
        exact hnm.upd hs k e hk
      · refine ⟨c, a'.log, ?_, List.take_prefix _ _⟩
        have : e.term = (g.node c).term := by
          rw [r2, List.getElem?_append_right (by omega)] at hk
          exact r3 e (List.mem_of_getElem? hk)
        rw [this]
        exact mem_upd.2 (Or.inr hm)

theorem inv_nodeTerms : ∀ v, ∀ e ∈ ((g.upd p a' out).node v).log, e.term ≤ ((g.upd p a' out).node v).term := by
  intro v e he
  by_cases hv : v = p
  · subst hv
    rw [upd_self] at he ⊢
    rcases log_cases hs with h1 | ⟨_, h1, es, h2, h3, _⟩ | ⟨h1, c, lg, full, h2, h3, h4⟩
    · rw [h1] at he; exact Nat.le_trans (h.nodeTerms v e he) hs.term_le
    · rw [h2] at he
      rw [h1]
      rcases List.mem_append.1 he with he | he
      · exact h.nodeTerms v e he
      · rw [h3 e he]; exact Nat.le_refl _
    · rw [h1]
      rw [h4] at he
      rcases accept_prefix (log := (g.node v).log) (full := full) with h5 | h5 <;> rw [h5] at he
      · exact h.nodeTerms v e he
      · exact (h.leadTerms _ _ _ h2).2 e (h3.subset he)
  · rw [upd_ne hv] at he ⊢
    exact h.nodeTerms v e he

theorem inv_nodeMatched : ∀ v, Matched (g.upd p a' out).net ((g.upd p a' out).node v).log := by
  intro v
  by_cases hv : v = p
  · subst hv
    rw [upd_self]
    rcases log_cases hs with h1 | ⟨_, h1, es, h2, h3, h4⟩ | ⟨h1, c, lg, full, h2, h3, h4⟩
    · rw [h1]; exact (h.nodeMatched v).upd hs
    · exact inv_leadMatched hs h _ _ _ (mem_upd.2 (Or.inr h4))
    · rw [h4]
      rcases accept_prefix (log := (g.node v).log) (full := full) with h5 | h5 <;> rw [h5]
      · exact (h.nodeMatched v).upd hs
      · exact ((h.leadMatched _ _ _ h2).upd hs).prefix h3
  · rw [upd_ne hv]
    exact (h.nodeMatched v).upd hs

/-- The committed part of a node's log is in a log of the leader of its term, if there is one. -/
theorem commit_lead {v c lg} (hl : DMsg.lead (g.node v).term c lg ∈ g.net) :
    ∃ lg2, DMsg.lead (g.node v).term c lg2 ∈ g.net ∧ (g.node v).commit ≤ lg2.length ∧ lg2.take (g.node v).commit <+: (g.node v).log := by
  obtain ⟨_, h1, h2⟩ := h.commitOk v
  have hl0 : ((g.node v).log.take (g.node v).commit).length = (g.node v).commit := by rw [List.length_take]; omega
  have hgo : ∀ pre lg2, (g.node v).log.take (g.node v).commit <+: pre → pre <+: lg2 →
      (g.node v).commit ≤ lg2.length ∧ lg2.take (g.node v).commit <+: (g.node v).log := by
    intro pre lg2 hp1 hp2
    have hp := hp1.trans hp2
    have := hp.length_le
    refine ⟨by omega, ?_⟩
    rw [take_eq_of_prefix hp (by omega), List.take_take]
    exact List.take_prefix _ _
  rcases h2 with h2 | ⟨T, pre, cf, h2, h3, h4⟩
  · rw [h2] at hl0
    simp at hl0
    exact ⟨lg, hl, by omega, by rw [← hl0]; exact List.nil_prefix⟩
  · rcases Nat.lt_or_ge T (g.node v).term with hlt | hge
    · exact ⟨lg, hl, hgo pre lg h4 (h.complete _ _ _ _ _ _ hl h2 hlt)⟩
    · have hT : T = (g.node v).term := by omega
      subst hT
      obtain ⟨_, c2, lg2, k, e, S, l1, rfl, _⟩ := h.chosenOk _ _ _ h2
      obtain ⟨rfl, _⟩ := h.leadSame hl l1
      exact ⟨lg2, l1, hgo _ lg2 h4 (List.take_prefix _ _)⟩

theorem inv_ackLead : ∀ T v j, DMsg.ack T v j ∈ (g.upd p a' out).net → T ≤ ((g.upd p a' out).node v).term ∧
    ∃ c lg, DMsg.lead T c lg ∈ (g.upd p a' out).net ∧ j ≤ lg.length := by
  intro T v j hm
  rw [mem_upd] at hm; rcases hm with hm | hm
  · obtain ⟨h1, c, lg, h2, h3⟩ := h.ackLead _ _ _ hm
    exact ⟨Nat.le_trans h1 (term_mono hs v), c, lg, mem_old h2, h3⟩
  · obtain ⟨rfl, rfl, h2⟩ := out_ack hs hm
    refine ⟨by rw [upd_self]; omega, ?_⟩
    have hcl := fun {c lg} => commit_lead hs h (v := v) (c := c) (lg := lg)
    cases hs with
    | win S h1 h2 h3 =>
      simp at hm
      exact ⟨v, _, mem_upd.2 (Or.inr (by simp)), Nat.le_of_eq hm⟩
    | append es h1 h2 =>
      simp at hm
      exact ⟨v, (g.node v).log ++ es, mem_upd.2 (Or.inr (by simp)), by rw [List.length_append]; omega⟩
    | recv c lg full k r1 r2 h3 =>
      simp at hm
      exact ⟨c, lg, mem_old r2, by have := h3.length_le; omega⟩
    | ackCommit c lg h1 =>
      simp at hm
      obtain ⟨lg2, e1, e2, _⟩ := hcl h1
      exact ⟨c, lg2, mem_old e1, by omega⟩
    | _ => simp at hm

theorem inv_ackNow : ∀ v j, DMsg.ack ((g.upd p a' out).node v).term v j ∈ (g.upd p a' out).net →
    ∃ c lg, DMsg.lead ((g.upd p a' out).node v).term c lg ∈ (g.upd p a' out).net ∧ j ≤ lg.length ∧
      lg.take j <+: ((g.upd p a' out).node v).log := by
  intro v j hm
  by_cases hv : v = p
  · subst hv
    rw [upd_self] at hm ⊢
    rw [mem_upd] at hm; rcases hm with hm | hm
    · have hle := hs.term_le
      have h1 := (h.ackLead _ _ _ hm).1
      have hT : a'.term = (g.node v).term := by omega
      rw [hT] at hm ⊢
      obtain ⟨c, lg, e1, e2, e3⟩ := h.ackNow _ _ hm
      refine ⟨c, lg, mem_old e1, e2, ?_⟩
      rcases log_cases hs with h1 | ⟨_, h1, es, h2, h3, h4⟩ | ⟨h1, c', lg', full, h2, h3, h4⟩
      · rw [h1]; exact e3
      · rw [h2]; exact e3.trans (List.prefix_append _ _)
      · rw [h4]
        exact prefix_accept_left e3 (h.lead_cmp e1 h2 (List.take_prefix _ _) h3)
    · rw [(out_ack hs hm).2.2]
      have hcl := fun {c lg} => commit_lead hs h (v := v) (c := c) (lg := lg)
      cases hs with
      | win S h1 h2 h3 =>
        simp at hm
        exact ⟨v, _, mem_upd.2 (Or.inr (List.mem_cons_self ..)), Nat.le_of_eq hm, List.take_prefix _ _⟩
      | append es h1 h2 =>
        simp at hm
        exact ⟨v, (g.node v).log ++ es, mem_upd.2 (Or.inr (List.mem_cons_self ..)), by simp; omega, List.take_prefix _ _⟩
      | recv c lg full k h1 h2 h3 =>
        simp at hm
        refine ⟨c, lg, mem_old h2, by have := h3.length_le; omega, ?_⟩
        rw [hm, take_eq_of_prefix h3 (Nat.le_refl _), List.take_of_length_le (Nat.le_refl _)]
        exact prefix_accept_right _ _
      | ackCommit c lg h1 =>
        simp at hm
        obtain ⟨lg2, e1, e2, e3⟩ := hcl h1
        exact ⟨c, lg2, mem_old e1, by omega, by rw [hm]; exact e3⟩
      | _ => simp at hm
  · rw [upd_ne hv] at hm ⊢
    rw [mem_upd] at hm; rcases hm with hm | hm
    · obtain ⟨c, lg, e1, e2, e3⟩ := h.ackNow _ _ hm
      exact ⟨c, lg, mem_old e1, e2, e3⟩
    · exact absurd (out_ack hs hm).1 hv

theorem inv_leadCmp {T c c' : Nat} {lg lg' x y : List Entry} (h1 : DMsg.lead T c lg ∈ (g.upd p a' out).net)
    (h2 : DMsg.lead T c' lg' ∈ (g.upd p a' out).net) (hx : x <+: lg) (hy : y <+: lg') : x <+: y ∨ y <+: x := by
  have := inv_leadUnique hs h _ _ _ _ _ h1 h2
  subst this
  rcases inv_leadChain hs h _ _ _ _ h1 h2 with hc | hc
  · exact List.prefix_or_prefix_of_prefix (hx.trans hc) hy
  · exact List.prefix_or_prefix_of_prefix hx (hy.trans hc)

theorem inv_ackKept : ∀ T v j c lg k e, DMsg.ack T v j ∈ (g.upd p a' out).net → DMsg.lead T c lg ∈ (g.upd p a' out).net →
    lg[k]? = some e → e.term = T → k < j → lg.take (k + 1) <+: ((g.upd p a' out).node v).log ∨
      Lacks (g.upd p a' out).net T (((g.upd p a' out).node v).term + 1) (lg.take (k + 1)) := by
  intro T v j c lg k e ha hl hk he hkj
  rcases mem_upd.1 ha with ha' | ha'
  · obtain ⟨lg1, e1, e2, e3⟩ : ∃ lg1, DMsg.lead T c lg1 ∈ g.net ∧ lg1[k]? = some e ∧ lg1.take (k + 1) = lg.take (k + 1) := by
      rw [mem_upd] at hl; rcases hl with hl | hl
      · exact ⟨lg, hl, hk, rfl⟩
      · exact lead_old_of_ack hs h ha' hl hk hkj
    rw [← e3]
    rcases h.ackKept _ _ _ _ _ _ _ ha' e1 e2 he hkj with hp | hb
    · by_cases hv : v = p
      · subst hv
        rw [upd_self]
        rcases log_cases hs with h1 | ⟨_, h1, es, h2, h3, h4⟩ | ⟨h1, c', lg', full, h2, h3, h4⟩
        · rw [h1]; exact Or.inl hp
        · rw [h2]; exact Or.inl (hp.trans (List.prefix_append _ _))
        · have hT := (h.ackLead _ _ _ ha').1
          rw [h4]
          rcases Nat.lt_or_ge T (g.node v).term with hlt | hge
          · by_cases hc : lg1.take (k + 1) <+: lg'
            · exact Or.inl (prefix_accept_left hp (List.prefix_or_prefix_of_prefix hc h3))
            · exact Or.inr ⟨_, c', lg', hlt, by omega, mem_old h2, hc⟩
          · have : T = (g.node v).term := by omega
            subst this
            exact Or.inl (prefix_accept_left hp (h.lead_cmp e1 h2 (List.take_prefix _ _) h3))
      · rw [upd_ne hv]; exact Or.inl hp
    · exact Or.inr (hb.upd hs (Nat.succ_le_succ (term_mono hs v)))
  · left
    obtain ⟨rfl, h1, h2⟩ := out_ack hs ha'
    rw [h1, ← h2] at ha hl
    have hnow := inv_ackNow hs h v j
    rw [upd_self] at hnow ⊢
    obtain ⟨c', lg', n1, n2, n3⟩ := hnow ha
    have hlen := take_length_of hk
    rcases inv_leadCmp hs h hl n1 (List.take_prefix (k + 1) lg) (List.take_prefix j lg') with hc | hc
    · exact hc.trans n3
    · have hlj : (List.take j lg').length = j := by rw [List.length_take]; omega
      have := hc.eq_of_length_le (by omega)
      rw [← this]; exact n3

theorem inv_complete : ∀ T' c' lg' T pre cf, DMsg.lead T' c' lg' ∈ (g.upd p a' out).net → DMsg.chosen T pre cf ∈ (g.upd p a' out).net →
    T < T' → pre <+: lg' := by
  intro T' c' lg' T pre cf hl hc hT
  rcases mem_upd.1 hc with hc2 | hc2
  · rcases mem_upd.1 hl with hl | hl
    · exact h.complete _ _ _ _ _ _ hl hc2 hT
    · obtain ⟨rfl, rfl, _, rfl, _, ⟨r1, r2, S, q, hS⟩ | ⟨r1, es, r2, r3⟩⟩ := out_lead hs hl
      · obtain ⟨cf', w1, w2⟩ := h.win_quorum r1 q hS
        rw [r2]
        exact h.win_complete w1 w2 hS hc2 hT
      · rw [r2]
        exact (h.complete _ _ _ _ _ _ (h.leadNode _ r1).1 hc2 hT).trans (List.prefix_append _ _)
  · obtain ⟨k, e, S, rfl, rfl, rfl, r1, r2, r3, r4, r5, r6, rfl, _⟩ := out_chosen hs hc2
    rcases mem_upd.1 hl with hl | hl
    · exact h.commit_complete r1 r2 r3 r4 r5 r6 _ _ _ hl hT
    · simp at hl

theorem inv_chosenOk : ∀ T pre cf, DMsg.chosen T pre cf ∈ (g.upd p a' out).net → nconf pre ≤ nconf (pre.take cf) + 1 ∧
    ∃ c lg k e S, DMsg.lead T c lg ∈ (g.upd p a' out).net ∧ pre = lg.take (k + 1) ∧ lg[k]? = some e ∧ e.term = T ∧
      Q.isQ (pre.take cf) S ∧ ∀ u, S u → ∃ j, k + 1 ≤ j ∧ DMsg.ack T u j ∈ (g.upd p a' out).net := by
  intro T pre cf hm
  rw [mem_upd] at hm; rcases hm with hm | hm
  · obtain ⟨h1, c, lg, k, e, S, l1, l2, l3, l4, q, hS⟩ := h.chosenOk _ _ _ hm
    exact ⟨h1, c, lg, k, e, S, mem_old l1, l2, l3, l4, q, fun u hu => let ⟨j, h1, h2⟩ := hS u hu; ⟨j, h1, mem_old h2⟩⟩
  · obtain ⟨k, e, S, rfl, rfl, rfl, r1, r2, r3, r4, r5, r6, rfl, _⟩ := out_chosen hs hm
    have hcc := (h.commitOk p).1
    have heq : ((g.node p).log.take (k + 1)).take (g.node p).conf = (g.node p).log.take (g.node p).conf := by
      rw [List.take_take, Nat.min_eq_left (by omega)]
    rw [heq]
    refine ⟨?_, p, (g.node p).log, k, e, S, mem_old (h.leadNode p r1).1, rfl, r3, r4, r5,
      fun u hu => let ⟨j, h1, h2⟩ := r6 u hu; ⟨j, h1, mem_old h2⟩⟩
    have := h.leadConf p r1
    have := nconf_take_le (g.node p).log (k + 1)
    omega

theorem inv_confChain : ∀ T pre cf m, DMsg.chosen T pre cf ∈ (g.upd p a' out).net → m < nconf pre →
    ∃ T0 q cf0, DMsg.chosen T0 q cf0 ∈ (g.upd p a' out).net ∧ T0 ≤ T ∧ nconf (q.take cf0) = m ∧ m < nconf q := by
  intro T pre cf m hm hn
  rcases mem_upd.1 hm with hm1 | hm1
  · obtain ⟨T0, q, cf0, h1, h2⟩ := h.confChain _ _ _ _ hm1 hn
    exact ⟨T0, q, cf0, mem_old h1, h2⟩
  · obtain ⟨k, e, S, rfl, rfl, rfl, r1, r2, r3, r4, r5, r6, _, _⟩ := out_chosen hs hm1
    obtain ⟨hc1, hc2, hcov⟩ := h.commitOk p
    have heq : ((g.node p).log.take (k + 1)).take (g.node p).conf = (g.node p).log.take (g.node p).conf := by
      rw [List.take_take, Nat.min_eq_left (by omega)]
    have hle := h.leadConf p r1
    have hle2 := nconf_take_le (g.node p).log (k + 1)
    rcases Nat.lt_or_ge m (nconf ((g.node p).log.take (g.node p).conf)) with hlt | hge
    · rcases hcov.prefix (List.take_prefix_take_left hc1) with hnil | ⟨T0, q, cf0, c1, c2, c3⟩
      · rw [hnil] at hlt; simp [nconf] at hlt
      · have := nconf_prefix c3
        obtain ⟨T1, q1, cf1, d1, d2, d3⟩ := h.confChain _ _ _ m c1 (by omega)
        exact ⟨T1, q1, cf1, mem_old d1, by omega, d3⟩
    · exact ⟨_, _, _, hm, Nat.le_refl _, by rw [heq]; omega, hn⟩

/-- What happens to commit index and configuration. -/
theorem inv_node : (a'.conf ≤ a'.commit ∧ a'.commit ≤ a'.log.length ∧ Cov (g.upd p a' out).net (a'.term + 1) (a'.log.take a'.commit)) ∧
    nconf a'.log ≤ nconf (a'.log.take a'.commit) + 1 := by
  obtain ⟨h0, h1, h2⟩ := h.commitOk p
  have h3 := h.nconfOk p
  have h2' : Cov (g.upd p a' out).net (a'.term + 1) ((g.node p).log.take (g.node p).commit) := h2.upd hs (Nat.succ_le_succ hs.term_le)
  cases hs with
  | conf k r1 r2 => exact ⟨⟨r1, h1, h2'⟩, h3⟩
  | append es r1 r2 r3 =>
    have heq : ((g.node p).log ++ es).take (g.node p).commit = (g.node p).log.take (g.node p).commit :=
      List.take_append_of_le_length h1
    refine ⟨⟨h0, by simp; omega, ?_⟩, ?_⟩
    · simp only [heq]; exact h2'
    · simp only [heq]
      have := nconf_take_mono (g.node p).log h0
      omega
  | recv c lg full k r1 r2 r3 r4 r5 r6 =>
    have hx : (g.node p).log.take (g.node p).commit <+: accept (g.node p).log full := by
      refine prefix_accept_left (List.take_prefix _ _) ?_
      rcases h2 with h2 | ⟨T, pre, cf, h2, h3, h4⟩
      · rw [h2]; exact Or.inl List.nil_prefix
      · rcases h.chosen_cmp h2 r2 (by omega) r3 with hc | hc
        · exact Or.inl (h4.trans hc)
        · exact List.prefix_or_prefix_of_prefix h4 hc
    have hf := prefix_accept_right (g.node p).log full
    have hl : ((g.node p).log.take (g.node p).commit).length = (g.node p).commit := by rw [List.length_take]; omega
    have hle := hx.length_le
    have hle2 := hf.length_le
    have heq : (accept (g.node p).log full).take (g.node p).commit = (g.node p).log.take (g.node p).commit := by
      rw [take_eq_of_prefix hx (by omega), List.take_take, Nat.min_self]
    have heq2 : (accept (g.node p).log full).take k = full.take k := take_eq_of_prefix hf r4
    refine ⟨⟨by simp only; omega, by simp only; omega, ?_⟩, ?_⟩
    · rcases Nat.le_total (g.node p).commit k with hk | hk
      · simp only [Nat.max_eq_right hk, heq2]
        exact r5.mono (fun _ hm => mem_old hm) (Nat.le_refl _)
      · simp only [Nat.max_eq_left hk, heq]; exact h2'
    · simp only
      have m1 := nconf_take_mono (accept (g.node p).log full) (Nat.le_max_left (g.node p).commit k)
      have m2 := nconf_take_mono (accept (g.node p).log full) (Nat.le_max_right (g.node p).commit k)
      rw [heq] at m1
      rw [heq2] at m2
      rcases accept_prefix (log := (g.node p).log) (full := full) with h5 | h5
      · rw [h5] at m1 ⊢; omega
      · rw [h5] at m2 ⊢; omega
  | commitL k e S r1 r2 r3 r4 r5 r6 =>
    refine ⟨⟨by simp only; omega, (List.getElem?_eq_some_iff.1 r3).1, Or.inr ⟨_, _, _, mem_upd.2 (Or.inr (List.mem_singleton.2 rfl)), Nat.lt_succ_self _, List.prefix_refl _⟩⟩, ?_⟩
    have := nconf_take_mono (g.node p).log r2
    simp only; omega
  | commitF c r1 r2 r3 r4 =>
    refine ⟨⟨by simp only; omega, r3, r4.mono (fun _ hm => mem_old hm) (Nat.le_refl _)⟩, ?_⟩
    have := nconf_take_mono (g.node p).log r2
    simp only; omega
  | _ => exact ⟨⟨h0, h1, h2'⟩, h3⟩

theorem inv_commitOk : ∀ v, ((g.upd p a' out).node v).conf ≤ ((g.upd p a' out).node v).commit ∧
    ((g.upd p a' out).node v).commit ≤ ((g.upd p a' out).node v).log.length ∧
    Cov (g.upd p a' out).net (((g.upd p a' out).node v).term + 1) (((g.upd p a' out).node v).log.take ((g.upd p a' out).node v).commit) := by
  intro v
  by_cases hv : v = p
  · subst hv
    rw [upd_self]
    exact (inv_node hs h).1
  · rw [upd_ne hv]
    obtain ⟨h0, h1, h2⟩ := h.commitOk v
    exact ⟨h0, h1, h2.upd hs (Nat.le_refl _)⟩

theorem inv_nconfOk : ∀ v, nconf ((g.upd p a' out).node v).log ≤
    nconf (((g.upd p a' out).node v).log.take ((g.upd p a' out).node v).commit) + 1 := by
  intro v
  by_cases hv : v = p
  · subst hv
    rw [upd_self]
    exact (inv_node hs h).2
  · rw [upd_ne hv]
    exact h.nconfOk v

theorem inv_candConf : ∀ v, ((g.upd p a' out).node v).role = .candidate →
    nconf (((g.upd p a' out).node v).log.take ((g.upd p a' out).node v).commit) ≤
      nconf (((g.upd p a' out).node v).log.take ((g.upd p a' out).node v).conf) := by
  intro v hr
  by_cases hv : v = p
  · subst hv
    rw [upd_self] at hr ⊢
    have hcc := h.candConf v
    cases hs with
    | conf k r1 r2 =>
      rcases r2 with r2 | r2
      · rw [r2] at hr; cases hr
      · exact Nat.le_trans (hcc hr) (nconf_take_mono _ r2)
    | _ => simp_all
  · rw [upd_ne hv] at hr ⊢
    exact h.candConf v hr

theorem inv_step : Inv Q (g.upd p a' out) :=
  { reqNode := inv_reqNode hs h, reqCand := inv_reqCand hs h, reqUnique := inv_reqUnique hs h, reqOk := inv_reqOk hs h,
    candNew := inv_candNew hs h, grantNode := inv_grantNode hs h, grantUnique := inv_grantUnique hs h, grantReq := inv_grantReq hs h,
    leadOk := inv_leadOk hs h, leadNode := inv_leadNode hs h, leadConf := inv_leadConf hs h, leadUnique := inv_leadUnique hs h,
    leadChain := inv_leadChain hs h, leadTerms := inv_leadTerms hs h,
    leadMatched := inv_leadMatched hs h, nodeTerms := inv_nodeTerms hs h, nodeMatched := inv_nodeMatched hs h,
    ackLead := inv_ackLead hs h, ackNow := inv_ackNow hs h, ackKept := inv_ackKept hs h, complete := inv_complete hs h,
    chosenOk := inv_chosenOk hs h, confChain := inv_confChain hs h, commitOk := inv_commitOk hs h, nconfOk := inv_nconfOk hs h,
    candConf := inv_candConf hs h }

end

theorem inv_init (Q : CSys) (τ : Nat) : Inv Q (.init τ) := by
  constructor <;> simp [Matched, DState.init, Cov, nconf]

theorem DReach.inv {Q : CSys} {τ : Nat} {g : DState} (h : DReach Q τ g) : Inv Q g := by
  induction h with
  | init => exact inv_init Q τ
  | step _ hs ih => cases hs with | mk p hl => exact inv_step hl ih

/-- Candidates have published their request and their own vote; nothing happens in terms up to `τ`. -/
structure Aux (τ : Nat) (g : DState) : Prop where
  cand : ∀ c, (g.node c).role = .candidate →
    (∃ cf, DMsg.voteReq (g.node c).term c (g.node c).log cf ∈ g.net) ∧ DMsg.voteGrant (g.node c).term c c ∈ g.net
  low : ∀ v, τ ≤ (g.node v).term
  req : ∀ T c lg cf, DMsg.voteReq T c lg cf ∈ g.net → τ < T

theorem aux_step {Q : CSys} {τ : Nat} {g : DState} {p : Nat} {out : List DMsg} {a' : DNode}
    (hs : LStep Q p g.net (g.node p) out a') (h : Aux τ g) : Aux τ (g.upd p a' out) := by
  refine ⟨fun c hr => ?_, fun v => Nat.le_trans (h.low v) (term_mono hs v), fun T c lg cf hm => ?_⟩
  · by_cases hc : c = p
    · subst hc
      rw [upd_self] at hr ⊢
      have hcn := h.cand c
      cases hs with
      | cand h1 h2 h3 => exact ⟨⟨_, mem_upd.2 (Or.inr (List.mem_cons_self ..))⟩, mem_upd.2 (Or.inr (by simp))⟩
      | term => cases hr
      | down => cases hr
      | win => cases hr
      | recv _ _ _ _ h1 => rw [h1] at hr; cases hr
      | append _ h1 => rw [h1] at hr; cases hr
      | commitL _ _ _ h1 => rw [h1] at hr; cases hr
      | _ => exact ⟨let ⟨cf, e⟩ := (hcn hr).1; ⟨cf, mem_old e⟩, mem_old (hcn hr).2⟩
    · rw [upd_ne hc] at hr ⊢
      exact ⟨let ⟨cf, e⟩ := (h.cand c hr).1; ⟨cf, mem_old e⟩, mem_old (h.cand c hr).2⟩
  · rw [mem_upd] at hm
    rcases hm with hm | hm
    · exact h.req _ _ _ _ hm
    · have := (out_req hs hm).2.2.1
      have := h.low p
      omega

theorem DReach.aux {Q : CSys} {τ : Nat} {g : DState} (h : DReach Q τ g) : Aux τ g := by
  induction h with
  | init => constructor <;> simp [DState.init]
  | step _ hs ih => cases hs with | mk p hl => exact aux_step hl ih

theorem DReach.lead_gt {Q : CSys} {τ : Nat} {g : DState} (h : DReach Q τ g) {T c : Nat} {lg : List Entry}
    (hl : DMsg.lead T c lg ∈ g.net) : τ < T := by
  obtain ⟨_, _, lg0, cf, S, r1, _⟩ := h.inv.leadOk _ _ _ hl
  exact h.aux.req _ _ _ _ r1

/-- Every entry of a matched log has a term above `τ`. -/
theorem DReach.matched_gt {Q : CSys} {τ : Nat} {g : DState} (h : DReach Q τ g) {X : List Entry} (hm : Matched g.net X) {e : Entry}
    (he : e ∈ X) : τ < e.term := by
  obtain ⟨k, hk⟩ := List.getElem?_of_mem he
  obtain ⟨c, lg, hl, _⟩ := hm k e hk
  exact h.lead_gt hl

/-- Every log is one that some leader was willing to have. -/
theorem DReach.oks {Q : CSys} {τ : Nat} {g : DState} (h : DReach Q τ g) :
    (∀ v, Q.ok (g.node v).log) ∧ ∀ T c lg, DMsg.lead T c lg ∈ g.net → Q.ok lg := by
  induction h with
  | init => exact ⟨fun _ => Q.okNil, fun _ _ _ h => by simp [DState.init] at h⟩
  | @step g g' _ hs ih =>
    obtain ⟨h1, h2⟩ := ih
    cases hs with
    | @mk p out a hl =>
      have key : Q.ok a.log ∧ ∀ T c lg, DMsg.lead T c lg ∈ out → Q.ok lg := by
        generalize hb : g.node p = b at hl
        have hp := h1 p
        rw [hb] at hp
        cases hl with
        | win S => exact ⟨hp, fun T c lg hm => by simp at hm; rw [hm.2.2]; exact hp⟩
        | append es _ _ _ h4 => exact ⟨h4, fun T c lg hm => by simp at hm; rw [hm.2.2]; exact h4⟩
        | recv c lg full k _ h5 h6 =>
          refine ⟨?_, fun T c lg hm => by simp at hm⟩
          show Q.ok (accept b.log full)
          unfold accept
          split
          · exact hp
          · exact Q.okPre h6 (h2 _ _ _ h5)
        | _ => exact ⟨hp, fun T c lg hm => by simp at hm⟩
      refine ⟨fun v => ?_, fun T c lg hm => ?_⟩
      · show Q.ok (if v = p then a else g.node v).log
        split
        · exact key.1
        · exact h1 v
      · rcases List.mem_append.1 hm with hm | hm
        · exact h2 _ _ _ hm
        · exact key.2 _ _ _ hm

/-! ## Steps of one node -/

/-- `s` is reached from `g` by steps of node `p`. -/
inductive PPath (Q : CSys) (p : Nat) (g : DState) : DState → Prop
  | nil : PPath Q p g g
  | snoc {s : DState} {out a} : PPath Q p g s → LStep Q p s.net (s.node p) out a → PPath Q p g (s.upd p a out)

namespace PPath
variable {Q : CSys} {p : Nat} {g s t : DState}

theorem trans (h1 : PPath Q p g s) (h2 : PPath Q p s t) : PPath Q p g t := by
  induction h2 with
  | nil => exact h1
  | snoc _ hs ih => exact .snoc ih hs

theorem single {out a} (h : LStep Q p g.net (g.node p) out a) : PPath Q p g (g.upd p a out) := .snoc .nil h

theorem reach {τ : Nat} (h : PPath Q p g s) (hg : DReach Q τ g) : DReach Q τ s := by
  induction h with
  | nil => exact hg
  | snoc _ hs ih => exact .step ih (.mk p hs)

theorem net (h : PPath Q p g s) : ∀ m ∈ g.net, m ∈ s.net := by
  induction h with
  | nil => exact fun _ h => h
  | snoc _ hs ih => exact fun m hm => mem_old (ih m hm)

theorem other (h : PPath Q p g s) {q : Nat} (hq : q ≠ p) : s.node q = g.node q := by
  induction h with
  | nil => rfl
  | snoc _ hs ih => rw [upd_ne hq, ih]

theorem term_le (h : PPath Q p g s) : (g.node p).term ≤ (s.node p).term := by
  induction h with
  | nil => exact Nat.le_refl _
  | snoc _ hs ih => rw [upd_self]; exact Nat.le_trans ih hs.term_le

theorem _root_.Craft.Dyn.LStep.mono {N N' : List DMsg} {a a' : DNode} {out : List DMsg} (h : LStep Q p N a out a')
    (hn : ∀ m ∈ N, m ∈ N') : LStep Q p N' a out a' := by
  cases h with
  | term T h => exact .term T h
  | down => exact .down
  | conf k h1 h2 => exact .conf k h1 h2
  | cand h1 h2 h3 => exact .cand h1 h2 h3
  | grant c lg cf h1 h2 h3 => exact .grant c lg cf (hn _ h1) h2 h3
  | win S h1 h2 h3 => exact .win S h1 h2 fun u hu => hn _ (h3 u hu)
  | append es h1 h2 h3 h4 => exact .append es h1 h2 h3 h4
  | recv c lg full k h1 h2 h3 h4 h5 h6 => exact .recv c lg full k h1 (hn _ h2) h3 h4 (h5.mono hn (Nat.le_refl _)) h6
  | ackCommit c lg h => exact .ackCommit c lg (hn _ h)
  | commitL k e S h1 h2 h3 h4 h5 h6 => exact .commitL k e S h1 h2 h3 h4 h5 fun u hu => let ⟨j, e1, e2⟩ := h6 u hu; ⟨j, e1, hn _ e2⟩
  | commitF c h1 h2 h3 h4 => exact .commitF c h1 h2 h3 (h4.mono hn (Nat.le_refl _))

/-- The same steps are possible when other nodes have published more. -/
theorem rebase {g2 : DState} (h : PPath Q p g s) (hp : g2.node p = g.node p) (hn : ∀ m ∈ g.net, m ∈ g2.net) :
    ∃ s2, PPath Q p g2 s2 ∧ s2.node p = s.node p ∧ ∀ m ∈ s.net, m ∈ s2.net := by
  induction h with
  | nil => exact ⟨g2, .nil, hp, hn⟩
  | @snoc s out a hpath hs ih =>
    obtain ⟨s2, h1, h2, h3⟩ := ih
    refine ⟨s2.upd p a out, .snoc h1 ?_, by rw [upd_self, upd_self], ?_⟩
    · rw [h2]; exact hs.mono h3
    · intro m hm
      rw [mem_upd] at hm ⊢
      exact hm.imp (h3 m) id

end PPath

end Craft.Dyn
