import Verif.Dyn.Protocol

/-! # Counting conf changes, quorums at prefixes, and what follows from the invariant in one state -/

namespace Craft.Dyn
open Abs

theorem nconf_append (a b : List Entry) : nconf (a ++ b) = nconf a + nconf b := List.countP_append

theorem nconf_prefix {a b : List Entry} (h : a <+: b) : nconf a ≤ nconf b := by
  obtain ⟨t, rfl⟩ := h
  rw [nconf_append]; omega

theorem nconf_take_le (l : List Entry) (n : Nat) : nconf (l.take n) ≤ nconf l := nconf_prefix (List.take_prefix _ _)

theorem nconf_take_mono (l : List Entry) {m n : Nat} (h : m ≤ n) : nconf (l.take m) ≤ nconf (l.take n) :=
  nconf_prefix (List.take_prefix_take_left h)

theorem nconf_single {e : Entry} : nconf [e] = if e.type = .normal then 0 else 1 := by
  unfold nconf
  by_cases h : e.type = .normal <;> simp [h]

theorem nconf_zero {l : List Entry} : nconf l = 0 ↔ ∀ e ∈ l, e.type = .normal := by
  unfold nconf
  rw [List.countP_eq_zero]
  simp

/-- Two prefixes with conf changes counted: the shorter one has fewer. -/
theorem prefix_of_nconf {a b : List Entry} (h : a <+: b ∨ b <+: a) (hn : nconf a < nconf b) : a <+: b := by
  rcases h with h | h
  · exact h
  · have := nconf_prefix h; omega

namespace CSys
variable {Q : CSys} {S S' : Nat → Prop}

theorem stable (h : nconf t = 0) : Q.isQ (x ++ t) S ↔ Q.isQ x S := by
  induction t generalizing x with
  | nil => rw [List.append_nil]
  | cons e t ih =>
    rw [show e :: t = [e] ++ t from rfl, nconf_append] at h
    rw [show x ++ e :: t = (x ++ [e]) ++ t by simp, ih (by omega)]
    apply Q.same
    have := nconf_zero.1 (show nconf [e] = 0 by omega) e (by simp)
    exact this

/-- Prefixes with equally many conf changes have the same quorums. -/
theorem isQ_of_prefix {x y : List Entry} (h : x <+: y) (hn : nconf y ≤ nconf x) : Q.isQ y S ↔ Q.isQ x S := by
  obtain ⟨t, rfl⟩ := h
  rw [nconf_append] at hn
  exact stable (by omega)

theorem meet_step {x y : List Entry} (h : x <+: y) (hn : nconf y ≤ nconf x + 1) (h1 : Q.isQ x S) (h2 : Q.isQ y S') : ∃ v, S v ∧ S' v := by
  obtain ⟨t, rfl⟩ := h
  rw [nconf_append] at hn
  induction t generalizing x with
  | nil => rw [List.append_nil] at h2; exact Q.inter h1 h2
  | cons e t ih =>
    rw [show e :: t = [e] ++ t from rfl, nconf_append] at hn
    rw [show x ++ e :: t = (x ++ [e]) ++ t by simp] at h2
    by_cases he : e.type = .normal
    · have : nconf [e] = 0 := by rw [nconf_single, if_pos he]
      exact ih ((Q.same he).2 h1) (by rw [nconf_append]; omega) h2
    · have : nconf [e] = 1 := by rw [nconf_single, if_neg he]
      rw [stable (by omega)] at h2
      exact Q.adj h1 h2

/-- Quorums at comparable prefixes at most one conf change apart meet. -/
theorem meet {x y : List Entry} (h : x <+: y ∨ y <+: x) (hx : nconf x ≤ nconf y + 1) (hy : nconf y ≤ nconf x + 1) (h1 : Q.isQ x S)
    (h2 : Q.isQ y S') : ∃ v, S v ∧ S' v := by
  rcases h with h | h
  · exact meet_step h hy h1 h2
  · obtain ⟨v, a, b⟩ := meet_step h hx h2 h1
    exact ⟨v, b, a⟩

end CSys

theorem Cov.mono {N N' : List DMsg} {T T' : Nat} {x : List Entry} (h : Cov N T x) (hn : ∀ m ∈ N, m ∈ N') (hT : T ≤ T') : Cov N' T' x := by
  rcases h with h | ⟨T0, q, cf, h1, h2, h3⟩
  · exact Or.inl h
  · exact Or.inr ⟨T0, q, cf, hn _ h1, by omega, h3⟩

theorem Cov.prefix {N : List DMsg} {T : Nat} {x y : List Entry} (h : Cov N T x) (hp : y <+: x) : Cov N T y := by
  rcases h with rfl | ⟨T0, q, cf, h1, h2, h3⟩
  · exact Or.inl (List.prefix_nil.1 hp)
  · exact Or.inr ⟨T0, q, cf, h1, h2, hp.trans h3⟩

theorem Matched.mono {N N' : List DMsg} {X : List Entry} (h : Matched N X) (hn : ∀ m ∈ N, m ∈ N') : Matched N' X := by
  intro k e he
  obtain ⟨c, lg, h1, h2⟩ := h k e he
  exact ⟨c, lg, hn _ h1, h2⟩

theorem Matched.prefix {N : List DMsg} {X Y : List Entry} (h : Matched N X) (hp : Y <+: X) : Matched N Y := by
  intro k e he
  obtain ⟨c, lg, h1, h2⟩ := h k e (prefix_getElem?_some hp he)
  refine ⟨c, lg, h1, ?_⟩
  rw [← take_eq_of_prefix hp (by have := (List.getElem?_eq_some_iff.1 he).1; omega)]
  exact h2

theorem Lacks.mono {N N' : List DMsg} {T B B' : Nat} {pre : List Entry} (h : Lacks N T B pre) (hn : ∀ m ∈ N, m ∈ N') (hB : B ≤ B') :
    Lacks N' T B' pre := by
  obtain ⟨T1, c1, lg1, h1, h2, h3, h4⟩ := h
  exact ⟨T1, c1, lg1, h1, by omega, hn _ h3, h4⟩

/-- Something whose last entry is of an earlier term and that is in a leader's log was there when the leader was elected. -/
theorem prefix_elected {lg lg0 pre : List Entry} {T : Nat} (h0 : lg0 <+: lg) (hd : ∀ e ∈ lg.drop lg0.length, e.term = T) (hp : pre <+: lg)
    {k : Nat} {e : Entry} (hk : pre.length = k + 1) (he : pre[k]? = some e) (ht : e.term ≠ T) : pre <+: lg0 := by
  refine prefix_le hp h0 ?_
  rcases Nat.lt_or_ge k lg0.length with h | h
  · omega
  · exfalso
    apply ht
    have h1 : lg[k]? = some e := prefix_getElem?_some hp he
    refine hd e (List.mem_of_getElem? (i := k - lg0.length) ?_)
    rw [List.getElem?_drop, show lg0.length + (k - lg0.length) = k by omega]
    exact h1

namespace Inv
variable {Q : CSys} {g : DState}

theorem leadSame (h : Inv Q g) {T c c' : Nat} {lg lg' : List Entry} (h1 : DMsg.lead T c lg ∈ g.net) (h2 : DMsg.lead T c' lg' ∈ g.net) :
    c = c' ∧ (lg <+: lg' ∨ lg' <+: lg) := by
  have := h.leadUnique _ _ _ _ _ h1 h2
  subst this
  exact ⟨rfl, h.leadChain _ _ _ _ h1 h2⟩

/-- Prefixes of logs of one term's leader are comparable. -/
theorem lead_cmp (h : Inv Q g) {T c c' : Nat} {lg lg' x y : List Entry} (h1 : DMsg.lead T c lg ∈ g.net) (h2 : DMsg.lead T c' lg' ∈ g.net)
    (hx : x <+: lg) (hy : y <+: lg') : x <+: y ∨ y <+: x := by
  rcases (h.leadSame h1 h2).2 with hc | hc
  · exact List.prefix_or_prefix_of_prefix (hx.trans hc) hy
  · exact List.prefix_or_prefix_of_prefix hx (hy.trans hc)

theorem matched_sorted (h : Inv Q g) {X : List Entry} (hm : Matched g.net X) : Sorted X := by
  intro i j a b hij ha hb
  obtain ⟨c, lg, h1, h2⟩ := hm j b hb
  have hl := take_length_of hb
  have e1 : lg[i]? = some a := by
    refine prefix_getElem?_some h2 (k := i) ?_
    rw [List.getElem?_take_of_lt (by omega)]; exact ha
  have e2 : lg[j]? = some b := by
    refine prefix_getElem?_some h2 (k := j) ?_
    rw [List.getElem?_take_of_lt (by omega)]; exact hb
  exact (h.leadTerms _ _ _ h1).1 i j a b hij e1 e2

/-- Log matching. -/
theorem matching (h : Inv Q g) {X Y : List Entry} (hx : Matched g.net X) (hy : Matched g.net Y) {k : Nat} {a b : Entry}
    (ha : X[k]? = some a) (hb : Y[k]? = some b) (ht : a.term = b.term) : X.take (k + 1) = Y.take (k + 1) := by
  obtain ⟨c1, l1, m1, p1⟩ := hx k a ha
  obtain ⟨c2, l2, m2, p2⟩ := hy k b hb
  rw [← ht] at m2
  have e1 := take_length_of ha
  have e2 := take_length_of hb
  rcases h.lead_cmp m1 m2 p1 p2 with hc | hc
  · exact hc.eq_of_length (by omega)
  · exact (hc.eq_of_length (by omega)).symm

/-- Nobody after `T` lacks what was chosen in `T`. -/
theorem not_lacks (h : Inv Q g) {T B cf : Nat} {pre : List Entry} (hc : DMsg.chosen T pre cf ∈ g.net) : ¬ Lacks g.net T B pre := by
  rintro ⟨T1, c1, lg1, h1, _, h3, h4⟩
  exact h4 (h.complete _ _ _ _ _ _ h3 hc h1)

/-- What is chosen in a term up to `T` is comparable with any prefix of a log of the leader of `T`. -/
theorem chosen_cmp (h : Inv Q g) {T T' c' cf : Nat} {pre lg' x : List Entry} (h1 : DMsg.chosen T pre cf ∈ g.net)
    (h2 : DMsg.lead T' c' lg' ∈ g.net) (hT : T ≤ T') (hx : x <+: lg') : pre <+: x ∨ x <+: pre := by
  rcases Nat.lt_or_ge T T' with hlt | hge
  · exact List.prefix_or_prefix_of_prefix (h.complete _ _ _ _ _ _ h2 h1 hlt) hx
  · have : T = T' := Nat.le_antisymm hT hge
    subst this
    obtain ⟨_, c, lg, k, e, S, l1, rfl, _⟩ := h.chosenOk _ _ _ h1
    exact h.lead_cmp l1 h2 (List.take_prefix _ _) hx

theorem chosen_chain (h : Inv Q g) {T T' cf cf' : Nat} {pre pre' : List Entry} (h1 : DMsg.chosen T pre cf ∈ g.net)
    (h2 : DMsg.chosen T' pre' cf' ∈ g.net) : pre <+: pre' ∨ pre' <+: pre := by
  rcases Nat.le_total T T' with hT | hT
  · obtain ⟨_, c, lg, k, e, S, l1, rfl, _⟩ := h.chosenOk _ _ _ h2
    exact h.chosen_cmp h1 l1 hT (List.take_prefix _ _)
  · obtain ⟨_, c, lg, k, e, S, l1, rfl, _⟩ := h.chosenOk _ _ _ h1
    exact (h.chosen_cmp h2 l1 hT (List.take_prefix _ _)).symm

/-- Covered prefixes are comparable. -/
theorem cov_cmp (h : Inv Q g) {T T' : Nat} {x y : List Entry} (h1 : Cov g.net T x) (h2 : Cov g.net T' y) : x <+: y ∨ y <+: x := by
  rcases h1 with rfl | ⟨T0, q, cf, h1, _, h3⟩
  · exact Or.inl List.nil_prefix
  rcases h2 with rfl | ⟨T0', q', cf', h1', _, h3'⟩
  · exact Or.inr List.nil_prefix
  rcases h.chosen_chain h1 h1' with hc | hc
  · exact List.prefix_or_prefix_of_prefix (h3.trans hc) h3'
  · exact List.prefix_or_prefix_of_prefix h3 (h3'.trans hc)

theorem chosen_cov {T cf : Nat} {pre : List Entry} (h : DMsg.chosen T pre cf ∈ g.net) : Cov g.net (T + 1) pre :=
  Or.inr ⟨T, pre, cf, h, by omega, List.prefix_refl _⟩

theorem chosen_entry (h : Inv Q g) {T cf : Nat} {pre : List Entry} (hc : DMsg.chosen T pre cf ∈ g.net) :
    ∃ k e, pre.length = k + 1 ∧ pre[k]? = some e ∧ e.term = T := by
  obtain ⟨_, c, lg, k, e, S, l1, rfl, l2, l3, _⟩ := h.chosenOk _ _ _ hc
  exact ⟨k, e, take_length_of l2, by rw [List.getElem?_take_of_lt (by omega)]; exact l2, l3⟩

/-- The request behind a leader's election contains everything chosen in earlier terms. -/
theorem complete_req (h : Inv Q g) {T T' c' cf : Nat} {pre lg' lg0 : List Entry} (hl : DMsg.lead T' c' lg' ∈ g.net)
    (hc : DMsg.chosen T pre cf ∈ g.net) (hT : T < T') (h0 : lg0 <+: lg') (hd : ∀ e ∈ lg'.drop lg0.length, e.term = T') : pre <+: lg0 := by
  obtain ⟨k, e, h1, h2, h3⟩ := h.chosen_entry hc
  exact prefix_elected h0 hd (h.complete _ _ _ _ _ _ hl hc hT) h1 h2 (by omega)

/-- A candidate with a quorum of votes has everything chosen in earlier terms. -/
theorem win_complete (h : Inv Q g) {T' p cf' : Nat} {lg' : List Entry} {S' : Nat → Prop} (hreq : DMsg.voteReq T' p lg' cf' ∈ g.net)
    (hq : Q.isQ (lg'.take cf') S') (hS : ∀ u, S' u → DMsg.voteGrant T' u p ∈ g.net) {T cf : Nat} {pre : List Entry}
    (hc : DMsg.chosen T pre cf ∈ g.net) (hT : T < T') : pre <+: lg' := by
  obtain ⟨_, _, hn', hcov'⟩ := h.reqOk _ _ _ _ hreq
  -- quorums at most one conf change apart
  have near : ∀ {T cf : Nat} {pre : List Entry}, DMsg.chosen T pre cf ∈ g.net → T < T' → nconf (pre.take cf) ≤ nconf (lg'.take cf') + 1 →
      nconf (lg'.take cf') ≤ nconf (pre.take cf) + 1 → pre <+: lg' := by
    intro T cf pre hc hT n1 n2
    obtain ⟨_, c, lg, k, e, S, l1, l0, l2, l3, q, a⟩ := h.chosenOk _ _ _ hc
    have hcmp := h.cov_cmp ((chosen_cov hc).prefix (List.take_prefix cf pre)) hcov'
    obtain ⟨u, u1, u2⟩ := CSys.meet hcmp n1 n2 q hq
    obtain ⟨j, hj, ha⟩ := a u u1
    obtain ⟨lg2, cf2, r1, r2⟩ := h.grantReq _ _ _ (hS u u2)
    obtain ⟨rfl, rfl⟩ := h.reqUnique _ _ _ _ _ _ hreq r1
    rcases r2 T j c lg k e hT ha l1 l2 l3 (by omega) with hp | hp
    · rw [l0]; exact hp
    · rw [← l0] at hp
      exact absurd hp (h.not_lacks hc)
  obtain ⟨hn, _⟩ := h.chosenOk _ _ _ hc
  by_cases h1 : nconf (pre.take cf) ≤ nconf (lg'.take cf') + 1
  · by_cases h2 : nconf (lg'.take cf') ≤ nconf (pre.take cf) + 1
    · exact near hc hT h1 h2
    · -- the candidate's configuration is much newer
      have := prefix_of_nconf (h.cov_cmp (chosen_cov hc) hcov') (by omega)
      exact this.trans (List.take_prefix _ _)
  · -- the candidate's configuration is much older
    exfalso
    have hle := nconf_take_le pre cf
    obtain ⟨T4, q4, cf4, c1, c2, c3, c4⟩ := h.confChain _ _ _ (nconf (lg'.take cf') + 1) hc (by omega)
    have := nconf_prefix (near c1 (by omega) (by omega) (by omega))
    omega

/-- A candidate with a quorum of votes is the first leader of its term. -/
theorem no_lead (h : Inv Q g) {p cf' : Nat} {lg' : List Entry} {S' : Nat → Prop} (hr : (g.node p).role = .candidate)
    (hreq : DMsg.voteReq (g.node p).term p lg' cf' ∈ g.net) (hq : Q.isQ (lg'.take cf') S')
    (hS : ∀ u, S' u → DMsg.voteGrant (g.node p).term u p ∈ g.net) (c : Nat) (lg : List Entry) : DMsg.lead (g.node p).term c lg ∉ g.net := by
  intro hl
  obtain ⟨_, _, hn', hcov'⟩ := h.reqOk _ _ _ _ hreq
  obtain ⟨_, _, lg0, cf, S, r1, r2, r3, q, hs⟩ := h.leadOk _ _ _ hl
  obtain ⟨_, _, hn, hcov⟩ := h.reqOk _ _ _ _ r1
  by_cases h1 : nconf (lg0.take cf) ≤ nconf (lg'.take cf') + 1
  · by_cases h2 : nconf (lg'.take cf') ≤ nconf (lg0.take cf) + 1
    · obtain ⟨u, u1, u2⟩ := CSys.meet (h.cov_cmp hcov hcov') h1 h2 q hq
      have := h.grantUnique _ _ _ _ (hs u u1).1 (hS u u2)
      subst this
      exact (h.candNew c hr).2 lg hl
    · rcases hcov' with hc | ⟨T0, q0, cf0, c1, c2, c3⟩
      · rw [hc] at h2; simp [nconf] at h2
      · have := nconf_prefix (h.complete_req hl c1 c2 r2 r3)
        have := nconf_prefix c3
        omega
  · rcases hcov with hc | ⟨T0, q0, cf0, c1, c2, c3⟩
    · rw [hc] at h1; simp [nconf] at h1
    · have := nconf_prefix (h.win_complete hreq hq hS c1 c2)
      have := nconf_prefix c3
      omega

/-- What a leader commits is in the log of every later leader there already is. -/
theorem commit_complete (h : Inv Q g) {p k : Nat} {e : Entry} {S : Nat → Prop} (hr : (g.node p).role = .leader)
    (hcl : (g.node p).commit ≤ k + 1) (hk : (g.node p).log[k]? = some e)
    (he : e.term = (g.node p).term) (hq : Q.isQ ((g.node p).log.take (g.node p).conf) S)
    (ha : ∀ u, S u → ∃ j, k + 1 ≤ j ∧ DMsg.ack (g.node p).term u j ∈ g.net) :
    ∀ T' c' lg', DMsg.lead T' c' lg' ∈ g.net → (g.node p).term < T' → (g.node p).log.take (k + 1) <+: lg' := by
  intro T'
  induction T' using Nat.strongRecOn with
  | _ T' ih =>
  intro c' lg' hl hT
  apply Classical.byContradiction
  intro hno
  obtain ⟨hl0, hmax⟩ := h.leadNode p hr
  have hlc := h.leadConf p hr
  obtain ⟨hc1, hc2, hcov⟩ := h.commitOk p
  have hcovc : Cov g.net ((g.node p).term + 1) ((g.node p).log.take (g.node p).conf) := hcov.prefix (List.take_prefix_take_left hc1)
  obtain ⟨_, _, lg0, cf, S', r1, r2, r3, q, hs⟩ := h.leadOk _ _ _ hl
  obtain ⟨_, _, hn, hcov'⟩ := h.reqOk _ _ _ _ r1
  have hpn := nconf_take_le (g.node p).log (k + 1)
  by_cases h1 : nconf (lg0.take cf) ≤ nconf ((g.node p).log.take (g.node p).conf) + 1
  · by_cases h2 : nconf ((g.node p).log.take (g.node p).conf) ≤ nconf (lg0.take cf) + 1
    · obtain ⟨u, u1, u2⟩ := CSys.meet (h.cov_cmp hcovc hcov') h2 h1 hq q
      obtain ⟨j, hj, hja⟩ := ha u u1
      rcases (hs u u2).2 _ j _ _ k e hT hja hl0 hk he (by omega) with hp | ⟨T1, c1, lg1, e1, e2, e3, e4⟩
      · exact hno (hp.trans r2)
      · exact e4 (ih T1 e2 c1 lg1 e3 e1)
    · -- the later leader's configuration is much older
      rcases hcovc with hc | ⟨T3, q3, cf3, d1, d2, d3⟩
      · rw [hc] at h2; simp [nconf] at h2
      have d4 := nconf_prefix d3
      obtain ⟨T4, q4, cf4, f1, f2, f3, f4⟩ := h.confChain _ _ _ (nconf (lg0.take cf) + 1) d1 (by omega)
      have := nconf_prefix (h.complete_req hl f1 (by omega) r2 r3)
      omega
  · -- the later leader's configuration is much newer
    rcases hcov' with hc | ⟨T2, q2, cf2, d1, d2, d3⟩
    · rw [hc] at h1; simp [nconf] at h1
    have d4 := nconf_prefix d3
    rcases Nat.lt_or_ge (g.node p).term T2 with hlt | hge
    · obtain ⟨_, c2, lg2, k2, e2, S2, f1, f2, _⟩ := h.chosenOk _ _ _ d1
      have hp := ih T2 d2 c2 lg2 f1 hlt
      have hq2 : q2 <+: lg2 := by rw [f2]; exact List.take_prefix _ _
      have := prefix_of_nconf (List.prefix_or_prefix_of_prefix hp hq2) (by omega)
      exact hno (this.trans (h.complete _ _ _ _ _ _ hl d1 d2))
    · rcases h.chosen_cmp d1 hl0 hge (List.prefix_refl _) with hp | hp
      · have := nconf_prefix hp; omega
      · -- `q2` longer than the leader's log
        rcases Nat.lt_or_ge T2 (g.node p).term with hlt | hge2
        · have := nconf_prefix (h.complete _ _ _ _ _ _ hl0 d1 hlt); omega
        · have hTT : T2 = (g.node p).term := by omega
          subst hTT
          obtain ⟨_, c2, lg2, k2, e2, S2, f1, f2, _⟩ := h.chosenOk _ _ _ d1
          have hcc := h.leadUnique _ _ _ _ _ f1 hl0
          subst hcc
          have := nconf_prefix (hmax _ f1)
          have : nconf q2 ≤ nconf lg2 := by rw [f2]; exact nconf_take_le _ _
          omega

/-- An entry of term `T` in a voter's log is in every log at least as up to date, unless a leader after `T` lacks it. -/
theorem upToDate_keeps (h : Inv Q g) {log lg' lg : List Entry} {T c k : Nat} {e : Entry} (hm : Matched g.net log)
    (hm' : Matched g.net lg') (hu : UpToDate lg' log) (hl : DMsg.lead T c lg ∈ g.net) (hk : lg[k]? = some e) (he : e.term = T)
    (hp : lg.take (k + 1) <+: log) {B : Nat} (hB : ∀ e ∈ lg', e.term < B) : lg.take (k + 1) <+: lg' ∨ Lacks g.net T B (lg.take (k + 1)) := by
  have hT := (h.leadOk _ _ _ hl).1
  have hlen := take_length_of hk
  have hple := hp.length_le
  have hlogk : log[k]? = some e := by
    refine prefix_getElem?_some hp (k := k) ?_
    rw [List.getElem?_take_of_lt (by omega)]; exact hk
  obtain ⟨el, hel⟩ : ∃ el, log[log.length - 1]? = some el := ⟨_, List.getElem?_eq_getElem (by omega)⟩
  have h1 : T ≤ el.term := by
    rw [← he]
    exact h.matched_sorted hm k (log.length - 1) e el (by omega) hlogk hel
  have hlt := lastTerm_eq hel
  have hge : T ≤ lastTerm lg' := by
    rcases hu with hu | hu
    · omega
    · omega
  have hne : lg' ≠ [] := by
    intro hc; rw [hc, lastTerm_nil] at hge; omega
  have hpos := List.length_pos_iff.2 hne
  obtain ⟨f, hf⟩ : ∃ f, lg'[lg'.length - 1]? = some f := ⟨_, List.getElem?_eq_getElem (by omega)⟩
  have hft := lastTerm_eq hf
  obtain ⟨c2, l2, m2, p2⟩ := hm' _ _ hf
  rw [List.take_of_length_le (by omega)] at p2
  rcases Nat.lt_or_ge T f.term with hlt2 | hge2
  · by_cases hc : lg.take (k + 1) <+: l2
    · left
      refine prefix_le hc p2 ?_
      rw [hlen]
      rcases Nat.lt_or_ge k lg'.length with hh | hh
      · exact hh
      · exfalso
        have e1 : l2[lg'.length - 1]? = some f := prefix_getElem?_some p2 hf
        have e2 : l2[k]? = some e := by
          refine prefix_getElem?_some hc (k := k) ?_
          rw [List.getElem?_take_of_lt (by omega)]; exact hk
        have := (h.leadTerms _ _ _ m2).1 (lg'.length - 1) k f e (by omega) e1 e2
        omega
    · exact Or.inr ⟨f.term, c2, l2, hlt2, hB f (List.mem_of_getElem? hf), m2, hc⟩
  · left
    have hfT : f.term = T := by omega
    rw [hfT] at m2
    have hlen2 : log.length ≤ lg'.length := by
      rcases hu with hu | hu
      · omega
      · exact hu.2
    rcases h.lead_cmp hl m2 (List.take_prefix (k + 1) lg) p2 with hc | hc
    · exact hc
    · rw [hc.eq_of_length_le (by omega)]
      exact List.prefix_refl _

end Inv
end Craft.Dyn
