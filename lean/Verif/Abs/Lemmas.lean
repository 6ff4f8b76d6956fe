import Verif.Abs.Protocol

/-! # Prefixes, sorted logs, and what follows from the invariant in one state -/

namespace Craft.Abs

theorem prefix_getElem? {α} {a b : List α} (h : a <+: b) {k : Nat} (hk : k < a.length) : b[k]? = a[k]? := by
  obtain ⟨t, rfl⟩ := h
  rw [List.getElem?_append_left hk]

theorem prefix_getElem?_some {α} {a b : List α} (h : a <+: b) {k : Nat} {e : α} (hk : a[k]? = some e) : b[k]? = some e := by
  rw [prefix_getElem? h (List.getElem?_eq_some_iff.1 hk).1, hk]

theorem take_prefix_of {α} {a b : List α} (h : a <+: b) (n : Nat) : a.take n <+: b := (List.take_prefix n a).trans h

/-- Prefixes of one list are ordered by length. -/
theorem prefix_le {α} {a b c : List α} (h1 : a <+: c) (h2 : b <+: c) (hl : a.length ≤ b.length) : a <+: b :=
  List.prefix_of_prefix_length_le h1 h2 hl

theorem take_eq_of_prefix {α} {a b : List α} (h : a <+: b) {n : Nat} (hn : n ≤ a.length) : b.take n = a.take n := by
  obtain ⟨t, rfl⟩ := h
  rw [List.take_append_of_le_length hn]

theorem take_length_of {α} {a : List α} {k : Nat} {e : α} (h : a[k]? = some e) : (a.take (k + 1)).length = k + 1 := by
  have := (List.getElem?_eq_some_iff.1 h).1
  rw [List.length_take]; omega

theorem prefix_accept_right (log full : List Entry) : full <+: accept log full := by
  unfold accept
  split
  · assumption
  · exact List.prefix_refl _

/-- Something in `log` survives `accept` if it is comparable with `full`. -/
theorem prefix_accept_left {log full x : List Entry} (hx : x <+: log) (hc : x <+: full ∨ full <+: x) : x <+: accept log full := by
  unfold accept
  split
  · exact hx
  · rename_i hn
    rcases hc with hc | hc
    · exact hc
    · exact absurd (hc.trans hx) hn

theorem accept_prefix {log full : List Entry} : accept log full = log ∨ accept log full = full := by
  unfold accept
  split
  · exact Or.inl rfl
  · exact Or.inr rfl

theorem Matched.mono {N N' : List AMsg} {X : List Entry} (h : Matched N X) (hn : ∀ m ∈ N, m ∈ N') : Matched N' X := by
  intro k e he
  obtain ⟨c, lg, h1, h2⟩ := h k e he
  exact ⟨c, lg, hn _ h1, h2⟩

theorem Matched.prefix {N : List AMsg} {X Y : List Entry} (h : Matched N X) (hp : Y <+: X) : Matched N Y := by
  intro k e he
  obtain ⟨c, lg, h1, h2⟩ := h k e (prefix_getElem?_some hp he)
  refine ⟨c, lg, h1, ?_⟩
  rw [← take_eq_of_prefix hp (by have := (List.getElem?_eq_some_iff.1 he).1; omega)]
  exact h2

theorem Matched.nil {N : List AMsg} : Matched N [] := by
  intro k e he; simp at he

theorem lastTerm_eq {l : List Entry} {e : Entry} (h : l[l.length - 1]? = some e) : lastTerm l = e.term := by
  unfold lastTerm
  rw [List.getLast?_eq_getElem?, h]; rfl

theorem lastTerm_nil : lastTerm [] = 0 := rfl

namespace Inv
variable {Q : QSys} {g : AState}

theorem leadSame (h : Inv Q g) {T c c' : Nat} {lg lg' : List Entry} (h1 : AMsg.lead T c lg ∈ g.net) (h2 : AMsg.lead T c' lg' ∈ g.net) :
    c = c' ∧ (lg <+: lg' ∨ lg' <+: lg) := by
  obtain ⟨_, _, S, q1, g1⟩ := h.leadOk _ _ _ h1
  obtain ⟨_, _, S', q2, g2⟩ := h.leadOk _ _ _ h2
  obtain ⟨v, v1, v2⟩ := Q.inter q1 q2
  have := h.grantUnique _ _ _ _ (g1 v v1) (g2 v v2)
  subst this
  exact ⟨rfl, h.leadChain _ _ _ _ h1 h2⟩

/-- Prefixes of logs of one term's leader are comparable. -/
theorem lead_cmp (h : Inv Q g) {T c c' : Nat} {lg lg' x y : List Entry} (h1 : AMsg.lead T c lg ∈ g.net) (h2 : AMsg.lead T c' lg' ∈ g.net)
    (hx : x <+: lg) (hy : y <+: lg') : x <+: y ∨ y <+: x := by
  rcases (h.leadSame h1 h2).2 with hc | hc
  · exact List.prefix_or_prefix_of_prefix (hx.trans hc) hy
  · exact List.prefix_or_prefix_of_prefix hx (hy.trans hc)

theorem matched_sorted (h : Inv Q g) {X : List Entry} (hm : Matched g.net X) : Sorted X := by
  intro i j a b hij ha hb
  obtain ⟨c, lg, h1, h2⟩ := hm j b hb
  have hl := take_length_of hb
  have e1 : lg[i]? = some a := by
    refine prefix_getElem?_some h2 (k := i) ?_
    rw [List.getElem?_take_of_lt (by omega)]; exact ha
  have e2 : lg[j]? = some b := by
    refine prefix_getElem?_some h2 (k := j) ?_
    rw [List.getElem?_take_of_lt (by omega)]; exact hb
  exact (h.leadTerms _ _ _ h1).1 i j a b hij e1 e2

/-- Log matching. -/
theorem matching (h : Inv Q g) {X Y : List Entry} (hx : Matched g.net X) (hy : Matched g.net Y) {k : Nat} {a b : Entry}
    (ha : X[k]? = some a) (hb : Y[k]? = some b) (ht : a.term = b.term) : X.take (k + 1) = Y.take (k + 1) := by
  obtain ⟨c1, l1, m1, p1⟩ := hx k a ha
  obtain ⟨c2, l2, m2, p2⟩ := hy k b hb
  rw [← ht] at m2
  have e1 := take_length_of ha
  have e2 := take_length_of hb
  rcases h.lead_cmp m1 m2 p1 p2 with hc | hc
  · exact hc.eq_of_length (by omega)
  · exact (hc.eq_of_length (by omega)).symm

theorem not_blocked (h : Inv Q g) {T k : Nat} {S : Nat → Prop} (hq : Q.isQ S)
    (hs : ∀ u, S u → ∃ j, k ≤ j ∧ AMsg.ack T u j ∈ g.net) : ¬ Blocked Q g T k := by
  rintro ⟨S', hq', hb⟩
  obtain ⟨v, v1, v2⟩ := Q.inter hq hq'
  obtain ⟨j, hj, ha⟩ := hs v v1
  exact (hb v v2).2 j hj ha

/-- What is chosen in a term is in the log of every later leader. -/
theorem chosen_later (h : Inv Q g) {T T' c' : Nat} {pre lg' : List Entry} (h1 : AMsg.chosen T pre ∈ g.net)
    (h2 : AMsg.lead T' c' lg' ∈ g.net) (hT : T < T') : pre <+: lg' := by
  obtain ⟨c, lg, k, e, l1, rfl, l2, l3, S, q, a⟩ := h.chosenOk _ _ h1
  rcases h.complete _ _ _ _ _ _ _ _ h2 l1 hT l2 l3 with hp | hb
  · exact hp
  · exact absurd hb (h.not_blocked q a)

/-- What is chosen in a term up to `T` is comparable with any prefix of a log of the leader of `T`. -/
theorem chosen_cmp (h : Inv Q g) {T T' c' : Nat} {pre lg' x : List Entry} (h1 : AMsg.chosen T pre ∈ g.net)
    (h2 : AMsg.lead T' c' lg' ∈ g.net) (hT : T ≤ T') (hx : x <+: lg') : pre <+: x ∨ x <+: pre := by
  rcases Nat.lt_or_ge T T' with hlt | hge
  · exact List.prefix_or_prefix_of_prefix (h.chosen_later h1 h2 hlt) hx
  · have : T = T' := Nat.le_antisymm hT hge
    subst this
    obtain ⟨c, lg, k, e, l1, rfl, l2, l3, S, q, a⟩ := h.chosenOk _ _ h1
    exact h.lead_cmp l1 h2 (List.take_prefix _ _) hx

theorem chosen_chain (h : Inv Q g) {T T' : Nat} {pre pre' : List Entry} (h1 : AMsg.chosen T pre ∈ g.net)
    (h2 : AMsg.chosen T' pre' ∈ g.net) : pre <+: pre' ∨ pre' <+: pre := by
  rcases Nat.le_total T T' with hT | hT
  · obtain ⟨c, lg, k, e, l1, rfl, _⟩ := h.chosenOk _ _ h2
    exact h.chosen_cmp h1 l1 hT (List.take_prefix _ _)
  · obtain ⟨c, lg, k, e, l1, rfl, _⟩ := h.chosenOk _ _ h1
    exact (h.chosen_cmp h2 l1 hT (List.take_prefix _ _)).symm

/-- An entry of term `T` in a voter's log is in every log at least as up to date (or can no longer be committed in `T`). -/
theorem upToDate_keeps (h : Inv Q g) {log lg' lg : List Entry} {T c k : Nat} {e : Entry} (hm : Matched g.net log)
    (hm' : Matched g.net lg') (hu : UpToDate lg' log) (hl : AMsg.lead T c lg ∈ g.net) (hk : lg[k]? = some e) (he : e.term = T)
    (hp : lg.take (k + 1) <+: log) : lg.take (k + 1) <+: lg' ∨ Blocked Q g T (k + 1) := by
  have hT := (h.leadOk _ _ _ hl).1
  have hlen := take_length_of hk
  have hple := hp.length_le
  have hlogk : log[k]? = some e := by
    refine prefix_getElem?_some hp (k := k) ?_
    rw [List.getElem?_take_of_lt (by omega)]; exact hk
  obtain ⟨el, hel⟩ : ∃ el, log[log.length - 1]? = some el := ⟨_, List.getElem?_eq_getElem (by omega)⟩
  have h1 : T ≤ el.term := by
    rw [← he]
    exact h.matched_sorted hm k (log.length - 1) e el (by omega) hlogk hel
  have hlt := lastTerm_eq hel
  have hge : T ≤ lastTerm lg' := by
    rcases hu with hu | hu
    · omega
    · omega
  have hne : lg' ≠ [] := by
    intro hc; rw [hc, lastTerm_nil] at hge; omega
  have hpos := List.length_pos_iff.2 hne
  obtain ⟨f, hf⟩ : ∃ f, lg'[lg'.length - 1]? = some f := ⟨_, List.getElem?_eq_getElem (by omega)⟩
  have hft := lastTerm_eq hf
  obtain ⟨c2, l2, m2, p2⟩ := hm' _ _ hf
  rw [List.take_of_length_le (by omega)] at p2
  rcases Nat.lt_or_ge T f.term with hlt2 | hge2
  · rcases h.complete _ _ _ _ _ _ _ _ m2 hl hlt2 hk he with hc | hb
    · left
      refine prefix_le hc p2 ?_
      rw [hlen]
      rcases Nat.lt_or_ge k lg'.length with hh | hh
      · exact hh
      · exfalso
        have e1 : l2[lg'.length - 1]? = some f := prefix_getElem?_some p2 hf
        have e2 : l2[k]? = some e := by
          refine prefix_getElem?_some hc (k := k) ?_
          rw [List.getElem?_take_of_lt (by omega)]; exact hk
        have := (h.leadTerms _ _ _ m2).1 (lg'.length - 1) k f e (by omega) e1 e2
        omega
    · exact Or.inr hb
  · left
    have hfT : f.term = T := by omega
    rw [hfT] at m2
    have hlen2 : log.length ≤ lg'.length := by
      rcases hu with hu | hu
      · omega
      · exact hu.2
    rcases h.lead_cmp hl m2 (List.take_prefix (k + 1) lg) p2 with hc | hc
    · exact hc
    · rw [hc.eq_of_length_le (by omega)]
      exact List.prefix_refl _

end Inv
end Craft.Abs
