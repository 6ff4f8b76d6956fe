import Verif.Safe.Leader
import Verif.Node.Durable

/-! # Changing the log and the role -/

namespace Craft
open Spec
namespace Raft
variable {K : Around} {env : Env} {r r' : Raft}

/-- What a leader's functions keep. -/
structure Works (K : Around) (env : Env) (r r' : Raft) : Prop where
  safe : Safe K env r'
  state : r'.state = r.state
  id : r'.id = r.id
  term : r'.term = r.term
  peers : ∀ id, (r'.pr id).isSome = (r.pr id).isSome

theorem Sends.works (h : Sends K env r r') : Works K env r r' := ⟨h.1, h.2.state, h.2.id, h.2.term, h.2.peers⟩

theorem Works.refl (h : Safe K env r) : Works K env r r := ⟨h, rfl, rfl, rfl, fun _ => rfl⟩

theorem Works.trans {a b c : Raft} (h1 : Works K env a b) (h2 : Works K env b c) : Works K env a c :=
  ⟨h2.safe, h2.state.trans h1.state, h2.id.trans h1.id, h2.term.trans h1.term, fun id => (h2.peers id).trans (h1.peers id)⟩

theorem Works.pr {id : Nat} {p : Progress} (h : Works K env r r') (hp : r.pr id = some p) : ∃ p', r'.pr id = some p' := by
  have := h.peers id
  rw [hp] at this
  exact Option.isSome_iff_exists.1 this

/-- The same node with another log. -/
theorem Safe.withLog {l : RaftLog} (h : Safe K env r) (hl : LSafe l) (hlast : r.state = .leader → l.lastIndex = r.log.lastIndex) :
    Safe K env { r with log := l } :=
  ⟨hl, h.id, h.self, h.tpos, h.infl, fun hs k q hq => ⟨(h.next hs k q hq).1, fun he => by
    show q.mtch = l.lastIndex ∧ l.lastIndex < q.next
    rw [hlast hs]; exact (h.next hs k q hq).2 he⟩, h.ro, h.pend, h.lead, h.out⟩

theorem maybeCommit_safe (h : Safe K env r) (ht : r.term ≠ 0) : r.maybeCommit.Sat fun x => Works K env r x.1 := by
  have hw := h.log.linv.wf
  unfold maybeCommit
  cases hm : r.log.maybeCommit r.trk.committed r.term with
  | ok x =>
    obtain ⟨l, b⟩ := x
    simp only [Res.ok_bind]
    obtain ⟨h1, h2⟩ := h.log.linv.step' (env := env) (o := []) (o' := []) (.maybeCommit _ _ hm)
    have h3 : l.storage = r.log.storage := by rw [(RaftLog.maybeCommit_shape hm).1]
    exact .pure ⟨h.withLog (h.log.next h1 h2 h3) (fun _ => by rw [(RaftLog.maybeCommit_shape hm).1]; rfl), rfl, rfl, rfl, fun _ => rfl⟩
  | fatal s =>
    exfalso
    rw [hw.maybeCommit_eq] at hm
    split at hm
    · rename_i c
      split at hm
      · rename_i c2
        rw [LogView.termAt_out (Or.inr c2)] at c
        exact ht c.2.symm
      · cases hm
    · cases hm
  | ub s =>
    exfalso
    rw [hw.maybeCommit_eq] at hm
    split at hm
    · split at hm <;> cases hm
    · cases hm

theorem append_total {l : RaftLog} (h : LInv l) (t : Nat) (es : List Entry) : ∃ l', l.append (stamp t (l.lastIndex + 1) es) = .ok l' := by
  cases es with
  | nil => exact ⟨l, rfl⟩
  | cons e es =>
    have hw := h.wf
    have hb : l.view.base < l.view.last + 1 := by unfold LogView.last; omega
    have hcl := h.com_last
    rw [hw.lastIndex_eq, hw.append_eq (stamp_contig t (l.view.last + 1) (e :: es)) (nomatch ·) hb (Nat.le_refl _), if_neg (by omega)]
    exact ⟨_, rfl⟩

theorem inflOk_maybeUpdate {sz n : Nat} {p : Progress} (h : InflOk sz p) : InflOk sz (p.maybeUpdate n).1 := by
  obtain ⟨q, h⟩ := h
  refine ⟨q, ?_⟩
  have : (p.maybeUpdate n).1.inflights = p.inflights := by unfold Progress.maybeUpdate; dsimp only; split <;> rfl
  rw [this]
  exact h

theorem maybeUpdate_next {n : Nat} {p : Progress} : 1 ≤ (p.maybeUpdate n).1.next := by
  unfold Progress.maybeUpdate; dsimp only; omega

theorem append_last_le {l l' : RaftLog} {t : Nat} {es : List Entry} (h : LInv l) (ha : l.append (stamp t (l.lastIndex + 1) es) = .ok l') :
    l.view.last ≤ l'.view.last := by
  rw [(append_view h.wf t ha).2]
  unfold LogView.push LogView.last
  rw [List.length_append]; dsimp only; omega

theorem appendEntry_safe {es : List Entry} (h : Safe K env r) (hl : r.state = .leader) (hself : ∃ p, r.pr r.id = some p) :
    (r.appendEntry es).Sat fun x => Works K env r x.1 ∧ (r.uncommittedSize = 0 → x.2 = true) := by
  unfold appendEntry increaseUncommittedSize
  dsimp only
  split
  · rename_i c
    simp only [Bool.false_eq_true, not_false_eq_true, if_true]
    exact .ok ⟨.refl h, fun h => by omega⟩
  · simp only [not_true_eq_false, if_false]
    obtain ⟨l, hap⟩ := append_total h.log.linv r.term es
    rw [hap]
    simp only [Res.ok_bind]
    have hb := h.log.linv.wf.lastIndex_eq
    have hbl : r.log.view.base ≤ r.log.view.last := Nat.le_add_right _ _
    obtain ⟨h1, h2⟩ := h.log.linv.step' (env := env) (o := []) (o' := []) (.append _ _ (stamp_contig _ _ _) (by omega) (Nat.le_refl _) hap)
    have h3 := RaftLog.append_storage hap
    generalize hu : r.uncommittedSize + payloads (stamp r.term (r.log.lastIndex + 1) es) = u
    obtain ⟨p, hp⟩ := hself
    rw [getPr_eq (r := { r with uncommittedSize := u, log := l }) (p := p) hp]
    simp only [Res.ok_bind]
    have hlen : r.log.lastIndex ≤ l.lastIndex := by
      rw [h.log.linv.wf.lastIndex_eq, h1.wf.lastIndex_eq]
      exact append_last_le h.log.linv hap
    have hs3 : Sends K env { r with uncommittedSize := u, log := l } (setPr { r with uncommittedSize := u, log := l } r.id (p.maybeUpdate l.lastIndex).1) := by
      have hf : ∀ k q, (setPr { r with uncommittedSize := u, log := l } r.id (p.maybeUpdate l.lastIndex).1).pr k = some q →
          (k = r.id ∧ q = (p.maybeUpdate l.lastIndex).1) ∨ (k ≠ r.id ∧ r.pr k = some q) := by
        intro k q hq
        by_cases hk : k = r.id
        · subst hk
          rw [pr_setPr] at hq
          exact Or.inl ⟨rfl, by cases hq; rfl⟩
        · rw [pr_setPr_ne _ _ hk] at hq
          exact Or.inr ⟨hk, hq⟩
      refine ⟨⟨h.log.next h1 h2 h3, h.id, fun hh => ?_, h.tpos, ?_, ?_, h.ro, h.pend, h.lead, h.out⟩, ⟨rfl, rfl, rfl, rfl, rfl, rfl, fun k => ?_⟩⟩
      · rcases hh with hh | hh <;> exact absurd (hl.symm.trans hh) (nomatch ·)
      · obtain ⟨sz, i1, i2, i3, i4⟩ := h.infl
        refine ⟨sz, i1, i2, i3, fun k q hq => ?_⟩
        rcases hf k q hq with ⟨rfl, rfl⟩ | ⟨_, hq⟩
        · exact inflOk_maybeUpdate (i4 _ _ hp)
        · exact i4 k q hq
      · intro _ k q hq
        rcases hf k q hq with ⟨rfl, rfl⟩ | ⟨hk, hq⟩
        · refine ⟨maybeUpdate_next, fun _ => ?_⟩
          have hm := ((h.next hl _ _ hp).2 rfl).1
          show (p.maybeUpdate l.lastIndex).1.mtch = l.lastIndex ∧ l.lastIndex < (p.maybeUpdate l.lastIndex).1.next
          unfold Progress.maybeUpdate
          dsimp only
          split
          · exact ⟨rfl, by omega⟩
          · exact ⟨by omega, by omega⟩
        · exact ⟨(h.next hl k q hq).1, fun he => absurd he hk⟩
      · by_cases hk : k = r.id
        · subst hk; rw [pr_setPr]
          exact (congrArg Option.isSome hp).symm
        · rw [pr_setPr_ne _ _ hk]
    refine (maybeCommit_safe hs3.1 (h.tpos (Or.inl hl))).bind fun x hx => .pure ⟨?_, fun _ => rfl⟩
    have hwk := hs3.works.trans hx
    exact ⟨hwk.safe, hwk.state, hwk.id, hwk.term, hwk.peers⟩

theorem reset_pr (r : Raft) (t k : Nat) :
    (r.reset env t).pr k = (r.pr k).map fun p => resetPr { r with term := t } k p := by
  unfold reset resetRandomizedElectionTimeout pr
  by_cases ht : r.term ≠ t
  · simp only [if_pos ht]
    refine (AMap.find_map _ _ _).trans ?_
    rfl
  · simp only [if_neg ht]
    refine (AMap.find_map _ _ _).trans ?_
    rfl

theorem reset_ro (r : Raft) (t : Nat) : (r.reset env t).readOnly = { option := r.readOnly.option } := by
  unfold reset resetRandomizedElectionTimeout
  by_cases ht : r.term ≠ t
  · simp only [if_pos ht]
  · simp only [if_neg ht]

theorem reset_pend (r : Raft) (t : Nat) : (r.reset env t).pendingReadIndexMessages = r.pendingReadIndexMessages := by
  unfold reset resetRandomizedElectionTimeout
  by_cases ht : r.term ≠ t
  · simp only [if_pos ht]
  · simp only [if_neg ht]

theorem reset_mi (r : Raft) (t : Nat) : (r.reset env t).trk.maxInflight = r.trk.maxInflight := by
  unfold reset resetRandomizedElectionTimeout
  by_cases ht : r.term ≠ t
  · simp only [if_pos ht]
  · simp only [if_neg ht]

theorem reset_uncommitted (r : Raft) (t : Nat) : (r.reset env t).uncommittedSize = 0 := by
  unfold reset resetRandomizedElectionTimeout
  by_cases ht : r.term ≠ t
  · simp only [if_pos ht]
  · simp only [if_neg ht]

theorem ReadOnly.inv_empty (o : ReadOnlyOption) : ({ option := o } : ReadOnly).Inv := ⟨rfl, .nil, fun _ _ h => nomatch h⟩

/-- `Reset` followed by a new role. -/
theorem reset_safe {t lead vote : Nat} {st : Role} (h : Safe K env r) (hself : st = .candidate ∨ st = .preCandidate → ∃ p, r.pr r.id = some p)
    (htp : st = .leader ∨ st = .candidate → t ≠ 0) (hlead : st = .follower → lead ≠ 0 → lead ≠ r.id ∧ K.lead t lead) :
    Safe K env { r.reset env t with lead := lead, vote := vote, state := st } := by
  have hpr : ∀ k q, (r.reset env t).pr k = some q → ∃ p, r.pr k = some p ∧ q = resetPr { r with term := t } k p := by
    intro k q hq
    rw [reset_pr] at hq
    cases hp : r.pr k with
    | none => rw [hp] at hq; cases hq
    | some p => rw [hp] at hq; cases hq; exact ⟨p, rfl, rfl⟩
  refine ⟨?_, ?_, ?_, ?_, ?_, ?_, ?_, ?_, ?_, ?_⟩
  · show LSafe (r.reset env t).log; rw [reset_log]; exact h.log
  · show (r.reset env t).id ≠ 0; rw [reset_id]; exact h.id
  · intro hs
    obtain ⟨p, hp⟩ := hself hs
    show ∃ q, (r.reset env t).pr (r.reset env t).id = some q
    rw [reset_id, reset_pr, hp]
    exact ⟨_, rfl⟩
  · intro hs
    show (r.reset env t).term ≠ 0
    rw [reset_term]; exact htp hs
  · obtain ⟨sz, h1, h2, h3, h4⟩ := h.infl
    refine ⟨sz, ?_, h2, h3, fun k q hq => ?_⟩
    · show (r.reset env t).trk.maxInflight = sz; rw [reset_mi]; exact h1
    · obtain ⟨p, hp, rfl⟩ := hpr k q hq
      refine ⟨[], ?_⟩
      have : (resetPr { r with term := t } k p).inflights = Inflights.new r.trk.maxInflight := by unfold resetPr; dsimp only; split <;> rfl
      rw [this, h1]
      exact Inflights.rep_new sz h2 h3
  · intro hs k q hq
    obtain ⟨p, hp, rfl⟩ := hpr k q hq
    have : (resetPr { r with term := t } k p).next = r.log.lastIndex + 1 := by unfold resetPr; dsimp only; split <;> rfl
    refine ⟨by omega, fun he => ?_⟩
    have hid : k = r.id := he.trans (reset_id (env := env) r t)
    have hlg : ({ r.reset env t with lead := lead, vote := vote, state := st } : Raft).log = r.log := reset_log (env := env) r t
    rw [hlg, this]
    refine ⟨?_, Nat.lt_succ_self _⟩
    unfold resetPr
    dsimp only
    rw [if_pos hid]
  · show (r.reset env t).readOnly.Inv; rw [reset_ro]; exact ReadOnly.inv_empty _
  · show ∀ m ∈ (r.reset env t).pendingReadIndexMessages, _; rw [reset_pend]; exact h.pend
  · intro hs hl
    have := hlead hs hl
    show lead ≠ (r.reset env t).id ∧ K.lead (r.reset env t).term lead
    rw [reset_id, reset_term]; exact this
  · show ∀ m ∈ (r.reset env t).msgs, _; rw [reset_msgs]; exact h.out

theorem becomeFollower_safe {t lead : Nat} (h : Safe K env r) (hlead : lead ≠ 0 → lead ≠ r.id ∧ K.lead t lead) :
    Safe K env (r.becomeFollower env t lead) := by
  unfold becomeFollower
  exact reset_safe (vote := (r.reset env t).vote) (st := .follower) h (fun hh => by rcases hh with hh | hh <;> cases hh) (fun hh => by rcases hh with hh | hh <;> cases hh) (fun _ => hlead)

end Raft
end Craft
