import Verif.Node.Sim
import Verif.Node.LogInv
import Verif.Props.ReadOnly
import Verif.Props.NodeSend
import Verif.Proofs.Inflights

/-! # When a node cannot abort

`Raft.Safe` collects what a node needs to be true of itself, `MsgSafe` what it needs to be true of the message it handles, so
that no `CRAFT_LOG_FATAL`, assert or undefined operation is reached. This directory proves that `Safe` is preserved and that
every call of a safe node with a safe message returns. `Verif.Cluster.Live` discharges the conditions for clusters (C52). -/

namespace Craft
open Spec

/-- The call returns, with a result satisfying `P`. -/
def Res.Sat {α : Type} (x : Res α) (P : α → Prop) : Prop := ∃ a, x = .ok a ∧ P a

namespace Res.Sat
variable {α β : Type} {x : Res α} {P Q : α → Prop}

theorem ok {a : α} (h : P a) : (Res.ok a).Sat P := ⟨a, rfl, h⟩
theorem pure {a : α} (h : P a) : (Pure.pure a : Res α).Sat P := ⟨a, rfl, h⟩

theorem bind {f : α → Res β} {R : β → Prop} (h : x.Sat P) (hf : ∀ a, P a → (f a).Sat R) : (x >>= f).Sat R := by
  obtain ⟨a, rfl, ha⟩ := h
  exact hf a ha

theorem mono (h : x.Sat P) (hp : ∀ a, P a → Q a) : x.Sat Q := by
  obtain ⟨a, h1, h2⟩ := h
  exact ⟨a, h1, hp a h2⟩

theorem of_eq {a : α} (h : x = .ok a) (hp : P a) : x.Sat P := ⟨a, h, hp⟩

end Res.Sat

/-- What is known about the cluster around the node: `lead T b`: node `b` has led term `T` and told somebody so; the position
every log has at least reached (its last term and index). -/
structure Around where
  lead : Nat → Nat → Prop
  unique : ∀ {T a b}, lead T a → lead T b → a = b
  bTerm : Nat
  bIndex : Nat

/-- The position (`t`, `i`) is at least the common one. -/
def Around.Past (K : Around) (t i : Nat) : Prop := K.bTerm < t ∨ (t = K.bTerm ∧ K.bIndex ≤ i)

/-- Every configuration change in the entries can be parsed. -/
def Parses (env : Env) (es : List Entry) : Prop :=
  ∀ e ∈ es, (e.type = .confChange → env.parseV1 e.data ≠ none) ∧ (e.type = .confChangeV2 → env.parseV2 e.data ≠ none)

/-- What the recipient of a message will rely on. -/
def NetOk (K : Around) (env : Env) (m : Message) : Prop :=
  match m.type with
  | .vote => m.term ≠ 0
  | .preVote => m.term ≠ 0 ∧ K.Past m.logTerm m.index
  | .prop => m.term = 0 ∧ m.entries ≠ [] ∧ Parses env m.entries
  | .readIndex => m.term = 0 ∧ m.entries ≠ []
  | .transferLeader => K.lead m.term m.to
  | .snap => m.src ≠ m.to ∧ (m.snapshot.getD {}).metadata.index ≠ 0
  | .app | .heartbeat | .appResp | .heartbeatResp => m.src ≠ m.to
  | _ => True

/-- A peer's flow-control window is a proper FIFO of size `sz`. -/
def InflOk (sz : Nat) (p : Progress) : Prop := ∃ q, p.inflights.Rep sz q

/-- The compacted part of the storage is covered by its snapshot. -/
def Storage.Tidy (st : Storage) : Prop := st.view.base ≤ st.snapshot.metadata.index

/-- What the log must satisfy. -/
structure LSafe (l : RaftLog) : Prop where
  linv : LInv l
  zero : l.view.termAt 0 = 0
  tidy : l.storage.Tidy

/-- What a leader records of its peers: it never sends from index 0, and it knows of itself that it has its whole log. -/
def Raft.NextOk (r : Raft) (id : Nat) (p : Progress) : Prop :=
  1 ≤ p.next ∧ (id = r.id → p.mtch = r.log.lastIndex ∧ r.log.lastIndex < p.next)

structure Raft.Safe (K : Around) (env : Env) (r : Raft) : Prop where
  log : LSafe r.log
  id : r.id ≠ 0
  self : r.state = .candidate ∨ r.state = .preCandidate → ∃ p, r.pr r.id = some p
  tpos : r.state = .leader ∨ r.state = .candidate → r.term ≠ 0
  infl : ∃ sz : Nat, r.trk.maxInflight = sz ∧ 0 < sz ∧ sz ≤ 2 ^ 30 ∧ ∀ id p, r.pr id = some p → InflOk sz p
  next : r.state = .leader → ∀ id p, r.pr id = some p → r.NextOk id p
  ro : r.readOnly.Inv
  pend : ∀ m ∈ r.pendingReadIndexMessages, m.entries ≠ []
  lead : r.state = .follower → r.lead ≠ 0 → r.lead ≠ r.id ∧ K.lead r.term r.lead
  out : ∀ m ∈ r.msgs, NetOk K env m

/-- Everything the sending functions leave alone. -/
structure Raft.Same (r r' : Raft) : Prop where
  state : r'.state = r.state
  id : r'.id = r.id
  log : r'.log = r.log
  term : r'.term = r.term
  lead : r'.lead = r.lead
  vote : r'.vote = r.vote
  peers : ∀ id, (r'.pr id).isSome = (r.pr id).isSome

namespace Raft
variable {K : Around} {env : Env} {r r' : Raft}

theorem Same.refl : Same r r := ⟨rfl, rfl, rfl, rfl, rfl, rfl, fun _ => rfl⟩

theorem Same.trans {a b c : Raft} (h1 : Same a b) (h2 : Same b c) : Same a c :=
  ⟨h2.state.trans h1.state, h2.id.trans h1.id, h2.log.trans h1.log, h2.term.trans h1.term, h2.lead.trans h1.lead,
    h2.vote.trans h1.vote, fun id => (h2.peers id).trans (h1.peers id)⟩

theorem Same.pr {id : Nat} {p : Progress} (h : Same r r') (hp : r.pr id = some p) : ∃ p', r'.pr id = some p' := by
  have := h.peers id
  rw [hp] at this
  exact Option.isSome_iff_exists.1 this

/-- What the sending functions promise. -/
def Sends (K : Around) (env : Env) (r : Raft) (r' : Raft) : Prop := Safe K env r' ∧ Same r r'

theorem Sends.refl (h : Safe K env r) : Sends K env r r := ⟨h, .refl⟩

theorem Sends.trans {a b c : Raft} (h1 : Sends K env a b) (h2 : Sends K env b c) : Sends K env a c := ⟨h2.1, h1.2.trans h2.2⟩

/-- The term rule of `Send`. -/
def TermRule (m : Message) : Prop :=
  if m.type = .vote ∨ m.type = .voteResp ∨ m.type = .preVote ∨ m.type = .preVoteResp then m.term ≠ 0 else m.term = 0

theorem send_eq {m : Message} (ht : TermRule m) : r.send m = .ok { r with msgs := r.msgs ++ [r.outMsg m] } := by
  have hty : (if m.src = 0 then { m with src := r.id } else m).type = m.type := by split <;> rfl
  have hte : (if m.src = 0 then { m with src := r.id } else m).term = m.term := by split <;> rfl
  have ht' : TermRule (if m.src = 0 then { m with src := r.id } else m) := by
    unfold TermRule at ht ⊢
    rw [hty, hte]
    exact ht
  cases h : r.send m with
  | ok r' => rw [send_ok h]
  | fatal s =>
    exfalso
    unfold send at h
    revert h ht'
    dsimp only
    generalize (if m.src = 0 then { m with src := r.id } else m) = x
    unfold TermRule
    cases x.type <;> intro ht h <;> simp at ht <;> simp [ht] at h
  | ub s =>
    exfalso
    unfold send at h
    revert h
    dsimp only
    generalize (if m.src = 0 then { m with src := r.id } else m) = x
    cases x.type <;> simp <;> split <;> simp

theorem send_safe {m : Message} (h : Safe K env r) (ht : TermRule m) (ho : NetOk K env (r.outMsg m)) : (r.send m).Sat (Sends K env r) := by
  refine .of_eq (send_eq ht) ⟨?_, ⟨rfl, rfl, rfl, rfl, rfl, rfl, fun _ => rfl⟩⟩
  refine { h with out := ?_ }
  intro x hx
  rcases List.mem_append.1 hx with h1 | h1
  · exact h.out x h1
  · rw [List.mem_singleton.1 h1]; exact ho

theorem pr_setPr_ne (r : Raft) {id k : Nat} (p : Progress) (hk : k ≠ id) : (r.setPr id p).pr k = r.pr k := by
  unfold Raft.pr setPr Tracker.setPr
  exact AMap.find_insert_ne _ _ (fun h => hk h.symm)

theorem setPr_safe {id : Nat} {p p' : Progress} (h : Safe K env r) (hp : r.pr id = some p)
    (hi : ∀ sz, InflOk sz p → InflOk sz p') (hn : r.state = .leader → r.NextOk id p → r.NextOk id p') : Sends K env r (r.setPr id p') := by
  have hf : ∀ k q, (r.setPr id p').pr k = some q → (k = id ∧ q = p') ∨ (k ≠ id ∧ r.pr k = some q) := by
    intro k q hq
    by_cases hk : k = id
    · subst hk
      rw [pr_setPr] at hq
      exact Or.inl ⟨rfl, by cases hq; rfl⟩
    · rw [pr_setPr_ne _ _ hk] at hq
      exact Or.inr ⟨hk, hq⟩
  have hpe : ∀ k, ((r.setPr id p').pr k).isSome = (r.pr k).isSome := by
    intro k
    by_cases hk : k = id
    · subst hk; rw [pr_setPr, hp]; rfl
    · rw [pr_setPr_ne _ _ hk]
  refine ⟨⟨h.log, h.id, ?_, h.tpos, ?_, ?_, h.ro, h.pend, h.lead, h.out⟩, ⟨rfl, rfl, rfl, rfl, rfl, rfl, hpe⟩⟩
  · intro hs
    obtain ⟨q, hq⟩ := h.self hs
    have := hpe r.id
    rw [hq] at this
    exact Option.isSome_iff_exists.1 this
  · obtain ⟨sz, h1, h2, h3, h4⟩ := h.infl
    refine ⟨sz, h1, h2, h3, fun k q hq => ?_⟩
    rcases hf k q hq with ⟨rfl, rfl⟩ | ⟨_, hq⟩
    · exact hi sz (h4 _ _ hp)
    · exact h4 k q hq
  · intro hl k q hq
    rcases hf k q hq with ⟨rfl, rfl⟩ | ⟨_, hq⟩
    · exact hn hl (h.next hl _ _ hp)
    · exact h.next hl k q hq

theorem NextOk.peer {id : Nat} {p : Progress} (h : id ≠ r.id) (hn : 1 ≤ p.next) : r.NextOk id p := ⟨hn, fun he => absurd he h⟩

theorem getPr_eq {id : Nat} {s : String} {p : Progress} (h : r.pr id = some p) : r.getPr id s = .ok p := by
  unfold getPr; rw [h]

/-- The compacted part being covered by the snapshot, a compacted position means there is a snapshot to send. -/
theorem LSafe.snap {l : RaftLog} (h : LSafe l) {i : Nat} (hi : 1 ≤ i) (hb : i ≤ l.view.base) : isEmptySnap l.snapshot = false := by
  unfold isEmptySnap RaftLog.snapshot
  have ht := h.tidy
  unfold Storage.Tidy at ht
  cases hs : l.unstable.snapshot with
  | some s =>
    have := (h.linv.pend s hs).1
    simp only [decide_eq_false_iff_not]
    omega
  | none =>
    rw [RaftLog.view_nosnap hs] at hb
    show decide (l.storage.snapshot.metadata.index = 0) = false
    rw [decide_eq_false_iff_not]
    dsimp only at hb
    omega

theorem inflOk_reset {sz : Nat} {p : Progress} (st : PrState) (h : InflOk sz p) : InflOk sz (p.resetState st) := by
  obtain ⟨q, h⟩ := h
  exact ⟨[], Inflights.rep_reset h⟩

theorem maybeSendAppend_safe {to : Nat} {sie : Bool} {p : Progress} (h : Safe K env r) (hl : r.state = .leader) (hp : r.pr to = some p)
    (hto : to ≠ r.id) : (r.maybeSendAppend env to sie).Sat fun x => Sends K env r x.1 := by
  have hw := h.log.linv.wf
  have hnx := (h.next hl _ _ hp).1
  unfold maybeSendAppend
  rw [getPr_eq hp]
  simp only [Res.ok_bind]
  by_cases hpa : p.isPaused = true
  · rw [if_pos hpa]; exact .pure (.refl h)
  rw [if_neg hpa, hw.term_eq, hw.entries_eq]
  simp only [Res.ok_bind]
  have hsend : ∀ (es : List Entry) (_ : ∀ e, es.getLast? = some e → True),
      (if es = [] ∧ ¬ sie = true then pure (r, false) else do
        let pr ← (match es.getLast? with
          | none => pure p
          | some e =>
            match p.state with
            | .replicate => do
              let infl ← (p.optimisticUpdate e.index).inflights.add e.index
              pure { p.optimisticUpdate e.index with inflights := infl }
            | .probe => pure { p with probeSent := true }
            | .snapshot => Res.fatal "raft.cc:383" : Res Progress)
        let r ← (r.setPr to pr).send
          { type := .app, to := to, index := sub64 p.next 1, logTerm := r.log.view.termAt (sub64 p.next 1), entries := es
            commit := r.log.committed }
        pure (r, true) : Res (Raft × Bool)).Sat fun x => Sends K env r x.1 := by
    intro es _
    by_cases hes : es = [] ∧ ¬ sie = true
    · rw [if_pos hes]; exact .pure (.refl h)
    rw [if_neg hes]
    refine Res.Sat.bind (P := fun p' => p'.mtch = p.mtch ∧ (∀ sz, InflOk sz p → InflOk sz p') ∧ 1 ≤ p'.next) ?_ ?_
    · cases hla : es.getLast? with
      | none => exact .pure ⟨rfl, fun _ h => h, hnx⟩
      | some e =>
        dsimp only
        cases hst : p.state with
        | probe => exact .pure ⟨rfl, fun _ h => h, hnx⟩
        | snapshot => exfalso; apply hpa; unfold Progress.isPaused; rw [hst]
        | replicate =>
          dsimp only
          obtain ⟨sz, h1, h2, h3, h4⟩ := h.infl
          obtain ⟨q, hq⟩ := h4 _ _ hp
          have hnf : p.inflights.full ≠ true := by
            intro hf; apply hpa; unfold Progress.isPaused; rw [hst]; exact hf
          have hlt : q.length < sz := by
            have := mt (Inflights.rep_full hq).2 hnf
            have := hq.len_le
            omega
          obtain ⟨f', hf1, hf2⟩ := Inflights.rep_add e.index hq hlt
          refine Res.Sat.bind (P := fun f => f = f') ⟨f', hf1, rfl⟩ ?_
          rintro _ rfl
          refine .pure ⟨rfl, fun sz' h' => ?_, by show 1 ≤ e.index + 1; omega⟩
          obtain ⟨q', hq'⟩ := h'
          have : sz' = sz := by have h1 := hq'.size_eq; have h2 := hq.size_eq; omega
          subst this
          exact ⟨_, hf2⟩
    · rintro p' ⟨e1, e2, e3⟩
      have h1 : Sends K env r (r.setPr to p') := setPr_safe h hp e2 (fun _ _ => .peer hto e3)
      refine Res.Sat.bind (P := Sends K env (r.setPr to p')) (send_safe h1.1 ?_ ?_) ?_
      · simp [TermRule]
      · show NetOk K env (outMsg _ _)
        unfold outMsg NetOk
        simp only
        intro he
        exact hto he.symm
      · intro r2 h2
        exact .pure (h1.trans h2)
  by_cases c1 : r.log.view.last < p.next
  · rw [if_pos c1]
    exact hsend [] (fun _ _ => trivial)
  rw [if_neg c1]
  by_cases c2 : p.next ≤ r.log.view.base
  · rw [if_pos c2]
    dsimp only [Res.ok_bind]
    by_cases hs : ([] : List Entry) = [] ∧ ¬ sie = true
    · rw [if_pos hs]; exact .pure (.refl h)
    rw [if_neg hs]
    by_cases hra : ¬ p.recentActive = true
    · rw [if_pos hra]; exact .pure (.refl h)
    rw [if_neg hra]
    rw [if_neg (by rw [LSafe.snap h.log hnx c2]; simp)]
    have h1 : Sends K env r (r.setPr to (p.becomeSnapshot r.log.snapshot.metadata.index)) :=
      setPr_safe h hp (fun _ hh => inflOk_reset .snapshot hh) (fun _ hh => hh)
    refine Res.Sat.bind (P := Sends K env (r.setPr to (p.becomeSnapshot r.log.snapshot.metadata.index))) (send_safe h1.1 ?_ ?_) ?_
    · simp [TermRule]
    · show NetOk K env (outMsg _ _)
      unfold outMsg NetOk
      simp only
      refine ⟨fun he => hto he.symm, ?_⟩
      have := LSafe.snap h.log hnx c2
      unfold isEmptySnap at this
      simpa using this
    · intro r2 h2
      exact .pure (h1.trans h2)
  · rw [if_neg c2]
    have := hsend (limitSize env.entSize (r.log.view.ents.drop (p.next - r.log.view.base - 1)) r.maxMsgSize) (fun _ _ => trivial)
    simp only [Res.ok_bind]
    revert this
    generalize limitSize env.entSize (r.log.view.ents.drop (p.next - r.log.view.base - 1)) r.maxMsgSize = es
    by_cases hes : es = [] ∧ ¬ sie = true
    · rw [if_pos hes, if_pos hes]; exact fun h => h
    rw [if_neg hes, if_neg hes]
    cases es.getLast? with
    | none => exact fun h => h
    | some e =>
      dsimp only
      cases p.state with
      | probe => exact fun h => h
      | snapshot => exact fun h => h
      | replicate =>
        dsimp only
        cases (p.optimisticUpdate e.index).inflights.add e.index <;> exact fun h => h

end Raft
end Craft
