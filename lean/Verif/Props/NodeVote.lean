import Verif.Node.Durable
import Verif.Proofs.Log
import Verif.Demo

/-! # C29: at most one vote per term, across crashes -/

namespace Craft
open Spec

/-- The message is evidence that the node cast its vote of term `t` for `cand`: a granted vote, or its own candidacy. -/
def Cast (m : Message) (t cand : Nat) : Prop :=
  (m.type = .voteResp ∧ m.reject = false ∧ m.term = t ∧ m.to = cand) ∨ (m.type = .vote ∧ m.term = t ∧ m.src = cand)

/-- Votes cast so far agree with each other, and with a recorded term and vote. -/
structure Votes (S : List Message) (term vote : Nat) : Prop where
  agree : ∀ m ∈ S, ∀ m' ∈ S, ∀ t a b, Cast m t a → Cast m' t b → a = b
  bound : ∀ m ∈ S, ∀ t a, Cast m t a → a ≠ 0 ∧ (t < term ∨ (t = term ∧ vote = a))

/-- A candidate has voted for itself. -/
def SelfVote (c : Core) : Prop := c.state = .candidate → c.vote = c.id

theorem NStep.selfVote {env : Env} {im : Message} {c c' : Core} {ms : List Message} (h : NStep env im c ms c')
    (hid : c.id ≠ 0) (hv : SelfVote c) : SelfVote c' := by
  cases h with
  | core h =>
    cases h with
    | emit _ => exact hv
    | grant _ _ _ h =>
      intro hs
      have := hv hs
      rcases h with h | h
      · exact h.symm.trans this
      · exact absurd (this.symm.trans h) hid
    | candidate => exact fun _ => rfl
    | follower => exact fun h => nomatch h
    | preCandidate => exact fun h => nomatch h
    | leader => exact fun h => nomatch h
    | _ => exact hv
  | _ => exact hv

/-- A vote cast in a step is the recorded one. -/
theorem NStep.cast {env : Env} {im : Message} {c c' : Core} {ms : List Message} (h : NStep env im c ms c')
    (hid : c.id ≠ 0) (hsrc : im.type = .vote → im.src ≠ 0) (hv : SelfVote c) {m : Message} (hm : m ∈ ms) {t a : Nat}
    (hc : Cast m t a) : t = c'.term ∧ c'.vote = a ∧ a ≠ 0 := by
  cases h with
  | core h =>
    cases h with
    | emit he =>
      simp only [List.mem_singleton] at hm
      subst hm
      rcases hc with ⟨h1, h2, h3, h4⟩ | ⟨h1, h2, h3⟩
      · unfold Emit at he
        simp only [h1] at he
        rw [he.2.2.1] at h2
        cases h2
      · unfold Emit at he
        simp only [h1] at he
        exact ⟨h2.symm.trans he.2.1, (hv he.2.2.1).trans (he.1.symm.trans h3), by rw [← h3, he.1]; exact hid⟩
    | grant h1 h2 h3 h4 =>
      simp only [List.mem_singleton] at hm
      subst hm
      rcases hc with ⟨_, _, h6, h7⟩ | ⟨h6, _⟩
      · refine ⟨?_, h7, by rw [← h7]; exact hsrc h1⟩
        dsimp only at h6 ⊢
        rcases h3 with h3 | h3 | ⟨_, h3 | ⟨h3, _⟩⟩
        · exact absurd h3 h2
        · omega
        · rw [h1] at h3; cases h3
        · rw [h1] at h3; cases h3
      · cases h6
    | recvApp l last =>
      simp only [List.mem_singleton] at hm
      subst hm
      rcases hc with ⟨h, _⟩ | ⟨h, _⟩ <;> cases h
    | recvHeartbeat l =>
      simp only [List.mem_singleton] at hm
      subst hm
      rcases hc with ⟨h, _⟩ | ⟨h, _⟩ <;> cases h
    | _ => cases hm
  | _ => cases hm

theorem Votes.mono {S : List Message} {t v t' v' : Nat} (h : Votes S t v) (ht : t ≤ t') (hv : t' = t → v ≠ 0 → v' = v) : Votes S t' v' := by
  refine ⟨h.agree, fun m hm x a hc => ?_⟩
  obtain ⟨h0, h1⟩ := h.bound m hm x a hc
  refine ⟨h0, ?_⟩
  by_cases he : t' = t
  · rcases h1 with h1 | ⟨h1, h2⟩
    · exact Or.inl (by omega)
    · exact Or.inr ⟨by omega, by rw [hv he (by rw [h2]; exact h0), h2]⟩
  · left; rcases h1 with h1 | ⟨h1, _⟩ <;> omega

theorem Votes.step {env : Env} {im : Message} {c c' : Core} {ms S : List Message} (h : NStep env im c ms c')
    (hid : c.id ≠ 0) (hsrc : im.type = .vote → im.src ≠ 0) (hv : SelfVote c) (hS : Votes S c.term c.vote) :
    Votes (S ++ ms) c'.term c'.vote := by
  have hS' : Votes S c'.term c'.vote := hS.mono h.term_le fun e hne => h.vote_keep e hne
  have new := fun m hm t a => h.cast hid hsrc hv (m := m) hm (t := t) (a := a)
  constructor
  · intro m hm m' hm' t a b ca cb
    rcases List.mem_append.1 hm with hm | hm <;> rcases List.mem_append.1 hm' with hm' | hm'
    · exact hS.agree m hm m' hm' t a b ca cb
    · obtain ⟨e1, e2, _⟩ := new m' hm' t b cb
      obtain ⟨_, h1 | ⟨_, h1⟩⟩ := hS'.bound m hm t a ca
      · omega
      · exact h1.symm.trans e2
    · obtain ⟨e1, e2, _⟩ := new m hm t a ca
      obtain ⟨_, h1 | ⟨_, h1⟩⟩ := hS'.bound m' hm' t b cb
      · omega
      · exact e2.symm.trans h1
    · obtain ⟨_, e2, _⟩ := new m hm t a ca
      obtain ⟨_, e3, _⟩ := new m' hm' t b cb
      exact e2.symm.trans e3
  · intro m hm t a ca
    rcases List.mem_append.1 hm with hm | hm
    · exact hS'.bound m hm t a ca
    · obtain ⟨e1, e2, e3⟩ := new m hm t a ca
      exact ⟨e3, Or.inr ⟨e1, e2⟩⟩

theorem Votes.path {env : Env} {im : Message} {c c' : Core} {ms S : List Message} (h : NPath env im c ms c')
    (hid : c.id ≠ 0) (hsrc : im.type = .vote → im.src ≠ 0) (hv : SelfVote c) (hS : Votes S c.term c.vote) :
    Votes (S ++ ms) c'.term c'.vote ∧ SelfVote c' := by
  induction h generalizing S with
  | nil => rw [List.append_nil]; exact ⟨hS, hv⟩
  | cons hs _ ih =>
    rw [← List.append_assoc]
    exact ih (by rw [hs.id_eq]; exact hid) (hs.selfVote hid hv) (hS.step hs hid hsrc hv)

/-- The invariant of a node's history. -/
structure VoteInv (x : NodeHist) : Prop where
  id : x.node.raft.id ≠ 0
  self : SelfVote x.node.raft.core
  votes : Votes (x.sent ++ x.node.raft.msgs) x.node.raft.term x.node.raft.vote
  durable : Votes x.sent x.node.raft.log.storage.hardState.term x.node.raft.log.storage.hardState.vote

theorem Votes.sub {S S' : List Message} {t v : Nat} (h : Votes S t v) (hs : ∀ m ∈ S', m ∈ S) : Votes S' t v :=
  ⟨fun m hm m' hm' => h.agree m (hs m hm) m' (hs m' hm'), fun m hm => h.bound m (hs m hm)⟩

theorem Call.msg_src {env : Env} {n : RawNode} {c : Call} (h : c.Sourced) : (c.msg env n).type = .vote → (c.msg env n).src ≠ 0 := by
  cases c with
  | step m => exact h
  | tick => simp only [Call.msg]; split <;> (intro h; cases h)
  | _ => intro h; cases h

theorem RawNode.takeReady_ok {env : Env} {n n' : RawNode} {rd : Ready} (h : n.takeReady env = .ok (n', rd)) :
    n.readyWithoutAccept env = .ok rd ∧ ∃ st, n.raft.log.storage.save rd = .ok st ∧
      n' = ({ n.acceptReady rd with ready := some rd } : RawNode).withStorage st := by
  unfold RawNode.takeReady at h
  obtain ⟨⟨n1, rd1⟩, h1, h⟩ := Res.bind_eq_ok.1 h
  obtain ⟨st, hst, h⟩ := Res.bind_eq_ok.1 h
  simp only [Res.pure_eq, Res.ok.injEq, Prod.mk.injEq] at h
  obtain ⟨rfl, rfl⟩ := h
  obtain ⟨hr, rfl⟩ := getReady_ok h1
  exact ⟨hr, st, hst, rfl⟩

theorem VoteInv.new {env : Env} {c : Config} {st : Storage} {rng : Nat} {n : RawNode} {sent : List Message}
    (h : RawNode.new env c st rng = .ok n) (hS : Votes sent st.hardState.term st.hardState.vote) : VoteInv ⟨n, sent⟩ := by
  obtain ⟨hf, _, _, _⟩ := RawNode.new_ok h
  refine ⟨by dsimp only; rw [hf.id]; exact hf.id_ne, ?_, ?_, ?_⟩
  · intro h1
    have : n.raft.state = .candidate := h1
    rw [hf.state] at this; cases this
  · dsimp only; rw [hf.msgs, List.append_nil, hf.term, hf.vote]; exact hS
  · dsimp only; rw [hf.storage]; exact hS

theorem VoteInv.calls {env : Env} : ∀ (ccs : List ConfChangeI) {n n' : RawNode} {sent : List Message},
    RawNode.applyConfChanges env ccs n = .ok n' → n.raft.id ≠ 0 → SelfVote n.raft.core →
    Votes (sent ++ n.raft.msgs) n.raft.term n.raft.vote →
    n'.raft.id ≠ 0 ∧ SelfVote n'.raft.core ∧ Votes (sent ++ n'.raft.msgs) n'.raft.term n'.raft.vote
  | [], n, n', sent, h, h1, h2, h3 => by cases h; exact ⟨h1, h2, h3⟩
  | cc :: ccs, n, n', sent, h, h1, h2, h3 => by
    unfold RawNode.applyConfChanges at h
    obtain ⟨⟨n1, cs⟩, h4, h⟩ := Res.bind_eq_ok.1 h
    have hr : (Call.applyConfChange cc).run env n = .ok n1 := by
      show (do let (n, _) ← n.applyConfChange env cc; pure n) = _
      rw [h4]; rfl
    obtain ⟨_, cfg, P, _, ms, hms, hp⟩ := Call.run_path (c := .applyConfChange cc) trivial hr
    obtain ⟨v1, v2⟩ := Votes.path (c := { n.raft.core with config := cfg, progress := P }) hp h1 (by intro h; cases h) h2 h3
    refine VoteInv.calls ccs h ?_ v2 ?_
    · have : n1.raft.id = n.raft.id := hp.id_eq
      rw [this]; exact h1
    · rw [hms, if_neg (by intro h; cases h), ← List.append_assoc]; exact v1

theorem VoteInv.step {env : Env} {x y : NodeHist} (hd : Dur x.node) (hx : VoteInv x) (h : NodeStep env x y) : VoteInv y := by
  cases h with
  | call c hpl hs hsrc h =>
    obtain ⟨_, cfg, P, _, ms, hms, hp⟩ := Call.run_path hs h
    obtain ⟨v1, v2⟩ := Votes.path (c := { Raft.core _ with config := cfg, progress := P }) hp hx.id (Call.msg_src hsrc) hx.self hx.votes
    refine ⟨?_, v2, ?_, ?_⟩
    · have := hp.id_eq
      exact fun h0 => hx.id (this.symm.trans h0)
    · have hg : c ≠ .getReady := by rintro rfl; exact hpl
      dsimp only
      rw [hms, if_neg hg, ← List.append_assoc]; exact v1
    · dsimp only
      rw [Call.run_storage hs h]; exact hx.durable
  | ready ccs h =>
    rename_i n n' rd sent
    obtain ⟨e1, e2, e3⟩ := RawNode.handleReady_hard h
    have p1 := hd.persisted e3
    obtain ⟨n1, st, n2, h1, hst, h2, h3⟩ := RawNode.handleReady_ok h
    obtain ⟨_, rfl⟩ := getReady_ok h1
    have hmsg : rd.messages = n.raft.msgs := by
      obtain ⟨es, _, rfl⟩ := readyWithoutAccept_ok e3
      rfl
    have hv : Votes ((sent ++ rd.messages) ++ []) n.raft.term n.raft.vote := by
      rw [List.append_nil, hmsg]; exact hx.votes
    obtain ⟨i2, s2, v2⟩ := VoteInv.calls ccs h2 hx.id hx.self hv
    obtain ⟨_, cfg, P, _, ms, hms, hp⟩ := Call.run_path (env := env) (c := .advance) (n := n2) (n' := n') trivial h3
    obtain ⟨v3, s3⟩ := Votes.path (c := { n2.raft.core with config := cfg, progress := P }) hp i2 (by intro h; cases h) s2 v2
    refine ⟨?_, s3, ?_, ?_⟩
    · have : n'.raft.id = n2.raft.id := hp.id_eq
      dsimp only
      rw [this]; exact i2
    · dsimp only
      rw [hms, if_neg (by intro h; cases h), ← List.append_assoc]; exact v3
    · dsimp only
      rw [e1, p1.1, p1.2, hmsg]
      exact hx.votes
  | compact i h => exact ⟨hx.id, hx.self, hx.votes, by
      have := Storage.compact_hard h
      show Votes _ (Storage.hardState _).term (Storage.hardState _).vote
      dsimp only [RawNode.withStorage]
      rw [this]; exact hx.durable⟩
  | createSnapshot i cs data h => exact ⟨hx.id, hx.self, hx.votes, by
      have := Storage.createSnapshot_hard h
      show Votes _ (Storage.hardState _).term (Storage.hardState _).vote
      dsimp only [RawNode.withStorage]
      rw [this]; exact hx.durable⟩

theorem VoteInv.crash {env : Env} {x y : NodeHist} (hd : Dur x.node) (hx : VoteInv x) (h : NodeCrash env x y) : VoteInv y := by
  cases h with
  | idle c rng _ h => exact VoteInv.new h hx.durable
  | inReady c rng some hid ht hsome h =>
    obtain ⟨hr, st, hst, rfl⟩ := RawNode.takeReady_ok ht
    refine VoteInv.new h ?_
    have p1 := hd.persisted hr
    have e1 := Storage.save_hard hst
    show Votes _ st.hardState.term st.hardState.vote
    rw [e1, p1.1, p1.2]
    refine hx.votes.sub fun m hm => ?_
    rcases List.mem_append.1 hm with hm | hm
    · exact List.mem_append_left _ hm
    · refine List.mem_append_right _ ?_
      have := hsome m hm
      obtain ⟨es, _, rfl⟩ := readyWithoutAccept_ok hr
      exact this

theorem NodeReach.voteInv {env : Env} {x : NodeHist} (h : NodeReach env x) : VoteInv x := by
  induction h with
  | start c st rng h => exact VoteInv.new h ⟨(by intro m hm; cases hm), (by intro m hm; cases hm)⟩
  | @boot c rng peers n0 n h0 h =>
    have key : n.raft.id ≠ 0 ∧ SelfVote n.raft.core ∧ Votes ([] ++ n.raft.msgs) n.raft.term n.raft.vote := by
      refine RawNode.bootstrap_inv (fun n => n.raft.id ≠ 0 ∧ SelfVote n.raft.core ∧ Votes ([] ++ n.raft.msgs) n.raft.term n.raft.vote) h
        (fun l k es _ => ⟨?_, ?_, ?_⟩) fun cc a b h p => ?_
      · rw [show (n0.founder env l k).raft.id = n0.raft.id from congrArg Consts.id (n0.founder_keep env l k).1, (RawNode.new_ok h0).1.id]
        exact (RawNode.new_ok h0).1.id_ne
      · intro h; cases h
      · have hm : (n0.founder env l k).raft.msgs = [] := (Raft.reset_msgs (env := env) n0.raft 1).trans (RawNode.new_ok h0).1.msgs
        rw [hm]
        exact ⟨(by intro m hm; cases hm), (by intro m hm; cases hm)⟩
      · obtain ⟨n1, h1⟩ : ∃ x, a.applyConfChange env cc = .ok x := by
          obtain ⟨x, h1, _⟩ := Res.bind_eq_ok.1 h; exact ⟨x, h1⟩
        refine VoteInv.calls (env := env) [cc] ?_ p.1 p.2.1 p.2.2
        obtain ⟨x, h1, h2⟩ := Res.bind_eq_ok.1 h
        cases h2
        unfold RawNode.applyConfChanges
        rw [h1]
        rfl
    exact ⟨key.1, key.2.1, key.2.2, ⟨(by intro m hm; cases hm), (by intro m hm; cases hm)⟩⟩
  | step hr hs ih => exact ih.step hr.dur hs
  | crash hr hc ih => exact ih.crash hr.dur hc

/-! ## The property -/

/-- While the term stays the same, a recorded vote does not change, whatever the call. -/
theorem C29_vote_stable {env : Env} {c : Call} {n n' : RawNode} (hs : c.Stamped) (h : c.run env n = .ok n')
    (ht : n'.raft.term = n.raft.term) (hv : n.raft.vote ≠ 0) : n'.raft.vote = n.raft.vote := by
  obtain ⟨_, cfg, P, _, ms, _, hp⟩ := Call.run_path hs h
  exact hp.vote_keep ht hv

/-- A granted vote that a call puts in the outbox answers a vote request it was given: it goes to the requester, at the
request's term, which is now the node's term; the requester is the recorded vote; and the requester's log is at least as
up to date as the node's: a later last term, or the same last term and a last index at least as large. -/
theorem C29_grant {env : Env} {im : Message} {e : Option Err} {n n' : RawNode} (hw : n.raft.log.WF) (h : n.step env im = .ok (n', e))
    (hv : im.type = .vote) :
    ∃ ms, n'.raft.msgs = n.raft.msgs ++ ms ∧ n'.raft.log = n.raft.log ∧
      ∀ m ∈ ms, m.type = .voteResp → m.reject = false →
        ms = [m] ∧ m.to = im.src ∧ m.term = im.term ∧ n'.raft.term = im.term ∧ n'.raft.vote = im.src ∧
        (n.raft.term = im.term → n.raft.vote = 0 ∨ n.raft.vote = im.src) ∧
        (im.logTerm > n.raft.log.view.termAt n.raft.log.view.last ∨
          (im.logTerm = n.raft.log.view.termAt n.raft.log.view.last ∧ im.index ≥ n.raft.log.view.last)) := by
  have hnone : ∀ {n' : RawNode}, n' = n → ∃ ms, n'.raft.msgs = n.raft.msgs ++ ms ∧ n'.raft.log = n.raft.log ∧
      ∀ m ∈ ms, m.type = .voteResp → m.reject = false →
        ms = [m] ∧ m.to = im.src ∧ m.term = im.term ∧ n'.raft.term = im.term ∧ n'.raft.vote = im.src ∧
        (n.raft.term = im.term → n.raft.vote = 0 ∨ n.raft.vote = im.src) ∧
        (im.logTerm > n.raft.log.view.termAt n.raft.log.view.last ∨
          (im.logTerm = n.raft.log.view.termAt n.raft.log.view.last ∧ im.index ≥ n.raft.log.view.last)) := by
    rintro n' rfl
    exact ⟨[], (List.append_nil _).symm, rfl, fun m hm => nomatch hm⟩
  unfold RawNode.step at h
  split at h
  · simp only [Res.ok.injEq, Prod.mk.injEq] at h; exact hnone h.1.symm
  split at h
  rotate_left
  · simp only [Res.ok.injEq, Prod.mk.injEq] at h; exact hnone h.1.symm
  obtain ⟨h, hn⟩ := onRaft_ok h
  unfold Raft.step at h
  obtain ⟨g, hg, h⟩ := Res.bind_eq_ok.1 h
  have hbody : ∀ {r1 : Raft}, r1.log = n.raft.log → r1.msgs = n.raft.msgs → (n.raft.term = im.term → r1.vote = n.raft.vote) →
      GateOk im r1.core → r1.stepBody env im = .ok (n'.raft, e) → ∃ ms, n'.raft.msgs = n.raft.msgs ++ ms ∧ n'.raft.log = n.raft.log ∧
      ∀ m ∈ ms, m.type = .voteResp → m.reject = false →
        ms = [m] ∧ m.to = im.src ∧ m.term = im.term ∧ n'.raft.term = im.term ∧ n'.raft.vote = im.src ∧
        (n.raft.term = im.term → n.raft.vote = 0 ∨ n.raft.vote = im.src) ∧
        (im.logTerm > n.raft.log.view.termAt n.raft.log.view.last ∨
          (im.logTerm = n.raft.log.view.termAt n.raft.log.view.last ∧ im.index ≥ n.raft.log.view.last)) := by
    intro r1 hl hm hvt hgo h
    unfold Raft.stepBody at h
    simp only [hv] at h
    obtain ⟨r2, h2, h⟩ := Res.bind_eq_ok.1 h
    simp only [Res.pure_eq, Res.ok.injEq, Prod.mk.injEq] at h
    obtain ⟨rfl, -⟩ := h
    unfold Raft.stepVote at h2
    obtain ⟨up, hup, h2⟩ := Res.bind_eq_ok.1 h2
    obtain ⟨_, _, h2⟩ := Res.bind_eq_ok.1 h2
    obtain ⟨rt, hrt, h2⟩ := Res.bind_eq_ok.1 h2
    rw [hv] at hrt
    cases hrt
    cases up with
    | false =>
      simp only [Bool.false_eq_true, if_false] at h2
      have := Raft.send_ok h2
      rw [this]
      refine ⟨_, by rw [← hm], hl, ?_⟩
      intro m hmm _ hrej
      simp only [List.mem_singleton] at hmm
      subst hmm
      exact absurd hrej (by simp [Raft.outMsg])
    | true =>
      simp only [if_true, hv] at h2
      obtain ⟨r3, h3, h2⟩ := Res.bind_eq_ok.1 h2
      simp only [Res.pure_eq, Res.ok.injEq] at h2
      obtain ⟨hcg, hu⟩ := Raft.canGrant_ok hup rfl
      have hs := Raft.send_ok h3
      have h0 : im.term ≠ 0 := by
        intro h0
        rw [h0] at h3
        unfold Raft.send at h3
        simp at h3
      have ht : r1.term = im.term := by
        rcases hgo with h | h | ⟨_, h | ⟨h, _⟩⟩
        · exact absurd h h0
        · exact h.symm
        · rw [hv] at h; cases h
        · rw [hv] at h; cases h
      rw [hs] at h2
      rw [← h2]
      refine ⟨_, by rw [← hm], hl, ?_⟩
      intro m hmm _ hrej
      simp only [List.mem_singleton] at hmm
      subst hmm
      refine ⟨rfl, ?_, ?_, ht, rfl, ?_, ?_⟩
      · simp [Raft.outMsg]
      · simp [Raft.outMsg]
      · intro he
        rw [← hvt he]
        rcases hcg with h | h | ⟨h, _⟩
        · exact Or.inr h
        · exact Or.inl h.1
        · rw [hv] at h; cases h
      · rw [hl, hw.isUpToDate_eq] at hu
        simpa using hu
  rcases Raft.stepGate_cases hg with ⟨r1, rfl, hgo, h1⟩ | ⟨r1, rfl, hs⟩
  · dsimp only at h
    rcases h1 with rfl | ⟨hlt, lead, rfl⟩
    · exact hbody rfl rfl (fun _ => rfl) hgo h
    · have e1 : (n.raft.becomeFollower env im.term lead).log = n.raft.log :=
        congrArg Core.log (Raft.becomeFollower_core (env := env) n.raft im.term lead)
      have e2 : (n.raft.becomeFollower env im.term lead).msgs = n.raft.msgs := Raft.reset_msgs (env := env) n.raft im.term
      generalize n.raft.becomeFollower env im.term lead = r1 at e1 e2 hgo h
      exact hbody e1 e2 (fun he => absurd he (Nat.ne_of_lt hlt.1)) hgo h
  · simp only [Res.pure_eq, Res.ok.injEq, Prod.mk.injEq] at h
    unfold Raft.stepGate at hg
    rw [hv] at hg
    have hr1 : r1 = n.raft := by
      split at hg
      · cases hg
      split at hg
      · split at hg
        · obtain ⟨_, _, hg⟩ := Res.bind_eq_ok.1 hg
          cases hg; rfl
        · simp at hg
      · split at hg
        · simp at hg
          exact hg.symm
        · cases hg
    exact hnone (by rw [hn, ← h.1, hr1])

/-- Over any history of a node, through crashes and restarts at any point: all the votes it ever cast in one term — votes
granted to others and its own candidacies — name the same candidate. -/
theorem C29_one_vote_per_term {env : Env} {x : NodeHist} (hx : NodeReach env x) {m m' : Message} (hm : m ∈ x.sent) (hm' : m' ∈ x.sent)
    {t a b : Nat} (ha : Cast m t a) (hb : Cast m' t b) : a = b :=
  hx.voteInv.votes.agree m (List.mem_append_left _ hm) m' (List.mem_append_left _ hm') t a b ha hb

/-- The same for the votes waiting in the outbox, and with what is durable: the storage holds a later term, or the vote. -/
theorem C29_sent_votes_durable {env : Env} {x : NodeHist} (hx : NodeReach env x) {m : Message} (hm : m ∈ x.sent) {t a : Nat}
    (ha : Cast m t a) : a ≠ 0 ∧ (t < x.node.raft.log.storage.hardState.term ∨
      (t = x.node.raft.log.storage.hardState.term ∧ x.node.raft.log.storage.hardState.vote = a)) :=
  hx.voteInv.durable.bound m hm t a ha

/-- The hypotheses are met: node 2 grants its vote of term 1 to node 1, persists it, crashes, restarts and is asked by
node 3 for the same term: only the first request gets the vote. -/
def voter : RawNode := Demo.node 2 [.step { type := .vote, src := 1, to := 2, term := 1 }]

example : voter.raft.vote = 1 ∧ voter.raft.msgs.map (fun m => (m.type, m.to, m.reject)) = [(.voteResp, 1, false)] ∧
    (match voter.takeReady Demo.env with
      | .ok (n1, _) => match RawNode.new Demo.env (Demo.cfg 2) n1.raft.log.storage 0 with
        | .ok n2 => match n2.step Demo.env { type := .vote, src := 3, to := 2, term := 1 } with
          | .ok (n3, _) => decide (n3.raft.vote = 1 ∧ n3.raft.msgs.map (fun m => (m.type, m.to, m.reject)) = [(.voteResp, 3, true)])
          | _ => false
        | _ => false
      | _ => false) = true := by decide

end Craft
