import Verif.Spec.Group
import Verif.Props.Cut
import Verif.Props.Hist
import Verif.Props.NodeCore
import Verif.Dyn.ReadsMain

/-! # C94: a group of nodes with pre-vote that is cut off does not raise its terms -/

namespace Craft
open Spec
open Members (Harmless)

/-- Like `NPath.quiet`, for messages of a later term. -/
theorem NPath.adopts {env : Env} {im : Message} {c c' : Core} {ms : List Message} (h : NPath env im c ms c') (hc : ¬ CampMsg im)
    (hs : c.state ≠ .candidate) :
    c'.id = c.id ∧ ((c'.state = .follower ∧ (c'.term = im.term ∨ c'.term = c.term)) ∨ (c'.term = c.term ∧ c'.state = c.state ∧
      (c.state = .preCandidate → ∀ v, c'.votes.find v = some true → v = c.id ∨ c.votes.find v = some true))) := by
  by_cases ht : im.term ≤ c.term
  · obtain ⟨k0, k1, k2⟩ := h.quiet hc ht hs
    exact ⟨k0, k2.elim (fun k => Or.inl ⟨k, Or.inr k1⟩) fun k => Or.inr ⟨k1, k⟩⟩
  induction h with
  | nil => exact ⟨rfl, Or.inr ⟨rfl, rfl, fun _ v h => Or.inr h⟩⟩
  | @cons c b c' ms ms' h h' ih =>
    have key : ∀ {b' : Core}, b' = b → b'.id = c.id → b'.term = c.term → (b'.state = .follower ∨ (b'.state = c.state ∧
        (c.state = .preCandidate → ∀ v, b'.votes.find v = some true → v = c.id ∨ c.votes.find v = some true))) →
        c'.id = c.id ∧ ((c'.state = .follower ∧ (c'.term = im.term ∨ c'.term = c.term)) ∨ (c'.term = c.term ∧ c'.state = c.state ∧
          (c.state = .preCandidate → ∀ v, c'.votes.find v = some true → v = c.id ∨ c.votes.find v = some true))) := by
      intro b' hb e0 e1 e2
      subst hb
      have hb : b'.state ≠ .candidate := by
        rcases e2 with e | ⟨e, _⟩
        · rw [e]; nofun
        · rw [e]; exact hs
      obtain ⟨k0, k2⟩ := ih hb (by rw [e1]; exact ht)
      refine ⟨k0.trans e0, ?_⟩
      rcases k2 with ⟨k, kt⟩ | ⟨kt, k, kv⟩
      · exact Or.inl ⟨k, by rw [e1] at kt; exact kt⟩
      · rcases e2 with e | ⟨e, ev⟩
        · exact Or.inl ⟨k.trans e, Or.inr (kt.trans e1)⟩
        · refine Or.inr ⟨kt.trans e1, k.trans e, fun hp v hv => ?_⟩
          rcases kv (e.trans hp) v hv with h | h
          · exact Or.inl (h.trans e0)
          · exact ev hp v h
    have same : ∀ {b' : Core}, b' = b → b'.id = c.id → b'.term = c.term → b'.state = c.state → b'.votes = c.votes → _ :=
      fun h1 h2 h3 h4 h5 => key h1 h2 h3 (Or.inr ⟨h4, fun _ v hv => Or.inr (h5 ▸ hv)⟩)
    cases h with
    | core h =>
      cases h with
      | follower T P hT =>
        rcases hT with hT | ⟨h1, h2⟩
        · exact key rfl rfl hT (Or.inl rfl)
        · obtain ⟨k0, k1, k2⟩ := h'.quiet hc (by show _ ≤ T; omega) (by nofun)
          refine ⟨k0, Or.inl ⟨k2.elim (fun k => k) fun k => k.1, Or.inl (k1.trans ?_)⟩⟩
          show T = im.term
          omega
      | candidate P h1 => exact absurd h1 hc
      | preCandidate h1 => exact absurd h1 hc
      | pollSelf h1 =>
        refine key rfl rfl rfl (Or.inr ⟨rfl, fun _ v hv => ?_⟩)
        rcases Quiet.recorded hv with h | h
        · exact Or.inr h
        · exact Or.inl h.1
      | pollResp h1 =>
        rcases h1 with ⟨h1, _⟩ | ⟨_, h1⟩
        · exact absurd h1 hs
        · exact absurd (Or.inr (Or.inr h1)) hc
      | leader P h1 => exact absurd h1 hs
      | recvSnap cfg P0 p mi h1 => exact key rfl rfl rfl (Or.inl h1)
      | _ => exact same rfl rfl rfl rfl rfl
    | _ => exact same rfl rfl rfl rfl rfl

/-- A refused pre-vote of a later term. -/
theorem Raft.step_refused {env : Env} {r r' : Raft} {m : Message} {e : Option Err} (hm : m.type = .preVoteResp) (hr : m.reject = true)
    (ht : r.term < m.term) (k : r.step env m = .ok (r', e)) :
    r'.id = r.id ∧ r'.preVote = r.preVote ∧ r'.term = m.term ∧ r'.state = .follower := by
  unfold Raft.step Raft.stepGate at k
  obtain ⟨g, hg, k⟩ := Res.bind_eq_ok.1 k
  rw [if_neg (by omega), if_pos ht, if_neg (by rw [hm]; rintro ⟨h | h, _⟩ <;> cases h), if_neg (by rw [hm]; nofun),
    if_neg (by rw [hr]; rintro ⟨_, h⟩; exact h rfl), if_neg (by rw [hm]; rintro (h | h | h) <;> cases h)] at hg
  cases hg
  dsimp only at k
  have hst : (r.becomeFollower env m.term 0).state = .follower := rfl
  unfold Raft.stepBody at k
  rw [hm] at k
  dsimp only at k
  unfold Raft.stepState at k
  rw [hst] at k
  dsimp only at k
  unfold Raft.stepFollower at k
  rw [hm] at k
  cases k
  exact ⟨Raft.reset_id (env := env) _ _, (congrArg Consts.preVote (Raft.reset_consts (env := env) _ _) :), Raft.reset_term (env := env) _ _, rfl⟩

/-- A transfer request is only passed on. -/
theorem NPath.passes {env : Env} {im : Message} {c c' : Core} {ms : List Message} (h : NPath env im c ms c') :
    ∀ m ∈ ms, m.type = .transferLeader → im.type = .transferLeader := by
  induction h with
  | nil => intro m hm; cases hm
  | cons h _ ih =>
    intro m hm ht
    rcases List.mem_append.1 hm with hm | hm
    · cases h with
      | core h =>
        cases h with
        | emit h =>
          rw [List.mem_singleton] at hm; subst hm
          unfold Emit at h
          rw [ht] at h
          exact h.2.2.2.symm
        | grant => rw [List.mem_singleton] at hm; subst hm; cases ht
        | recvApp => rw [List.mem_singleton] at hm; subst hm; cases ht
        | recvHeartbeat => rw [List.mem_singleton] at hm; subst hm; cases ht
        | _ => cases hm
      | _ => cases hm
    · exact ih m hm ht

/-- What a node of a group that is cut off can be. -/
structure Meek (M : List Nat) (p T : Nat) (L : Nat → Prop) (n : RawNode) : Prop where
  quiet : Quiet M p n.raft.term (L n.raft.term) n.raft
  term : n.raft.term ≤ T
  wait : n.raft.leadTransferee = 0
  inv : WaitInv n
  out : ∀ m ∈ n.raft.msgs, Harmless M T m
  disk : n.raft.log.storage.hardState.term ≤ T

/-- One of the calls that make up the handling of a Ready. -/
def Call.Handles (c : Call) : Prop := c = .getReady ∨ c = .advance ∨ ∃ cc, c = .applyConfChange cc

theorem Call.meek_quiet {env : Env} {M : List Nat} {p T : Nat} {L : Nat → Prop} {c : Call} {a b : RawNode} (hs : c.Stamped)
    (hm : ∀ m, c = .step m → Harmless M T m ∧ m.type ≠ .timeoutNow) (hq : c.Handles ∨ a.ShortOf M)
    (ha : Quiet M p a.raft.term (L a.raft.term) a.raft) (ht : a.raft.term ≤ T) (h : c.run env a = .ok b) :
    Quiet M p b.raft.term (L b.raft.term) b.raft ∧ b.raft.term ≤ T := by
  have same : Quiet M p a.raft.term (L a.raft.term) b.raft → Quiet M p b.raft.term (L b.raft.term) b.raft ∧ b.raft.term ≤ T := by
    intro hb
    rw [hb.term]
    exact ⟨hb, ht⟩
  rcases hq with hq | hq
  · have hc' : ¬ CampMsg (c.msg env a) ∧ (c.msg env a).term = 0 := by
      rcases hq with rfl | rfl | ⟨cc, rfl⟩ <;> exact ⟨(by rintro (h | h | h) <;> cases h), rfl⟩
    exact same (Call.quiet_path hs hc'.1 (by omega) ha h)
  have hq' : ¬ QuorumOf a.raft.trk.config.voters fun v => decide (v = p ∨ v ∈ M) := by
    unfold RawNode.ShortOf at hq
    rw [ha.id] at hq
    exact hq
  by_cases hst : ∃ m, c = .step m
  · obtain ⟨m, rfl⟩ := hst
    obtain ⟨⟨h1, h2, _, h4⟩, h5⟩ := hm m rfl
    by_cases hw : m.term ≤ a.raft.term ∨ m.type = .preVote ∨ (m.type = .preVoteResp ∧ m.reject = false)
    · exact same (Call.quiet hs ⟨h5, hw, h2⟩ hq' ha h)
    · have hlt : a.raft.term < m.term := Nat.lt_of_not_le fun h => hw (Or.inl h)
      have hle : m.term ≤ T := h1.resolve_right fun h => hw (Or.inr h)
      by_cases hc : CampMsg m
      · obtain ⟨⟨n1, e⟩, k1, k⟩ := Res.bind_eq_ok.1 h
        cases k
        unfold RawNode.step at k1
        split at k1
        · cases k1; exact ⟨ha, ht⟩
        rename_i hloc
        split at k1
        · have k := (onRaft_ok k1).1
          rcases hc with hc | hc | hc
          · exact absurd (by rw [hc]; rfl) hloc
          · exact absurd hc h5
          · have hr : m.reject = true := by
              cases hr : m.reject
              · exact absurd (Or.inr (Or.inr ⟨hc, hr⟩)) hw
              · rfl
            obtain ⟨j1, j2, j3, j4⟩ := Raft.step_refused hc hr hlt k
            refine ⟨⟨j1.trans ha.id, j2.trans ha.pre, rfl, ?_, ?_, ?_⟩, by rw [j3]; exact hle⟩ <;> rw [j4] <;> nofun
        · cases k1; exact ⟨ha, ht⟩
      · obtain ⟨hk, cfg, P, _, ms, _, hp⟩ := Call.run_path hs h
        obtain ⟨k0, k2⟩ := hp.adopts hc ha.state
        have hpre : b.raft.preVote = true := (congrArg Consts.preVote hk.1 :).trans ha.pre
        rcases k2 with ⟨k, kt⟩ | ⟨kt, k, kv⟩
        · have k' : b.raft.state = .follower := k
          refine ⟨⟨k0.trans ha.id, hpre, rfl, ?_, ?_, ?_⟩, ?_⟩
          · rw [k']; nofun
          · rw [k']; nofun
          · rw [k']; nofun
          · rcases kt with kt | kt
            · exact (show b.raft.term = m.term from kt) ▸ hle
            · exact (show b.raft.term = a.raft.term from kt) ▸ ht
        · have k' : b.raft.state = a.raft.state := k
          refine same ⟨k0.trans ha.id, hpre, kt, by rw [k']; exact ha.state, by rw [k']; exact ha.lead, fun e v hv => ?_⟩
          rcases kv (k'.symm.trans e) v hv with h | h
          · exact Or.inl (h.trans ha.id)
          · exact ha.votes (k'.symm.trans e) v h
  · refine same (Call.quiet hs ?_ hq' ha h)
    cases c with
    | step m => exact absurd ⟨m, rfl⟩ hst
    | _ => trivial

theorem Call.meek {env : Env} {M : List Nat} {p T : Nat} {L : Nat → Prop} {c : Call} {a b : RawNode} (hp : p ∈ M) (hs : c.Stamped)
    (hk : ∀ t, ¬ c.Asks t) (hm : ∀ m, c = .step m → Harmless M T m ∧ m.to = p) (hq : c.Handles ∨ a.ShortOf M)
    (ha : Meek M p T L a) (h : c.run env a = .ok b) : Meek M p T L b := by
  have hp0 : p ≠ 0 := fun e => ha.inv.id (ha.quiet.id.trans e)
  obtain ⟨q1, q2⟩ := Call.meek_quiet hs (fun m e => ⟨(hm m e).1, fun ht => hp0 ((hm m e).2.symm.trans ((hm m e).1.2.2.1 ht))⟩) hq ha.quiet ha.term h
  have w := Call.waits h
  have hw : b.raft.leadTransferee = 0 := by
    rcases w.wait ha.inv with k | ⟨k, _⟩ | ⟨k, _⟩
    · exact k
    · exact absurd k (hk _)
    · exact k.trans ha.wait
  refine ⟨q1, q2, hw, Call.waitInv hs ha.inv h, ?_, by rw [Call.run_storage hs h]; exact ha.disk⟩
  obtain ⟨new, e1, o1⟩ := w.told
  obtain ⟨new2, e2, o2⟩ := C41_outgoing_messages c hs h
  obtain ⟨_, cfg, P, _, new3, e3, path⟩ := Call.run_path hs h
  obtain rfl := List.append_cancel_left (e1.symm.trans e2)
  obtain rfl := List.append_cancel_left (e1.symm.trans e3)
  intro m hmem
  rw [e1] at hmem
  rcases List.mem_append.1 hmem with hmem | hmem
  · split at hmem
    · cases hmem
    · exact ha.out m hmem
  · have o := o2 m hmem
    refine ⟨?_, fun h1 h2 => ?_, fun h1 => ?_, fun h1 => ?_⟩
    · have o3 := o.term
      cases ht : m.type <;> simp only [ht] at o3 <;> first
        | exact Or.inl (o3 ▸ q2)
        | exact Or.inl (o3 ▸ Nat.zero_le _)
        | exact Or.inr (Or.inl rfl)
        | (rcases o3 with ⟨_, o3⟩ | ⟨o3, _⟩
           · exact Or.inl (o3 ▸ q2)
           · exact Or.inr (Or.inr ⟨rfl, o3⟩))
    · rcases o.src with o3 | ⟨o3, _⟩
      · rw [o3, q1.id]; exact hp
      · rw [h1] at o3; rcases o3 with h | h | h <;> cases h
    · exact ((o1 m hmem h1).2.1).trans hw
    · have h2 := path.passes m hmem h1
      cases c with
      | step m => exact hk m.src ⟨h2, rfl⟩
      | transferLeader id => exact hk id rfl
      | tick => by_cases hl : a.raft.state = .leader <;> simp only [Call.msg, hl, if_true, if_false] at h2 <;> cases h2
      | _ => cases h2

theorem Meek.store {M : List Nat} {p T : Nat} {L : Nat → Prop} {a : RawNode} {st : Storage} (ha : Meek M p T L a) (h : st.hardState.term ≤ T) :
    Meek M p T L (a.withStorage st) :=
  ⟨ha.quiet.of rfl rfl rfl rfl rfl, ha.term, ha.wait, ⟨ha.inv.lead, ha.inv.self, ha.inv.id⟩, ha.out, h⟩

theorem Meek.take {env : Env} {M : List Nat} {p T : Nat} {L : Nat → Prop} {a b : RawNode} {rd : Ready} (hp : p ∈ M) (ha : Meek M p T L a)
    (h : a.takeReady env = .ok (b, rd)) : Meek M p T L b ∧ ∀ m ∈ rd.messages, Harmless M T m := by
  have hmsg := RawNode.takeReady_messages h
  unfold RawNode.takeReady at h
  obtain ⟨⟨n0, rd0⟩, h0, h⟩ := Res.bind_eq_ok.1 h
  obtain ⟨st, h1, h⟩ := Res.bind_eq_ok.1 h
  cases h
  refine ⟨?_, by rw [hmsg]; exact ha.out⟩
  have m0 : Meek M p T L n0 := Call.meek (c := .getReady) hp trivial (fun _ h => h) nofun (Or.inl (Or.inl rfl)) ha (Res.bind_eq_ok.2 ⟨_, h0, rfl⟩)
  refine m0.store ?_
  rw [Storage.save_hard h1]
  split
  · exact m0.disk
  · obtain ⟨es, _, rfl⟩ := readyWithoutAccept_ok (getReady_ok h0).1
    dsimp only
    split
    · exact Nat.zero_le _
    · exact ha.term

theorem Meek.ready {env : Env} {M : List Nat} {p T : Nat} {L : Nat → Prop} {a b : RawNode} {rd : Ready} {ccs : List ConfChangeI} (hp : p ∈ M)
    (ha : Meek M p T L a) (h : a.handleReady env ccs = .ok (b, rd)) : Meek M p T L b ∧ ∀ m ∈ rd.messages, Harmless M T m := by
  unfold RawNode.handleReady at h
  obtain ⟨⟨n1, rd1⟩, h1, h⟩ := Res.bind_eq_ok.1 h
  obtain ⟨n2, h2, h⟩ := Res.bind_eq_ok.1 h
  obtain ⟨n3, h3, h⟩ := Res.bind_eq_ok.1 h
  cases h
  obtain ⟨m1, o1⟩ := ha.take hp h1
  refine ⟨?_, o1⟩
  have p2 : ∀ (l : List ConfChangeI) (a : RawNode), a.applyConfChanges env l = .ok n2 → Meek M p T L a → Meek M p T L n2 := by
    intro l
    induction l with
    | nil => intro a h p; cases h; exact p
    | cons cc l ih =>
      intro a h q
      unfold RawNode.applyConfChanges at h
      obtain ⟨⟨a1, cs⟩, h3, h⟩ := Res.bind_eq_ok.1 h
      exact ih a1 h (Call.meek (c := .applyConfChange cc) hp trivial (fun _ h => h) nofun (Or.inl (Or.inr (Or.inr ⟨cc, rfl⟩))) q (Res.bind_eq_ok.2 ⟨_, h3, rfl⟩))
  exact Call.meek (env := env) (c := .advance) hp trivial (fun _ h => h) nofun (Or.inl (Or.inr (Or.inl rfl))) (p2 _ _ h2 m1) h3

namespace Members
variable {env : Env} {dec : Entry → Option ConfChangeI}

/-- The group while it is cut off. -/
structure Cut (M : List Nat) (T : Nat) (L : Nat → Nat → Prop) (sent : List Message) (c : State) : Prop where
  node : ∀ p ∈ M, ∀ n a, c.proc p = .up n a → Meek M p T (L p) n
  disk : ∀ p ∈ M, (c.proc p).disk.hardState.term ≤ T
  short : c.Short M
  sent : ∀ m ∈ sent, Harmless M T m

theorem Cut.set {M : List Nat} {T : Nat} {L : Nat → Nat → Prop} {sent ms : List Message} {c c' : State} {p : Nat} {x : Proc} (h : Cut M T L sent c)
    (hc : c'.proc = (c.set p x).proc) (hx : p ∈ M → (∀ n a, x = .up n a → Meek M p T (L p) n) ∧ x.disk.hardState.term ≤ T) (hs : c'.Short M)
    (hms : ∀ m ∈ ms, Harmless M T m) : Cut M T L (sent ++ ms) c' := by
  refine ⟨fun q hq n a hn => ?_, fun q hq => ?_, hs, fun m hm => ?_⟩
  · rw [hc] at hn
    by_cases e : q = p
    · subst e
      rw [show (c.set q x).proc q = x from if_pos rfl] at hn
      exact (hx hq).1 n a hn
    · rw [show (c.set p x).proc q = c.proc q from if_neg e] at hn
      exact h.node q hq n a hn
  · rw [hc]
    by_cases e : q = p
    · subst e
      rw [show (c.set q x).proc q = x from if_pos rfl]
      exact (hx hq).2
    · rw [show (c.set p x).proc q = c.proc q from if_neg e]
      exact h.disk q hq
  · rcases List.mem_append.1 hm with hm | hm
    · exact h.sent m hm
    · exact hms m hm

/-- Actions elsewhere do not touch a node. -/
theorem Act.run_other {a : Act} {c c' : State} (h : a.run env dec c = .ok c') {q : Nat} (hq : q ≠ a.node) : c'.proc q = c.proc q := by
  have key : ∀ {p : Nat} {x : Proc}, a.node = p → (c.set p x).proc q = c.proc q := fun e => if_neg (e ▸ hq)
  cases a <;> simp only [Act.run] at h <;> split at h <;> first
    | (cases h; rfl)
    | (cases h; exact key rfl)
    | (obtain ⟨_, _, h⟩ := Res.bind_eq_ok.1 h; cases h; exact key rfl)

theorem Cut.inside {M : List Nat} {T : Nat} {L : Nat → Nat → Prop} {sent : List Message} {c c' : State} (hl : c.Lived env) (h : Cut M T L sent c) {a : Act}
    (ha : a.node ∈ M) (hal : a.Allowed c) (hcalm : a.Calm) (hdel : ∀ p m, a = .deliver p m → m ∈ sent) (hr : a.run env dec c = .ok c')
    (hs : c'.Short M) : Cut M T L (sent ++ c'.net.drop c.net.length) c' := by
  have quiet : ∀ {p : Nat} {x : Proc}, c'.Short M → (p ∈ M → (∀ n a, x = .up n a → Meek M p T (L p) n) ∧ x.disk.hardState.term ≤ T) → c' = c.set p x →
      Cut M T L (sent ++ c'.net.drop c.net.length) c' := by
    intro p x hs hx e
    subst e
    rw [show (c.set p x).net = c.net from rfl, List.drop_length]
    exact h.set rfl hx hs (by intro m hm; cases hm)
  have node : ∀ {p : Nat} {n' : RawNode} {b : App}, c'.Short M → Meek M p T (L p) n' → c' = c.set p (.up n' b) →
      Cut M T L (sent ++ c'.net.drop c.net.length) c' := by
    intro p n' b hs hn e
    refine quiet (x := .up n' b) hs (fun _ => ⟨fun m a e => ?_, hn.disk⟩) e
    cases e
    exact hn
  cases a with
  | start p cfg rng =>
    obtain ⟨st, h1, h2, h3, _⟩ := hal
    simp only [Act.run, h1] at hr
    obtain ⟨n, h4, h5⟩ := Res.bind_eq_ok.1 hr
    cases h5
    have f := (RawNode.new_ok h4).1
    have hd := h.disk p ha
    rw [h1] at hd
    have hlive := hl.proc p
    rw [h1] at hlive
    obtain ⟨s0, _, hlive⟩ := hlive
    refine node hs ⟨⟨f.id.trans h2, f.preVote.trans hcalm, rfl, ?_, ?_, ?_⟩, ?_, f.transferee, (hlive cfg rng n h2 h4).waitInv, ?_, ?_⟩ rfl
    · rw [f.state]; nofun
    · rw [f.state]; nofun
    · rw [f.state]; nofun
    · rw [f.term]; exact hd
    · rw [f.msgs]; intro m hm; cases hm
    · rw [f.storage]; exact hd
  | call p x =>
    obtain ⟨⟨n, b, h1⟩, h2, h3⟩ := hal
    simp only [Act.run, h1] at hr
    obtain ⟨n', h4, h5⟩ := Res.bind_eq_ok.1 hr
    cases h5
    exact node hs (Call.meek ha (by cases x <;> first | trivial | exact absurd rfl (h3 _)) hcalm (fun m e => absurd e (h3 m)) (Or.inr (h.short p ha n b h1)) (h.node p ha n b h1) h4) rfl
  | deliver p m =>
    obtain ⟨⟨n, b, h1⟩, h2, h3⟩ := hal
    simp only [Act.run, h1] at hr
    obtain ⟨n', h4, h5⟩ := Res.bind_eq_ok.1 hr
    cases h5
    have hm := h.sent m (hdel p m rfl)
    refine node hs (Call.meek (c := .step m) ha (hl.net m h2).1 (fun t ht => hm.2.2.2 ht.1) (fun m' e => ?_) (Or.inr (h.short p ha n b h1)) (h.node p ha n b h1) h4) rfl
    cases e
    exact ⟨hm, h3⟩
  | ready p =>
    obtain ⟨n, b, h1⟩ := hal
    simp only [Act.run, h1] at hr
    obtain ⟨⟨n', b', rd⟩, h4, h5⟩ := Res.bind_eq_ok.1 hr
    cases h5
    obtain ⟨ccs, h6⟩ := handle_ready h4
    obtain ⟨k1, k2⟩ := (h.node p ha n b h1).ready ha h6
    rw [show (List.drop c.net.length (c.net ++ rd.messages)) = rd.messages from List.drop_left]
    refine h.set (p := p) (x := .up n' b') rfl (fun _ => ⟨fun m a e => ?_, k1.disk⟩) hs k2
    cases e
    exact k1
  | compact p i =>
    obtain ⟨n, b, h1, h2, h3⟩ := hal
    simp only [Act.run, h1] at hr
    obtain ⟨⟨st, e⟩, h4, h5⟩ := Res.bind_eq_ok.1 hr
    cases h5
    have hm := h.node p ha n b h1
    exact node hs (hm.store (by rw [Storage.compact_hard h4]; exact hm.disk)) rfl
  | createSnapshot p data =>
    obtain ⟨n, b, h1⟩ := hal
    simp only [Act.run, h1] at hr
    obtain ⟨⟨st, e⟩, h4, h5⟩ := Res.bind_eq_ok.1 hr
    cases h5
    have hm := h.node p ha n b h1
    exact node hs (hm.store (by rw [Storage.createSnapshot_hard h4]; exact hm.disk)) rfl
  | crash p =>
    obtain ⟨n, b, h1⟩ := hal
    simp only [Act.run, h1] at hr
    cases hr
    exact quiet (x := .down n.raft.log.storage) hs (fun _ => ⟨fun m a e => (by cases e), (h.node p ha n b h1).disk⟩) rfl
  | crashReady p keep k =>
    obtain ⟨n, b, h1⟩ := hal
    simp only [Act.run, h1] at hr
    obtain ⟨⟨n1, rd⟩, h4, h5⟩ := Res.bind_eq_ok.1 hr
    cases h5
    obtain ⟨k1, k2⟩ := (h.node p ha n b h1).take ha h4
    rw [show (List.drop c.net.length (c.net ++ rd.messages.filter keep)) = rd.messages.filter keep from List.drop_left]
    refine h.set (p := p) (x := .down n1.raft.log.storage) rfl (fun _ => ⟨fun m a e => (by cases e), k1.disk⟩) hs fun m hm => k2 m (List.mem_filter.1 hm).1

/-- `p` led `t` in `c`. -/
def State.Led (c : State) (p t : Nat) : Prop := ∃ n a, c.proc p = .up n a ∧ n.raft.state = .leader ∧ n.raft.term = t

theorem Alone.cut {M : List Nat} {T : Nat} {sent : List Message} {c0 c : State} (h : Alone env dec M T c0 sent c) (hl : c0.Lived env)
    (hc : c0.CutOff M T) : c.Lived env ∧ Cut M T c0.Led sent c := by
  induction h with
  | start old hold hs =>
    refine ⟨hl, fun p hp n a hn => ?_, hc.disk, hs, fun m hm => (hold m hm).2⟩
    obtain ⟨h1, h2, h3, h4, h5, h6⟩ := hc.node p hp n a hn
    have hlv := hl.proc p
    rw [hn] at hlv
    obtain ⟨hid, s0, hlv, _⟩ := hlv
    have hd := hc.disk p hp
    rw [hn] at hd
    exact ⟨⟨hid, h1, rfl, h3, fun h => ⟨n, a, hn, h, rfl⟩, fun h v hv => Or.inr (h4 h v hv)⟩, h2, h5, hlv.waitInv, h6, hd⟩
  | inside a _ ha hal hcalm hdel hr hs ih =>
    exact ⟨(Dyn.act_step a hal hr).lived ih.1, ih.2.inside ih.1 ha hal hcalm hdel hr hs⟩
  | outside a _ ha hal hr ih =>
    obtain ⟨h1, h2⟩ := ih
    have e : ∀ p ∈ M, _ := fun p hp => Act.run_other hr (q := p) fun e => ha (e ▸ hp)
    refine ⟨(Dyn.act_step a hal hr).lived h1, fun p hp n b hn => ?_, fun p hp => ?_, fun p hp n b hn => ?_, h2.sent⟩
    · exact h2.node p hp n b ((e p hp).symm.trans hn)
    · rw [e p hp]; exact h2.disk p hp
    · exact h2.short p hp n b ((e p hp).symm.trans hn)

end Members

theorem Members.Cut.contained {M : List Nat} {T : Nat} {sent : List Message} {c0 c : Members.State} (h : Members.Cut M T c0.Led sent c) :
    Members.Contained M T c0 sent c := by
  refine ⟨fun p hp n a hn => ?_, h.disk, fun m hm h0 T' cq hT hu => ?_⟩
  · have := h.node p hp n a hn
    exact ⟨this.term, this.quiet.state, this.quiet.lead⟩
  · obtain ⟨h1, _, h3, _⟩ := h.sent m hm
    rcases hu with hu | ⟨u1, u2, u3, _⟩
    · exact h0 (h3 hu)
    · rcases h1 with h1 | h1 | h1
      · omega
      · exact u2 h1
      · exact u3 h1

/-- **C94**. -/
theorem C94_minority_contained {env : Env} {dec : Entry → Option ConfChangeI} {G : Cluster.Genesis} {M : List Nat} {T : Nat} {sent : List Message}
    {c0 c : Members.State} (h0 : Members.Reach env dec G c0) (hc : c0.CutOff M T) (h : Members.Alone env dec M T c0 sent c) :
    Members.Contained M T c0 sent c := (h.cut h0.lived hc).2.contained

/-- C94, for clusters founded with `Bootstrap`. -/
theorem C94_boot {env : Env} {dec : Entry → Option ConfChangeI} {peers : List (Nat × Bytes)} {M : List Nat} {T : Nat} {sent : List Message}
    {c0 c : Members.State} (h0 : Boot.Reach env dec peers c0) (hc : c0.CutOff M T) (h : Members.Alone env dec M T c0 sent c) :
    Members.Contained M T c0 sent c := (h.cut h0.lived hc).2.contained

end Craft
