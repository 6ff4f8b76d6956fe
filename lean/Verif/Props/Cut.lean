import Verif.Spec.Cut
import Verif.Node.Deaf
import Verif.Props.NodeTurn

/-! # C88: a node with pre-vote that is cut off does not raise its term -/

namespace Craft
open Spec

theorem RawNode.handleReady_only {env : Env} {n n' : RawNode} {ccs : List ConfChangeI} {rd : Ready} (P : RawNode → Prop)
    (hc : ∀ c a b, (c = .getReady ∨ c = .advance ∨ ∃ cc ∈ ccs, c = .applyConfChange cc) → Call.run env a c = .ok b → P a → P b)
    (hst : ∀ a st, P a → P (a.withStorage st)) (h : n.handleReady env ccs = .ok (n', rd)) (hp : P n) : P n' := by
  unfold RawNode.handleReady RawNode.takeReady at h
  obtain ⟨⟨n1, rd1⟩, h1, h⟩ := Res.bind_eq_ok.1 h
  obtain ⟨⟨n0, rd0⟩, h0, h1⟩ := Res.bind_eq_ok.1 h1
  obtain ⟨st, _, h1⟩ := Res.bind_eq_ok.1 h1
  cases h1
  obtain ⟨n2, h2, h⟩ := Res.bind_eq_ok.1 h
  obtain ⟨n3, h3, h⟩ := Res.bind_eq_ok.1 h
  cases h
  have p0 : P n0 := hc .getReady n n0 (Or.inl rfl) (Res.bind_eq_ok.2 ⟨_, h0, rfl⟩) hp
  have p1 := hst n0 st p0
  have p2 : ∀ (l : List ConfChangeI) (a : RawNode), (∀ x ∈ l, x ∈ ccs) → a.applyConfChanges env l = .ok n2 → P a → P n2 := by
    intro l
    induction l with
    | nil => intro a _ h p; cases h; exact p
    | cons cc l ih =>
      intro a hl h p
      unfold RawNode.applyConfChanges at h
      obtain ⟨⟨a1, cs⟩, h3, h⟩ := Res.bind_eq_ok.1 h
      exact ih a1 (fun x hx => hl x (List.mem_cons_of_mem _ hx)) h
        (hc (.applyConfChange cc) a a1 (Or.inr (Or.inr ⟨cc, hl cc (List.mem_cons_self ..), rfl⟩)) (Res.bind_eq_ok.2 ⟨_, h3, rfl⟩) p)
  exact hc .advance n2 _ (Or.inr (Or.inl rfl)) h3 (p2 _ _ (fun _ h => h) h2 p1)

theorem Spec.Majority.mono {vs : List Nat} {P Q : Nat → Bool} (h : Majority vs P) (hpq : ∀ v, P v = true → Q v = true) : Majority vs Q := by
  unfold Majority count at *
  rw [← List.countP_eq_length_filter] at *
  have := List.countP_mono_left (l := vs) (p := P) (q := Q) (fun v _ hv => hpq v hv)
  omega

/-- A vote won with the votes of `P` shows that `P` is a quorum. -/
theorem QuorumOf.of_won {c : JointConfig} {votes : AMap Bool} {P : Nat → Bool} (h : c.voteResult votes = .won)
    (hp : ∀ v, votes.find v = some true → P v = true) : QuorumOf c P := by
  obtain ⟨h1, h2⟩ := (C03_joint_vote_exact c votes).1.1 h
  exact ⟨fun h => (h1 h).mono fun v hv => hp v (by simpa using hv), fun h => (h2 h).mono fun v hv => hp v (by simpa using hv)⟩

/-- What a node that is cut off can be. -/
structure Quiet (S : List Nat) (i T : Nat) (L : Prop) (r : Raft) : Prop where
  id : r.id = i
  pre : r.preVote = true
  term : r.term = T
  state : r.state ≠ .candidate
  lead : r.state = .leader → L
  votes : r.state = .preCandidate → ∀ v, r.trk.votes.find v = some true → v = i ∨ v ∈ S

namespace Quiet
variable {env : Env} {S : List Nat} {i T : Nat} {L : Prop} {r r' : Raft}

theorem of (h : Quiet S i T L r) (h1 : r'.id = r.id) (h2 : r'.preVote = r.preVote) (h3 : r'.term = r.term) (h4 : r'.state = r.state)
    (h5 : r'.trk.votes = r.trk.votes) : Quiet S i T L r' :=
  ⟨h1.trans h.id, h2.trans h.pre, h3.trans h.term, by rw [h4]; exact h.state, by rw [h4]; exact h.lead, by rw [h4, h5]; exact h.votes⟩

theorem still (h : Quiet S i T L r) (s : Still r r') : Quiet S i T L r' :=
  h.of s.id (congrArg Raft.preVote s.1 :) s.term s.state (congrArg (fun r : Raft => r.trk.votes) s.1 :)

theorem recorded {votes : AMap Bool} {v w : Nat} {b : Bool} (h : (recordVote votes v b).find w = some true) :
    votes.find w = some true ∨ (w = v ∧ b = true) := by
  unfold recordVote at h
  split at h
  · by_cases hw : v = w
    · subst hw
      rw [AMap.find_insert_self] at h
      cases h
      exact Or.inr ⟨rfl, rfl⟩
    · rw [AMap.find_insert_ne _ _ hw] at h
      exact Or.inl h
  · exact Or.inl h

theorem poll_trk (v : Nat) (b : Bool) : r.poll v b = ({ r with trk := { r.trk with votes := recordVote r.trk.votes v b } },
    r.trk.config.voters.voteResult (recordVote r.trk.votes v b)) := by
  unfold Raft.poll Tracker.recordVote Tracker.tallyVotes recordVote
  dsimp only
  cases r.trk.votes.find v <;> rfl

/-- The pre-election of a node that is short of a quorum. -/
theorem hup (h : Quiet S i T L r) (hq : ¬ QuorumOf r.trk.config.voters fun v => decide (v = i ∨ v ∈ S))
    (k : r.hup env .preElection = .ok r') : Quiet S i T L r' := by
  unfold Raft.hup at k
  split at k
  · cases k; exact h
  rename_i hl
  split at k
  · cases k; exact h
  obtain ⟨x, _, k⟩ := Res.bind_eq_ok.1 k
  split at k
  · cases k
  split at k
  · cases k; exact h
  unfold Raft.campaign Raft.becomePreCandidate at k
  rw [if_neg hl] at k
  obtain ⟨r1, k1, k⟩ := Res.bind_eq_ok.1 k
  cases k1
  rw [poll_trk] at k
  dsimp only [Tracker.resetVotes] at k
  have hv : ∀ v, (recordVote [] r.id true).find v = some true → v = i ∨ v ∈ S := by
    intro v hv
    rcases recorded hv with hv | ⟨hv, _⟩
    · cases hv
    · exact Or.inl (hv.trans h.id)
  by_cases hw : r.trk.config.voters.voteResult (recordVote [] r.id true) = .won
  · exact absurd (QuorumOf.of_won hw fun v h => decide_eq_true (hv v h)) hq
  · rw [if_neg hw] at k
    have s := Calm.sendVotes (by nofun) _ k
    refine Quiet.still (r := { r with trk := { r.trk with votes := recordVote [] r.id true }, lead := 0, state := .preCandidate }) ?_ s
    exact ⟨h.id, h.pre, h.term, nofun, nofun, fun _ => hv⟩

/-- A request for a pre-vote changes nothing. -/
theorem preVote {m : Message} {e : Option Err} (h : Quiet S i T L r) (hm : m.type = .preVote) (k : r.step env m = .ok (r', e)) :
    Quiet S i T L r' := by
  have body : ∀ {r'}, r.stepBody env m = .ok (r', e) → Quiet S i T L r' := by
    intro r' k
    unfold Raft.stepBody at k
    rw [hm] at k
    obtain ⟨r2, k2, k⟩ := Res.bind_eq_ok.1 k
    cases k
    unfold Raft.stepVote at k2
    obtain ⟨up, _, k2⟩ := Res.bind_eq_ok.1 k2
    obtain ⟨_, _, k2⟩ := Res.bind_eq_ok.1 k2
    obtain ⟨rt, _, k2⟩ := Res.bind_eq_ok.1 k2
    split at k2
    · obtain ⟨r3, k3, k2⟩ := Res.bind_eq_ok.1 k2
      rw [if_neg (by rw [hm]; nofun)] at k2
      cases k2
      rw [Raft.send_ok k3]
      exact h.of rfl rfl rfl rfl rfl
    · rw [Raft.send_ok k2]
      exact h.of rfl rfl rfl rfl rfl
  unfold Raft.step Raft.stepGate at k
  obtain ⟨g, hg, k⟩ := Res.bind_eq_ok.1 k
  simp only [hm, if_true] at hg
  split at hg
  · cases hg; exact body k
  split at hg
  · split at hg
    · obtain ⟨_, _, hg⟩ := Res.bind_eq_ok.1 hg
      cases hg; cases k; exact h
    · cases hg; exact body k
  split at hg
  · rw [if_neg (by rintro ⟨_, h | h⟩ <;> cases h)] at hg
    obtain ⟨_, _, hg⟩ := Res.bind_eq_ok.1 hg
    obtain ⟨r3, k3, hg⟩ := Res.bind_eq_ok.1 hg
    cases hg; cases k
    rw [Raft.send_ok k3]
    exact h.of rfl rfl rfl rfl rfl
  · cases hg; exact body k

/-- An answer to a pre-vote request, granted only by nodes of `S`. -/
theorem preVoteResp {m : Message} {e : Option Err} (h : Quiet S i T L r) (hm : m.type = .preVoteResp)
    (hs : m.reject = false → m.src ∈ S) (ht : m.term ≤ T ∨ m.reject = false)
    (hq : ¬ QuorumOf r.trk.config.voters fun v => decide (v = i ∨ v ∈ S))
    (k : r.step env m = .ok (r', e)) : Quiet S i T L r' := by
  have body : ∀ {r'}, r.stepBody env m = .ok (r', e) → Quiet S i T L r' := by
    intro r' k
    unfold Raft.stepBody at k
    rw [hm] at k
    dsimp only at k
    unfold Raft.stepState at k
    cases hst : r.state <;> rw [hst] at k <;> dsimp only at k
    case follower =>
      unfold Raft.stepFollower at k
      rw [hm] at k
      cases k; exact h
    case candidate => exact absurd hst h.state
    case leader =>
      unfold Raft.stepLeader at k
      rw [hm] at k
      dsimp only at k
      split at k <;> (cases k; exact h)
    case preCandidate =>
      unfold Raft.stepCandidate at k
      rw [hm] at k
      dsimp only at k
      rw [if_pos hst] at k
      obtain ⟨r2, k2, k⟩ := Res.bind_eq_ok.1 k
      cases k
      unfold Raft.candidateVoteResp at k2
      rw [poll_trk] at k2
      dsimp only at k2
      have hv : ∀ v, (recordVote r.trk.votes m.src (!m.reject)).find v = some true → v = i ∨ v ∈ S := by
        intro v hv
        rcases recorded hv with hv | ⟨rfl, hb⟩
        · exact h.votes hst v hv
        · exact Or.inr (hs (by simpa using hb))
      have q1 : Quiet S i T L { r with trk := { r.trk with votes := recordVote r.trk.votes m.src (!m.reject) } } :=
        ⟨h.id, h.pre, h.term, h.state, h.lead, fun _ => hv⟩
      split at k2
      · rename_i hw
        exact absurd (QuorumOf.of_won hw fun v h => decide_eq_true (hv v h)) hq
      · cases k2
        refine ⟨(Raft.reset_id (env := env) _ _).trans h.id, (congrArg Consts.preVote (Raft.reset_consts (env := env) _ _) :).trans h.pre, (Raft.reset_term (env := env) _ _).trans h.term, nofun, nofun, nofun⟩
      · cases k2; exact q1
  unfold Raft.step Raft.stepGate at k
  obtain ⟨g, hg, k⟩ := Res.bind_eq_ok.1 k
  split at hg
  · cases hg; exact body k
  split at hg
  · rename_i h0 hgt
    have hr : m.reject = false := by
      rcases ht with ht | ht
      · rw [h.term] at hgt; omega
      · exact ht
    rw [if_neg (by rw [hm]; rintro ⟨h | h, _⟩ <;> cases h), if_neg (by rw [hm]; nofun), if_pos ⟨hm, by rw [hr]; nofun⟩] at hg
    cases hg; exact body k
  split at hg
  · rw [if_neg (by rw [hm]; rintro ⟨_, h | h⟩ <;> cases h), if_neg (by rw [hm]; nofun)] at hg
    cases hg; cases k
    exact h
  · cases hg; exact body k

end Quiet

/-- Without a campaign and without a later term, a node keeps its term, becomes nothing but a follower, and a pre-candidate gains no vote. -/
theorem NPath.quiet {env : Env} {im : Message} {c c' : Core} {ms : List Message} (h : NPath env im c ms c') (hc : ¬ CampMsg im)
    (ht : im.term ≤ c.term) (hs : c.state ≠ .candidate) :
    c'.id = c.id ∧ c'.term = c.term ∧ (c'.state = .follower ∨ (c'.state = c.state ∧
      (c.state = .preCandidate → ∀ v, c'.votes.find v = some true → v = c.id ∨ c.votes.find v = some true))) := by
  induction h with
  | nil => exact ⟨rfl, rfl, Or.inr ⟨rfl, fun _ v h => Or.inr h⟩⟩
  | @cons c b c' ms ms' h _ ih =>
    have key : ∀ {b' : Core}, b' = b → b'.id = c.id → b'.term = c.term → (b'.state = .follower ∨ (b'.state = c.state ∧
        (c.state = .preCandidate → ∀ v, b'.votes.find v = some true → v = c.id ∨ c.votes.find v = some true))) →
        c'.id = c.id ∧ c'.term = c.term ∧ (c'.state = .follower ∨ (c'.state = c.state ∧
          (c.state = .preCandidate → ∀ v, c'.votes.find v = some true → v = c.id ∨ c.votes.find v = some true))) := by
      intro b' hb e0 e1 e2
      subst hb
      have hb : b'.state ≠ .candidate := by
        rcases e2 with e | ⟨e, _⟩
        · rw [e]; nofun
        · rw [e]; exact hs
      obtain ⟨k0, k1, k2⟩ := ih (by rw [e1]; exact ht) hb
      refine ⟨k0.trans e0, k1.trans e1, ?_⟩
      rcases k2 with k | ⟨k, kv⟩
      · exact Or.inl k
      · rcases e2 with e | ⟨e, ev⟩
        · exact Or.inl (k.trans e)
        · refine Or.inr ⟨k.trans e, fun hp v hv => ?_⟩
          rcases kv (e.trans hp) v hv with h | h
          · exact Or.inl (h.trans e0)
          · exact ev hp v h
    have same : ∀ {b' : Core}, b' = b → b'.id = c.id → b'.term = c.term → b'.state = c.state → b'.votes = c.votes → _ :=
      fun h1 h2 h3 h4 h5 => key h1 h2 h3 (Or.inr ⟨h4, fun _ v hv => Or.inr (h5 ▸ hv)⟩)
    cases h with
    | core h =>
      cases h with
      | follower T P hT =>
        refine key rfl rfl ?_ (Or.inl rfl)
        rcases hT with hT | ⟨h1, h2⟩
        · exact hT
        · omega
      | candidate P h1 => exact absurd h1 hc
      | preCandidate h1 => exact absurd h1 hc
      | pollSelf h1 =>
        refine key rfl rfl rfl (Or.inr ⟨rfl, fun _ v hv => ?_⟩)
        rcases Quiet.recorded hv with h | h
        · exact Or.inr h
        · exact Or.inl h.1
      | pollResp h1 =>
        rcases h1 with ⟨h1, _⟩ | ⟨_, h1⟩
        · exact absurd h1 hs
        · exact absurd (Or.inr (Or.inr h1)) hc
      | leader P h1 => exact absurd h1 hs
      | recvSnap cfg P0 p mi h1 => exact key rfl rfl rfl (Or.inl h1)
      | _ => exact same rfl rfl rfl rfl rfl
    | _ => exact same rfl rfl rfl rfl rfl

theorem Call.quiet_path {env : Env} {S : List Nat} {i T : Nat} {L : Prop} {c : Call} {a b : RawNode} (hs : c.Stamped)
    (h1 : ¬ CampMsg (c.msg env a)) (h2 : (c.msg env a).term ≤ T) (ha : Quiet S i T L a.raft) (h : c.run env a = .ok b) :
    Quiet S i T L b.raft := by
  obtain ⟨hk, cfg, P, _, ms, _, hp⟩ := Call.run_path hs h
  obtain ⟨k0, k1, k2⟩ := hp.quiet h1 (by show _ ≤ a.raft.term; rw [ha.term]; exact h2) ha.state
  refine ⟨k0.trans ha.id, (congrArg Consts.preVote hk.1 :).trans ha.pre, k1.trans ha.term, fun e => ?_, fun e => ?_, fun e v hv => ?_⟩
  · rcases k2 with k | ⟨k, _⟩
    · rw [show b.raft.state = _ from k] at e; cases e
    · exact ha.state (k.symm.trans e)
  · rcases k2 with k | ⟨k, _⟩
    · rw [show b.raft.state = _ from k] at e; cases e
    · exact ha.lead (k.symm.trans e)
  · rcases k2 with k | ⟨k, kv⟩
    · rw [show b.raft.state = _ from k] at e; cases e
    · rcases kv (k.symm.trans e) v hv with h | h
      · exact Or.inl (h.trans ha.id)
      · exact ha.votes (k.symm.trans e) v h

/-- One call on a node that is cut off. -/
theorem Call.quiet {env : Env} {S : List Nat} {i T : Nat} {L : Prop} {c : Call} {a b : RawNode} (hs : c.Stamped) (hw : c.Within S T)
    (hq : ¬ QuorumOf a.raft.trk.config.voters fun v => decide (v = i ∨ v ∈ S)) (ha : Quiet S i T L a.raft) (h : c.run env a = .ok b) :
    Quiet S i T L b.raft := by
  have path : ¬ CampMsg (c.msg env a) → (c.msg env a).term ≤ T → Quiet S i T L b.raft := fun h1 h2 => Call.quiet_path hs h1 h2 ha h
  have camp : ∀ {r r' : Raft} {s : Nat} {e : Option Err}, Quiet S i T L r → r.trk.config = a.raft.trk.config →
      r.step env { type := .hup, src := s } = .ok (r', e) → Quiet S i T L r' := by
    intro r r' s e hr hc k
    rw [Raft.step_hup, if_pos hr.pre] at k
    obtain ⟨r2, k2, k⟩ := Res.bind_eq_ok.1 k
    cases k
    exact hr.hup (by rw [hc]; exact hq) k2
  cases c with
  | step m =>
    by_cases hc : CampMsg m
    · obtain ⟨w1, w2, w3⟩ := hw
      obtain ⟨⟨n1, e⟩, h1, h⟩ := Res.bind_eq_ok.1 h
      cases h
      unfold RawNode.step at h1
      split at h1
      · cases h1; exact ha
      rename_i hloc
      split at h1
      · have k := (onRaft_ok h1).1
        rcases hc with hc | hc | hc
        · exact absurd (by rw [hc]; rfl) hloc
        · exact absurd hc w1
        · refine ha.preVoteResp hc (w3 hc) ?_ hq k
          rcases w2 with w | w | w
          · exact Or.inl w
          · rw [hc] at w; cases w
          · exact Or.inr w.2
      · cases h1; exact ha
    · by_cases hv : m.type = .preVote
      · obtain ⟨⟨n1, e⟩, h1, h⟩ := Res.bind_eq_ok.1 h
        cases h
        unfold RawNode.step at h1
        split at h1
        · cases h1; exact ha
        split at h1
        · exact ha.preVote hv (onRaft_ok h1).1
        · cases h1; exact ha
      · refine path hc ?_
        rcases hw.2.1 with w | w | w
        · exact w
        · exact absurd w hv
        · exact absurd (Or.inr (Or.inr w.1)) hc
  | tick =>
    by_cases hl : a.raft.state = .leader
    · refine path ?_ ?_ <;> simp only [Call.msg, if_pos hl]
      · rintro (h | h | h) <;> cases h
      · exact Nat.zero_le _
    · obtain ⟨r, h1, h⟩ := Res.bind_eq_ok.1 h
      cases h
      unfold Raft.tick at h1
      have h1 : a.raft.tickElection env = .ok r := by
        split at h1
        · exact absurd ‹_› hl
        · exact h1
      unfold Raft.tickElection at h1
      dsimp only at h1
      split at h1
      · obtain ⟨⟨r2, e⟩, h2, h1⟩ := Res.bind_eq_ok.1 h1
        cases h1
        refine camp (r := { a.raft with electionElapsed := 0 }) ?_ rfl h2
        exact ha.of rfl rfl rfl rfl rfl
      · cases h1
        exact ha.of rfl rfl rfl rfl rfl
  | campaign =>
    obtain ⟨⟨n1, e⟩, h1, h⟩ := Res.bind_eq_ok.1 h
    cases h
    exact camp ha rfl (onRaft_ok h1).1
  | _ => exact path (by rintro (h | h | h) <;> cases h) (Nat.zero_le _)

/-- **C88**. A node with `pre_vote` that is neither a candidate nor in a pre-election, and that together with the nodes `S` is short of a
quorum of the configuration it is in, throughout a run in which nobody grants it a pre-vote but nodes of `S`, nobody tells it to
campaign at once and nobody it hears from has reached a later term: whatever else happens and however long it takes, its term stays,
it is never a candidate, and it is leader only if it has been from the beginning. -/
theorem C88_cut_off {env : Env} {S : List Nat} {n n' : RawNode} {k : Nat} (hpv : n.raft.preVote = true)
    (hn : n.raft.state = .follower ∨ n.raft.state = .leader)
    (h : Timed env (fun _ c _ => c.Within S n.raft.term) (fun a => a.ShortOf S) True n k n') :
    n'.raft.term = n.raft.term ∧ n'.raft.state ≠ .candidate ∧ (n'.raft.state = .leader → n.raft.state = .leader) := by
  have key : Quiet S n.raft.id n.raft.term (n.raft.state = .leader) n'.raft ∧ n'.ShortOf S := by
    induction h with
    | refl hg =>
      refine ⟨⟨rfl, hpv, rfl, ?_, fun h => h, ?_⟩, hg⟩
      · intro h; rcases hn with hn | hn <;> (rw [hn] at h; cases h)
      · intro h; rcases hn with hn | hn <;> (rw [hn] at h; cases h)
    | call c _ _ hs h hw hg ih =>
      have hq := ih.2
      unfold RawNode.ShortOf at hq
      rw [ih.1.id] at hq
      exact ⟨Call.quiet hs hw hq ih.1 h, hg⟩
    | @ready ccs k a b rd _ _ h hg ih =>
      refine ⟨?_, hg⟩
      refine RawNode.handleReady_only (fun a => Quiet S n.raft.id n.raft.term (n.raft.state = .leader) a.raft) ?_ ?_ h ih.1
      · intro c a b hc h ha
        have hc' : c.Stamped ∧ ¬ CampMsg (c.msg env a) ∧ (c.msg env a).term = 0 := by
          rcases hc with rfl | rfl | ⟨cc, _, rfl⟩ <;> exact ⟨trivial, (by rintro (h | h | h) <;> cases h), rfl⟩
        obtain ⟨hs, h1, h2⟩ := hc'
        exact Call.quiet_path hs h1 (by omega) ha h
      · intro a st ha
        exact ha.of rfl rfl rfl rfl rfl
    | store st _ hg ih => exact ⟨ih.1.of rfl rfl rfl rfl rfl, hg⟩
  exact ⟨key.1.term, key.1.state, key.1.lead⟩

/-! A concrete case: node 1 of the five voters 1 to 5, with `pre_vote`, can reach only node 2. -/
namespace CutDemo

def store : Storage := { snapshot := { metadata := { confState := { voters := [1, 2, 3, 4, 5] } } }, ents := [{}] }

def node (pre : Bool) (cs : List Call) : RawNode :=
  match (do
    let n ← RawNode.new Demo.env { Demo.cfg 1 with preVote := pre } store 0
    cs.foldlM (fun n c => c.run Demo.env n) n : Res RawNode) with
  | .ok n => n
  | _ => default

def ask : Call := .campaign
def grant (j : Nat) : Call := .step { type := .preVoteResp, src := j, «to» := 1, term := 1 }

/-- It asks for pre-votes, gets that of node 2, and a tick passes. -/
theorem cut : ∃ n', Timed Demo.env (fun _ c _ => c.Within [2] 0) (fun a => a.ShortOf [2]) True (node true []) 1 n' ∧
    n'.raft.state = .preCandidate ∧ n'.raft.trk.votes.length = 2 ∧ n'.raft.msgs.length = 4 := by
  have short : ∀ a : RawNode, a.raft.trk.config.voters.incoming = [1, 2, 3, 4, 5] → a.raft.id = 1 → a.ShortOf [2] := by
    intro a h1 h2 h
    have h3 := h.1 (by rw [h1]; nofun)
    rw [h1, h2] at h3
    revert h3
    unfold Majority
    decide
  have t0 : Timed Demo.env (fun _ c _ => c.Within [2] 0) (fun a => a.ShortOf [2]) True (node true []) 0 (node true []) :=
    .refl (short _ (by decide) (by decide))
  have t1 := t0.call (b := node true [ask]) ask trivial trivial (by rfl) trivial (short _ (by decide) (by decide))
  have t2 := t1.call (b := node true [ask, grant 2]) (grant 2) trivial (by simp [Call.Stamped, grant, Stamped]) (by rfl)
    (by simp [Call.Within, grant]) (short _ (by decide) (by decide))
  have t3 := t2.call (b := node true [ask, grant 2, .tick]) .tick trivial trivial (by rfl) trivial (short _ (by decide) (by decide))
  exact ⟨_, t3, by decide, by decide, by decide⟩

/-- The hypotheses matter: without `pre_vote` the same node raises its term; with a second pre-vote, from node 3, it becomes a candidate. -/
example : (node true [ask, grant 2]).raft.term = 0 ∧ (node false [ask]).raft.term = 1 ∧
    (node true [ask, grant 2, grant 3]).raft.term = 1 ∧ (node true [ask, grant 2, grant 3]).raft.state = .candidate := by decide

end CutDemo
end Craft
