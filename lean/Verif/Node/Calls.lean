import Verif.Node.Sim

/-! # Every call of a node as a sequence of elementary steps -/

namespace Craft
open Spec

/-- Elementary steps of a call: those of the message handlers, and what the application triggers directly. -/
inductive NStep (env : Env) (im : Message) : Core → List Message → Core → Prop
  | core {c ms c'} : CStep env im c ms c' → NStep env im c ms c'
  /-- `AppliedTo` (`/repo/src/raft.cc` 441). -/
  | applied {c} (i : Nat) (l : RaftLog) : c.log.appliedTo i = .ok l → NStep env im c [] { c with log := l }
  /-- `StableTo` (`/repo/src/raft.cc` 464). -/
  | stable {c} (i t : Nat) (l : RaftLog) : c.log.stableTo i t = .ok l → NStep env im c [] { c with log := l }
  /-- `StableSnapTo` (`/repo/src/raft.cc` 467). -/
  | stableSnap {c} (i : Nat) : NStep env im c [] { c with log := c.log.stableSnapTo i }
  /-- `ReduceUncommittedSize` (`/repo/src/raft.cc` 432). -/
  | reduce {c} (es : List Entry) : NStep env im c [] { c with size := c.size - Raft.payloads es }
  /-- The read states are handed to the application (`AcceptReady`, `/repo/src/rawnode.cc` 173-175). -/
  | handed {c} (x : List ReadState) : NStep env im c [] { c with reads := { c.reads with states := x } }

inductive NPath (env : Env) (im : Message) : Core → List Message → Core → Prop
  | nil {c} : NPath env im c [] c
  | cons {c c' c'' ms ms'} : NStep env im c ms c' → NPath env im c' ms' c'' → NPath env im c (ms ++ ms') c''

theorem NPath.trans {env : Env} {im : Message} {a b c : Core} {ms ms' : List Message} (h1 : NPath env im a ms b)
    (h2 : NPath env im b ms' c) : NPath env im a (ms ++ ms') c := by
  induction h1 with
  | nil => exact h2
  | cons hs _ ih => rw [List.append_assoc]; exact .cons hs (ih h2)

theorem NPath.single {env : Env} {im : Message} {a b : Core} {ms : List Message} (h : NStep env im a ms b) : NPath env im a ms b := by
  have := NPath.cons h .nil
  rwa [List.append_nil] at this

theorem CPath.npath {env : Env} {im : Message} {a b : Core} {ms : List Message} (h : CPath env im a ms b) : NPath env im a ms b := by
  induction h with
  | nil => exact .nil
  | cons hs _ ih => exact .cons (.core hs) ih

/-- The configuration is unchanged and the core moves along a path, emitting `ms`. -/
def NSim (env : Env) (im : Message) (r r' : Raft) : Prop :=
  Keep r r' ∧ ∃ ms, r'.msgs = r.msgs ++ ms ∧ NPath env im r.core ms r'.core

theorem Sim.nsim {env : Env} {im : Message} {a b : Raft} (h : Sim env im a b) : NSim env im a b := by
  obtain ⟨k, ms, e, p⟩ := h
  exact ⟨k, ms, e, p.npath⟩

namespace NSim
variable {env : Env} {im : Message} {a b c : Raft}

theorem refl : NSim env im a a := Sim.refl.nsim

theorem trans (h1 : NSim env im a b) (h2 : NSim env im b c) : NSim env im a c := by
  obtain ⟨k1, ms1, e1, p1⟩ := h1
  obtain ⟨k2, ms2, e2, p2⟩ := h2
  exact ⟨k1.trans k2, ms1 ++ ms2, by rw [e2, e1, List.append_assoc], p1.trans p2⟩

theorem step0 (hk : b.consts = a.consts) (hm : b.msgs = a.msgs) (hs : NStep env im a.core [] b.core)
    (ht : b.randomizedElectionTimeout = a.randomizedElectionTimeout := by rfl) : NSim env im a b :=
  ⟨.of hk ht, [], by rw [hm, List.append_nil], .single hs⟩

end NSim

namespace Raft
variable {env : Env} {im : Message}

theorem switchSend_sim {r r' : Raft} (hl : r.state = .leader) (hz : im.term = 0) (h : r.switchSend env = .ok r') : Sim env im r r' := by
  unfold switchSend at h
  obtain ⟨⟨r1, c⟩, h1, h⟩ := Res.bind_eq_ok.1 h
  have s1 := maybeCommit_sim (env := env) (im := im) hl (fun h => by have := h.1; omega) h1
  have hl1 : r1.state = .leader := by rw [(maybeCommit_ok h1).1]; exact hl
  dsimp only at h
  cases c with
  | true =>
    simp only [if_true] at h
    exact s1.trans (bcastAppend_qsim hl1 h).sim
  | false =>
    simp only [Bool.false_eq_true, if_false] at h
    exact s1.trans (visitSend_qsim _ hl1 h).sim

/-- The node right after the new configuration was installed. -/
def withConf (r : Raft) (cfg : TConfig) (prs : ProgressMap) (lrn : Bool) : Raft :=
  { r with trk := { config := cfg, progress := prs, votes := r.trk.votes, maxInflight := r.trk.maxInflight }, isLearner := lrn }

theorem switchToConfig_sim {r r' : Raft} {cfg : TConfig} {prs : ProgressMap} {cs : ConfState} (hz : im.term = 0)
    (h : r.switchToConfig env cfg prs = .ok (r', cs)) : ∃ lrn, Sim env im (r.withConf cfg prs lrn) r' := by
  unfold switchToConfig at h
  dsimp only at h
  generalize hb : selfLearner _ = lrn at h
  refine ⟨lrn, ?_⟩
  split at h
  · simp only [Res.pure_eq, Res.ok.injEq, Prod.mk.injEq] at h
    rw [← h.1]; exact .of_core rfl rfl rfl
  split at h
  · simp only [Res.pure_eq, Res.ok.injEq, Prod.mk.injEq] at h
    rw [← h.1]; exact .of_core rfl rfl rfl
  rename_i h2
  have hl : r.state = .leader := Decidable.byContradiction fun h => h2 (Or.inl h)
  obtain ⟨r1, h1, h⟩ := Res.bind_eq_ok.1 h
  refine (switchSend_sim (r := r.withConf cfg prs lrn) hl hz h1).trans ?_
  split at h <;> simp only [Res.pure_eq, Res.ok.injEq, Prod.mk.injEq] at h <;> rw [← h.1]
  · exact .of_core rfl rfl rfl
  · exact .refl

theorem applyConfChange_sim {r r' : Raft} {cc : ConfChangeV2} {cs : ConfState} (hz : im.term = 0) (h : r.applyConfChange env cc = .ok (r', cs)) :
    ∃ cfg prs lrn, Sim env im (r.withConf cfg prs lrn) r' := by
  unfold applyConfChange at h
  dsimp only at h
  split at h
  · cases h
  · obtain ⟨l, hl⟩ := switchToConfig_sim (im := im) hz h
    exact ⟨_, _, l, hl⟩

theorem appliedTo_log {l l' : RaftLog} {i : Nat} (h : l.appliedTo i = .ok l') : l' = { l with applied := l'.applied } ∧
    (i = 0 ∨ (l'.applied = i ∧ l.applied ≤ i ∧ i ≤ l.committed)) := by
  unfold RaftLog.appliedTo at h
  by_cases h0 : i = 0
  · rw [if_pos h0] at h; cases h; exact ⟨rfl, Or.inl h0⟩
  · rw [if_neg h0] at h
    split at h
    · cases h
    · cases h; exact ⟨rfl, Or.inr ⟨rfl, by omega, by omega⟩⟩

theorem advanceApplied_cases {r r' : Raft} {i : Nat} (h : r.advanceApplied i = .ok r') :
    (i = 0 ∧ r' = r) ∨
    (0 < i ∧ ∃ l, r.log.appliedTo i = .ok l ∧
      (r' = { r with log := l } ∨
       (r.log.applied ≤ r.pendingConfIndex ∧ r.pendingConfIndex ≤ i ∧ r.state = .leader ∧ r.trk.config.autoLeave = true ∧
        ∃ ra, ({ r with log := l } : Raft).appendEntry [{ type := .confChangeV2 }] = .ok (ra, true) ∧
          r' = { ra with pendingConfIndex := ra.log.lastIndex }))) := by
  unfold advanceApplied at h
  by_cases h0 : i > 0
  · rw [if_pos h0] at h
    obtain ⟨l, hl, h⟩ := Res.bind_eq_ok.1 h
    refine Or.inr ⟨h0, l, hl, ?_⟩
    dsimp only at h
    split at h
    · rename_i hcond
      obtain ⟨⟨ra, ok⟩, ha, h1⟩ := Res.bind_eq_ok.1 h
      dsimp only at h1
      cases ok with
      | false => simp at h1
      | true =>
        simp only [not_true, if_false, Res.pure_eq, Res.ok.injEq] at h1
        exact Or.inr ⟨hcond.2.1, hcond.2.2.1, hcond.2.2.2, hcond.1, ra, ha, h1.symm⟩
    · simp only [Res.pure_eq, Res.ok.injEq] at h
      exact Or.inl h.symm
  · rw [if_neg h0] at h
    cases h
    exact Or.inl ⟨by omega, rfl⟩

theorem _root_.Craft.RaftLog.commitTo_shape {l l' : RaftLog} {i : Nat} (h : l.commitTo i = .ok l') :
    l' = { l with committed := max l.committed i } := by
  unfold RaftLog.commitTo at h
  split at h
  · split at h
    · cases h
    · cases h
      rw [Nat.max_eq_right (by omega)]
  · cases h
    rw [Nat.max_eq_left (by omega)]

theorem _root_.Craft.RaftLog.maybeCommit_shape {l l' : RaftLog} {i t : Nat} {b : Bool} (h : l.maybeCommit i t = .ok (l', b)) :
    l' = { l with committed := l'.committed } ∧ l.committed ≤ l'.committed := by
  unfold RaftLog.maybeCommit at h
  split at h
  · obtain ⟨tt, h1, h⟩ := Res.bind_eq_ok.1 h
    obtain ⟨tt2, h2, h⟩ := Res.bind_eq_ok.1 h
    split at h
    · obtain ⟨l2, h3, h⟩ := Res.bind_eq_ok.1 h
      cases h
      rw [RaftLog.commitTo_shape h3]
      exact ⟨rfl, by show _ ≤ max _ _; omega⟩
    · cases h; exact ⟨rfl, Nat.le_refl _⟩
  · cases h; exact ⟨rfl, Nat.le_refl _⟩

theorem _root_.Craft.RaftLog.append_lastIndex {l l' : RaftLog} {e : Entry} {es : List Entry} (h : l.append (e :: es) = .ok l') :
    l'.lastIndex = e.index + es.length := by
  unfold RaftLog.append at h
  dsimp only at h
  split at h
  · cases h
  obtain ⟨u, hu, h⟩ := Res.bind_eq_ok.1 h
  simp only [Res.pure_eq, Res.ok.injEq] at h
  subst h
  unfold Unstable.truncateAndAppend at hu
  dsimp only at hu
  unfold RaftLog.lastIndex Unstable.maybeLastIndex
  dsimp only
  split at hu
  · cases hu
    rename_i h1
    simp only [List.append_eq_nil_iff, reduceCtorEq, and_false, List.length_append, List.length_cons, ne_eq, not_false_eq_true, if_true]
    omega
  split at hu
  · cases hu
    simp
  split at hu
  · cases hu
  · cases hu
    rename_i h1 h2 h3
    simp only [List.append_eq_nil_iff, reduceCtorEq, and_false, List.length_append, List.length_cons, List.length_take, ne_eq, not_false_eq_true, if_true]
    omega

theorem stamp_length (t i : Nat) (es : List Entry) : (stamp t i es).length = es.length := by
  induction es generalizing i with
  | nil => rfl
  | cons e es ih => simp [stamp, ih]

theorem appendEntry_pci {r r' : Raft} {es : List Entry} {b : Bool} (x : Nat) (h : r.appendEntry es = .ok (r', b)) :
    ({ r with pendingConfIndex := x } : Raft).appendEntry es = .ok ({ r' with pendingConfIndex := x }, b) := by
  unfold appendEntry at h ⊢
  dsimp only at h ⊢
  have hi : ∀ es, ({ r with pendingConfIndex := x } : Raft).increaseUncommittedSize es =
      ({ (r.increaseUncommittedSize es).1 with pendingConfIndex := x }, (r.increaseUncommittedSize es).2) := by
    intro es
    unfold increaseUncommittedSize
    dsimp only
    split <;> rfl
  rw [hi]
  generalize r.increaseUncommittedSize _ = y at h ⊢
  obtain ⟨r1, ok⟩ := y
  dsimp only at h ⊢
  cases ok with
  | false =>
    simp only [Bool.false_eq_true, not_false_eq_true, if_true, Res.ok.injEq, Prod.mk.injEq] at h ⊢
    obtain ⟨rfl, rfl⟩ := h
    exact ⟨rfl, rfl⟩
  | true =>
    simp only [not_true_eq_false, if_false] at h ⊢
    obtain ⟨l, hl, h⟩ := Res.bind_eq_ok.1 h
    rw [hl]
    simp only [Res.ok_bind]
    obtain ⟨p, hp, h⟩ := Res.bind_eq_ok.1 h
    have hp2 : ({ r1 with log := l, pendingConfIndex := x } : Raft).getPr r1.id "raft.cc:526" = .ok p := hp
    rw [hp2]
    simp only [Res.ok_bind]
    obtain ⟨⟨r2, b2⟩, hm, h⟩ := Res.bind_eq_ok.1 h
    simp only [Res.pure_eq, Res.ok.injEq, Prod.mk.injEq] at h
    obtain ⟨rfl, rfl⟩ := h
    unfold maybeCommit at hm ⊢
    obtain ⟨⟨l2, b3⟩, hm2, h⟩ := Res.bind_eq_ok.1 hm
    simp only [Res.pure_eq, Res.ok.injEq, Prod.mk.injEq] at h
    obtain ⟨rfl, rfl⟩ := h
    have hm3 : RaftLog.maybeCommit
      ({ r1 with log := l, pendingConfIndex := x } : Raft).log _ _ = .ok (l2, b3) := hm2
    unfold setPr
    dsimp only
    unfold setPr at hm3
    dsimp only at hm3
    rw [hm3]
    rfl

/-- A successful `AppendEntry` puts exactly the stamped entries at the end. -/
theorem appendEntry_last {r r' : Raft} {e : Entry} {es : List Entry} (h : r.appendEntry (e :: es) = .ok (r', true)) :
    r'.log.lastIndex = r.log.lastIndex + 1 + es.length := by
  unfold appendEntry at h
  dsimp only at h
  have hi := increase_core r (stamp r.term (r.log.lastIndex + 1) (e :: es))
  generalize r.increaseUncommittedSize _ = y at h hi
  obtain ⟨r1, ok⟩ := y
  obtain ⟨hc, _, _⟩ := hi
  have hlog : r1.log = r.log := congrArg Core.log hc
  dsimp only at h
  cases ok with
  | false => simp at h
  | true =>
    simp only [not_true_eq_false, if_false] at h
    obtain ⟨l, hl, h⟩ := Res.bind_eq_ok.1 h
    obtain ⟨p, hp, h⟩ := Res.bind_eq_ok.1 h
    obtain ⟨⟨r2, b2⟩, hm, h⟩ := Res.bind_eq_ok.1 h
    simp only [Res.pure_eq, Res.ok.injEq, Prod.mk.injEq] at h
    obtain ⟨rfl, -⟩ := h
    have hll := RaftLog.append_lastIndex hl
    obtain ⟨m1, m2⟩ := maybeCommit_ok hm
    rw [(RaftLog.maybeCommit_shape m2).1]
    show l.lastIndex = _
    rw [hll, stamp_length]

theorem advanceApplied_nsim {r r' : Raft} {i : Nat} (hz : im.term = 0) (h : r.advanceApplied i = .ok r') : NSim env im r r' := by
  rcases advanceApplied_cases h with ⟨_, rfl⟩ | ⟨h0, l, hl, rfl | ⟨h1, h2, h3, h4, ra, ha, rfl⟩⟩
  · exact .refl
  · exact .step0 rfl rfl (.applied (c := r.core) i l hl)
  · refine NSim.trans (b := { r with log := l }) (.step0 rfl rfl (.applied (c := r.core) i l hl)) ?_
    have hlast := appendEntry_last ha
    have hp := appendEntry_pci ra.log.lastIndex ha
    have hap := appliedTo_log hl
    have hg : ConfGate ({ r with log := l } : Raft).core [{ type := .confChangeV2 }] ra.log.lastIndex := by
      intro _
      refine Or.inr ⟨?_, [], _, [], rfl, (by intro h; cases h), (by simp), by rw [hlast]; rfl⟩
      rcases hap.2 with h | ⟨h, _⟩
      · omega
      · show r.pendingConfIndex ≤ l.applied
        omega
    exact ((appendEntry_sim (im := im) (env := env) (r := { r with log := l }) h3 (fun h => by have := h.1; omega) hg
      (by intro e he _; exact Or.inr ⟨h4, by simpa using he⟩) (by intro e he; exact Or.inr (Or.inl (by simpa using he))) hp).1 rfl).1.nsim

theorem advance_nsim {r r' : Raft} {rd : Ready} (hz : im.term = 0) (h : r.advance rd = .ok r') : NSim env im r r' := by
  unfold advance at h
  obtain ⟨r1, h1, h⟩ := Res.bind_eq_ok.1 h
  obtain ⟨l, h2, h⟩ := Res.bind_eq_ok.1 h
  simp only [Res.pure_eq, Res.ok.injEq] at h
  subst h
  have s0 : NSim env im r (r.reduceUncommittedSize rd.committedEntries) := by
    obtain ⟨k1, k2, k3⟩ := reduce_core r rd.committedEntries
    refine ⟨k2, [], by rw [k3, List.append_nil], ?_⟩
    rw [k1]
    exact .single (.reduce (c := r.core) rd.committedEntries)
  refine NSim.trans s0 (NSim.trans (advanceApplied_nsim hz h1) ?_)
  have s2 : NSim env im r1 { r1 with log := l } := by
    unfold advanceStable at h2
    split at h2
    · rename_i e _
      exact .step0 rfl rfl (.stable (c := r1.core) e.index e.term l h2)
    · cases h2; exact .refl
  refine s2.trans ?_
  split
  · exact .refl
  · exact .step0 rfl rfl (.stableSnap (c := ({ r1 with log := l } : Raft).core) _)

end Raft

/-- The message a call hands to `Raft::Step`; a term-0 local message for calls that hand over none. -/
def Call.msg (cfg : Env) (n : RawNode) : Call → Message
  | .step m => m
  | .propose d => { type := .prop, src := n.raft.id, entries := [{ data := d }] }
  | .proposeConfChange cc => { type := .prop, entries := [{ type := (cc.marshal cfg).1, data := (cc.marshal cfg).2 }] }
  | .reportUnreachable id => { type := .unreachable, src := id }
  | .reportSnapshot id f => { type := .snapStatus, src := id, reject := f }
  | .transferLeader id => { type := .transferLeader, src := id }
  | .readIndex ctx => { type := .readIndex, entries := [{ data := ctx }] }
  | .tick => if n.raft.state = .leader then { type := .beat } else { type := .hup }
  | .campaign => { type := .hup }
  | _ => { type := .beat }

theorem onRaft_ok {n n' : RawNode} {f : Raft → Res (Raft × Option Err)} {e : Option Err} (h : n.onRaft f = .ok (n', e)) :
    f n.raft = .ok (n'.raft, e) ∧ n' = { n with raft := n'.raft } := by
  unfold RawNode.onRaft at h
  obtain ⟨⟨r, e'⟩, h1, h⟩ := Res.bind_eq_ok.1 h
  simp only [Res.pure_eq, Res.ok.injEq, Prod.mk.injEq] at h
  obtain ⟨rfl, rfl⟩ := h
  exact ⟨h1, rfl⟩

theorem getReady_ok {env : Env} {n n' : RawNode} {rd : Ready} (h : n.getReady env = .ok (n', rd)) :
    n.readyWithoutAccept env = .ok rd ∧ n' = { n.acceptReady rd with ready := some rd } := by
  unfold RawNode.getReady at h
  obtain ⟨rd', h1, h⟩ := Res.bind_eq_ok.1 h
  simp only [Res.pure_eq, Res.ok.injEq, Prod.mk.injEq] at h
  obtain ⟨rfl, rfl⟩ := h
  exact ⟨h1, rfl⟩

/-- Every call is a sequence of elementary steps, which `ApplyConfChange` starts from a new configuration; it appends to
the outbox, which `GetReady` empties. -/
theorem Call.run_path {env : Env} {c : Call} {n n' : RawNode} (hs : c.Stamped) (h : c.run env n = .ok n') :
    Keep n.raft n'.raft ∧ ∃ cfg P, ((∀ cc, c ≠ .applyConfChange cc) → cfg = n.raft.trk.config ∧ P = n.raft.trk.progress) ∧
      ∃ ms, n'.raft.msgs = (if c = .getReady then [] else n.raft.msgs) ++ ms ∧
      NPath env (c.msg env n) { n.raft.core with config := cfg, progress := P } ms n'.raft.core := by
  by_cases hcc : ∃ cc, c = .applyConfChange cc
  · obtain ⟨cc, rfl⟩ := hcc
    obtain ⟨⟨n1, cs⟩, h1, h⟩ := Res.bind_eq_ok.1 h
    simp only [Res.pure_eq, Res.ok.injEq] at h
    subst h
    unfold RawNode.applyConfChange at h1
    obtain ⟨⟨r, cs'⟩, h2, h1⟩ := Res.bind_eq_ok.1 h1
    simp only [Res.pure_eq, Res.ok.injEq, Prod.mk.injEq] at h1
    obtain ⟨rfl, rfl⟩ := h1
    obtain ⟨cfg, prs, lrn, hk, ms, hm, hp⟩ := Raft.applyConfChange_sim (im := Call.msg env n (.applyConfChange cc)) rfl h2
    exact ⟨hk, cfg, prs, fun h => absurd rfl (h cc), ms, hm, hp.npath⟩
  suffices hh : Keep n.raft n'.raft ∧ ∃ ms, n'.raft.msgs = (if c = .getReady then [] else n.raft.msgs) ++ ms ∧
      NPath env (c.msg env n) n.raft.core ms n'.raft.core from
    ⟨hh.1, n.raft.trk.config, n.raft.trk.progress, fun _ => ⟨rfl, rfl⟩, hh.2⟩
  have key : ∀ {im : Message} {e : Option Err}, Craft.Stamped im → n.raft.step env im = .ok (n'.raft, e) →
      Keep n.raft n'.raft ∧ ∃ ms, n'.raft.msgs = n.raft.msgs ++ ms ∧ NPath env im n.raft.core ms n'.raft.core :=
    fun hst h => (Raft.step_sim hst h).nsim
  cases c with
  | step m =>
    obtain ⟨⟨n1, e⟩, h1, h⟩ := Res.bind_eq_ok.1 h
    simp only [Res.pure_eq, Res.ok.injEq] at h
    subst h
    unfold RawNode.step at h1
    split at h1
    · simp only [Res.ok.injEq, Prod.mk.injEq] at h1
      rw [← h1.1]; exact NSim.refl
    split at h1
    · exact key hs (onRaft_ok h1).1
    · simp only [Res.ok.injEq, Prod.mk.injEq] at h1
      rw [← h1.1]; exact NSim.refl
  | tick =>
    obtain ⟨r, h1, h⟩ := Res.bind_eq_ok.1 h
    simp only [Res.pure_eq, Res.ok.injEq] at h
    subst h
    exact (Raft.tick_sim (fun hl => by simp [Call.msg, hl, CampMsg]) (fun hl => by simp [Call.msg, hl, CampMsg]) h1).nsim
  | tickQuiesced =>
    simp only [Call.run, Res.ok.injEq] at h
    subst h
    exact Sim.nsim (.of_core rfl rfl rfl)
  | campaign =>
    obtain ⟨⟨n1, e⟩, h1, h⟩ := Res.bind_eq_ok.1 h
    simp only [Res.pure_eq, Res.ok.injEq] at h
    subst h
    exact key (by intro h; simp [Call.msg] at h) (onRaft_ok h1).1
  | propose d =>
    obtain ⟨⟨n1, e⟩, h1, h⟩ := Res.bind_eq_ok.1 h
    simp only [Res.pure_eq, Res.ok.injEq] at h
    subst h
    exact key (by intro h; simp [Call.msg] at h) (onRaft_ok h1).1
  | proposeConfChange cc =>
    obtain ⟨⟨n1, e⟩, h1, h⟩ := Res.bind_eq_ok.1 h
    simp only [Res.pure_eq, Res.ok.injEq] at h
    subst h
    exact key (by intro h; simp [Call.msg] at h) (onRaft_ok (f := fun r => r.step env (Call.msg env n (.proposeConfChange cc))) h1).1
  | applyConfChange cc => exact absurd ⟨cc, rfl⟩ hcc
  | getReady =>
    obtain ⟨⟨n1, cs⟩, h1, h⟩ := Res.bind_eq_ok.1 h
    simp only [Res.pure_eq, Res.ok.injEq] at h
    subst h
    obtain ⟨_, h2⟩ := getReady_ok h1
    subst h2
    exact ⟨.of rfl rfl, [], rfl, .single (.handed _)⟩
  | advance =>
    simp only [Call.run, RawNode.advance] at h
    split at h
    · cases h
    · obtain ⟨r, h1, h⟩ := Res.bind_eq_ok.1 h
      simp only [Res.pure_eq, Res.ok.injEq] at h
      subst h
      exact Raft.advance_nsim rfl h1
  | reportUnreachable id =>
    obtain ⟨⟨n1, e⟩, h1, h⟩ := Res.bind_eq_ok.1 h
    simp only [Res.pure_eq, Res.ok.injEq] at h
    subst h
    exact key (by intro h; simp [Call.msg] at h) (onRaft_ok h1).1
  | reportSnapshot id f =>
    obtain ⟨⟨n1, e⟩, h1, h⟩ := Res.bind_eq_ok.1 h
    simp only [Res.pure_eq, Res.ok.injEq] at h
    subst h
    exact key (by intro h; simp [Call.msg] at h) (onRaft_ok h1).1
  | transferLeader id =>
    obtain ⟨⟨n1, e⟩, h1, h⟩ := Res.bind_eq_ok.1 h
    simp only [Res.pure_eq, Res.ok.injEq] at h
    subst h
    exact key (by intro h; simp [Call.msg] at h) (onRaft_ok h1).1
  | readIndex ctx =>
    obtain ⟨⟨n1, e⟩, h1, h⟩ := Res.bind_eq_ok.1 h
    simp only [Res.pure_eq, Res.ok.injEq] at h
    subst h
    exact key (by intro h; simp [Call.msg] at h) (onRaft_ok h1).1

end Craft
