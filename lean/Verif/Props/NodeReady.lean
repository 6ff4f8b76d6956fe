import Verif.Node.Durable
import Verif.Proofs.Log
import Verif.Demo

/-! # C43, C44, C45: Ready and Bootstrap -/

namespace Craft
open Spec

/-- The Ready carries something to do. -/
def Ready.Update (rd : Ready) : Prop :=
  rd.softState ≠ none ∨ rd.hardState ≠ {} ∨ rd.snapshot.metadata.index ≠ 0 ∨ rd.entries ≠ [] ∨ rd.committedEntries ≠ [] ∨
    rd.messages ≠ [] ∨ rd.readStates ≠ []

/-- `HasReady` says yes exactly if the Ready `GetReady` would return (which it does return) carries an update. -/
theorem C43_has_ready_exact {env : Env} {n : RawNode} (hw : n.raft.log.WF) (hc : n.raft.log.committed ≤ n.raft.log.view.last) :
    ∃ n' rd, n.getReady env = .ok (n', rd) ∧ (n.hasReady = true ↔ rd.Update) := by
  have hn := hw.nextEnts_eq env hc
  have hrd : ∃ rd, n.readyWithoutAccept env = .ok rd := by
    unfold RawNode.readyWithoutAccept newReady
    rw [hn]
    exact ⟨_, rfl⟩
  obtain ⟨rd, hrd⟩ := hrd
  refine ⟨_, rd, by unfold RawNode.getReady; rw [hrd]; rfl, ?_⟩
  obtain ⟨es, hes, rfl⟩ := readyWithoutAccept_ok hrd
  rw [hn] at hes
  cases hes
  have hne : (limitSize env.entSize
      (n.raft.log.view.range (max (n.raft.log.applied + 1) (n.raft.log.view.base + 1)) (n.raft.log.committed + 1))
      n.raft.log.maxNextEntsSize ≠ []) ↔ n.raft.log.hasNextEnts = true := by
    rw [RaftLog.hasNextEnts_eq, decide_eq_true_iff]
    constructor
    · intro h
      refine Decidable.byContradiction fun hlt => h ?_
      have : n.raft.log.committed + 1 - max (n.raft.log.applied + 1) (n.raft.log.view.base + 1) = 0 := by omega
      unfold LogView.range
      rw [this, List.take_zero]
      rfl
    · intro h
      refine limitSize_ne_nil _ _ _ fun h0 => ?_
      have hl := RaftLog.range_length (v := n.raft.log.view) (lo := max (n.raft.log.applied + 1) (n.raft.log.view.base + 1))
        (hi := n.raft.log.committed + 1) (by omega) (by omega) (by omega)
      rw [h0] at hl
      simp only [List.length_nil] at hl
      omega
  unfold RawNode.hasReady Ready.Update
  dsimp only
  rw [hne]
  simp only [Bool.or_eq_true, Bool.and_eq_true, decide_eq_true_eq, Bool.not_eq_true', isEmptyHardState, decide_eq_false_iff_not]
  have h1 : (if n.raft.softState = n.prevSoftSt then none else some n.raft.softState) ≠ (none : Option SoftState) ↔
      n.raft.softState ≠ n.prevSoftSt := by split <;> simp_all
  have h2 : (if n.raft.hardState = n.prevHardSt then {} else n.raft.hardState) ≠ ({} : HardState) ↔
      (¬ n.raft.hardState = {} ∧ n.raft.hardState ≠ n.prevHardSt) := by
    by_cases h : n.raft.hardState = n.prevHardSt
    · rw [if_pos h]; simp [h]
    · rw [if_neg h]; simp [h]
  rw [h1, h2]
  have h3 : (match n.raft.log.unstable.snapshot with | some s => s | none => ({} : Snapshot)).metadata.index ≠ 0 ↔
      n.raft.log.hasPendingSnapshot = true := by
    unfold RaftLog.hasPendingSnapshot
    cases n.raft.log.unstable.snapshot with
    | none => simp
    | some s => simp
  constructor
  · rintro ((((h | h) | h) | ((h | h) | h)) | h)
    · exact Or.inl h
    · exact Or.inr (Or.inl h)
    · exact Or.inr (Or.inr (Or.inl (h3.2 h)))
    · exact Or.inr (Or.inr (Or.inr (Or.inr (Or.inr (Or.inl h)))))
    · exact Or.inr (Or.inr (Or.inr (Or.inl h)))
    · exact Or.inr (Or.inr (Or.inr (Or.inr (Or.inl h))))
    · exact Or.inr (Or.inr (Or.inr (Or.inr (Or.inr (Or.inr h)))))
  · rintro (h | h | h | h | h | h | h)
    · exact Or.inl (Or.inl (Or.inl (Or.inl h)))
    · exact Or.inl (Or.inl (Or.inl (Or.inr h)))
    · exact Or.inl (Or.inl (Or.inr (h3.1 h)))
    · exact Or.inl (Or.inr (Or.inl (Or.inr h)))
    · exact Or.inl (Or.inr (Or.inr h))
    · exact Or.inl (Or.inr (Or.inl (Or.inl h)))
    · exact Or.inr h

/-- The two cases occur: a fresh node has nothing to do, a campaigning one has. -/
example : (Demo.node 1 []).hasReady = false ∧ (Demo.node 1 [.campaign]).hasReady = true := by decide

/-- `must_sync` is false exactly if the Ready has no entries and neither the term nor the vote moved since the hard state
that was acknowledged last. -/
theorem C44_must_sync {env : Env} {n : RawNode} {rd : Ready} (h : n.readyWithoutAccept env = .ok rd) :
    rd.mustSync = false ↔ (rd.entries = [] ∧ n.raft.term = n.prevHardSt.term ∧ n.raft.vote = n.prevHardSt.vote) := by
  obtain ⟨es, _, rfl⟩ := readyWithoutAccept_ok h
  dsimp only [Craft.mustSync]
  rw [decide_eq_false_iff_not]
  constructor
  · intro h
    refine ⟨?_, ?_, ?_⟩
    · exact Decidable.byContradiction fun h1 => h (Or.inl (fun h0 => h1 (List.eq_nil_of_length_eq_zero h0)))
    · exact Decidable.byContradiction fun h1 => h (Or.inr (Or.inr h1))
    · exact Decidable.byContradiction fun h1 => h (Or.inr (Or.inl h1))
  · rintro ⟨h1, h2, h3⟩ (h | h | h)
    · exact h (by rw [h1]; rfl)
    · exact h h3
    · exact h h2

/-- In every history, with any number of crashes: a Ready with `must_sync` false carries no entry, and the node's term and
vote are already in the storage. -/
theorem C44_no_loss {env : Env} {x : NodeHist} {rd : Ready} (hx : NodeReach env x) (h : x.node.readyWithoutAccept env = .ok rd)
    (hs : rd.mustSync = false) :
    rd.entries = [] ∧ x.node.raft.log.storage.hardState.term = x.node.raft.term ∧
      x.node.raft.log.storage.hardState.vote = x.node.raft.vote := by
  obtain ⟨h1, h2, h3⟩ := (C44_must_sync h).1 hs
  exact ⟨h1, by rw [h2, hx.dur.term], by rw [h3, hx.dur.vote]⟩

/-- In every history: once a Ready is persisted, the storage holds the term and vote the node had when it was taken. -/
theorem C44_persisted {env : Env} {x : NodeHist} {n' : RawNode} {rd : Ready} (hx : NodeReach env x)
    (h : x.node.takeReady env = .ok (n', rd)) :
    n'.raft.log.storage.hardState.term = x.node.raft.term ∧ n'.raft.log.storage.hardState.vote = x.node.raft.vote := by
  unfold RawNode.takeReady at h
  obtain ⟨⟨n1, rd1⟩, h1, h⟩ := Res.bind_eq_ok.1 h
  obtain ⟨st, hst, h⟩ := Res.bind_eq_ok.1 h
  simp only [Res.pure_eq, Res.ok.injEq, Prod.mk.injEq] at h
  obtain ⟨rfl, rfl⟩ := h
  obtain ⟨hr, rfl⟩ := getReady_ok h1
  have := hx.dur.persisted hr
  have hs := Storage.save_hard hst
  constructor
  · exact (congrArg HardState.term hs).trans this.1
  · exact (congrArg HardState.vote hs).trans this.2

/-- Both values of `must_sync` occur: a vote must be synced, a leader's heartbeat not. -/
example : (match (Demo.node 2 [.step { type := .vote, src := 1, to := 2, term := 1 }]).readyWithoutAccept Demo.env with
    | .ok rd => rd.mustSync
    | _ => false) = true := by decide
example : (match (Demo.node 1 [.tick]).readyWithoutAccept Demo.env with
    | .ok rd => rd.mustSync
    | _ => true) = false := by decide

/-! ## C45: Bootstrap

The property is false: `Bootstrap` reads the last index of the storage and ignores it. -/

/-- A storage with a persisted entry and hard state. -/
def usedStore : Storage :=
  { hardState := { term := 5, vote := 2, commit := 0 }, snapshot := { metadata := { confState := { voters := [1, 2, 3] } } }
    ents := [{}, { term := 5, index := 1, data := [7] }] }

def usedNode : RawNode :=
  match RawNode.new Demo.env (Demo.cfg 1) usedStore 0 with
  | .ok n => n
  | _ => default

/-- The negation of the property, by a counterexample: a node on a non-empty storage is bootstrapped without an error; its
term goes back from 5 to 1, its vote is forgotten and the persisted entry is overwritten. -/
theorem C45_bootstrap_false : ∃ n', usedStore.lastIndex = 1 ∧ usedNode.raft.term = 5 ∧
    usedNode.bootstrap Demo.env [(4, [])] = .ok (n', none) ∧ n'.raft.term = 1 ∧ n'.raft.vote = 0 ∧
    n'.raft.log.view.ents.map (·.term) = [1] ∧ usedNode.raft.log.view.ents.map (·.term) = [5] := by
  refine ⟨(match usedNode.bootstrap Demo.env [(4, [])] with | .ok (n, _) => n | _ => default), ?_⟩
  decide

/-- What holds: no peers is an error and changes nothing. -/
theorem C45_bootstrap_no_peers_partial (env : Env) (n : RawNode) :
    ∃ s, n.bootstrap env [] = .ok (n, some (.invalid s)) := ⟨_, rfl⟩

/-- What holds: on a storage with something committed `Bootstrap` aborts rather than overwrite it. -/
theorem C45_bootstrap_committed_partial {env : Env} {n : RawNode} {p : Nat × Bytes} {ps : List (Nat × Bytes)}
    (hc : 0 < n.raft.log.committed) : ∃ s, n.bootstrap env (p :: ps) = .fatal s := by
  unfold RawNode.bootstrap
  rw [if_neg (by simp)]
  dsimp only
  have hl : (n.raft.becomeFollower env 1 0).log = n.raft.log := congrArg Core.log (Raft.becomeFollower_core (env := env) n.raft 1 0)
  rw [hl]
  unfold RaftLog.append RawNode.bootstrapEntries
  dsimp only
  rw [if_pos (by show sub64 1 1 < _; simpa [sub64] using hc)]
  exact ⟨_, rfl⟩

end Craft
