import Verif.Spec.Members

/-! # Clusters started with `Bootstrap`

As `Verif.Spec.Members`, but nothing is on any disk at first. The founders, whose ids are those of the peer list, are started
by creating a node on the empty storage and calling `Bootstrap` with the peer list (`RawNode::Start`, `/repo/src/rawnode.h` 74-78; every
founder is given the same list). All others start with nothing (`RawNode::ReStart`, `/repo/src/rawnode.h` 80-83) and
learn everything from messages. -/

namespace Craft.Boot
open Spec Members

/-- The peer list: somebody is on it, nobody has the id 0, and the applications read back the conf changes that `Bootstrap` writes. -/
structure PeersOK (env : Env) (dec : Entry → Option ConfChangeI) (peers : List (Nat × Bytes)) : Prop where
  some : peers ≠ []
  ids : ∀ q ∈ peers, q.1 ≠ 0
  read : ∀ q ∈ peers, ∀ e : Entry, e.type = .confChange → e.data = env.serV1 { type := .addNode, nodeId := q.1, context := q.2 } →
    dec e = Option.some (.v1 { type := .addNode, nodeId := q.1, context := q.2 })

/-- `p` is on the peer list. -/
def Founder (peers : List (Nat × Bytes)) (p : Nat) : Prop := p ∈ peers.map (·.1)

/-- What can happen. -/
inductive Step (env : Env) (dec : Entry → Option ConfChangeI) (peers : List (Nat × Bytes)) : State → State → Prop
  /-- A founder whose disk is (still) empty is started and bootstrapped. -/
  | boot (p : Nat) (cfg : Config) (rng : Nat) {c n0 n} : c.proc p = .down {} → Founder peers p → cfg.id = p → cfg.applied = 0 →
      RawNode.new env cfg {} rng = .ok n0 → n0.bootstrap env peers = .ok (n, none) → Step env dec peers c (c.set p (.up n ⟨0, {}⟩))
  /-- All else is as before; but a founder whose disk is empty is not started in any other way. -/
  | other {c c'} : Members.Step env dec c c' → (∀ p, Founder peers p → c.proc p = .down {} → c'.proc p = .down {}) → Step env dec peers c c'

/-- Everything a cluster started with `peers` can get to. -/
inductive Reach (env : Env) (dec : Entry → Option ConfChangeI) (peers : List (Nat × Bytes)) : State → Prop
  | init : Reach env dec peers { proc := fun _ => .down {} }
  | step {c c'} : Reach env dec peers c → Step env dec peers c c' → Reach env dec peers c'

/-- The configuration with the given voters, in ascending order, and nobody else. -/
def VotersExactly (cfg : TConfig) (peers : List (Nat × Bytes)) : Prop :=
  (∀ x, x ∈ cfg.voters.incoming ↔ Founder peers x) ∧ cfg.voters.incoming.Pairwise (· < ·) ∧ cfg.voters.outgoing = [] ∧
    cfg.learners = [] ∧ cfg.learnersNext = [] ∧ cfg.autoLeave = false

/-- The entry that announces the peer `q` at index `i`. -/
def Announces (env : Env) (e : Entry) (q : Nat × Bytes) (i : Nat) : Prop :=
  e.index = i ∧ e.term = 1 ∧ e.type = .confChange ∧ e.data = env.serV1 { type := .addNode, nodeId := q.1, context := q.2 }

end Craft.Boot
