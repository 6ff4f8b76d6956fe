import Verif.Spec.Members
import Verif.Spec.Live

/-! # Clusters whose membership changes, as a program

The clusters of `Verif.Spec.Members`, with every step a function that may abort, as `Verif.Spec.Live` does for a fixed
membership. Nobody makes up messages here. -/

namespace Craft.Members
open Spec Cluster

/-- What can be done to a cluster. -/
inductive Act where
  | start (p : Nat) (cfg : Config) (rng : Nat)
  | call (p : Nat) (x : Call)
  | deliver (p : Nat) (m : Message)
  | ready (p : Nat)
  | compact (p i : Nat)
  | createSnapshot (p : Nat) (data : Bytes)
  | crash (p : Nat)
  | crashReady (p : Nat) (keep : Message → Bool) (k : Nat)

/-- What the application and the network promise. A node starts with sane settings (C51), an applied index not beyond its
snapshot, and a window of at most `2^30` messages; only messages that were sent are delivered, to their addressee; only what
was applied is compacted, and not beyond the snapshot. -/
def Act.Allowed (c : State) : Act → Prop
  | .start p cfg _ => ∃ st, c.proc p = .down st ∧ cfg.id = p ∧ cfg.applied ≤ st.snapshot.metadata.index ∧ cfg.Sane st ∧ cfg.maxInflightMsgs ≤ 2 ^ 30
  | .call p x => (∃ n a, c.proc p = .up n a) ∧ x.Plain ∧ ∀ m, x ≠ .step m
  | .deliver p m => (∃ n a, c.proc p = .up n a) ∧ m ∈ c.net ∧ m.to = p
  | .ready p => ∃ n a, c.proc p = .up n a
  | .compact p i => ∃ n a, c.proc p = .up n a ∧ i ≤ n.raft.log.applied ∧ i ≤ n.raft.log.storage.snapshot.metadata.index
  | .createSnapshot p _ => ∃ n a, c.proc p = .up n a
  | .crash p => ∃ n a, c.proc p = .up n a
  | .crashReady p _ _ => ∃ n a, c.proc p = .up n a

/-- The cluster after the action, unless the library aborts. An action on a node that is not in the right phase (excluded by
`Allowed`) does nothing. -/
def Act.run (env : Env) (dec : Entry → Option ConfChangeI) (c : State) : Act → Res State
  | .start p cfg rng =>
    match c.proc p with
    | .up _ _ => .ok c
    | .down st => do
      let n ← RawNode.new env cfg st rng
      pure (c.set p (.up n ⟨st.snapshot.metadata.index, st.snapshot.metadata.confState⟩))
  | .call p x =>
    match c.proc p with
    | .down _ => .ok c
    | .up n a => do
      let n' ← x.run env n
      pure (c.set p (.up n' a))
  | .deliver p m =>
    match c.proc p with
    | .down _ => .ok c
    | .up n a => do
      let n' ← (Call.step m).run env n
      pure (c.set p (.up n' a))
  | .ready p =>
    match c.proc p with
    | .down _ => .ok c
    | .up n a => do
      let (n', a', rd) ← handle env dec n a
      pure { c.set p (.up n' a') with
        net := c.net ++ rd.messages
        out := c.out ++ rd.committedEntries.map fun e => ⟨p, n.raft.term, e⟩
        led := if n.raft.state = .leader then c.led ++ [⟨p, n.raft.term, n.raft.log.view⟩] else c.led
        known := c.known ++ [⟨p, a'⟩] }
  | .compact p i =>
    match c.proc p with
    | .down _ => .ok c
    | .up n a => do
      let (st, _) ← n.raft.log.storage.compact i
      pure (c.set p (.up (n.withStorage st) a))
  | .createSnapshot p data =>
    match c.proc p with
    | .down _ => .ok c
    | .up n a => do
      let (st, _) ← n.raft.log.storage.createSnapshot a.index (some a.conf) data
      pure (c.set p (.up (n.withStorage st) a))
  | .crash p =>
    match c.proc p with
    | .down _ => .ok c
    | .up n _ => .ok (c.set p (.down n.raft.log.storage))
  | .crashReady p keep k =>
    match c.proc p with
    | .down _ => .ok c
    | .up n _ => do
      let (n1, rd) ← n.takeReady env
      pure { c.set p (.down n1.raft.log.storage) with
        net := c.net ++ rd.messages.filter keep
        out := c.out ++ (rd.committedEntries.take k).map fun e => ⟨p, n.raft.term, e⟩ }

end Craft.Members
