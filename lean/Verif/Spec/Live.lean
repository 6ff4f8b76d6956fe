import Verif.Spec.Cluster
import Verif.Spec.Resume

/-! # Clusters, as a program

The same clusters as in `Verif.Spec.Cluster`, with every step a function that may abort (`Res`), so that "nothing aborts" can
be said: `Act.Allowed` is what the application and the network promise, and contains nothing about the outcome. Nobody makes
up messages here. -/

namespace Craft.Cluster
open Spec

/-- What can be done to a cluster. -/
inductive Act where
  | start (p : Nat) (cfg : Config) (rng : Nat)
  | call (p : Nat) (x : Call)
  | deliver (p : Nat) (m : Message)
  | ready (p : Nat)
  | compact (p i : Nat)
  | createSnapshot (p i : Nat) (cs : Option ConfState) (data : Bytes)
  | crash (p : Nat)
  | crashReady (p : Nat) (keep : Message → Bool) (k : Nat)

/-- Serialised configuration changes can be parsed again (protobuf). -/
structure Lossless (env : Env) : Prop where
  v1 : ∀ cc, env.parseV1 (env.serV1 cc) ≠ none
  v2 : ∀ cc, env.parseV2 (env.serV2 cc) ≠ none

/-- What the application and the network promise. A node starts with sane settings (C51) and a window of at most `2^30`
messages; only messages that were sent are delivered, to their addressee; only what was applied is compacted or put into a
snapshot, and the log is not compacted beyond the snapshot. -/
def Act.Allowed (c : State) : Act → Prop
  | .start p cfg _ => ∃ st, c.proc p = .down st ∧ cfg.id = p ∧ cfg.Sane st ∧ cfg.maxInflightMsgs ≤ 2 ^ 30
  | .call p x => (∃ n, c.proc p = .up n) ∧ x.Plain ∧ ∀ m, x ≠ .step m
  | .deliver p m => (∃ n, c.proc p = .up n) ∧ m ∈ c.net ∧ m.to = p
  | .ready p => ∃ n, c.proc p = .up n
  | .compact p i => ∃ n, c.proc p = .up n ∧ i ≤ n.raft.log.applied ∧ i ≤ n.raft.log.storage.snapshot.metadata.index
  | .createSnapshot p i cs _ => ∃ n, c.proc p = .up n ∧ i ≤ n.raft.log.applied ∧ ∀ x, cs = some x → x = n.raft.trk.confState
  | .crash p => ∃ n, c.proc p = .up n
  | .crashReady p _ _ => ∃ n, c.proc p = .up n

/-- The cluster after the action, unless the library aborts. An action on a node that is not in the right phase (excluded by
`Allowed`) does nothing. -/
def Act.run (env : Env) (c : State) : Act → Res State
  | .start p cfg rng =>
    match c.proc p with
    | .up _ => .ok c
    | .down st => do
      let n ← RawNode.new env cfg st rng
      pure (c.set p (.up n))
  | .call p x =>
    match c.proc p with
    | .down _ => .ok c
    | .up n => do
      let n' ← x.run env n
      pure (c.set p (.up n'))
  | .deliver p m =>
    match c.proc p with
    | .down _ => .ok c
    | .up n => do
      let n' ← (Call.step m).run env n
      pure (c.set p (.up n'))
  | .ready p =>
    match c.proc p with
    | .down _ => .ok c
    | .up n => do
      let (n', rd) ← n.handleReady env []
      pure { c.set p (.up n') with
        net := c.net ++ rd.messages
        out := c.out ++ rd.committedEntries.map fun e => ⟨p, n.raft.term, e⟩
        led := if n.raft.state = .leader then c.led ++ [⟨p, n.raft.term, n.raft.log.view⟩] else c.led }
  | .compact p i =>
    match c.proc p with
    | .down _ => .ok c
    | .up n => do
      let (st, _) ← n.raft.log.storage.compact i
      pure (c.set p (.up (n.withStorage st)))
  | .createSnapshot p i cs data =>
    match c.proc p with
    | .down _ => .ok c
    | .up n => do
      let (st, _) ← n.raft.log.storage.createSnapshot i cs data
      pure (c.set p (.up (n.withStorage st)))
  | .crash p =>
    match c.proc p with
    | .down _ => .ok c
    | .up n => .ok (c.set p (.down n.raft.log.storage))
  | .crashReady p keep k =>
    match c.proc p with
    | .down _ => .ok c
    | .up n => do
      let (n1, rd) ← n.takeReady env
      pure { c.set p (.down n1.raft.log.storage) with
        net := c.net ++ rd.messages.filter keep
        out := c.out ++ (rd.committedEntries.take k).map fun e => ⟨p, n.raft.term, e⟩ }

/-- A disk to start from, on which nothing is missing: the compacted part is covered by the snapshot, and a hard state, if
there is one, knows about the commit of the compacted part. -/
structure Genesis.CleanDisk (G : Genesis) (st : Storage) : Prop where
  disk : G.Disk st
  tidy : st.view.base ≤ st.snapshot.metadata.index
  hard : st.hardState = {} ∨ st.view.base ≤ st.hardState.commit

/-- Everything such a cluster can get to. -/
inductive Live (env : Env) (G : Genesis) : State → Prop
  | init (disk : Nat → Storage) : (∀ p, G.CleanDisk (disk p)) → Live env G { proc := fun p => .down (disk p) }
  | act {c c'} (a : Act) : Live env G c → a.Allowed c → a.run env c = .ok c' → Live env G c'

end Craft.Cluster
