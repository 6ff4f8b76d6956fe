import Verif.Spec.MembersLive

/-! # Where entries and snapshots come from

Any nodes, with anything on their disks, and any course of events, as in `Verif.Spec.MembersLive` but with fewer rules: the
application may make any call at any time, start nodes with any settings, bootstrap them with any peers, compact and snapshot as it
likes. All that is asked is that appends, heartbeats and snapshots are not made up: they arrive only if a node sent them. -/

namespace Craft.Given
open Members

/-- What is done to the nodes: an action, or `Bootstrap` on a new node (`RawNode::Start`, `/repo/src/rawnode.h` 74-78). -/
inductive Deed where
  | act (x : Act)
  | boot (p : Nat) (cfg : Config) (rng : Nat) (peers : List (Nat × Bytes))

def Deed.run (env : Env) (dec : Entry → Option ConfChangeI) (c : State) : Deed → Res State
  | .act x => x.run env dec c
  | .boot p cfg rng peers =>
    match c.proc p with
    | .up _ _ => .ok c
    | .down st => do
      let n0 ← RawNode.new env cfg st rng
      let (n, _) ← n0.bootstrap env peers
      pure (c.set p (.up n ⟨0, {}⟩))

/-- Appends, heartbeats and snapshots that arrive were sent. -/
def Deed.Honest (c : State) : Deed → Prop
  | .act (.deliver _ m) => m ∈ c.net
  | .act (.call _ (.step m)) => m.type ≠ .app ∧ m.type ≠ .heartbeat ∧ m.type ≠ .snap
  | _ => True

/-- What the application offers for the log: type and data. -/
def Deed.offers (env : Env) : Deed → List (EntryType × Bytes)
  | .act (.call _ (.propose d)) => [(.normal, d)]
  | .act (.call _ (.proposeConfChange cc)) => [cc.marshal env]
  | .act (.call _ (.step m)) => if m.type = .prop then m.entries.map fun e => (e.type, e.data) else []
  | .boot _ _ _ peers => peers.map fun q => (.confChange, env.serV1 { type := .addNode, nodeId := q.1, context := q.2 })
  | _ => []

/-- The snapshot an application makes: index, configuration, data. -/
def Deed.makes (c : State) : Deed → List (Nat × ConfState × Bytes)
  | .act (.createSnapshot p data) =>
    match c.proc p with
    | .up _ a => [(a.index, a.conf, data)]
    | .down _ => []
  | _ => []

/-- The state after deeds, with everything that was offered and all snapshots that were made on the way. -/
inductive Trace (env : Env) (dec : Entry → Option ConfChangeI) (disk : Nat → Storage) :
    List (EntryType × Bytes) → List (Nat × ConfState × Bytes) → State → Prop
  | init : Trace env dec disk [] [] { proc := fun p => .down (disk p) }
  | deed (d : Deed) {os ms c c'} : Trace env dec disk os ms c → d.Honest c → d.run env dec c = .ok c' →
      Trace env dec disk (os ++ d.offers env) (ms ++ d.makes c) c'

/-- An entry is accounted for: it is empty (a leader's first entry, a refused conf change, the leaving of a joint configuration), or it
was offered, or it was on a disk in the beginning. -/
def Accounted (disk : Nat → Storage) (os : List (EntryType × Bytes)) (e : Entry) : Prop :=
  (e.data = [] ∧ e.type ≠ .confChange) ∨ (e.type, e.data) ∈ os ∨ ∃ p, ∃ e0 ∈ (disk p).ents.tail, e0.type = e.type ∧ e0.data = e.data

/-- A snapshot is accounted for: there is none (index 0), or it was made by an application, or it was on a disk in the beginning. -/
def Made (disk : Nat → Storage) (ms : List (Nat × ConfState × Bytes)) (s : Snapshot) : Prop :=
  s.metadata.index = 0 ∨ (s.metadata.index, s.metadata.confState, s.data) ∈ ms ∨ ∃ p, s = (disk p).snapshot

end Craft.Given
