import Verif.Spec.Given
import Verif.Spec.MembersReads

/-! # How often a proposal is handed to a leader

As in `Verif.Spec.Given`: any nodes, anything on their disks, any course of events. Counted is how often an entry (type and data) is
handed to a leader: by a call at the leader itself, or by the arrival of a forwarded proposal. -/

namespace Craft.Handed
open Members Given

/-- The entries a deed hands to a leader: type and data. -/
def hands (env : Env) (c : State) : Deed → List (EntryType × Bytes)
  | .act (.call p (.propose d)) => if c.leads p then [(.normal, d)] else []
  | .act (.call p (.proposeConfChange cc)) => if c.leads p then [cc.marshal env] else []
  | .act (.call p (.step m)) => if c.leads p ∧ m.type = .prop then m.entries.map fun e => (e.type, e.data) else []
  | .act (.deliver p m) => if c.leads p ∧ m.type = .prop then m.entries.map fun e => (e.type, e.data) else []
  | _ => []

/-- The entries `Bootstrap` puts into a new log: index, type and data. -/
def founds (env : Env) : Deed → List (Nat × EntryType × Bytes)
  | .boot _ _ _ peers => (peers.zipIdx 1).map fun q => (q.2, .confChange, env.serV1 { type := .addNode, nodeId := q.1.1, context := q.1.2 })
  | _ => []

/-- The state after deeds, with the entries bootstrapped and all entries handed to a leader on the way (one item each time). -/
inductive Trace (env : Env) (dec : Entry → Option ConfChangeI) (disk : Nat → Storage) :
    List (Nat × EntryType × Bytes) → List (EntryType × Bytes) → State → Prop
  | init : Trace env dec disk [] [] { proc := fun p => .down (disk p) }
  | deed (d : Deed) {fs hs c c'} : Trace env dec disk fs hs c → d.Honest c → d.run env dec c = .ok c' →
      Trace env dec disk (fs ++ founds env d) (hs ++ hands env c d) c'

/-- An entry was there from the beginning: on a disk, or put into a new log by `Bootstrap`. -/
def Founded (disk : Nat → Storage) (fs : List (Nat × EntryType × Bytes)) (e : Entry) : Prop :=
  (e.index, e.type, e.data) ∈ fs ∨ ∃ p, ∃ e0 ∈ (disk p).ents.tail, e0.index = e.index ∧ e0.type = e.type ∧ e0.data = e.data

/-- The entry exists somewhere: it was delivered to an application, or it is on a disk, in a node's memory or on the way to another node. -/
def Occurs (c : State) (e : Entry) : Prop :=
  (∃ d ∈ c.out, d.entry = e) ∨ (∃ p, e ∈ (c.proc p).disk.ents.tail) ∨
  (∃ p n a, c.proc p = .up n a ∧ e ∈ n.raft.log.unstable.entries) ∨ ∃ m ∈ c.net, m.type = .app ∧ e ∈ m.entries

end Craft.Handed
