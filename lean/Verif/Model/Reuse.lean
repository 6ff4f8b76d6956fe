import Verif.Model.RawNode

/-! # What `Step` leaves of the message object

`RawNode::Step` takes a shared pointer to a message. Handling an append, a proposal (on a leader) or a snapshot moves the entries or the
snapshot out of the message: the caller's object keeps the number of entries, but each of them is then a default
`Entry` (`/repo/src/util.cc` 39-46; the move assignment of protobuf messages swaps, `/repo/src/raftpb/raft.pb.h` 204-216). -/

namespace Craft

/-- `Util::MakeEntries` (`/repo/src/util.cc` 39-46), seen from the message. -/
def Message.drained (m : Message) : Message := { m with entries := m.entries.map fun _ => {} }

namespace Raft

/-- What is left of the message after it went through the handler of the node's role: `HandleAppendEntries` moves the entries unless it answers at
once (`/repo/src/raft.cc` 1508-1518), `HandleSnapshot` moves the snapshot (1570), `StepLeader` moves the entries of a proposal it does not refuse at
once (977-1034). (A follower passes a proposal on in the same object, with another addressee, 1437-1438.) -/
def handlerLeaves (r : Raft) (m : Message) : Message :=
  match m.type, r.state with
  | .app, .leader | .snap, .leader => m
  | .app, _ => if m.index < r.log.committed then m else m.drained
  | .snap, _ => { m with snapshot := some {} }
  | .prop, .leader => if (r.pr r.id).isNone ∨ r.leadTransferee ≠ 0 then m else m.drained
  | .prop, .follower => if r.lead = 0 ∨ r.disableProposalForwarding then m else { m with to := r.lead }
  | _, _ => m

/-- What is left after `Step` (`/repo/src/raft.cc` 758-941): nothing is moved unless the handler of the role is reached. -/
def stepLeaves (env : Env) (r : Raft) (m : Message) : Message :=
  match r.stepGate env m with
  | .ok (.go r') => r'.handlerLeaves m
  | _ => m

end Raft

/-- `RawNode::Step` (`/repo/src/rawnode.cc` 147-157) together with what it leaves of the message object. -/
def RawNode.stepObject (env : Env) (n : RawNode) (m : Message) : Res (RawNode × Option Err × Message) := do
  let (n', e) ← n.step env m
  pure (n', e, n.raft.stepLeaves env m)

end Craft
