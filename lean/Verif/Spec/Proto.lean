import Verif.Model.Wire

/-! # `raft.proto`, and the published wire format

An account of what a message looks like on the wire that does not come from the generated code: the schema
(`/repo/src/raftpb/raft.proto`) with its field numbers and enumerations, and the encoding of protocol buffers. -/

namespace Craft.Proto

open Craft.Pb

/-- The value of a field. -/
inductive PV where
  | num (n : Nat)
  | bytes (b : Bytes)
  | msg (fields : List (Nat × PV))

/-- A base-128 varint: groups of seven bits, the low ones first, all bytes but the last with the high bit, none superfluous. -/
inductive Varint : Nat → Bytes → Prop
  | last {n : Nat} : n < 128 → Varint n [n]
  | more {lo hi : Nat} {bs : Bytes} : lo < 128 → 0 < hi → Varint hi bs → Varint (lo + 128 * hi) ((lo + 128) :: bs)

/-- A message: its fields one after the other, each with its number and its wire type (0 for a varint, 2 for something that begins with
its length), nested messages likewise. -/
inductive Wire : List (Nat × PV) → Bytes → Prop
  | nil : Wire [] []
  | num {k n : Nat} {key val rest : Bytes} {fs : List (Nat × PV)} :
      Varint (8 * k + 0) key → Varint n val → Wire fs rest → Wire ((k, .num n) :: fs) (key ++ val ++ rest)
  | bytes {k : Nat} {key len b rest : Bytes} {fs : List (Nat × PV)} :
      Varint (8 * k + 2) key → Varint b.length len → Wire fs rest → Wire ((k, .bytes b) :: fs) (key ++ len ++ b ++ rest)
  | msg {k : Nat} {key len b rest : Bytes} {gs fs : List (Nat × PV)} :
      Varint (8 * k + 2) key → Wire gs b → Varint b.length len → Wire fs rest → Wire ((k, .msg gs) :: fs) (key ++ len ++ b ++ rest)

/-- An optional field is there if it is set. -/
def optional {X : Type} (k : Nat) (f : X → PV) (o : Option X) : List (Nat × PV) := o.toList.map fun x => (k, f x)

/-- A repeated field is there as often as it has values. -/
def repeated {X : Type} (k : Nat) (f : X → PV) (xs : List X) : List (Nat × PV) := xs.map fun x => (k, f x)

def bool (b : Bool) : PV := .num b.toNat

/-- The place of a value in an enumeration that starts at 0 and leaves no number out. -/
def enum {X : Type} [DecidableEq X] (vs : List X) (x : X) : PV := .num (vs.idxOf x)

/-- `enum EntryType` (`/repo/src/raftpb/raft.proto` 4-8). -/
def entryTypes : List EntryType := [.normal, .confChange, .confChangeV2]

/-- `enum MessageType` (`/repo/src/raftpb/raft.proto` 30-50). -/
def messageTypes : List MsgType :=
  [.hup, .beat, .prop, .app, .appResp, .vote, .voteResp, .snap, .heartbeat, .heartbeatResp, .unreachable, .snapStatus, .checkQuorum,
    .transferLeader, .timeoutNow, .readIndex, .readIndexResp, .preVote, .preVoteResp]

/-- `enum ConfChangeTransition` (`/repo/src/raftpb/raft.proto` 75-92). -/
def transitions : List CCTransition := [.auto, .jointImplicit, .jointExplicit]

/-- `enum ConfChangeType` (`/repo/src/raftpb/raft.proto` 113-118). -/
def changeTypes : List CCType := [.addNode, .removeNode, .updateNode, .addLearnerNode]

/-- `message Entry` (`/repo/src/raftpb/raft.proto` 10-15), in the order of the field numbers; likewise below. -/
def entry (m : PEntry) : List (Nat × PV) :=
  optional 1 (enum entryTypes) m.type ++ optional 2 .num m.term ++ optional 3 .num m.index ++ optional 4 .bytes m.data

/-- `message ConfState` (`/repo/src/raftpb/raft.proto` 94-111). -/
def confState (m : PConfState) : List (Nat × PV) :=
  repeated 1 .num m.voters ++ repeated 2 .num m.learners ++ repeated 3 .num m.votersOutgoing ++ repeated 4 .num m.learnersNext ++
    optional 5 bool m.autoLeave

/-- `message SnapshotMetadata` (`/repo/src/raftpb/raft.proto` 17-21). -/
def snapshotMetadata (m : PSnapMeta) : List (Nat × PV) :=
  optional 1 (fun c => .msg (confState c)) m.confState ++ optional 2 .num m.index ++ optional 3 .num m.term

/-- `message Snapshot` (`/repo/src/raftpb/raft.proto` 23-26). -/
def snapshot (m : PSnapshot) : List (Nat × PV) :=
  optional 1 .bytes m.data ++ optional 2 (fun c => .msg (snapshotMetadata c)) m.metadata

/-- `message Message` (`/repo/src/raftpb/raft.proto` 52-65). -/
def message (m : PMessage) : List (Nat × PV) :=
  optional 1 (enum messageTypes) m.type ++ optional 2 .num m.to ++ optional 3 .num m.src ++ optional 4 .num m.term ++
    optional 5 .num m.logTerm ++ optional 6 .num m.index ++ repeated 7 (fun e => .msg (entry e)) m.entries ++ optional 8 .num m.commit ++
    optional 9 (fun s => .msg (snapshot s)) m.snapshot ++ optional 10 bool m.reject ++ optional 11 .num m.rejectHint ++
    optional 12 .bytes m.context

/-- `message HardState` (`/repo/src/raftpb/raft.proto` 67-71). -/
def hardState (m : PHardState) : List (Nat × PV) := optional 1 .num m.term ++ optional 2 .num m.vote ++ optional 3 .num m.commit

/-- `message ConfChange` (`/repo/src/raftpb/raft.proto` 120-129). -/
def confChange (m : PConfChange) : List (Nat × PV) :=
  optional 1 .num m.id ++ optional 2 (enum changeTypes) m.type ++ optional 3 .num m.nodeId ++ optional 4 .bytes m.context

/-- `message ConfChangeSingle` (`/repo/src/raftpb/raft.proto` 133-136). -/
def confChangeSingle (m : PCCSingle) : List (Nat × PV) := optional 1 (enum changeTypes) m.type ++ optional 2 .num m.nodeId

/-- `message ConfChangeV2` (`/repo/src/raftpb/raft.proto` 171-175). -/
def confChangeV2 (m : PConfChangeV2) : List (Nat × PV) :=
  optional 1 (enum transitions) m.transition ++ repeated 2 (fun c => .msg (confChangeSingle c)) m.changes ++ optional 3 .bytes m.context

end Craft.Proto
