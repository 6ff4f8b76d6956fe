import Verif.Model.Types

/-! # Protobuf: `/repo/src/raftpb/raft.pb.cc`

The generated serialisation code of the nine message types of `raft.proto`, with the presence of optional fields. The primitives of the
protobuf runtime it calls (`WireFormatLite`, `CodedInputStream`; not in `/repo`) are modelled after the published encoding.

Simplifications: unknown fields are skipped but not kept (so they are not written again), an unknown field that is a group is refused
(the runtime would skip it), a length field of more than 32 bits is refused for `bytes` fields as it is for messages. Parsing first splits
the input into fields and then takes them one by one; the generated code interleaves both, with the same result. A byte is a `Nat` below
256; strings are copied as they are. -/

namespace Craft.Pb

/-- A field on the wire: wire types 0 (varint), 1 (64 bits), 2 (length-delimited), 5 (32 bits). -/
inductive Val where
  | int (n : Nat)
  | fix64 (b : Bytes)
  | len (b : Bytes)
  | fix32 (b : Bytes)
deriving DecidableEq

/-- A field number and its contents. -/
abbrev Raw := Nat × Val

/-- `CodedOutputStream::WriteVarint64` (runtime): seven bits at a time, the low ones first; at most `k + 1` bytes. -/
def varintK : Nat → Nat → Bytes
  | 0, n => [n % 128]
  | k + 1, n => if n < 128 then [n] else (n % 128 + 128) :: varintK k (n / 128)

/-- A varint of a 64-bit number: at most ten bytes. -/
def varint (n : Nat) : Bytes := varintK 9 n

/-- `CodedInputStream::ReadVarint64` (runtime): at most `k` bytes. -/
def readVarintK : Nat → Bytes → Option (Nat × Bytes)
  | 0, _ => none
  | _ + 1, [] => none
  | k + 1, b :: bs => if b < 128 then some (b, bs) else
    match readVarintK k bs with
    | none => none
    | some (n, bs) => some (b % 128 + 128 * n, bs)

/-- 64 bits are kept. -/
def readVarint (bs : Bytes) : Option (Nat × Bytes) :=
  match readVarintK 10 bs with
  | none => none
  | some (n, bs) => some (n % 2 ^ 64, bs)

/-- The tag and the contents of a field (`WireFormatLite::WriteUInt64`, `WriteEnum`, `WriteBool`, `WriteBytesMaybeAliased`,
`WriteMessage`: runtime). -/
def enc : Raw → Bytes
  | (k, .int n) => varint (k * 8) ++ varint n
  | (k, .fix64 b) => varint (k * 8 + 1) ++ b
  | (k, .len b) => varint (k * 8 + 2) ++ varint b.length ++ b
  | (k, .fix32 b) => varint (k * 8 + 5) ++ b

/-- All fields, one after the other. -/
def encs (rs : List Raw) : Bytes := rs.flatMap enc

/-- A given number of bytes. -/
def readBytes (n : Nat) (bs : Bytes) : Option (Bytes × Bytes) := if bs.length < n then none else some (bs.take n, bs.drop n)

/-- The contents of a field with the given tag. -/
def readVal (t : Nat) (bs : Bytes) : Option (Raw × Bytes) :=
  match t % 8 with
  | 0 => match readVarint bs with
    | none => none
    | some (n, bs) => some ((t / 8, .int n), bs)
  | 1 => match readBytes 8 bs with
    | none => none
    | some (b, bs) => some ((t / 8, .fix64 b), bs)
  | 2 => match readVarint bs with
    | none => none
    | some (n, bs) => if 2 ^ 31 ≤ n then none else
      match readBytes n bs with
      | none => none
      | some (b, bs) => some ((t / 8, .len b), bs)
  | 5 => match readBytes 4 bs with
    | none => none
    | some (b, bs) => some ((t / 8, .fix32 b), bs)
  | _ => none

/-- One field: its tag (`ReadTagWithCutoffNoLastTag`, 32 bits; the field number 0 is illegal) and its contents (`ReadPrimitive`,
`ReadBytes`, `ReadMessage`, `SkipField`: runtime). A tag 0, or none, where a field is expected is an error (`ConsumedEntireMessage`). -/
def readField (bs : Bytes) : Option (Raw × Bytes) :=
  match readVarint bs with
  | none => none
  | some (t, bs) => if t % 2 ^ 32 / 8 = 0 then none else readVal (t % 2 ^ 32) bs

/-- The loop over the fields (e.g. `/repo/src/raftpb/raft.pb.cc` 617-692): at most `k` of them. -/
def readFieldsK : Nat → Bytes → Option (List Raw)
  | _, [] => some []
  | 0, _ :: _ => none
  | k + 1, b :: bs =>
    match readField (b :: bs) with
    | none => none
    | some (r, rest) => match readFieldsK k rest with
      | none => none
      | some rs => some (r :: rs)

def readFields (bs : Bytes) : Option (List Raw) := readFieldsK bs.length bs

/-- `ReadPackedPrimitive` (runtime): numbers without tags. -/
def readPackedK : Nat → Bytes → Option (List Nat)
  | _, [] => some []
  | 0, _ :: _ => none
  | k + 1, b :: bs =>
    match readVarint (b :: bs) with
    | none => none
    | some (n, rest) => match readPackedK k rest with
      | none => none
      | some ns => some (n :: ns)

def readPacked (bs : Bytes) : Option (List Nat) := readPackedK bs.length bs

/-- `MergeFromCodedStream`: the fields one by one into `m`. -/
def merge {M : Type} (set : M → Raw → Option M) (m : M) (bs : Bytes) : Option M :=
  match readFields bs with
  | none => none
  | some rs => rs.foldlM set m

/-- An optional field. -/
def opt {X : Type} (k : Nat) (f : X → Val) : Option X → List Raw
  | none => []
  | some x => [(k, f x)]

/-- A repeated field. -/
def rep {X : Type} (k : Nat) (f : X → Val) (xs : List X) : List Raw := xs.map fun x => (k, f x)

/-- `VarintSize64`/`VarintSize32` (runtime, `CodedOutputStream::VarintSize64`): `(log2(n|1) * 9 + 73) / 64`. -/
def varintSize (n : Nat) : Nat := (Nat.log2 (n ||| 1) * 9 + 73) / 64

/-- `WireFormatLite::LengthDelimitedSize` (runtime): `BytesSize`, `MessageSize`. -/
def lenSize (n : Nat) : Nat := n + varintSize n

/-- The size of an optional field: one byte for the tag, and the contents. -/
def optSize {X : Type} (f : X → Nat) : Option X → Nat
  | none => 0
  | some x => 1 + f x

def ofBool (b : Bool) : Val := .int (if b then 1 else 0)

/-- `EntryType` on the wire; `EntryType_IsValid` (`/repo/src/raftpb/raft.pb.cc` 456-465). -/
def entryTypeNo : EntryType → Nat
  | .normal => 0 | .confChange => 1 | .confChangeV2 => 2

def entryTypeOf : Nat → Option EntryType
  | 0 => some .normal | 1 => some .confChange | 2 => some .confChangeV2 | _ => none

/-- `MessageType` on the wire; `MessageType_IsValid` (`/repo/src/raftpb/raft.pb.cc` 471-496). -/
def msgTypeNo : MsgType → Nat
  | .hup => 0 | .beat => 1 | .prop => 2 | .app => 3 | .appResp => 4 | .vote => 5 | .voteResp => 6 | .snap => 7 | .heartbeat => 8
  | .heartbeatResp => 9 | .unreachable => 10 | .snapStatus => 11 | .checkQuorum => 12 | .transferLeader => 13 | .timeoutNow => 14
  | .readIndex => 15 | .readIndexResp => 16 | .preVote => 17 | .preVoteResp => 18

def msgTypeOf : Nat → Option MsgType
  | 0 => some .hup | 1 => some .beat | 2 => some .prop | 3 => some .app | 4 => some .appResp | 5 => some .vote | 6 => some .voteResp
  | 7 => some .snap | 8 => some .heartbeat | 9 => some .heartbeatResp | 10 => some .unreachable | 11 => some .snapStatus
  | 12 => some .checkQuorum | 13 => some .transferLeader | 14 => some .timeoutNow | 15 => some .readIndex | 16 => some .readIndexResp
  | 17 => some .preVote | 18 => some .preVoteResp | _ => none

/-- `ConfChangeTransition` on the wire; `ConfChangeTransition_IsValid` (`/repo/src/raftpb/raft.pb.cc` 502-511). -/
def transitionNo : CCTransition → Nat
  | .auto => 0 | .jointImplicit => 1 | .jointExplicit => 2

def transitionOf : Nat → Option CCTransition
  | 0 => some .auto | 1 => some .jointImplicit | 2 => some .jointExplicit | _ => none

/-- `ConfChangeType` on the wire; `ConfChangeType_IsValid` (`/repo/src/raftpb/raft.pb.cc` 517-527). A value outside the enumeration is
written as it is. -/
def ccTypeNo : CCType → Nat
  | .addNode => 0 | .removeNode => 1 | .updateNode => 2 | .addLearnerNode => 3 | .unknown n => n

def ccTypeOf : Nat → Option CCType
  | 0 => some .addNode | 1 => some .removeNode | 2 => some .updateNode | 3 => some .addLearnerNode | _ => none

/-- Storing an enumeration: 32 bits are read, a value outside the enumeration goes to the unknown fields. -/
def setEnum {X M : Type} (of : Nat → Option X) (n : Nat) (m : M) (put : X → M) : Option M :=
  match of (n % 2 ^ 32) with
  | some x => some (put x)
  | none => some m

/-! ## `Entry` -/

structure PEntry where
  type : Option EntryType := none
  term : Option Nat := none
  index : Option Nat := none
  data : Option Bytes := none
deriving DecidableEq

/-- `Entry::SerializeWithCachedSizes` (`/repo/src/raftpb/raft.pb.cc` 702-735). -/
def PEntry.raws (m : PEntry) : List Raw :=
  opt 1 (fun t => .int (entryTypeNo t)) m.type ++ opt 2 .int m.term ++ opt 3 .int m.index ++ opt 4 .len m.data

/-- `Entry::MergePartialFromCodedStream` (`/repo/src/raftpb/raft.pb.cc` 612-700): one field. -/
def PEntry.set (m : PEntry) : Raw → Option PEntry
  | (1, .int n) => setEnum entryTypeOf n m fun t => { m with type := some t }
  | (2, .int n) => some { m with term := some n }
  | (3, .int n) => some { m with index := some n }
  | (4, .len b) => some { m with data := some b }
  | _ => some m

/-- `Entry::ByteSizeLong` (`/repo/src/raftpb/raft.pb.cc` 777-817). -/
def PEntry.byteSize (m : PEntry) : Nat :=
  optSize (fun b : Bytes => lenSize b.length) m.data + optSize varintSize m.term +
    optSize varintSize m.index + optSize (fun t => varintSize (entryTypeNo t)) m.type

/-! ## `HardState` -/

structure PHardState where
  term : Option Nat := none
  vote : Option Nat := none
  commit : Option Nat := none
deriving DecidableEq

/-- `HardState::SerializeWithCachedSizes` (`/repo/src/raftpb/raft.pb.cc` 2357-2384). -/
def PHardState.raws (m : PHardState) : List Raw := opt 1 .int m.term ++ opt 2 .int m.vote ++ opt 3 .int m.commit

/-- `HardState::MergePartialFromCodedStream` (`/repo/src/raftpb/raft.pb.cc` 2285-2355): one field. -/
def PHardState.set (m : PHardState) : Raw → Option PHardState
  | (1, .int n) => some { m with term := some n }
  | (2, .int n) => some { m with vote := some n }
  | (3, .int n) => some { m with commit := some n }
  | _ => some m

/-- `HardState::ByteSizeLong` (`/repo/src/raftpb/raft.pb.cc` 2417-2452). -/
def PHardState.byteSize (m : PHardState) : Nat :=
  optSize varintSize m.term + optSize varintSize m.vote +
    optSize varintSize m.commit

/-! ## `ConfState` -/

structure PConfState where
  voters : List Nat := []
  learners : List Nat := []
  votersOutgoing : List Nat := []
  learnersNext : List Nat := []
  autoLeave : Option Bool := none
deriving DecidableEq

/-- `ConfState::SerializeWithCachedSizes` (`/repo/src/raftpb/raft.pb.cc` 2721-2760). -/
def PConfState.raws (m : PConfState) : List Raw :=
  rep 1 .int m.voters ++ rep 2 .int m.learners ++ rep 3 .int m.votersOutgoing ++ rep 4 .int m.learnersNext ++ opt 5 ofBool m.autoLeave

/-- `ConfState::MergePartialFromCodedStream` (`/repo/src/raftpb/raft.pb.cc` 2601-2719): one field. Repeated numbers may also be
packed. -/
def PConfState.set (m : PConfState) : Raw → Option PConfState
  | (1, .int n) => some { m with voters := m.voters ++ [n] }
  | (1, .len b) => (readPacked b).map fun ns => { m with voters := m.voters ++ ns }
  | (2, .int n) => some { m with learners := m.learners ++ [n] }
  | (2, .len b) => (readPacked b).map fun ns => { m with learners := m.learners ++ ns }
  | (3, .int n) => some { m with votersOutgoing := m.votersOutgoing ++ [n] }
  | (3, .len b) => (readPacked b).map fun ns => { m with votersOutgoing := m.votersOutgoing ++ ns }
  | (4, .int n) => some { m with learnersNext := m.learnersNext ++ [n] }
  | (4, .len b) => (readPacked b).map fun ns => { m with learnersNext := m.learnersNext ++ ns }
  | (5, .int n) => some { m with autoLeave := some (decide (n ≠ 0)) }
  | _ => some m

/-- `WireFormatLite::UInt64Size` of a repeated field (runtime). -/
def varintSizes (ns : List Nat) : Nat := (ns.map varintSize).sum

/-- `ConfState::ByteSizeLong` (`/repo/src/raftpb/raft.pb.cc` 2801-2856). -/
def PConfState.byteSize (m : PConfState) : Nat :=
  (m.voters.length + varintSizes m.voters) + (m.learners.length + varintSizes m.learners) +
    (m.votersOutgoing.length + varintSizes m.votersOutgoing) + (m.learnersNext.length + varintSizes m.learnersNext) +
    optSize (fun _ => 1) m.autoLeave

/-! ## `SnapshotMetadata` -/

structure PSnapMeta where
  confState : Option PConfState := none
  index : Option Nat := none
  term : Option Nat := none
deriving DecidableEq

/-- `SnapshotMetadata::SerializeWithCachedSizes` (`/repo/src/raftpb/raft.pb.cc` 1054-1082). -/
def PSnapMeta.raws (m : PSnapMeta) : List Raw :=
  opt 1 (fun c => .len (encs (PConfState.raws c))) m.confState ++ opt 2 .int m.index ++ opt 3 .int m.term

/-- `SnapshotMetadata::MergePartialFromCodedStream` (`/repo/src/raftpb/raft.pb.cc` 984-1052): one field. A message that comes twice is
merged. -/
def PSnapMeta.set (m : PSnapMeta) : Raw → Option PSnapMeta
  | (1, .len b) => (merge PConfState.set (m.confState.getD {}) b).map fun c => { m with confState := some c }
  | (2, .int n) => some { m with index := some n }
  | (3, .int n) => some { m with term := some n }
  | _ => some m

/-- `SnapshotMetadata::ByteSizeLong` (`/repo/src/raftpb/raft.pb.cc` 1117-1152). -/
def PSnapMeta.byteSize (m : PSnapMeta) : Nat :=
  optSize (fun c => lenSize (PConfState.byteSize c)) m.confState + optSize varintSize m.index +
    optSize varintSize m.term

/-! ## `Snapshot` -/

structure PSnapshot where
  data : Option Bytes := none
  metadata : Option PSnapMeta := none
deriving DecidableEq

/-- `Snapshot::SerializeWithCachedSizes` (`/repo/src/raftpb/raft.pb.cc` 1366-1390). -/
def PSnapshot.raws (m : PSnapshot) : List Raw := opt 1 .len m.data ++ opt 2 (fun c => .len (encs (PSnapMeta.raws c))) m.metadata

/-- `Snapshot::MergePartialFromCodedStream` (`/repo/src/raftpb/raft.pb.cc` 1312-1364): one field. -/
def PSnapshot.set (m : PSnapshot) : Raw → Option PSnapshot
  | (1, .len b) => some { m with data := some b }
  | (2, .len b) => (merge PSnapMeta.set (m.metadata.getD {}) b).map fun c => { m with metadata := some c }
  | _ => some m

/-- `Snapshot::ByteSizeLong` (`/repo/src/raftpb/raft.pb.cc` 1422-1450). -/
def PSnapshot.byteSize (m : PSnapshot) : Nat :=
  optSize (fun b : Bytes => lenSize b.length) m.data + optSize (fun c => lenSize (PSnapMeta.byteSize c)) m.metadata

/-! ## `Message` -/

structure PMessage where
  type : Option MsgType := none
  to : Option Nat := none
  src : Option Nat := none
  term : Option Nat := none
  logTerm : Option Nat := none
  index : Option Nat := none
  entries : List PEntry := []
  commit : Option Nat := none
  snapshot : Option PSnapshot := none
  reject : Option Bool := none
  rejectHint : Option Nat := none
  context : Option Bytes := none
deriving DecidableEq

/-- `Message::SerializeWithCachedSizes` (`/repo/src/raftpb/raft.pb.cc` 1832-1908). -/
def PMessage.raws (m : PMessage) : List Raw :=
  opt 1 (fun t => .int (msgTypeNo t)) m.type ++ opt 2 .int m.to ++ opt 3 .int m.src ++ opt 4 .int m.term ++ opt 5 .int m.logTerm ++
    opt 6 .int m.index ++ rep 7 (fun e => .len (encs (PEntry.raws e))) m.entries ++ opt 8 .int m.commit ++
    opt 9 (fun s => .len (encs (PSnapshot.raws s))) m.snapshot ++ opt 10 ofBool m.reject ++ opt 11 .int m.rejectHint ++ opt 12 .len m.context

/-- `Message::MergePartialFromCodedStream` (`/repo/src/raftpb/raft.pb.cc` 1634-1830): one field. -/
def PMessage.set (m : PMessage) : Raw → Option PMessage
  | (1, .int n) => setEnum msgTypeOf n m fun t => { m with type := some t }
  | (2, .int n) => some { m with «to» := some n }
  | (3, .int n) => some { m with src := some n }
  | (4, .int n) => some { m with term := some n }
  | (5, .int n) => some { m with logTerm := some n }
  | (6, .int n) => some { m with index := some n }
  | (7, .len b) => (merge PEntry.set {} b).map fun e => { m with entries := m.entries ++ [e] }
  | (8, .int n) => some { m with commit := some n }
  | (9, .len b) => (merge PSnapshot.set (m.snapshot.getD {}) b).map fun s => { m with snapshot := some s }
  | (10, .int n) => some { m with reject := some (decide (n ≠ 0)) }
  | (11, .int n) => some { m with rejectHint := some n }
  | (12, .len b) => some { m with context := some b }
  | _ => some m

/-- `Message::ByteSizeLong` (`/repo/src/raftpb/raft.pb.cc` 1997-2098). -/
def PMessage.byteSize (m : PMessage) : Nat :=
  (m.entries.length + (m.entries.map fun e => lenSize (PEntry.byteSize e)).sum) +
    optSize (fun b : Bytes => lenSize b.length) m.context + optSize (fun s => lenSize (PSnapshot.byteSize s)) m.snapshot +
    optSize varintSize m.to + optSize varintSize m.src +
    optSize varintSize m.term + optSize varintSize m.logTerm +
    optSize (fun t => varintSize (msgTypeNo t)) m.type + optSize (fun _ => 1) m.reject +
    optSize varintSize m.index + optSize varintSize m.commit +
    optSize varintSize m.rejectHint

/-! ## `ConfChange` -/

structure PConfChange where
  id : Option Nat := none
  type : Option CCType := none
  nodeId : Option Nat := none
  context : Option Bytes := none
deriving DecidableEq

/-- `ConfChange::SerializeWithCachedSizes` (`/repo/src/raftpb/raft.pb.cc` 3098-3131). -/
def PConfChange.raws (m : PConfChange) : List Raw :=
  opt 1 .int m.id ++ opt 2 (fun t => .int (ccTypeNo t)) m.type ++ opt 3 .int m.nodeId ++ opt 4 .len m.context

/-- `ConfChange::MergePartialFromCodedStream` (`/repo/src/raftpb/raft.pb.cc` 3008-3096): one field. -/
def PConfChange.set (m : PConfChange) : Raw → Option PConfChange
  | (1, .int n) => some { m with id := some n }
  | (2, .int n) => setEnum ccTypeOf n m fun t => { m with type := some t }
  | (3, .int n) => some { m with nodeId := some n }
  | (4, .len b) => some { m with context := some b }
  | _ => some m

/-- `ConfChange::ByteSizeLong` (`/repo/src/raftpb/raft.pb.cc` 3173-3213). -/
def PConfChange.byteSize (m : PConfChange) : Nat :=
  optSize (fun b : Bytes => lenSize b.length) m.context + optSize varintSize m.id +
    optSize varintSize m.nodeId + optSize (fun t => varintSize (ccTypeNo t)) m.type

/-! ## `ConfChangeSingle` -/

structure PCCSingle where
  type : Option CCType := none
  nodeId : Option Nat := none
deriving DecidableEq

/-- `ConfChangeSingle::SerializeWithCachedSizes` (`/repo/src/raftpb/raft.pb.cc` 3431-3453). -/
def PCCSingle.raws (m : PCCSingle) : List Raw := opt 1 (fun t => .int (ccTypeNo t)) m.type ++ opt 2 .int m.nodeId

/-- `ConfChangeSingle::MergePartialFromCodedStream` (`/repo/src/raftpb/raft.pb.cc` 3367-3429): one field. -/
def PCCSingle.set (m : PCCSingle) : Raw → Option PCCSingle
  | (1, .int n) => setEnum ccTypeOf n m fun t => { m with type := some t }
  | (2, .int n) => some { m with nodeId := some n }
  | _ => some m

/-- `ConfChangeSingle::ByteSizeLong` (`/repo/src/raftpb/raft.pb.cc` 3483-3510). -/
def PCCSingle.byteSize (m : PCCSingle) : Nat :=
  optSize varintSize m.nodeId + optSize (fun t => varintSize (ccTypeNo t)) m.type

/-! ## `ConfChangeV2` -/

structure PConfChangeV2 where
  transition : Option CCTransition := none
  changes : List PCCSingle := []
  context : Option Bytes := none
deriving DecidableEq

/-- `ConfChangeV2::SerializeWithCachedSizes` (`/repo/src/raftpb/raft.pb.cc` 3731-3763). -/
def PConfChangeV2.raws (m : PConfChangeV2) : List Raw :=
  opt 1 (fun t => .int (transitionNo t)) m.transition ++ rep 2 (fun c => .len (encs (PCCSingle.raws c))) m.changes ++ opt 3 .len m.context

/-- `ConfChangeV2::MergePartialFromCodedStream` (`/repo/src/raftpb/raft.pb.cc` 3657-3729): one field. -/
def PConfChangeV2.set (m : PConfChangeV2) : Raw → Option PConfChangeV2
  | (1, .int n) => setEnum transitionOf n m fun t => { m with transition := some t }
  | (2, .len b) => (merge PCCSingle.set {} b).map fun c => { m with changes := m.changes ++ [c] }
  | (3, .len b) => some { m with context := some b }
  | _ => some m

/-- `ConfChangeV2::ByteSizeLong` (`/repo/src/raftpb/raft.pb.cc` 3803-3842). -/
def PConfChangeV2.byteSize (m : PConfChangeV2) : Nat :=
  (m.changes.length + (m.changes.map fun c => lenSize (PCCSingle.byteSize c)).sum) + optSize (fun b : Bytes => lenSize b.length) m.context +
    optSize (fun t => varintSize (transitionNo t)) m.transition

/-! ## `SerializeAsString`, `ParseFromString` -/

/-- `MessageLite::SerializeAsString` (runtime): the empty string for what is larger than `INT_MAX`. -/
def serialize (rs : List Raw) : Bytes := if (encs rs).length < 2 ^ 31 then encs rs else []

/-- `MessageLite::ParseFromString` (runtime). -/
def parse {M : Type} (set : M → Raw → Option M) (empty : M) (bs : Bytes) : Option M := merge set empty bs

/-- `Entry::SerializeAsString`, `Entry::ParseFromString`; likewise below. -/
def PEntry.toBytes (m : PEntry) : Bytes := serialize m.raws
def PEntry.ofBytes (bs : Bytes) : Option PEntry := parse PEntry.set {} bs
def PHardState.toBytes (m : PHardState) : Bytes := serialize m.raws
def PHardState.ofBytes (bs : Bytes) : Option PHardState := parse PHardState.set {} bs
def PConfState.toBytes (m : PConfState) : Bytes := serialize m.raws
def PConfState.ofBytes (bs : Bytes) : Option PConfState := parse PConfState.set {} bs
def PSnapMeta.toBytes (m : PSnapMeta) : Bytes := serialize m.raws
def PSnapMeta.ofBytes (bs : Bytes) : Option PSnapMeta := parse PSnapMeta.set {} bs
def PSnapshot.toBytes (m : PSnapshot) : Bytes := serialize m.raws
def PSnapshot.ofBytes (bs : Bytes) : Option PSnapshot := parse PSnapshot.set {} bs
def PMessage.toBytes (m : PMessage) : Bytes := serialize m.raws
def PMessage.ofBytes (bs : Bytes) : Option PMessage := parse PMessage.set {} bs
def PConfChange.toBytes (m : PConfChange) : Bytes := serialize m.raws
def PConfChange.ofBytes (bs : Bytes) : Option PConfChange := parse PConfChange.set {} bs
def PCCSingle.toBytes (m : PCCSingle) : Bytes := serialize m.raws
def PCCSingle.ofBytes (bs : Bytes) : Option PCCSingle := parse PCCSingle.set {} bs
def PConfChangeV2.toBytes (m : PConfChangeV2) : Bytes := serialize m.raws
def PConfChangeV2.ofBytes (bs : Bytes) : Option PConfChangeV2 := parse PConfChangeV2.set {} bs

/-! ## The getters: fields that are not set read as their defaults -/

/-- `/repo/src/raftpb/raft.pb.h` 1604-1680. -/
def PEntry.get (m : PEntry) : Entry :=
  { type := m.type.getD .normal, term := m.term.getD 0, index := m.index.getD 0, data := m.data.getD [] }

/-- `/repo/src/raftpb/raft.pb.h` 2360-2411. -/
def PHardState.get (m : PHardState) : HardState := { term := m.term.getD 0, vote := m.vote.getD 0, commit := m.commit.getD 0 }

/-- `/repo/src/raftpb/raft.pb.h` 2429-2559. -/
def PConfState.get (m : PConfState) : ConfState :=
  { voters := m.voters, learners := m.learners, votersOutgoing := m.votersOutgoing, learnersNext := m.learnersNext, autoLeave := m.autoLeave.getD false }

/-- `/repo/src/raftpb/raft.pb.h` 1750-1832. -/
def PSnapMeta.get (m : PSnapMeta) : SnapMeta :=
  { confState := (m.confState.getD {}).get, index := m.index.getD 0, term := m.term.getD 0 }

/-- `/repo/src/raftpb/raft.pb.h` 1857-1931. -/
def PSnapshot.get (m : PSnapshot) : Snapshot := { data := m.data.getD [], metadata := (m.metadata.getD {}).get }

/-- `/repo/src/raftpb/raft.pb.h` 1985-2293; `has_snapshot` is kept (2181). -/
def PMessage.get (m : PMessage) : Message :=
  { type := m.type.getD .hup, «to» := m.to.getD 0, src := m.src.getD 0, term := m.term.getD 0, logTerm := m.logTerm.getD 0, index := m.index.getD 0,
    entries := m.entries.map PEntry.get, commit := m.commit.getD 0, snapshot := m.snapshot.map PSnapshot.get, reject := m.reject.getD false,
    rejectHint := m.rejectHint.getD 0, context := m.context.getD [] }

/-- `/repo/src/raftpb/raft.pb.h` 2584-2702. -/
def PConfChange.get (m : PConfChange) : ConfChange :=
  { type := m.type.getD .addNode, nodeId := m.nodeId.getD 0, context := m.context.getD [], id := m.id.getD 0 }

/-- `/repo/src/raftpb/raft.pb.h` 2727-2755. -/
def PCCSingle.get (m : PCCSingle) : CCSingle := { type := m.type.getD .addNode, nodeId := m.nodeId.getD 0 }

/-- `/repo/src/raftpb/raft.pb.h` 2780-2838. -/
def PConfChangeV2.get (m : PConfChangeV2) : ConfChangeV2 :=
  { transition := m.transition.getD .auto, changes := m.changes.map PCCSingle.get, context := m.context.getD [] }

end Craft.Pb
