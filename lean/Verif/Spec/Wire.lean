import Verif.Model.Wire

/-! # Messages that fit on the wire -/

namespace Craft.Pb

/-- A number of 64 bits, if there is one. -/
def U64 (o : Option Nat) : Prop := ∀ n, o = some n → n < 2 ^ 64

/-- A kind of change the enumeration knows. -/
def KnownKind (o : Option CCType) : Prop := ∀ t, o = some t → ∀ k, t ≠ .unknown k

structure PEntry.InRange (m : PEntry) : Prop where
  term : U64 m.term
  index : U64 m.index

structure PHardState.InRange (m : PHardState) : Prop where
  term : U64 m.term
  vote : U64 m.vote
  commit : U64 m.commit

structure PConfState.InRange (m : PConfState) : Prop where
  voters : ∀ n ∈ m.voters, n < 2 ^ 64
  learners : ∀ n ∈ m.learners, n < 2 ^ 64
  votersOutgoing : ∀ n ∈ m.votersOutgoing, n < 2 ^ 64
  learnersNext : ∀ n ∈ m.learnersNext, n < 2 ^ 64

structure PSnapMeta.InRange (m : PSnapMeta) : Prop where
  confState : ∀ c, m.confState = some c → c.InRange
  index : U64 m.index
  term : U64 m.term

structure PSnapshot.InRange (m : PSnapshot) : Prop where
  metadata : ∀ c, m.metadata = some c → c.InRange

structure PMessage.InRange (m : PMessage) : Prop where
  «to» : U64 m.to
  src : U64 m.src
  term : U64 m.term
  logTerm : U64 m.logTerm
  index : U64 m.index
  entries : ∀ e ∈ m.entries, e.InRange
  commit : U64 m.commit
  snapshot : ∀ s, m.snapshot = some s → s.InRange
  rejectHint : U64 m.rejectHint

structure PConfChange.InRange (m : PConfChange) : Prop where
  id : U64 m.id
  type : KnownKind m.type
  nodeId : U64 m.nodeId

structure PCCSingle.InRange (m : PCCSingle) : Prop where
  type : KnownKind m.type
  nodeId : U64 m.nodeId

structure PConfChangeV2.InRange (m : PConfChangeV2) : Prop where
  changes : ∀ c ∈ m.changes, c.InRange

/-- The environment reads, writes and measures as the generated code does. Which fields with default values the application sets
(and so writes) is left open. -/
structure Protobuf (env : Env) : Prop where
  size : ∀ e, ∃ m : PEntry, m.get = e ∧ env.entSize e = m.byteSize
  ser1 : ∀ cc, ∃ m : PConfChange, m.get = cc ∧ env.serV1 cc = m.toBytes
  ser2 : ∀ cc, ∃ m : PConfChangeV2, m.get = cc ∧ env.serV2 cc = m.toBytes
  parse1 : ∀ bs, env.parseV1 bs = (PConfChange.ofBytes bs).map PConfChange.get
  parse2 : ∀ bs, env.parseV2 bs = (PConfChangeV2.ofBytes bs).map PConfChangeV2.get

/-- A field of a newer version of the schema, that can be on the wire: its number is above `last`. -/
def Newer (last : Nat) (r : Raw) : Prop :=
  last < r.1 ∧ r.1 < 2 ^ 29 ∧ match r.2 with
    | .int n => n < 2 ^ 64
    | .fix64 b => b.length = 8
    | .len b => b.length < 2 ^ 31
    | .fix32 b => b.length = 4

/-- The same fields in the same order, with newer ones in between. -/
inductive Mixed (last : Nat) : List Raw → List Raw → Prop
  | nil : Mixed last [] []
  | old {r rs rs'} : Mixed last rs rs' → Mixed last (r :: rs) (r :: rs')
  | new {r rs rs'} : Newer last r → Mixed last rs rs' → Mixed last rs (r :: rs')

end Craft.Pb
