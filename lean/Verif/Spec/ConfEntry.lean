import Verif.Model.PbConf

namespace Craft

/-- The configuration change in an entry, as the library reads it (`/repo/src/raft.cc` 993-1007; an application reads it the
same way, `/repo/example/multi_mem_node.cc` 138-150). -/
def Env.conf (env : Env) (e : Entry) : Option ConfChangeI :=
  match e.type with
  | .normal => none
  | .confChange => (env.parseV1 e.data).map .v1
  | .confChangeV2 => (env.parseV2 e.data).map .v2

/-- A part of a change that protobuf carries without loss: its kind is inside the enumeration, the id has 64 bits. -/
structure CCSingle.Fits (x : CCSingle) : Prop where
  kind : ∀ k, x.type ≠ .unknown k
  node : x.nodeId < 2 ^ 64

/-- A (V1) change that protobuf carries without loss: its kind is inside the enumeration, numbers have 64 bits, and it is not huge. -/
structure ConfChange.Fits (cc : ConfChange) : Prop where
  kind : ∀ k, cc.type ≠ .unknown k
  node : cc.nodeId < 2 ^ 64
  id : cc.id < 2 ^ 64
  size : cc.context.length < 2 ^ 30

/-- The same for V2 changes: at most a million parts. -/
structure ConfChangeV2.Fits (cc : ConfChangeV2) : Prop where
  parts : ∀ x ∈ cc.changes, x.Fits
  count : cc.changes.length ≤ 2 ^ 20
  size : cc.context.length < 2 ^ 30

/-- The same for either. -/
def ConfChangeI.Fits : ConfChangeI → Prop
  | .v1 cc => cc.Fits
  | .v2 cc => cc.Fits

end Craft
