import Verif.Spec.Node

/-! # The vote requests of an election -/

namespace Craft

/-- `new` asks every voter of the configuration (of both halves of a joint one) except the node itself, exactly once, with the request
`ty` of term `t` and context `ctx`, naming the end of the node's log; and contains nothing else. -/
structure VoteRequests (r : Raft) (ty : MsgType) (t : Nat) (ctx : Bytes) (new : List Message) : Prop where
  each : ∀ m ∈ new, m.type = ty ∧ m.src = r.id ∧ m.term = t ∧ m.index = r.log.lastIndex ∧ r.log.lastTerm = .ok m.logTerm ∧ m.context = ctx
  once : (new.map (·.to)).Nodup
  all : ∀ v, v ∈ new.map (·.to) ↔ (v ∈ r.trk.config.voters.incoming ∨ v ∈ r.trk.config.voters.outgoing) ∧ v ≠ r.id

/-- The context of the requests after a call: the mark of a leadership transfer if the call delivers `MsgTimeoutNow`, otherwise none. -/
def Call.voteCtx : Call → Bytes
  | .step m => if m.type = .timeoutNow then campaignTransferCtx else []
  | _ => []

end Craft
