import Verif.Model.Types

/-! # `/repo/src/read_only.{h,cc}` -/

namespace Craft

/-- `ReadState` (`/repo/src/read_only.h` 35-42). -/
structure ReadState where
  index : Nat
  requestCtx : Bytes
deriving Repr, DecidableEq, Inhabited

/-- `ReadIndexStatus` (`/repo/src/read_only.h` 44-48). -/
structure ReadIndexStatus where
  req : Message
  index : Nat
  acks : AMap Bool := []
deriving Repr, DecidableEq, Inhabited

/-- `ReadOnlyOption` (`/repo/src/read_only.h` 52-65). -/
inductive ReadOnlyOption where
  | safe | leaseBased
deriving Repr, DecidableEq, Inhabited

/-- `ReadOnly` (`/repo/src/read_only.h` 97-102). `pending` is a map keyed by the request context; its iteration order is
never observed, so it is an association list in insertion order. -/
structure ReadOnly where
  option : ReadOnlyOption := .safe
  pending : List (Bytes × ReadIndexStatus) := []
  queue : List Bytes := []
deriving Repr, DecidableEq, Inhabited

namespace ReadOnly

/-- `pending_read_index_.find(ctx)`. -/
def findPending : List (Bytes × ReadIndexStatus) → Bytes → Option ReadIndexStatus
  | [], _ => none
  | (k, v) :: m, c => if k = c then some v else findPending m c

/-- Replaces the status stored for `ctx` (mutation through the shared pointer). -/
def setPending : List (Bytes × ReadIndexStatus) → Bytes → ReadIndexStatus → List (Bytes × ReadIndexStatus)
  | [], _, _ => []
  | (k, v) :: m, c, v' => if k = c then (k, v') :: m else (k, v) :: setPending m c v'

/-- `pending_read_index_.erase(ctx)`. -/
def erasePending (m : List (Bytes × ReadIndexStatus)) (c : Bytes) : List (Bytes × ReadIndexStatus) :=
  m.filter fun p => decide (p.1 ≠ c)

/-- `m->entries(0).data()`; out of range access is undefined. -/
def reqCtx (m : Message) (site : String) : Res Bytes :=
  match m.entries with
  | [] => .ub site
  | e :: _ => .ok e.data

/-- `AddRequest` (`/repo/src/read_only.cc` 22-32). -/
def addRequest (ro : ReadOnly) (index : Nat) (m : Message) : Res ReadOnly := do
  let s ← reqCtx m "read_only.cc:23"
  if (findPending ro.pending s).isSome then pure ro
  else pure { ro with
    pending := ro.pending ++ [(s, { req := m, index := index })]
    queue := ro.queue ++ [s] }

/-- `RecvAck` (`/repo/src/read_only.cc` 34-42): new state and the returned ack map. -/
def recvAck (ro : ReadOnly) (id : Nat) (ctx : Bytes) : ReadOnly × AMap Bool :=
  match findPending ro.pending ctx with
  | none => (ro, [])
  | some st =>
    let acks := st.acks.insert id true
    ({ ro with pending := setPending ro.pending ctx { st with acks := acks } }, acks)

/-- Queue scan of `Advance` (`/repo/src/read_only.cc` 49-60): the statuses up to and including `ctx`, and whether `ctx`
was found. -/
def advanceScan (pending : List (Bytes × ReadIndexStatus)) (ctx : Bytes) :
    List Bytes → Res (List ReadIndexStatus × Bool)
  | [] => .ok ([], false)
  | okctx :: q =>
    match findPending pending okctx with
    | none => .fatal "read_only.cc:53"
    | some st =>
      if okctx = ctx then .ok ([st], true)
      else do
        let (rss, found) ← advanceScan pending ctx q
        pure (st :: rss, found)

/-- The erase loop of `Advance` (`/repo/src/read_only.cc` 64-66). -/
def eraseAll (pending : List (Bytes × ReadIndexStatus)) :
    List ReadIndexStatus → Res (List (Bytes × ReadIndexStatus))
  | [] => .ok pending
  | rs :: rss => do
    let c ← reqCtx rs.req "read_only.cc:65"
    eraseAll (erasePending pending c) rss

/-- `Advance` (`/repo/src/read_only.cc` 44-70). -/
def advance (ro : ReadOnly) (ctx : Bytes) : Res (ReadOnly × List ReadIndexStatus) := do
  let (rss, found) ← advanceScan ro.pending ctx ro.queue
  if found then do
    let pending ← eraseAll ro.pending rss
    pure ({ ro with queue := ro.queue.drop rss.length, pending := pending }, rss)
  else pure (ro, [])

/-- `LastPendingRequestCtx` (`/repo/src/read_only.cc` 72-78). -/
def lastPendingRequestCtx (ro : ReadOnly) : Bytes := ro.queue.getLastD []

end ReadOnly
end Craft
