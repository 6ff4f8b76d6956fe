import Verif.Model.Types

/-! # `/repo/src/util.cc` -/

namespace Craft

/-- Loop of `Util::LimitSize` (`/repo/src/util.cc` 25-35) after the first element: `size` is the accumulated
size so far, a `uint64_t`, so it wraps; stops (erasing the rest) at the first entry that makes it exceed `maxSize`. -/
def limitSizeLoop (sz : Entry → Nat) (maxSize : Nat) : Nat → List Entry → List Entry
  | _, [] => []
  | size, e :: es =>
    if (size + sz e) % 2 ^ 64 > maxSize then [] else e :: limitSizeLoop sz maxSize ((size + sz e) % 2 ^ 64) es

/-- `Util::LimitSize` (`/repo/src/util.cc` 20-37). -/
def limitSize (sz : Entry → Nat) (ents : List Entry) (maxSize : Nat) : List Entry :=
  match ents with
  | [] => []
  | e :: es => e :: limitSizeLoop sz maxSize (sz e % 2 ^ 64) es

/-- `Util::IsLocalMsg` (`/repo/src/util.cc` 91-97). -/
def isLocalMsg : MsgType → Bool
  | .hup | .beat | .unreachable | .snapStatus | .checkQuorum => true
  | _ => false

/-- `Util::IsResponseMsg` (`/repo/src/util.cc` 99-105). -/
def isResponseMsg : MsgType → Bool
  | .appResp | .voteResp | .heartbeatResp | .unreachable | .preVoteResp => true
  | _ => false

/-- `Util::PayloadSize` (`/repo/src/util.h`): number of data bytes of an entry. -/
def payloadSize (e : Entry) : Nat := e.data.length

/-- `Util::VoteRespMsgType` (`/repo/src/util.h` 30-40). -/
def voteRespMsgType : MsgType → Res MsgType
  | .vote => .ok .voteResp
  | .preVote => .ok .preVoteResp
  | _ => .fatal "util.h:37"

end Craft
