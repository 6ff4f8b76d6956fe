import Verif.Spec.Given

/-! # How far terms can get

The courses of events of `Verif.Spec.Given` (any nodes, disks, settings, calls, crashes), counting the events that may begin an
election. Messages are not made up, but for those without a term (proposals, read requests). -/

namespace Craft.Given
open Members

/-- The call may begin an election: a tick, `Campaign`, or a message that makes the receiver campaign. -/
def electing : Call → Bool
  | .tick => true
  | .campaign => true
  | .step m => decide (m.type = .hup ∨ m.type = .timeoutNow ∨ m.type = .preVoteResp)
  | _ => false

/-- The event may begin an election (`Bootstrap` begins term 1). -/
def Deed.electing : Deed → Bool
  | .act (.call _ x) => Given.electing x
  | .act (.deliver _ m) => Given.electing (.step m)
  | .boot _ _ _ _ => true
  | _ => false

/-- Messages the application makes up carry no term. -/
def Deed.Termless : Deed → Prop
  | .act (.call _ (.step m)) => m.term = 0
  | _ => True

/-- The state after deeds, and the number of those that may have begun an election. -/
inductive Course (env : Env) (dec : Entry → Option ConfChangeI) (disk : Nat → Storage) : Nat → State → Prop
  | init : Course env dec disk 0 { proc := fun p => .down (disk p) }
  | deed (d : Deed) {k c c'} : Course env dec disk k c → d.Honest c → d.Termless → d.run env dec c = .ok c' →
      Course env dec disk (if d.electing then k + 1 else k) c'

end Craft.Given
