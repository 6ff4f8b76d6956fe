/-! Specification of quorum decisions, independent of the model: voters are a list of ids, acknowledgements and votes are
functions on ids. -/

namespace Craft.Spec

/-- How many of the voters satisfy `P`. -/
def count (voters : List Nat) (P : Nat → Bool) : Nat := (voters.filter P).length

/-- A strict majority of the voters satisfy `P`. -/
def Majority (voters : List Nat) (P : Nat → Bool) : Prop := voters.length < 2 * count voters P

/-- A strict majority of the voters acknowledged index `i` (no report counts as 0). -/
def MajorityAcked (voters : List Nat) (acked : Nat → Option Nat) (i : Nat) : Prop :=
  Majority voters fun v => decide (i ≤ (acked v).getD 0)

/-- A strict majority voted yes. -/
def MajorityYes (voters : List Nat) (vote : Nat → Option Bool) : Prop := Majority voters fun v => vote v == some true

/-- `vote'` only adds votes of voters that had not voted in `vote`. -/
def Extends (vote vote' : Nat → Option Bool) : Prop := ∀ v b, vote v = some b → vote' v = some b

/-- A majority of yes votes can still be reached by adding votes. -/
def CanWin (voters : List Nat) (vote : Nat → Option Bool) : Prop :=
  ∃ vote', Extends vote vote' ∧ MajorityYes voters vote'

end Craft.Spec
