import Verif.Spec.Node
import Verif.Spec.Log

/-! # What is outstanding: the data of the entries in the log that have not been applied -/

namespace Craft
open Spec

/-- The number of bytes of data in the entries of the log `v` beyond index `a`. -/
def Spec.LogView.bytesAfter (v : LogView) (a : Nat) : Nat := ((v.ents.filter fun e => decide (a < e.index)).map fun e => e.data.length).sum

/-- The number of bytes of data in the log of `n` that the application has not acknowledged as applied. -/
def RawNode.outstanding (n : RawNode) : Nat := n.raft.log.view.bytesAfter n.raft.log.applied

end Craft
