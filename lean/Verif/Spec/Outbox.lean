import Verif.Spec.Node

/-! # What a node hands out for sending -/

namespace Craft

/-- A course of calls on a node, and the messages of the Readys that were taken in it, one after the other. -/
inductive Sends (env : Env) (n : RawNode) : List Message → RawNode → Prop
  | nil : Sends env n [] n
  | call (x : Call) {out n1 n2} : Sends env n out n1 → x.Stamped → x ≠ .getReady → x.run env n1 = .ok n2 → Sends env n out n2
  | ready {out n1 n2 rd} : Sends env n out n1 → n1.getReady env = .ok (n2, rd) → Sends env n (out ++ rd.messages) n2

end Craft
