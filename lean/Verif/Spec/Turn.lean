import Verif.Spec.Node

/-! # Leaders heard of, and timeouts drawn -/

namespace Craft

/-- The call delivers a leader's message (append, heartbeat or snapshot) from `l`, sent in term `T`. -/
def Call.HearsFrom (c : Call) (l T : Nat) : Prop :=
  ∃ m, c = .step m ∧ (m.type = .app ∨ m.type = .heartbeat ∨ m.type = .snap) ∧ m.src = l ∧ m.term = T

/-- What the `k`-th draw of node `id`'s random source makes of an election timeout of `t` ticks: `t` plus the draw, reduced to
the range from 0 to `t - 1` as an `int`. (That the result lies in `[t, 2 * t - 1]` is C46.) -/
def drawn (env : Env) (id t k : Nat) : Nat := t + env.rand id k % (toI32 ((t : Int) - 1) + 1).toNat

end Craft
