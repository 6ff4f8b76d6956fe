import Verif.Spec.Members
import Verif.Spec.Boot

/-! # The nodes of a cluster, one by one -/

namespace Craft

/-- `n` is what a node with id `p` can have become, as far as what happens to this one node is concerned (`NodeReach`: its first
start from any disk, calls with any arguments, Readys, crashes, restarts), by a history in which it sent nothing but messages in
`net`. -/
def LivedAs (env : Env) (p : Nat) (net : List Message) (n : RawNode) : Prop :=
  n.raft.id = p ∧ ∃ sent, NodeReach env ⟨n, sent⟩ ∧ ∀ m ∈ sent, m ∈ net

end Craft
