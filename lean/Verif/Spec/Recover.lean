import Verif.Spec.Live
import Verif.Spec.Quorum

/-! # What a part of a cluster can still do

`Can env S c c'`: with only the nodes of `S` acting - every other node may be dead, or cut off - the cluster can get from `c`
to `c'`. Nothing of this is about probabilities or time: it says that no state is a dead end. -/

namespace Craft.Cluster
open Spec

/-- The action concerns nodes of `S` only; a delivered message was sent by one of them. -/
def Act.Within (S : List Nat) : Act → Prop
  | .start p _ _ => p ∈ S
  | .call p _ => p ∈ S
  | .deliver p m => p ∈ S ∧ m.src ∈ S
  | .ready p => p ∈ S
  | .compact p _ => p ∈ S
  | .createSnapshot p _ _ _ => p ∈ S
  | .crash p => p ∈ S
  | .crashReady p _ _ => p ∈ S

/-- `c'` can be reached from `c` by allowed actions of the nodes of `S`. -/
inductive Can (env : Env) (S : List Nat) : State → State → Prop
  | refl (c) : Can env S c c
  | act {c c1 c2} (a : Act) : Can env S c c1 → a.Within S → a.Allowed c1 → a.run env c1 = .ok c2 → Can env S c c2

/-- Voters that suffice to decide: a majority of each half of the configuration (one half if it is not joint). -/
structure Quorate (cfg : TConfig) (S : List Nat) : Prop where
  voters : ∀ v ∈ S, v ∈ cfg.voters.incoming ∨ v ∈ cfg.voters.outgoing
  incoming : Majority cfg.voters.incoming fun v => decide (v ∈ S)
  outgoing : cfg.voters.outgoing ≠ [] → Majority cfg.voters.outgoing fun v => decide (v ∈ S)

end Craft.Cluster
