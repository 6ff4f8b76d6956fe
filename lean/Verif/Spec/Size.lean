import Verif.Spec.Node

/-! # The configured size limits -/

namespace Craft

/-- `n` is running with the configuration `cfg`: it was created with it (from any disk), possibly bootstrapped, and then called,
asked for Readys and given new contents of its disk any number of times. -/
inductive Configured (env : Env) (cfg : Config) : RawNode → Prop
  | new (st : Storage) (rng : Nat) {n : RawNode} : RawNode.new env cfg st rng = .ok n → Configured env cfg n
  | boot (st : Storage) (rng : Nat) (peers : List (Nat × Bytes)) {n0 n : RawNode} : RawNode.new env cfg st rng = .ok n0 →
      n0.bootstrap env peers = .ok (n, none) → Configured env cfg n
  | call (c : Call) {n n' : RawNode} : Configured env cfg n → c.Stamped → c.run env n = .ok n' → Configured env cfg n'
  | disk (st : Storage) {n : RawNode} : Configured env cfg n → Configured env cfg (n.withStorage st)

/-- A batch of entries fits a limit: either it is at most one entry (an entry too big for the limit is sent alone), or the sizes
add up to no more than the limit. Sizes and limit are supposed to stay below 2^63. -/
def Fits (env : Env) (limit : Nat) (es : List Entry) : Prop :=
  limit < 2 ^ 63 → (∀ e ∈ es, env.entSize e < 2 ^ 63) → es.length ≤ 1 ∨ (es.map env.entSize).sum ≤ limit

/-- The limit for one Ready: `max_committed_size_per_ready`, which defaults to `max_size_per_msg`
(`/repo/src/raft.h` 159-168, `/repo/src/raft.cc` 181-183). -/
def Config.readyLimit (cfg : Config) : Nat :=
  if cfg.maxCommittedSizePerReady = 0 then cfg.maxSizePerMsg else cfg.maxCommittedSizePerReady

end Craft
