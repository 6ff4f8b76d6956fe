import Verif.Spec.MembersLive
import Verif.Spec.ConfEntry
import Verif.Spec.Works

/-! # Clusters whose membership is changed sensibly

The clusters of `Verif.Spec.MembersLive` in which the applications only ask leaders for conf changes that make sense. -/

namespace Craft.Members
open Spec Cluster

/-- Protobuf: what was written can be read, and reads as what was written (if it fits); the empty string is the empty change. That
the generated code does this is C87. -/
structure Faithful (env : Env) : Prop extends Lossless env where
  exact1 : ∀ cc : ConfChange, cc.Fits → env.parseV1 (env.serV1 cc) = some cc
  exact2 : ∀ cc : ConfChangeV2, cc.Fits → env.parseV2 (env.serV2 cc) = some cc
  empty : env.parseV2 [] = some {}

/-- A change that is not refused by a leader using this configuration can be applied. In a joint configuration leaders refuse
whatever has parts; otherwise they refuse what has none. -/
def Sensible (cfg : TConfig) (cc : ConfChangeV2) : Prop :=
  if cfg.voters.outgoing ≠ [] then cc.changes = [] → cc.transition = .auto
  else cc.changes ≠ [] → Works cfg cc

/-- The leader `p` is a voter of its configuration, and the change is sensible. -/
def Proper (cfg : TConfig) (p : Nat) (cc : ConfChangeV2) : Prop := Voter cfg p ∧ Sensible cfg cc

/-- Node `p` may be asked for the change: if it leads, the condition `ok` holds of its configuration. -/
def State.MayAsk (ok : TConfig → Nat → ConfChangeV2 → Prop) (c : State) (p : Nat) (cc : ConfChangeV2) : Prop :=
  ∀ n a, c.proc p = .up n a → n.raft.state = .leader → ok n.raft.trk.config p cc

/-- What else the applications promise: they ask for conf changes that protobuf can carry (known kinds of parts, 64-bit ids,
less than a gigabyte), and only for ones the node may be
asked for. (A change proposed to a follower is forwarded to the leader; the promise is then about the delivery.) -/
def Act.Wise (ok : TConfig → Nat → ConfChangeV2 → Prop) (env : Env) (c : State) : Act → Prop
  | .call p (.proposeConfChange cc) => cc.Fits ∧ c.MayAsk ok p cc.asV2
  | .deliver p m => m.type = .prop → ∀ e ∈ m.entries, ∀ cc, env.conf e = some cc → c.MayAsk ok p cc.asV2
  | _ => True

/-- A disk to start from, on which nothing is missing. -/
structure CleanDisk (G : Genesis) (st : Storage) : Prop where
  disk : GenesisDisk G st
  hard : st.hardState = {} ∨ st.view.base ≤ st.hardState.commit

/-- Everything such a cluster can get to. All applications read conf changes as the library does. -/
inductive Live (ok : TConfig → Nat → ConfChangeV2 → Prop) (env : Env) (G : Genesis) : State → Prop
  | init (disk : Nat → Storage) : (∀ p, CleanDisk G (disk p)) → Live ok env G { proc := fun p => .down (disk p) }
  | act {c c'} (a : Act) : Live ok env G c → a.Allowed c → a.Wise ok env c → a.run env env.conf c = .ok c' → Live ok env G c'

end Craft.Members
