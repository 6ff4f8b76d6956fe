import Verif.Spec.Node
import Verif.Spec.Resume

/-! # A crash while a Ready is being saved

The application writes a Ready piece by piece, in the order of `/repo/example/multi_mem_node.cc` 109-124: the snapshot, then the
entries, then the hard state. The machine can stop between any two writes, also between two entries. -/

namespace Craft
open Spec

/-- The disk with the snapshot of the Ready, if there is one. -/
def Storage.saveSnap (s : Storage) (rd : Ready) : Storage := if isEmptySnap rd.snapshot then s else (s.applySnapshot rd.snapshot).1

/-- The disks a crash during `Storage.save` can leave. -/
inductive Storage.Torn (s : Storage) (rd : Ready) : Storage → Prop
  /-- Nothing written. -/
  | before : Torn s rd s
  /-- The snapshot, if any, and the first of the entries, but not the hard state. -/
  | part (es : List Entry) {s' : Storage} : es <+: rd.entries → (s.saveSnap rd).append es = .ok s' → Torn s rd s'
  /-- Everything. -/
  | all {s' : Storage} : s.save rd = .ok s' → Torn s rd s'

/-- The snapshot of the disk carries a membership some node reported (as in `Storage.Resumable`). -/
def Storage.Names (st : Storage) (cfg : TConfig) : Prop :=
  ∃ t : Tracker, t.config = cfg ∧ t.confState = st.snapshot.metadata.confState ∧ ConfInv t.config t.progress ∧
    ¬ Member t.config 0 ∧ (t.config.voters.incoming ≠ [] ∨ t.config = {})

/-- The lives of one node: it starts from a sound disk, runs, and crashes any number of times, also in the middle of saving a
Ready. A restart that does not return ends the life. -/
inductive Life (env : Env) : RawNode → Prop
  | start (cfg : Config) {st : Storage} (rng : Nat) {n : RawNode} : st.Sound → RawNode.new env cfg st rng = .ok n → Life env n
  | run {a b : RawNode} : Life env a → NodeRun env a b → Life env b
  | crash (cfg : Config) (rng : Nat) {a b : RawNode} : Life env a → RawNode.new env cfg a.raft.log.storage rng = .ok b → Life env b
  | torn (cfg : Config) (rng : Nat) {a a' b : RawNode} {rd : Ready} {st : Storage} : Life env a → a.getReady env = .ok (a', rd) →
      a.raft.log.storage.Torn rd st → RawNode.new env cfg st rng = .ok b → Life env b

end Craft
