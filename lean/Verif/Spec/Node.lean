import Verif.Model.RawNode
import Verif.Spec.RaftLog

/-! # Everything an application can do with a running node

The public methods of `RawNode` (`/repo/src/rawnode.h` 90-180) that act on a running node. `Bootstrap`, which is only for
a node that has just been created, is treated apart (C45). -/

namespace Craft

inductive Call where
  | step (m : Message)
  | tick
  | tickQuiesced
  | campaign
  | propose (data : Bytes)
  | proposeConfChange (cc : ConfChangeI)
  | applyConfChange (cc : ConfChangeI)
  | getReady
  | advance
  | reportUnreachable (id : Nat)
  | reportSnapshot (id : Nat) (failure : Bool)
  | transferLeader (id : Nat)
  | readIndex (ctx : Bytes)
deriving DecidableEq, Repr

/-- The node after a call (what else the call returns is dropped). -/
def Call.run (env : Env) (n : RawNode) : Call → Res RawNode
  | .step m => do let (n, _) ← n.step env m; pure n
  | .tick => n.tick env
  | .tickQuiesced => .ok n.tickQuiesced
  | .campaign => do let (n, _) ← n.campaign env; pure n
  | .propose d => do let (n, _) ← n.propose env d; pure n
  | .proposeConfChange cc => do let (n, _) ← n.proposeConfChange env cc; pure n
  | .applyConfChange cc => do let (n, _) ← n.applyConfChange env cc; pure n
  | .getReady => do let (n, _) ← n.getReady env; pure n
  | .advance => n.advance
  | .reportUnreachable id => n.reportUnreachable env id
  | .reportSnapshot id f => n.reportSnapshot env id f
  | .transferLeader id => n.transferLeader env id
  | .readIndex ctx => n.readIndex env ctx

/-- Messages of a leader always carry its term (`Raft::Send`, `/repo/src/raft.cc` 302-309): a message of these types with
term 0 was not produced by this library. -/
def Stamped (m : Message) : Prop := (m.type = .app ∨ m.type = .heartbeat ∨ m.type = .snap) → m.term ≠ 0

/-- A call whose argument, if it is a message, is `Stamped`. -/
def Call.Stamped : Call → Prop
  | .step m => Craft.Stamped m
  | _ => True

/-- Vote requests name a candidate: id 0 is refused by `Config::Validate` (`/repo/src/raft.cc` 160). -/
def Call.Sourced : Call → Prop
  | .step m => m.type = .vote → m.src ≠ 0
  | _ => True

/-! ## The application's side of the Ready contract

`/repo/example/multi_mem_node.cc` 109-154: persist the snapshot, the entries and the hard state, send the messages, apply
(calling `ApplyConfChange` for configuration changes), `Advance`. -/

/-- Persist a Ready. -/
def Storage.save (s : Storage) (rd : Ready) : Res Storage := do
  let s := if isEmptySnap rd.snapshot then s else (s.applySnapshot rd.snapshot).1
  let s ← s.append rd.entries
  pure (if isEmptyHardState rd.hardState then s else s.setHardState rd.hardState)

/-- The application changed the storage it shares with the node. -/
def RawNode.withStorage (n : RawNode) (s : Storage) : RawNode :=
  { n with raft := { n.raft with log := { n.raft.log with storage := s } } }

def RawNode.applyConfChanges (env : Env) : List ConfChangeI → RawNode → Res RawNode
  | [], n => .ok n
  | cc :: ccs, n => do
    let (n, _) ← n.applyConfChange env cc
    applyConfChanges env ccs n

/-- `GetReady` and persisting what it returned. -/
def RawNode.takeReady (env : Env) (n : RawNode) : Res (RawNode × Ready) := do
  let (n, rd) ← n.getReady env
  let st ← n.raft.log.storage.save rd
  pure (n.withStorage st, rd)

/-- Handling one Ready, with the configuration changes the application applies on the way. -/
def RawNode.handleReady (env : Env) (n : RawNode) (ccs : List ConfChangeI) : Res (RawNode × Ready) := do
  let (n, rd) ← n.takeReady env
  let n ← n.applyConfChanges env ccs
  let n ← n.advance
  pure (n, rd)

/-- A node together with every message it ever handed to the network. -/
structure NodeHist where
  node : RawNode
  sent : List Message

/-- Calls made outside the handling of a Ready. -/
def Call.Plain : Call → Prop
  | .getReady | .advance | .applyConfChange _ => False
  | _ => True

/-- What can happen to a node without a crash: a call, the handling of a Ready (its messages are sent once it is
persisted), compaction and snapshotting of the storage at any index. -/
inductive NodeStep (env : Env) : NodeHist → NodeHist → Prop
  | call (c : Call) {n n' : RawNode} {sent} : c.Plain → c.Stamped → c.Sourced → c.run env n = .ok n' → NodeStep env ⟨n, sent⟩ ⟨n', sent⟩
  | ready (ccs : List ConfChangeI) {n n' : RawNode} {rd sent} : n.handleReady env ccs = .ok (n', rd) →
      NodeStep env ⟨n, sent⟩ ⟨n', sent ++ rd.messages⟩
  | compact (i : Nat) {n : RawNode} {st e sent} : n.raft.log.storage.compact i = .ok (st, e) →
      NodeStep env ⟨n, sent⟩ ⟨n.withStorage st, sent⟩
  | createSnapshot (i : Nat) (cs : Option ConfState) (data : Bytes) {n : RawNode} {st e sent} :
      n.raft.log.storage.createSnapshot i cs data = .ok (st, e) → NodeStep env ⟨n, sent⟩ ⟨n.withStorage st, sent⟩

/-- A crash and restart (with any configuration for the same node id): only the storage survives. The crash can come at
any time; inside the handling of a Ready it can come before anything is persisted, or after (some of the) messages were
sent. -/
inductive NodeCrash (env : Env) : NodeHist → NodeHist → Prop
  | idle (cfg : Config) (rng : Nat) {n n' : RawNode} {sent} : cfg.id = n.raft.id →
      RawNode.new env cfg n.raft.log.storage rng = .ok n' → NodeCrash env ⟨n, sent⟩ ⟨n', sent⟩
  | inReady (cfg : Config) (rng : Nat) {n n1 n' : RawNode} {rd sent} (some : List Message) : cfg.id = n.raft.id →
      n.takeReady env = .ok (n1, rd) → (∀ m ∈ some, m ∈ rd.messages) →
      RawNode.new env cfg n1.raft.log.storage rng = .ok n' → NodeCrash env ⟨n, sent⟩ ⟨n', sent ++ some⟩

/-- Histories of one node from its first start, with crashes. A node with an empty disk may also be bootstrapped
(`RawNode::Bootstrap`) when it is started. -/
inductive NodeReach (env : Env) : NodeHist → Prop
  | start (cfg : Config) (st : Storage) (rng : Nat) {n : RawNode} : RawNode.new env cfg st rng = .ok n → NodeReach env ⟨n, []⟩
  | boot (cfg : Config) (rng : Nat) (peers : List (Nat × Bytes)) {n0 n : RawNode} : RawNode.new env cfg {} rng = .ok n0 →
      n0.bootstrap env peers = .ok (n, none) → NodeReach env ⟨n, []⟩
  | step {x y : NodeHist} : NodeReach env x → NodeStep env x y → NodeReach env y
  | crash {x y : NodeHist} : NodeReach env x → NodeCrash env x y → NodeReach env y

/-- An append message as a leader of this library builds it: consecutive entries after `index`, all with a term, and a
term for `index` unless it is 0. -/
def AppWF (m : Message) : Prop :=
  m.type = .app → Spec.Contig (m.index + 1) m.entries ∧ (∀ e ∈ m.entries, e.term ≠ 0) ∧ (m.logTerm = 0 → m.index = 0)

def Call.WF : Call → Prop
  | .step m => AppWF m
  | _ => True

/-- Runs of one incarnation of a node (no crash), messages forgotten: calls, Readys, compaction, snapshots. -/
inductive NodeRun (env : Env) (n : RawNode) : RawNode → Prop
  | refl : NodeRun env n n
  | call (c : Call) {a b : RawNode} : NodeRun env n a → c.Plain → c.Stamped → c.WF → c.run env a = .ok b → NodeRun env n b
  | ready (ccs : List ConfChangeI) {a b : RawNode} {rd} : NodeRun env n a → a.handleReady env ccs = .ok (b, rd) → NodeRun env n b
  | compact (i : Nat) {a : RawNode} {st e} : NodeRun env n a → i ≤ a.raft.log.applied → a.raft.log.storage.compact i = .ok (st, e) →
      NodeRun env n (a.withStorage st)
  | createSnapshot (i : Nat) (cs : Option ConfState) (data : Bytes) {a : RawNode} {st e} : NodeRun env n a → i ≤ a.raft.log.applied →
      a.raft.log.storage.createSnapshot i cs data = .ok (st, e) → NodeRun env n (a.withStorage st)

/-- A disk whose snapshot is not beyond what it records as committed. -/
structure Storage.Sound (st : Storage) : Prop where
  wf : st.WF
  snap : st.snapshot.metadata.index ≤ max st.view.base st.hardState.commit

end Craft
