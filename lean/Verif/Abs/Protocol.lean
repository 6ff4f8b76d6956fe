import Verif.Model.Types

/-! # The abstract protocol behind the cluster theorems

A proof device, not a model of code: replicated logs with full (never compacted) logs, no timers, no flow control and no
crashes. The net is the set of facts ever published; it only grows, so losing, duplicating, delaying and reordering
messages needs no special treatment. `Verif.Cluster` shows that every execution of the modelled code is an execution of
this protocol. -/

namespace Craft.Abs

inductive ARole where
  | follower | candidate | leader
deriving DecidableEq, Repr

/-- A node: term, vote (0: none), role, the whole log, commit index. -/
structure ANode where
  term : Nat := 0
  vote : Nat := 0
  role : ARole := .follower
  log : List Entry := []
  commit : Nat := 0

/-- Published facts. -/
inductive AMsg where
  /-- `c` asks for votes in term `T`; its log is `lg`. -/
  | voteReq (T c : Nat) (lg : List Entry)
  /-- `v` voted for `c` in term `T`. -/
  | voteGrant (T v c : Nat)
  /-- `c`, leader of term `T`, has the log `lg`. -/
  | lead (T c : Nat) (lg : List Entry)
  /-- `v`, in term `T`, has the first `i` entries of the log of the leader of `T`. -/
  | ack (T v i : Nat)
  /-- The leader of `T` committed `pre`. -/
  | chosen (T : Nat) (pre : List Entry)

/-- Any two quorums meet; `may` are the nodes that may run for leader. -/
structure QSys where
  may : Nat → Prop
  isQ : (Nat → Prop) → Prop
  inter : ∀ {S S'}, isQ S → isQ S' → ∃ v, S v ∧ S' v

def lastTerm (l : List Entry) : Nat := (l.getLast?.map (·.term)).getD 0

/-- The log `a` is at least as up to date as `b`. -/
def UpToDate (a b : List Entry) : Prop := lastTerm b < lastTerm a ∨ (lastTerm a = lastTerm b ∧ b.length ≤ a.length)

open Classical in
/-- Making the log contain `full`. -/
noncomputable def accept (log full : List Entry) : List Entry := if full <+: log then log else full

/-- Steps of node `v` when the facts `N` have been published. -/
inductive LStep (Q : QSys) (v : Nat) (N : List AMsg) : ANode → List AMsg → ANode → Prop
  | term {a} (T : Nat) : a.term < T → LStep Q v N a [] { a with term := T, vote := 0, role := .follower }
  | down {a} : LStep Q v N a [] { a with role := .follower }
  | cand {a} : v ≠ 0 → Q.may v → a.role ≠ .leader →
      LStep Q v N a [.voteReq (a.term + 1) v a.log, .voteGrant (a.term + 1) v v]
        { a with term := a.term + 1, vote := v, role := .candidate }
  | grant {a} (c : Nat) (lg : List Entry) : AMsg.voteReq a.term c lg ∈ N → (a.vote = 0 ∨ a.vote = c) → UpToDate lg a.log →
      LStep Q v N a [.voteGrant a.term v c] { a with vote := c }
  | win {a} (S : Nat → Prop) : a.role = .candidate → Q.isQ S → (∀ u, S u → AMsg.voteGrant a.term u v ∈ N) →
      LStep Q v N a [.lead a.term v a.log, .ack a.term v a.log.length] { a with role := .leader }
  | append {a} (es : List Entry) : a.role = .leader → (∀ e ∈ es, e.term = a.term) →
      LStep Q v N a [.lead a.term v (a.log ++ es), .ack a.term v (a.log ++ es).length] { a with log := a.log ++ es }
  | recv {a} (c : Nat) (lg full : List Entry) : a.role = .follower → AMsg.lead a.term c lg ∈ N → full <+: lg →
      LStep Q v N a [.ack a.term v full.length] { a with log := accept a.log full }
  | ackCommit {a} (c : Nat) (lg : List Entry) : AMsg.lead a.term c lg ∈ N → LStep Q v N a [.ack a.term v a.commit] a
  | commitL {a} (k : Nat) (e : Entry) (S : Nat → Prop) : a.role = .leader → a.commit ≤ k + 1 → a.log[k]? = some e → e.term = a.term →
      Q.isQ S → (∀ u, S u → ∃ j, k + 1 ≤ j ∧ AMsg.ack a.term u j ∈ N) →
      LStep Q v N a [.chosen a.term (a.log.take (k + 1))] { a with commit := k + 1 }
  | commitF {a} (T c : Nat) (pre : List Entry) : AMsg.chosen T pre ∈ N → T ≤ a.term → a.commit ≤ c → c ≤ a.log.length →
      a.log.take c <+: pre → LStep Q v N a [] { a with commit := c }

structure AState where
  node : Nat → ANode := fun _ => {}
  net : List AMsg := []

def AState.upd (g : AState) (p : Nat) (a : ANode) (out : List AMsg) : AState :=
  { node := fun q => if q = p then a else g.node q, net := g.net ++ out }

inductive AStep (Q : QSys) : AState → AState → Prop
  | mk {g : AState} (p : Nat) {out a} : LStep Q p g.net (g.node p) out a → AStep Q g (g.upd p a out)

/-- All logs empty, all nodes in term `τ`. -/
def AState.init (τ : Nat) : AState := { node := fun _ => { term := τ } }

inductive AReach (Q : QSys) (τ : Nat) : AState → Prop
  | init : AReach Q τ (.init τ)
  | step {g g'} : AReach Q τ g → AStep Q g g' → AReach Q τ g'

/-! ## The invariant -/

/-- Every prefix of `X` is a prefix of a log of the leader of its last entry's term. -/
def Matched (N : List AMsg) (X : List Entry) : Prop :=
  ∀ k e, X[k]? = some e → ∃ c lg, AMsg.lead e.term c lg ∈ N ∧ X.take (k + 1) <+: lg

/-- The first `i` entries can no longer be committed by counting in term `T`: a quorum has moved on without acknowledging
them. -/
def Blocked (Q : QSys) (g : AState) (T i : Nat) : Prop :=
  ∃ S, Q.isQ S ∧ ∀ u, S u → T < (g.node u).term ∧ ∀ j, i ≤ j → AMsg.ack T u j ∉ g.net

def Sorted (l : List Entry) : Prop := ∀ (i j : Nat) (a b : Entry), i ≤ j → l[i]? = some a → l[j]? = some b → a.term ≤ b.term

structure Inv (Q : QSys) (g : AState) : Prop where
  reqNode : ∀ T c lg, AMsg.voteReq T c lg ∈ g.net → c ≠ 0 ∧ T ≤ (g.node c).term
  reqCand : ∀ c, (g.node c).role = .candidate → ∀ lg, AMsg.voteReq (g.node c).term c lg ∈ g.net → (g.node c).log = lg
  reqUnique : ∀ T c lg lg', AMsg.voteReq T c lg ∈ g.net → AMsg.voteReq T c lg' ∈ g.net → lg = lg'
  reqMatched : ∀ T c lg, AMsg.voteReq T c lg ∈ g.net → Matched g.net lg
  candNew : ∀ c, (g.node c).role = .candidate → 0 < (g.node c).term ∧ ∀ lg, AMsg.lead (g.node c).term c lg ∉ g.net
  grantNode : ∀ T v c, AMsg.voteGrant T v c ∈ g.net → c ≠ 0 ∧ T ≤ (g.node v).term ∧ (T = (g.node v).term → (g.node v).vote = c)
  grantUnique : ∀ T v c c', AMsg.voteGrant T v c ∈ g.net → AMsg.voteGrant T v c' ∈ g.net → c = c'
  grantReq : ∀ T v c, AMsg.voteGrant T v c ∈ g.net → ∃ lg, AMsg.voteReq T c lg ∈ g.net ∧
    ∀ T0 j, T0 < T → AMsg.ack T0 v j ∈ g.net → ∀ c0 lg0 k e, AMsg.lead T0 c0 lg0 ∈ g.net → lg0[k]? = some e → e.term = T0 →
      k < j → lg0.take (k + 1) <+: lg ∨ Blocked Q g T0 (k + 1)
  leadOk : ∀ T c lg, AMsg.lead T c lg ∈ g.net → 0 < T ∧ T ≤ (g.node c).term ∧
    ∃ S, Q.isQ S ∧ ∀ u, S u → AMsg.voteGrant T u c ∈ g.net
  leadNode : ∀ c, (g.node c).role = .leader → AMsg.lead (g.node c).term c (g.node c).log ∈ g.net ∧
    ∀ lg, AMsg.lead (g.node c).term c lg ∈ g.net → lg <+: (g.node c).log
  leadChain : ∀ T c lg lg', AMsg.lead T c lg ∈ g.net → AMsg.lead T c lg' ∈ g.net → lg <+: lg' ∨ lg' <+: lg
  leadTerms : ∀ T c lg, AMsg.lead T c lg ∈ g.net → Sorted lg ∧ ∀ e ∈ lg, e.term ≤ T
  leadMatched : ∀ T c lg, AMsg.lead T c lg ∈ g.net → Matched g.net lg
  nodeTerms : ∀ v, ∀ e ∈ (g.node v).log, e.term ≤ (g.node v).term
  nodeMatched : ∀ v, Matched g.net (g.node v).log
  ackLead : ∀ T v j, AMsg.ack T v j ∈ g.net → T ≤ (g.node v).term ∧ ∃ c lg, AMsg.lead T c lg ∈ g.net ∧ j ≤ lg.length
  ackNow : ∀ v j, AMsg.ack (g.node v).term v j ∈ g.net →
    ∃ c lg, AMsg.lead (g.node v).term c lg ∈ g.net ∧ j ≤ lg.length ∧ lg.take j <+: (g.node v).log
  ackKept : ∀ T v j c lg k e, AMsg.ack T v j ∈ g.net → AMsg.lead T c lg ∈ g.net → lg[k]? = some e → e.term = T → k < j →
    lg.take (k + 1) <+: (g.node v).log ∨ Blocked Q g T (k + 1)
  complete : ∀ T' c' lg' T c lg k e, AMsg.lead T' c' lg' ∈ g.net → AMsg.lead T c lg ∈ g.net → T < T' → lg[k]? = some e →
    e.term = T → lg.take (k + 1) <+: lg' ∨ Blocked Q g T (k + 1)
  chosenOk : ∀ T pre, AMsg.chosen T pre ∈ g.net → ∃ c lg k e, AMsg.lead T c lg ∈ g.net ∧ pre = lg.take (k + 1) ∧
    lg[k]? = some e ∧ e.term = T ∧ ∃ S, Q.isQ S ∧ ∀ u, S u → ∃ j, k + 1 ≤ j ∧ AMsg.ack T u j ∈ g.net
  commitOk : ∀ v, (g.node v).commit ≤ (g.node v).log.length ∧ ((g.node v).commit = 0 ∨
    ∃ T pre, AMsg.chosen T pre ∈ g.net ∧ T ≤ (g.node v).term ∧ (g.node v).log.take (g.node v).commit <+: pre)

end Craft.Abs
