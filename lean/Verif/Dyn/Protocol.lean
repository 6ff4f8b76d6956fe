import Verif.Abs.Lemmas

/-! # The abstract protocol with membership changes

A proof device, not a model of code: `Verif.Abs.Protocol` extended by configurations. The configuration of a node is
determined by a prefix of its log (the part whose conf changes it has applied), so a quorum is a quorum *at a prefix*. A leader
appends a conf change only when the previous one has been applied, and a node does not become a candidate while it knows of
a committed conf change it has not applied. -/

namespace Craft.Dyn
open Abs

/-- Number of conf changes in a log. -/
def nconf (l : List Entry) : Nat := l.countP fun e => decide (e.type ≠ .normal)

/-- A node: term, vote (0: none), role, the whole log, commit index, and how much of the log its configuration reflects. -/
structure DNode where
  term : Nat := 0
  vote : Nat := 0
  role : ARole := .follower
  log : List Entry := []
  commit : Nat := 0
  conf : Nat := 0

/-- Published facts. -/
inductive DMsg where
  /-- `c` asks for votes in term `T`; its log is `lg`, its configuration that of the first `cf` entries. -/
  | voteReq (T c : Nat) (lg : List Entry) (cf : Nat)
  /-- `v` voted for `c` in term `T`. -/
  | voteGrant (T v c : Nat)
  /-- `c`, leader of term `T`, has the log `lg`. -/
  | lead (T c : Nat) (lg : List Entry)
  /-- `v`, in term `T`, has the first `i` entries of the log of the leader of `T`. -/
  | ack (T v i : Nat)
  /-- The leader of `T` committed `pre` by counting in the configuration of the first `cf` entries. -/
  | chosen (T : Nat) (pre : List Entry) (cf : Nat)

/-- Quorums, for every log. Conf changes are the only entries that matter, and the quorums before and after one of them meet. -/
structure CSys where
  isQ : List Entry → (Nat → Prop) → Prop
  inter : ∀ {x S S'}, isQ x S → isQ x S' → ∃ v, S v ∧ S' v
  same : ∀ {x e S}, e.type = .normal → (isQ (x ++ [e]) S ↔ isQ x S)
  adj : ∀ {x e S S'}, isQ x S → isQ (x ++ [e]) S' → ∃ v, S v ∧ S' v
  /-- What a leader is willing to have as its log. -/
  ok : List Entry → Prop
  okNil : ok []
  okPre : ∀ {x y}, x <+: y → ok y → ok x

/-- `pre` is covered by something chosen before term `T`. -/
def Cov (N : List DMsg) (T : Nat) (pre : List Entry) : Prop :=
  pre = [] ∨ ∃ T0 q cf, DMsg.chosen T0 q cf ∈ N ∧ T0 < T ∧ pre <+: q

/-- Steps of node `v` when the facts `N` have been published. -/
inductive LStep (Q : CSys) (v : Nat) (N : List DMsg) : DNode → List DMsg → DNode → Prop
  | term {a} (T : Nat) : a.term < T → LStep Q v N a [] { a with term := T, vote := 0, role := .follower }
  | down {a} : LStep Q v N a [] { a with role := .follower }
  | conf {a} (k : Nat) : k ≤ a.commit → (a.role = .follower ∨ a.conf ≤ k) → LStep Q v N a [] { a with conf := k }
  | cand {a} : v ≠ 0 → a.role ≠ .leader → nconf (a.log.take a.commit) ≤ nconf (a.log.take a.conf) →
      LStep Q v N a [.voteReq (a.term + 1) v a.log a.conf, .voteGrant (a.term + 1) v v]
        { a with term := a.term + 1, vote := v, role := .candidate }
  | grant {a} (c : Nat) (lg : List Entry) (cf : Nat) : DMsg.voteReq a.term c lg cf ∈ N → (a.vote = 0 ∨ a.vote = c) → UpToDate lg a.log →
      LStep Q v N a [.voteGrant a.term v c] { a with vote := c }
  | win {a} (S : Nat → Prop) : a.role = .candidate → Q.isQ (a.log.take a.conf) S → (∀ u, S u → DMsg.voteGrant a.term u v ∈ N) →
      LStep Q v N a [.lead a.term v a.log, .ack a.term v a.log.length] { a with role := .leader }
  | append {a} (es : List Entry) : a.role = .leader → (∀ e ∈ es, e.term = a.term) → nconf (a.log ++ es) ≤ nconf (a.log.take a.conf) + 1 →
      Q.ok (a.log ++ es) → LStep Q v N a [.lead a.term v (a.log ++ es), .ack a.term v (a.log ++ es).length] { a with log := a.log ++ es }
  | recv {a} (c : Nat) (lg full : List Entry) (k : Nat) : a.role = .follower → DMsg.lead a.term c lg ∈ N → full <+: lg → k ≤ full.length →
      Cov N (a.term + 1) (full.take k) → nconf full ≤ nconf (full.take k) + 1 →
      LStep Q v N a [.ack a.term v full.length] { a with log := accept a.log full, commit := max a.commit k }
  | ackCommit {a} (c : Nat) (lg : List Entry) : DMsg.lead a.term c lg ∈ N → LStep Q v N a [.ack a.term v a.commit] a
  | commitL {a} (k : Nat) (e : Entry) (S : Nat → Prop) : a.role = .leader → a.commit ≤ k + 1 → a.log[k]? = some e → e.term = a.term →
      Q.isQ (a.log.take a.conf) S → (∀ u, S u → ∃ j, k + 1 ≤ j ∧ DMsg.ack a.term u j ∈ N) →
      LStep Q v N a [.chosen a.term (a.log.take (k + 1)) a.conf] { a with commit := k + 1 }
  | commitF {a} (c : Nat) : a.role = .follower → a.commit ≤ c → c ≤ a.log.length → Cov N (a.term + 1) (a.log.take c) →
      LStep Q v N a [] { a with commit := c }

structure DState where
  node : Nat → DNode := fun _ => {}
  net : List DMsg := []

def DState.upd (g : DState) (p : Nat) (a : DNode) (out : List DMsg) : DState :=
  { node := fun q => if q = p then a else g.node q, net := g.net ++ out }

inductive DStep (Q : CSys) : DState → DState → Prop
  | mk {g : DState} (p : Nat) {out a} : LStep Q p g.net (g.node p) out a → DStep Q g (g.upd p a out)

/-- All logs empty, all nodes in term `τ`. -/
def DState.init (τ : Nat) : DState := { node := fun _ => { term := τ } }

inductive DReach (Q : CSys) (τ : Nat) : DState → Prop
  | init : DReach Q τ (.init τ)
  | step {g g'} : DReach Q τ g → DStep Q g g' → DReach Q τ g'

/-! ## The invariant -/

/-- Every prefix of `X` is a prefix of a log of the leader of its last entry's term. -/
def Matched (N : List DMsg) (X : List Entry) : Prop :=
  ∀ k e, X[k]? = some e → ∃ c lg, DMsg.lead e.term c lg ∈ N ∧ X.take (k + 1) <+: lg

/-- Some leader of a term between `T` and `B` (exclusively) lacks `pre`. -/
def Lacks (N : List DMsg) (T B : Nat) (pre : List Entry) : Prop :=
  ∃ T1 c1 lg1, T < T1 ∧ T1 < B ∧ DMsg.lead T1 c1 lg1 ∈ N ∧ ¬ pre <+: lg1

/-- What `v` acknowledged in terms before `T` is in `lg`, unless a leader before `B` lacks it. -/
def Good (N : List DMsg) (T B v : Nat) (lg : List Entry) : Prop :=
  ∀ T0 j c0 lg0 k e, T0 < T → DMsg.ack T0 v j ∈ N → DMsg.lead T0 c0 lg0 ∈ N → lg0[k]? = some e → e.term = T0 → k < j →
    lg0.take (k + 1) <+: lg ∨ Lacks N T0 B (lg0.take (k + 1))

structure Inv (Q : CSys) (g : DState) : Prop where
  reqNode : ∀ T c lg cf, DMsg.voteReq T c lg cf ∈ g.net → c ≠ 0 ∧ T ≤ (g.node c).term
  reqCand : ∀ c, (g.node c).role = .candidate → ∀ lg cf, DMsg.voteReq (g.node c).term c lg cf ∈ g.net →
    (g.node c).log = lg ∧ cf ≤ (g.node c).conf ∧ nconf ((g.node c).log.take (g.node c).commit) ≤ nconf (lg.take cf)
  reqUnique : ∀ T c lg cf lg' cf', DMsg.voteReq T c lg cf ∈ g.net → DMsg.voteReq T c lg' cf' ∈ g.net → lg = lg' ∧ cf = cf'
  reqOk : ∀ T c lg cf, DMsg.voteReq T c lg cf ∈ g.net → Matched g.net lg ∧ (∀ e ∈ lg, e.term < T) ∧ nconf lg ≤ nconf (lg.take cf) + 1 ∧
    Cov g.net T (lg.take cf)
  candNew : ∀ c, (g.node c).role = .candidate → 0 < (g.node c).term ∧ ∀ lg, DMsg.lead (g.node c).term c lg ∉ g.net
  grantNode : ∀ T v c, DMsg.voteGrant T v c ∈ g.net → c ≠ 0 ∧ T ≤ (g.node v).term ∧ (T = (g.node v).term → (g.node v).vote = c)
  grantUnique : ∀ T v c c', DMsg.voteGrant T v c ∈ g.net → DMsg.voteGrant T v c' ∈ g.net → c = c'
  grantReq : ∀ T v c, DMsg.voteGrant T v c ∈ g.net → ∃ lg cf, DMsg.voteReq T c lg cf ∈ g.net ∧ Good g.net T (T + 1) v lg
  leadOk : ∀ T c lg, DMsg.lead T c lg ∈ g.net → 0 < T ∧ T ≤ (g.node c).term ∧ ∃ lg0 cf S, DMsg.voteReq T c lg0 cf ∈ g.net ∧ lg0 <+: lg ∧
    (∀ e ∈ lg.drop lg0.length, e.term = T) ∧ Q.isQ (lg0.take cf) S ∧ ∀ u, S u → DMsg.voteGrant T u c ∈ g.net ∧ Good g.net T T u lg0
  leadNode : ∀ c, (g.node c).role = .leader → DMsg.lead (g.node c).term c (g.node c).log ∈ g.net ∧
    ∀ lg, DMsg.lead (g.node c).term c lg ∈ g.net → lg <+: (g.node c).log
  leadConf : ∀ c, (g.node c).role = .leader → nconf (g.node c).log ≤ nconf ((g.node c).log.take (g.node c).conf) + 1
  leadUnique : ∀ T c lg c' lg', DMsg.lead T c lg ∈ g.net → DMsg.lead T c' lg' ∈ g.net → c = c'
  leadChain : ∀ T c lg lg', DMsg.lead T c lg ∈ g.net → DMsg.lead T c lg' ∈ g.net → lg <+: lg' ∨ lg' <+: lg
  leadTerms : ∀ T c lg, DMsg.lead T c lg ∈ g.net → Sorted lg ∧ ∀ e ∈ lg, e.term ≤ T
  leadMatched : ∀ T c lg, DMsg.lead T c lg ∈ g.net → Matched g.net lg
  nodeTerms : ∀ v, ∀ e ∈ (g.node v).log, e.term ≤ (g.node v).term
  nodeMatched : ∀ v, Matched g.net (g.node v).log
  ackLead : ∀ T v j, DMsg.ack T v j ∈ g.net → T ≤ (g.node v).term ∧ ∃ c lg, DMsg.lead T c lg ∈ g.net ∧ j ≤ lg.length
  ackNow : ∀ v j, DMsg.ack (g.node v).term v j ∈ g.net →
    ∃ c lg, DMsg.lead (g.node v).term c lg ∈ g.net ∧ j ≤ lg.length ∧ lg.take j <+: (g.node v).log
  ackKept : ∀ T v j c lg k e, DMsg.ack T v j ∈ g.net → DMsg.lead T c lg ∈ g.net → lg[k]? = some e → e.term = T → k < j →
    lg.take (k + 1) <+: (g.node v).log ∨ Lacks g.net T ((g.node v).term + 1) (lg.take (k + 1))
  complete : ∀ T' c' lg' T pre cf, DMsg.lead T' c' lg' ∈ g.net → DMsg.chosen T pre cf ∈ g.net → T < T' → pre <+: lg'
  chosenOk : ∀ T pre cf, DMsg.chosen T pre cf ∈ g.net → nconf pre ≤ nconf (pre.take cf) + 1 ∧
    ∃ c lg k e S, DMsg.lead T c lg ∈ g.net ∧ pre = lg.take (k + 1) ∧ lg[k]? = some e ∧ e.term = T ∧ Q.isQ (pre.take cf) S ∧
      ∀ u, S u → ∃ j, k + 1 ≤ j ∧ DMsg.ack T u j ∈ g.net
  confChain : ∀ T pre cf m, DMsg.chosen T pre cf ∈ g.net → m < nconf pre →
    ∃ T0 q cf0, DMsg.chosen T0 q cf0 ∈ g.net ∧ T0 ≤ T ∧ nconf (q.take cf0) = m ∧ m < nconf q
  commitOk : ∀ v, (g.node v).conf ≤ (g.node v).commit ∧ (g.node v).commit ≤ (g.node v).log.length ∧
    Cov g.net ((g.node v).term + 1) ((g.node v).log.take (g.node v).commit)
  nconfOk : ∀ v, nconf (g.node v).log ≤ nconf ((g.node v).log.take (g.node v).commit) + 1
  candConf : ∀ v, (g.node v).role = .candidate → nconf ((g.node v).log.take (g.node v).commit) ≤ nconf ((g.node v).log.take (g.node v).conf)

end Craft.Dyn
