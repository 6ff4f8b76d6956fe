import Verif.Proofs.WireEnv
import Verif.Dyn.LiveStep
import Verif.Props.MembersReads

/-! # C69: nothing aborts while the membership changes -/

namespace Craft.Dyn
open Spec Members
open Cluster (Genesis gterm leadIn)

section
variable {env : Env} {G : Genesis} {c : State}

theorem confOf_gen {P : Entry → ConfChangeI → Prop} {dec : Entry → Option ConfChangeI} {L : List Entry} (h : ∀ e ∈ L, ∀ cc, dec e = some cc → P e cc) :
    ∀ e ∈ L, ∀ cc, confOf dec e = some cc → P e cc := by
  intro e he cc hc
  refine h e he cc ?_
  unfold confOf at hc
  split at hc
  · cases hc
  · exact hc

theorem _root_.Craft.Members.Live.ok (hE : Faithful env) (hG : GenesisOK env.conf G)
    (hgen : ∀ e ∈ G.log, ∀ cc, env.conf e = some cc → Works G.trk.config cc.asV2) (h : Live Proper env G c) :
    ∃ K, (sgen hE hG).LiveOk env K c := by
  induction h with
  | init disk hd =>
    refine ⟨⟨leadIn [], ?_, gterm G.log G.log.length, G.log.length⟩, ?_, fun _ _ => Iff.rfl, rfl, rfl, ?_, ?_, ?_⟩
    · rintro T a b ⟨m, hm, _⟩; cases hm
    · refine ⟨.init G.term, ⟨.init, fun _ h => h.elim, Or.inl rfl⟩, fun p => ?_, ?_, ?_, ?_, ?_⟩
      · left
        show (sgen hE hG).Durable (disk p) _
        have := (hd p).disk
        refine ⟨this.wf, ?_, this.term, Or.inl this.vote, this.commit, ⟨?_, ?_, G.trk.config, ?_, this.snapConf⟩, this.snapIndex, this.snapBase⟩
        · show Cluster.LogRel (G.log ++ []) _
          rw [List.append_nil]; exact this.log
        · exact this.snapIndex
        · show _ = gterm (G.log ++ []) _
          rw [List.append_nil]; exact this.snapTerm
        · refine Or.inr ⟨Nat.zero_le _, ?_⟩
          show CfgAt env.conf G.trk.config (([] : List Entry).take _) _
          rw [List.take_nil]; exact .nil
      all_goals intro x hx; cases hx
    · intro p n a hp; cases hp
    · intro p st hp; cases hp; exact (hd p).hard
    · intro m hm; cases hm
  | act a _ ha hw hr ih =>
    obtain ⟨K, h2⟩ := ih
    obtain ⟨c', e1, e2⟩ := MGen.act_ok hE rfl trivial (MGen.EarlyWorks.nil rfl) (confOf_gen hgen) h2 ha (fun _ _ _ _ h => h.elim) hw
    have e1 : a.run env env.conf _ = .ok c' := e1
    rw [hr] at e1
    cases e1
    exact e2

/-- C69. In a cluster that changes its membership, that keeps its side of the contract (as for C52), and whose applications only
ask leaders that are voters for conf changes that make sense for the leader's configuration, no call into the library ever aborts
or reaches undefined behaviour: not the calls and deliveries, not the applying of conf changes, not the automatic leaving of a
joint configuration - whatever is lost, duplicated, delayed or reordered, and whenever nodes crash: everything that may be done next
returns. -/
theorem C69_never_aborts_members (hE : Faithful env) (hG : GenesisOK env.conf G)
    (hgen : ∀ e ∈ G.log, ∀ cc, env.conf e = some cc → Works G.trk.config cc.asV2) (h : Live Proper env G c) (a : Act) (ha : a.Allowed c)
    (hw : a.Wise Proper env c) : ∃ c', a.run env env.conf c = .ok c' := by
  obtain ⟨K, h2⟩ := h.ok hE hG hgen
  obtain ⟨c', e1, _⟩ := MGen.act_ok hE rfl trivial (MGen.EarlyWorks.nil rfl) (confOf_gen hgen) h2 ha (fun _ _ _ _ h => h.elim) hw
  exact ⟨c', e1⟩

end

/-! ## The hypotheses are met -/

namespace SafeDemo
open Demo (Cmd plain init swap34 story)

/-- The generated protobuf code. -/
def env : Env := Pb.fullEnv Craft.Demo.env.rand

theorem faithful : Faithful SafeDemo.env := (Pb.fullEnv_protobuf _).faithful

def known (cc : ConfChangeV2) : Bool := cc.changes.all fun x => match x.type with | .unknown _ => false | _ => true

/-- Enough for a change to be sensible: known parts, and some voter none of them is about. -/
def sensible (cfg : TConfig) (cc : ConfChangeV2) : Bool :=
  if cfg.voters.outgoing ≠ [] then decide (cc.changes = [] → cc.transition = .auto)
  else known cc && cfg.voters.incoming.any fun v => cc.changes.all fun x => decide (x.nodeId ≠ v)

theorem inc_keep {o : Nat → Prop} {v : Nat} : ∀ (cs : List CCSingle) (m : MConf), (∀ x ∈ cs, x.nodeId ≠ v) → m.inc v → (m.changes o cs).inc v
  | [], _, _, h => h
  | x :: cs, m, hc, h => by
    have hx : v ≠ x.nodeId := fun e => hc x List.mem_cons_self e.symm
    refine inc_keep cs (m.change o x) (fun y hy => hc y (List.mem_cons_of_mem _ hy)) ?_
    unfold MConf.change
    split
    · exact h
    · split
      · exact Or.inr h
      · exact ⟨hx, h⟩
      · exact ⟨hx, h⟩
      · exact h
      · exact h

theorem known_ok {cc : ConfChangeV2} (h : known cc = true) : ∀ x ∈ cc.changes, ∀ k, x.type ≠ .unknown k := by
  intro x hx k he
  have := List.all_eq_true.1 h x hx
  rw [he] at this
  cases this

/-- Enough for a change to fit. -/
def fits : ConfChangeI → Bool
  | .v1 cc => (match cc.type with | .unknown _ => false | _ => true) && decide (cc.nodeId < 2 ^ 64 ∧ cc.id < 2 ^ 64 ∧ cc.context.length < 2 ^ 30)
  | .v2 cc => known cc && (cc.changes.all fun x => decide (x.nodeId < 2 ^ 64)) && decide (cc.changes.length ≤ 2 ^ 20 ∧ cc.context.length < 2 ^ 30)

theorem fits_ok {cc : ConfChangeI} (h : fits cc = true) : cc.Fits := by
  cases cc with
  | v1 cc =>
    simp only [fits, Bool.and_eq_true, decide_eq_true_eq] at h
    exact ⟨(fun k e => by rw [e] at h; cases h.1), h.2.1, h.2.2.1, h.2.2.2⟩
  | v2 cc =>
    simp only [fits, Bool.and_eq_true, decide_eq_true_eq] at h
    exact ⟨fun x hx => ⟨known_ok h.1.1 x hx, of_decide_eq_true (List.all_eq_true.1 h.1.2 x hx)⟩, h.2.1, h.2.2⟩

theorem sensible_ok {cfg : TConfig} {cc : ConfChangeV2} (h : sensible cfg cc = true) : Sensible cfg cc := by
  unfold sensible at h
  unfold Sensible
  by_cases hj : cfg.voters.outgoing ≠ []
  · rw [if_pos hj] at h ⊢
    exact of_decide_eq_true h
  · rw [if_neg hj] at h ⊢
    intro hne
    rw [Bool.and_eq_true] at h
    unfold Works
    rw [if_neg hj]
    refine ⟨fun h => hne h.1, fun x hx _ => known_ok h.1 x hx, ?_⟩
    obtain ⟨v, hv, h2⟩ := List.any_eq_true.1 h.2
    exact ⟨v, inc_keep _ _ (fun x hx => of_decide_eq_true (List.all_eq_true.1 h2 x hx)) hv⟩

def voter (cfg : TConfig) (p : Nat) : Bool := decide (p ∈ cfg.voters.incoming) || decide (p ∈ cfg.voters.outgoing)

theorem voter_ok {cfg : TConfig} {p : Nat} (h : voter cfg p = true) : Voter cfg p := by
  unfold voter at h
  rw [Bool.or_eq_true] at h
  exact h.imp of_decide_eq_true of_decide_eq_true

def may (b : TConfig → Nat → ConfChangeV2 → Bool) (c : State) (p : Nat) (cc : ConfChangeV2) : Bool :=
  match c.proc p with
  | .up n _ => if n.raft.state = .leader then b n.raft.trk.config p cc else true
  | .down _ => true

def isUp (c : State) (p : Nat) : Bool :=
  match c.proc p with
  | .up _ _ => true
  | .down _ => false

/-- The command is allowed and wise. -/
def fine (b : TConfig → Nat → ConfChangeV2 → Bool) (c : State) : Cmd → Bool
  | .start p => decide (p ≠ 0) && !isUp c p
  | .call p x => isUp c p && plain x && match x with
    | .proposeConfChange cc => fits cc && may b c p cc.asV2
    | _ => true
  | .deliver p k => isUp c p && match c.net[k]? with
    | some m => decide (m.to = p) && (if m.type = .prop then m.entries.all fun e => match SafeDemo.env.conf e with
        | some cc => may b c p cc.asV2
        | none => true
      else true)
    | none => false
  | .compact p i => match c.proc p with
    | .up n _ => decide (i ≤ n.raft.log.applied ∧ i ≤ n.raft.log.storage.snapshot.metadata.index)
    | .down _ => false
  | .ready p => isUp c p
  | .crash p => isUp c p
  | .snapshot p => isUp c p

theorem up_ok {c : State} {p : Nat} (h : isUp c p = true) : ∃ n a, c.proc p = .up n a := by
  unfold isUp at h
  split at h
  · exact ⟨_, _, by assumption⟩
  · cases h

theorem may_ok {b : TConfig → Nat → ConfChangeV2 → Bool} {ok : TConfig → Nat → ConfChangeV2 → Prop} (hb : ∀ cfg p cc, b cfg p cc = true → ok cfg p cc)
    {c : State} {p : Nat} {cc : ConfChangeV2} (h : may b c p cc = true) : c.MayAsk ok p cc := by
  intro n a hp hl
  unfold may at h
  rw [hp] at h
  dsimp only at h
  rw [if_pos hl] at h
  exact hb _ _ _ h

theorem fine_ok {b : TConfig → Nat → ConfChangeV2 → Bool} {ok : TConfig → Nat → ConfChangeV2 → Prop} (hb : ∀ cfg p cc, b cfg p cc = true → ok cfg p cc)
    {c : State} {x : Cmd} (h : fine b c x = true) : (x.toAct c).Allowed c ∧ (x.toAct c).Wise ok SafeDemo.env c := by
  cases x with
  | start p =>
    simp only [fine, Bool.and_eq_true, decide_eq_true_eq] at h
    refine ⟨?_, trivial⟩
    have h2 := h.2
    unfold isUp at h2
    cases hp : c.proc p with
    | up n a => rw [hp] at h2; cases h2
    | down st => exact ⟨st, hp, rfl, Nat.zero_le _, Cluster.cfg_sane h.1 st, by show (8 : Int) ≤ 2 ^ 30; omega⟩
  | call p y =>
    simp only [fine, Bool.and_eq_true] at h
    obtain ⟨⟨h1, h2⟩, h3⟩ := h
    refine ⟨⟨up_ok h1, ?_, ?_⟩, ?_⟩
    · cases y <;> first | trivial | (cases h2)
    · intro m hm; subst hm; cases h2
    · cases y with
      | proposeConfChange cc =>
        simp only [Bool.and_eq_true] at h3
        exact ⟨fits_ok h3.1, may_ok hb h3.2⟩
      | _ => trivial
  | deliver p k =>
    simp only [fine, Bool.and_eq_true] at h
    obtain ⟨h1, h2⟩ := h
    cases hm : c.net[k]? with
    | none => rw [hm] at h2; cases h2
    | some m =>
      rw [hm] at h2
      simp only [Bool.and_eq_true, decide_eq_true_eq] at h2
      have hg : c.net[k]?.getD default = m := by rw [hm]; rfl
      simp only [Demo.Cmd.toAct, hg]
      refine ⟨⟨up_ok h1, List.mem_iff_getElem?.2 ⟨k, hm⟩, h2.1⟩, fun ht e he cc hc => ?_⟩
      have h3 := h2.2
      rw [if_pos ht] at h3
      have := List.all_eq_true.1 h3 e he
      rw [hc] at this
      exact may_ok hb this
  | ready p => exact ⟨up_ok h, trivial⟩
  | crash p => exact ⟨up_ok h, trivial⟩
  | compact p i =>
    refine ⟨?_, trivial⟩
    simp only [fine] at h
    split at h
    · rename_i n a hp
      have := of_decide_eq_true h
      exact ⟨n, a, hp, this.1, this.2⟩
    · cases h
  | snapshot p => exact ⟨up_ok h, trivial⟩

def exec (b : TConfig → Nat → ConfChangeV2 → Bool) : List Cmd → State → Option State
  | [], c => some c
  | x :: xs, c => if fine b c x then match (x.toAct c).run SafeDemo.env SafeDemo.env.conf c with
      | .ok c' => exec b xs c'
      | _ => none
    else none

open Cluster.Demo (genesis genesis_ok genesis_disk)

theorem exec_live {b : TConfig → Nat → ConfChangeV2 → Bool} {ok : TConfig → Nat → ConfChangeV2 → Prop} (hb : ∀ cfg p cc, b cfg p cc = true → ok cfg p cc)
    {xs : List Cmd} {c c' : State} (hr : Live ok SafeDemo.env genesis c) (h : exec b xs c = some c') : Live ok SafeDemo.env genesis c' := by
  induction xs generalizing c with
  | nil => cases h; exact hr
  | cons x xs ih =>
    unfold exec at h
    split at h
    · rename_i hf
      split at h
      · rename_i c1 h1
        obtain ⟨h2, h3⟩ := fine_ok hb hf
        exact ih (.act _ hr h2 h3 h1) h
      · cases h
    · cases h

theorem genesisOK : GenesisOK SafeDemo.env.conf genesis where
  contig := genesis_ok.contig
  terms := genesis_ok.terms
  low := genesis_ok.low
  conf := genesis_ok.conf
  zero := genesis_ok.zero
  voter := genesis_ok.voter
  still := nofun

def proper (cfg : TConfig) (p : Nat) (cc : ConfChangeV2) : Bool := voter cfg p && sensible cfg cc

theorem proper_ok (cfg : TConfig) (p : Nat) (cc : ConfChangeV2) (h : proper cfg p cc = true) : Proper cfg p cc := by
  unfold proper at h
  rw [Bool.and_eq_true] at h
  exact ⟨voter_ok h.1, sensible_ok h.2⟩

theorem init_live (ok) : Live ok SafeDemo.env genesis init := .init _ fun _ => ⟨⟨genesis_disk, by decide⟩, Or.inl rfl⟩

/-- The cluster after the commands. -/
def cluster (b : TConfig → Nat → ConfChangeV2 → Bool) (xs : List Cmd) : State := (exec b xs init).getD init

theorem cluster_live {b : TConfig → Nat → ConfChangeV2 → Bool} {ok : TConfig → Nat → ConfChangeV2 → Prop} (hb : ∀ cfg p cc, b cfg p cc = true → ok cfg p cc)
    (xs : List Cmd) : Live ok SafeDemo.env genesis (cluster b xs) := by
  unfold cluster
  cases h : exec b xs init with
  | none => exact init_live ok
  | some c => exact exec_live hb (init_live ok) h

/-- The story of `Verif.Dyn.Demo` (a joint change that is left automatically, a snapshot, a compaction, a crash, an election in the
new configuration) is such an execution. -/
theorem story_runs : (exec proper story init).isSome = true := by decide +kernel

theorem story_known : ((cluster proper story).known.map fun k => (k.node, k.app.index, k.app.conf.voters, k.app.conf.votersOutgoing)).drop 15 =
    [(1, 4, [1, 2, 4], []), (4, 4, [1, 2, 4], []), (2, 4, [1, 2, 4], []), (4, 4, [1, 2, 4], []),
     (2, 4, [1, 2, 4], []), (4, 4, [1, 2, 4], []), (2, 4, [1, 2, 4], []), (4, 5, [1, 2, 4], [])] := by decide +kernel

/-- So in its last state everything that can be done returns: handling a Ready of any running node, for instance. -/
example {p : Nat} {n : RawNode} {a : App} (hp : (cluster proper story).proc p = .up n a) :
    ∃ c', (Act.ready p).run SafeDemo.env SafeDemo.env.conf (cluster proper story) = .ok c' :=
  C69_never_aborts_members faithful genesisOK (fun e he => nomatch he) (cluster_live proper_ok story) (.ready p) ⟨n, a, hp⟩ trivial

/-! ## Both conditions on conf changes are needed -/

def abort (c : State) (p : Nat) : Option String :=
  match (Act.ready p).run SafeDemo.env SafeDemo.env.conf c with
  | .ok _ => none
  | .fatal s => some s
  | .ub s => some s

theorem abort_ok {c : State} {p : Nat} {s : String} (h : abort c p = some s) :
    (Act.ready p).run SafeDemo.env SafeDemo.env.conf c = .fatal s ∨ (Act.ready p).run SafeDemo.env SafeDemo.env.conf c = .ub s := by
  unfold abort at h
  split at h
  · cases h
  · rename_i h2; cases h; exact Or.inl h2
  · rename_i h2; cases h; exact Or.inr h2

theorem isUp_some {c : State} {p : Nat} (h : isUp c p = true) : (Act.ready p).Allowed c := up_ok h

/-- Node 1 leads, makes itself a learner (and goes on leading), then accepts a joint change that removes it. -/
def demoted : List Cmd :=
  [.start 1, .start 2, .start 3, .call 1 .campaign, .ready 1, .deliver 2 0, .ready 2, .deliver 1 2,
   .call 1 (.proposeConfChange (.v1 { type := .addLearnerNode, nodeId := 1 })),
   .ready 1, .deliver 2 3, .ready 2, .deliver 1 5, .ready 1, .deliver 2 6, .ready 2, .deliver 1 7, .ready 1,
   .call 1 (.proposeConfChange (.v2 { changes := [⟨.addNode, 4⟩, ⟨.removeNode, 1⟩] })), .ready 1,
   .deliver 2 8, .deliver 3 4, .ready 2, .ready 3, .deliver 1 10, .deliver 1 11, .ready 1, .deliver 2 9, .deliver 3 12, .ready 2, .ready 3,
   .deliver 1 13, .deliver 1 14]

/-- Node 1 leads, enters a joint configuration that is to be left explicitly, and is then asked for a change without parts that is not
marked as automatic: it accepts it, but it can not be applied. -/
def «explicit» : List Cmd :=
  [.start 1, .start 2, .start 3, .call 1 .campaign, .ready 1, .deliver 2 0, .ready 2, .deliver 1 2,
   .call 1 (.proposeConfChange (.v2 { transition := .jointExplicit, changes := [⟨.addNode, 4⟩] })),
   .ready 1, .deliver 2 3, .ready 2, .deliver 1 5, .ready 1, .deliver 2 6, .ready 2, .deliver 1 7, .ready 1,
   .call 1 (.proposeConfChange (.v2 { transition := .jointExplicit })), .ready 1, .deliver 2 8, .ready 2,
   .deliver 2 10, .ready 2, .deliver 1 12, .deliver 3 4, .ready 3, .deliver 1 13, .ready 1, .deliver 3 14, .ready 3, .deliver 1 15]

end SafeDemo

open SafeDemo in
open Cluster.Demo (genesis) in
/-- Sensible changes are not enough: a leader that is not a voter of its configuration (it made itself a learner, and went on
leading) dereferences a missing progress record (its own) when it applies a joint change that removes it. -/
theorem C69_demoted_leader_crashes : Faithful SafeDemo.env ∧ GenesisOK SafeDemo.env.conf genesis ∧
    ∃ c, Live (fun cfg _ cc => Sensible cfg cc) SafeDemo.env genesis c ∧ (Act.ready 1).Allowed c ∧
      ((Act.ready 1).run SafeDemo.env SafeDemo.env.conf c = .fatal "raft.cc:526" ∨
        (Act.ready 1).run SafeDemo.env SafeDemo.env.conf c = .ub "raft.cc:526") :=
  ⟨faithful, genesisOK, _, cluster_live (b := fun cfg _ cc => sensible cfg cc) (fun _ _ _ h => sensible_ok h) demoted,
    isUp_some (by decide +kernel), abort_ok (by decide +kernel)⟩

open SafeDemo in
open Cluster.Demo (genesis) in
/-- And a leader that is a voter, in a joint configuration, accepts a change without parts that is not marked as automatic: every node
that gets to apply it aborts. -/
theorem C69_explicit_leave_aborts : Faithful SafeDemo.env ∧ GenesisOK SafeDemo.env.conf genesis ∧
    ∃ c, Live (fun cfg p _ => Voter cfg p) SafeDemo.env genesis c ∧ (Act.ready 1).Allowed c ∧
      ((Act.ready 1).run SafeDemo.env SafeDemo.env.conf c = .fatal "raft.cc:1711" ∨
        (Act.ready 1).run SafeDemo.env SafeDemo.env.conf c = .ub "raft.cc:1711") :=
  ⟨faithful, genesisOK, _, cluster_live (b := fun cfg p _ => voter cfg p) (fun _ _ _ h => voter_ok h) «explicit»,
    isUp_some (by decide +kernel), abort_ok (by decide +kernel)⟩

end Craft.Dyn
