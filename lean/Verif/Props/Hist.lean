import Verif.Spec.Hist
import Verif.Props.NodeTransfer
import Verif.Node.Durable

/-! # C93: what holds for every history of a single node holds for every node of every cluster -/

namespace Craft
open Spec

/-- What the library never sends: a leader's message without a term, a vote request without a candidate. -/
def Fine (m : Message) : Prop := Stamped m ∧ (m.type = .vote → m.src ≠ 0)

structure Core.Termed (c : Core) : Prop where
  id : c.id ≠ 0
  term : c.state = .leader ∨ c.state = .candidate → c.term ≠ 0

theorem Emit.fine {env : Env} {im : Message} {c : Core} {m : Message} (hc : c.Termed) (h : Emit env im c m) : Fine m := by
  unfold Emit at h
  refine ⟨fun ht => ?_, fun ht => ?_⟩
  · rcases ht with ht | ht | ht <;> rw [ht] at h <;> dsimp only at h <;> (rw [h.2.1]; exact hc.term (Or.inl h.2.2.1))
  · rw [ht] at h
    dsimp only at h
    rw [h.1]; exact hc.id

theorem NStep.fine {env : Env} {im : Message} {c c' : Core} {ms : List Message} (h : NStep env im c ms c') (hc : c.Termed) :
    c'.Termed ∧ ∀ m ∈ ms, Fine m := by
  have none : ∀ m ∈ ([] : List Message), Fine m := by intro m hm; cases hm
  have one : ∀ {x : Message}, x.type ≠ .app → x.type ≠ .heartbeat → x.type ≠ .snap → x.type ≠ .vote → ∀ m ∈ [x], Fine m := by
    intro x h1 h2 h3 h4 m hm
    rw [List.mem_singleton] at hm; subst hm
    refine ⟨?_, fun h => absurd h h4⟩
    rintro (h | h | h)
    · exact absurd h h1
    · exact absurd h h2
    · exact absurd h h3
  cases h with
  | core h =>
    cases h with
    | emit h =>
      refine ⟨hc, fun m hm => ?_⟩
      rw [List.mem_singleton] at hm; subst hm
      exact h.fine hc
    | follower T P h => exact ⟨⟨hc.id, by rintro (h | h) <;> cases h⟩, none⟩
    | candidate P h => exact ⟨⟨hc.id, fun _ => Nat.succ_ne_zero _⟩, none⟩
    | preCandidate h => exact ⟨⟨hc.id, by rintro (h | h) <;> cases h⟩, none⟩
    | leader P h => exact ⟨⟨hc.id, fun _ => hc.term (Or.inr h)⟩, none⟩
    | grant h => exact ⟨⟨hc.id, hc.term⟩, one nofun nofun nofun nofun⟩
    | recvApp l last h => exact ⟨⟨hc.id, hc.term⟩, one nofun nofun nofun nofun⟩
    | recvHeartbeat l h => exact ⟨⟨hc.id, hc.term⟩, one nofun nofun nofun nofun⟩
    | _ => exact ⟨⟨hc.id, hc.term⟩, none⟩
  | _ => exact ⟨⟨hc.id, hc.term⟩, none⟩

theorem NPath.fine {env : Env} {im : Message} {c c' : Core} {ms : List Message} (h : NPath env im c ms c') (hc : c.Termed) :
    c'.Termed ∧ ∀ m ∈ ms, Fine m := by
  induction h with
  | nil => exact ⟨hc, by intro m hm; cases hm⟩
  | cons h _ ih =>
    obtain ⟨h1, h2⟩ := h.fine hc
    obtain ⟨h3, h4⟩ := ih h1
    refine ⟨h3, fun m hm => ?_⟩
    rcases List.mem_append.1 hm with hm | hm
    · exact h2 m hm
    · exact h4 m hm

/-- The outbox of a node, and what it needs. -/
structure Tidy (n : RawNode) : Prop where
  core : n.raft.core.Termed
  out : ∀ m ∈ n.raft.msgs, Fine m

theorem Call.tidy {env : Env} {c : Call} {n n' : RawNode} (hs : c.Stamped) (h : c.run env n = .ok n') (hn : Tidy n) : Tidy n' := by
  obtain ⟨_, cfg, P, _, ms, hm, hp⟩ := Call.run_path hs h
  obtain ⟨h1, h2⟩ := hp.fine (c := { n.raft.core with config := cfg, progress := P }) ⟨hn.core.id, hn.core.term⟩
  refine ⟨h1, fun m hm' => ?_⟩
  rw [hm] at hm'
  rcases List.mem_append.1 hm' with hm' | hm'
  · split at hm'
    · cases hm'
    · exact hn.out m hm'
  · exact h2 m hm'

theorem NodeReach.tidy {env : Env} {x : NodeHist} (h : NodeReach env x) : Tidy x.node := by
  refine h.inv Tidy ?_ ?_ ?_
  · intro c st rng n h
    have hf := (RawNode.new_ok h).1
    refine ⟨⟨?_, ?_⟩, ?_⟩
    · show n.raft.id ≠ 0
      rw [hf.id]; exact hf.id_ne
    · intro h
      have h : n.raft.state = .leader ∨ n.raft.state = .candidate := h
      rw [hf.state] at h
      rcases h with h | h <;> cases h
    · rw [hf.msgs]; intro m hm; cases hm
  · intro c rng peers n0 n h0 h hx
    refine RawNode.bootstrap_inv Tidy h (fun l k es _ => ⟨⟨?_, ?_⟩, ?_⟩) fun cc a b h p => Call.tidy (c := .applyConfChange cc) trivial h p
    · exact fun h => hx.core.id ((congrArg Consts.id (n0.founder_keep env l k).1 :).symm.trans h)
    · rintro (h | h) <;> cases h
    · have hm : (n0.founder env l k).raft.msgs = [] := (Raft.reset_msgs (env := env) n0.raft 1).trans (RawNode.new_ok h0).1.msgs
      rw [hm]; intro m hm; cases hm
  · intro x y h hx
    cases h with
    | call c _ hs _ h => exact Call.tidy hs h hx
    | ready ccs h =>
      exact RawNode.handleReady_inv Tidy (fun c a b hs _ _ _ _ h ha => Call.tidy hs h ha) (fun a st ha => ⟨⟨ha.core.id, ha.core.term⟩, ha.out⟩) h hx
    | compact => exact ⟨⟨hx.core.id, hx.core.term⟩, hx.out⟩
    | createSnapshot => exact ⟨⟨hx.core.id, hx.core.term⟩, hx.out⟩

theorem RawNode.takeReady_messages {env : Env} {n n1 : RawNode} {rd : Ready} (h : n.takeReady env = .ok (n1, rd)) : rd.messages = n.raft.msgs := by
  unfold RawNode.takeReady at h
  obtain ⟨⟨n0, rd0⟩, h0, h⟩ := Res.bind_eq_ok.1 h
  obtain ⟨st, _, h⟩ := Res.bind_eq_ok.1 h
  cases h
  obtain ⟨es, _, rfl⟩ := readyWithoutAccept_ok (getReady_ok h0).1
  rfl

theorem RawNode.handleReady_take {env : Env} {n n' : RawNode} {ccs : List ConfChangeI} {rd : Ready} (h : n.handleReady env ccs = .ok (n', rd)) :
    ∃ n1, n.takeReady env = .ok (n1, rd) := by
  unfold RawNode.handleReady at h
  obtain ⟨⟨n0, rd0⟩, h0, h⟩ := Res.bind_eq_ok.1 h
  obtain ⟨n2, _, h⟩ := Res.bind_eq_ok.1 h
  obtain ⟨n3, _, h⟩ := Res.bind_eq_ok.1 h
  cases h
  exact ⟨n0, h0⟩

theorem NodeReach.keepId {env : Env} {x y : NodeHist} (h : NodeStep env x y) : y.node.raft.id = x.node.raft.id :=
  congrArg Consts.id h.keep.1

namespace Members

theorem applyAll_changes {env : Env} {dec : Entry → Option ConfChangeI} {es : List Entry} {n n' : RawNode} {a a' : App}
    (h : applyAll env dec es n a = .ok (n', a')) : ∃ ccs, n.applyConfChanges env ccs = .ok n' := by
  induction es generalizing n a with
  | nil => cases h; exact ⟨[], rfl⟩
  | cons e es ih =>
    unfold applyAll at h
    split at h
    · exact ih h
    · split at h
      · exact ih h
      · next cc _ =>
        obtain ⟨⟨n1, cs⟩, h1, h⟩ := Res.bind_eq_ok.1 h
        obtain ⟨ccs, hc⟩ := ih h
        refine ⟨cc :: ccs, ?_⟩
        unfold RawNode.applyConfChanges
        rw [h1]
        exact hc

/-- Handling a Ready in a cluster is handling a Ready. -/
theorem handle_ready {env : Env} {dec : Entry → Option ConfChangeI} {n n' : RawNode} {a a' : App} {rd : Ready}
    (h : handle env dec n a = .ok (n', a', rd)) : ∃ ccs, n.handleReady env ccs = .ok (n', rd) := by
  unfold handle at h
  obtain ⟨⟨n1, rd1⟩, h1, h⟩ := Res.bind_eq_ok.1 h
  obtain ⟨⟨n2, a2⟩, h2, h⟩ := Res.bind_eq_ok.1 h
  obtain ⟨n3, h3, h⟩ := Res.bind_eq_ok.1 h
  cases h
  obtain ⟨ccs, hc⟩ := applyAll_changes h2
  refine ⟨ccs, ?_⟩
  unfold RawNode.handleReady
  rw [h1]
  show (do let n ← RawNode.applyConfChanges env ccs n1; _) = _
  rw [hc]
  show (do let n ← RawNode.advance n2; _) = _
  rw [h3]
  rfl

/-- A running node is one that lived; a stopped one will be when it is started. -/
def Proc.Lived (env : Env) (p : Nat) (net : List Message) : Proc → Prop
  | .up n _ => LivedAs env p net n
  | .down st => ∃ sent, (∀ m ∈ sent, m ∈ net) ∧ ∀ cfg rng n, cfg.id = p → RawNode.new env cfg st rng = .ok n → NodeReach env ⟨n, sent⟩

theorem Proc.Lived.mono {env : Env} {p : Nat} {net net' : List Message} {x : Proc} (h : x.Lived env p net) (hn : ∀ m ∈ net, m ∈ net') :
    x.Lived env p net' := by
  cases x with
  | up n a =>
    obtain ⟨h0, sent, h1, h2⟩ := h
    exact ⟨h0, sent, h1, fun m hm => hn m (h2 m hm)⟩
  | down st =>
    obtain ⟨sent, h1, h2⟩ := h
    exact ⟨sent, fun m hm => hn m (h1 m hm), h2⟩

structure State.Lived (env : Env) (c : State) : Prop where
  proc : ∀ p, (c.proc p).Lived env p c.net
  net : ∀ m ∈ c.net, Fine m

theorem State.Lived.set {env : Env} {c : State} (h : c.Lived env) {p : Nat} {x : Proc} {ms : List Message} {o l k}
    (hx : x.Lived env p (c.net ++ ms)) (hms : ∀ m ∈ ms, Fine m) :
    State.Lived env { c.set p x with net := c.net ++ ms, out := o, led := l, known := k } := by
  refine ⟨fun q => ?_, fun m hm => ?_⟩
  · show (if q = p then x else c.proc q).Lived env q (c.net ++ ms)
    by_cases hq : q = p
    · rw [if_pos hq, hq]; exact hx
    · rw [if_neg hq]; exact (h.proc q).mono fun m hm => List.mem_append_left _ hm
  · rcases List.mem_append.1 hm with hm | hm
    · exact h.net m hm
    · exact hms m hm

theorem State.Lived.set0 {env : Env} {c : State} (h : c.Lived env) {p : Nat} {x : Proc} (hx : x.Lived env p c.net) : State.Lived env (c.set p x) := by
  have := h.set (p := p) (x := x) (ms := []) (o := c.out) (l := c.led) (k := c.known) (by rw [List.append_nil]; exact hx) (by intro m hm; cases hm)
  rw [List.append_nil] at this
  exact this

theorem Step.lived {env : Env} {dec : Entry → Option ConfChangeI} {c c' : State} (h : Step env dec c c') (hc : c.Lived env) : c'.Lived env := by
  have up : ∀ {p n a}, c.proc p = .up n a → LivedAs env p c.net n := by
    intro p n a hp
    have := hc.proc p
    rw [hp] at this
    exact this
  have step : ∀ {p : Nat} {n n' : RawNode} {a a' : App} , c.proc p = .up n a →
      (∀ sent, NodeStep env ⟨n, sent⟩ ⟨n', sent⟩) → State.Lived env (c.set p (.up n' a')) := by
    intro p n n' a a' hp hs
    obtain ⟨h0, sent, h1, h2⟩ := up hp
    exact hc.set0 ⟨(NodeReach.keepId (hs sent)).trans h0, sent, h1.step (hs sent), h2⟩
  cases h with
  | start p cfg rng hp hid _ h =>
    have := hc.proc p
    rw [hp] at this
    obtain ⟨sent, h1, h2⟩ := this
    exact hc.set0 ⟨((RawNode.new_ok h).1.id).trans hid, sent, h2 cfg rng _ hid h, h1⟩
  | call p x hp hpl hns h =>
    exact step hp fun sent => .call x hpl (by cases x <;> first | trivial | exact absurd rfl (hns _)) (by cases x <;> first | trivial | exact absurd rfl (hns _)) h
  | deliver p m hp hm _ h => exact step hp fun sent => .call (.step m) trivial (hc.net m hm).1 (hc.net m hm).2 h
  | inject p m hp hv h =>
    refine step hp fun sent => .call (.step m) trivial ?_ ?_ h
    · rintro (ht | ht | ht)
      · exact absurd (Or.inl ht) hv
      · exact absurd (Or.inr (Or.inr (Or.inr (Or.inr (Or.inr ht))))) hv
      · exact absurd (Or.inr (Or.inr (Or.inr (Or.inr (Or.inl ht))))) hv
    · intro ht
      exact absurd (Or.inr (Or.inr (Or.inl ht))) hv
  | ready p hp h =>
    obtain ⟨ccs, h⟩ := handle_ready h
    obtain ⟨h0, sent, h1, h2⟩ := up hp
    obtain ⟨n1, ht⟩ := RawNode.handleReady_take h
    have hs : NodeStep env _ _ := .ready (sent := sent) ccs h
    refine hc.set ⟨(NodeReach.keepId hs).trans h0, _, h1.step hs, fun m hm => ?_⟩ ?_
    · rcases List.mem_append.1 hm with hm | hm
      · exact List.mem_append_left _ (h2 m hm)
      · exact List.mem_append_right _ hm
    · rw [RawNode.takeReady_messages ht]
      exact h1.tidy.out
  | compact p i hp _ _ h => exact step hp fun sent => .compact i h
  | createSnapshot p data hp h => exact step hp fun sent => .createSnapshot _ _ _ h
  | crash p hp =>
    obtain ⟨h0, sent, h1, h2⟩ := up hp
    exact hc.set0 ⟨sent, h2, fun cfg rng n hid h => h1.crash (.idle cfg rng (hid.trans h0.symm) h)⟩
  | crashReady p some k hp ht hsome =>
    obtain ⟨h0, sent, h1, h2⟩ := up hp
    refine hc.set (k := c.known) ⟨sent ++ some, fun m hm => ?_, fun cfg rng n hid h => h1.crash (.inReady cfg rng some (hid.trans h0.symm) ht hsome h)⟩ ?_
    · rcases List.mem_append.1 hm with hm | hm
      · exact List.mem_append_left _ (h2 m hm)
      · exact List.mem_append_right _ hm
    · intro m hm
      have := hsome m hm
      rw [RawNode.takeReady_messages ht] at this
      exact h1.tidy.out m this

theorem State.Lived.init {env : Env} (disk : Nat → Storage) : State.Lived env { proc := fun p => .down (disk p) } :=
  ⟨fun p => ⟨[], (by intro m hm; cases hm), fun cfg rng n _ h => .start cfg _ rng h⟩, by intro m hm; cases hm⟩

theorem Reach.lived {env : Env} {dec : Entry → Option ConfChangeI} {G : Cluster.Genesis} {c : State} (h : Reach env dec G c) : c.Lived env := by
  induction h with
  | init disk _ => exact .init disk
  | step _ hs ih => exact hs.lived ih

end Members

/-- **C93**. Every running node of every cluster whose membership changes has lived a history of a single node, with its own id and
with nothing sent that is not among the messages of the cluster. What is proved for every `NodeReach` history (C24-C40, C72-C75,
C79, C83, C87, C89, ...) therefore holds for it. -/
theorem C93_members_nodes {env : Env} {dec : Entry → Option ConfChangeI} {G : Cluster.Genesis} {c : Members.State}
    (h : Members.Reach env dec G c) {p : Nat} {n : RawNode} {a : Members.App} (hp : c.proc p = .up n a) : LivedAs env p c.net n := by
  have := h.lived.proc p
  rw [hp] at this
  exact this

theorem Boot.Reach.lived {env : Env} {dec : Entry → Option ConfChangeI} {peers : List (Nat × Bytes)} {c : Members.State}
    (h : Boot.Reach env dec peers c) : c.Lived env := by
  induction h with
  | init => exact .init fun _ => {}
  | step _ hs ih =>
    cases hs with
    | boot p cfg rng hp _ hid _ h0 h =>
      refine ih.set0 ⟨?_, [], .boot cfg rng peers h0 h, by intro m hm; cases hm⟩
      have : _ = _ := congrArg Consts.id (RawNode.bootstrap_keep h).1
      exact this.trans (((RawNode.new_ok h0).1.id).trans hid)
    | other hs _ => exact hs.lived ih

/-- C93, for clusters whose founders are bootstrapped. -/
theorem C93_boot_nodes {env : Env} {dec : Entry → Option ConfChangeI} {peers : List (Nat × Bytes)} {c : Members.State}
    (h : Boot.Reach env dec peers c) {p : Nat} {n : RawNode} {a : Members.App} (hp : c.proc p = .up n a) : LivedAs env p c.net n := by
  have := h.lived.proc p
  rw [hp] at this
  exact this

namespace Cluster

def Proc.Lived (env : Env) (p : Nat) (net : List Message) : Proc → Prop
  | .up n => LivedAs env p net n
  | .down st => ∃ sent, (∀ m ∈ sent, m ∈ net) ∧ ∀ cfg rng n, cfg.id = p → RawNode.new env cfg st rng = .ok n → NodeReach env ⟨n, sent⟩

theorem Proc.Lived.mono {env : Env} {p : Nat} {net net' : List Message} {x : Proc} (h : x.Lived env p net) (hn : ∀ m ∈ net, m ∈ net') :
    x.Lived env p net' := by
  cases x with
  | up n =>
    obtain ⟨h0, sent, h1, h2⟩ := h
    exact ⟨h0, sent, h1, fun m hm => hn m (h2 m hm)⟩
  | down st =>
    obtain ⟨sent, h1, h2⟩ := h
    exact ⟨sent, fun m hm => hn m (h1 m hm), h2⟩

structure State.Lived (env : Env) (c : State) : Prop where
  proc : ∀ p, (c.proc p).Lived env p c.net
  net : ∀ m ∈ c.net, Fine m

theorem State.Lived.set {env : Env} {c : State} (h : c.Lived env) {p : Nat} {x : Proc} {ms : List Message} {o l}
    (hx : x.Lived env p (c.net ++ ms)) (hms : ∀ m ∈ ms, Fine m) :
    State.Lived env { c.set p x with net := c.net ++ ms, out := o, led := l } := by
  refine ⟨fun q => ?_, fun m hm => ?_⟩
  · show (if q = p then x else c.proc q).Lived env q (c.net ++ ms)
    by_cases hq : q = p
    · rw [if_pos hq, hq]; exact hx
    · rw [if_neg hq]; exact (h.proc q).mono fun m hm => List.mem_append_left _ hm
  · rcases List.mem_append.1 hm with hm | hm
    · exact h.net m hm
    · exact hms m hm

theorem State.Lived.set0 {env : Env} {c : State} (h : c.Lived env) {p : Nat} {x : Proc} (hx : x.Lived env p c.net) : State.Lived env (c.set p x) := by
  have := h.set (p := p) (x := x) (ms := []) (o := c.out) (l := c.led) (by rw [List.append_nil]; exact hx) (by intro m hm; cases hm)
  rw [List.append_nil] at this
  exact this

theorem Step.lived {env : Env} {c c' : State} (h : Step env c c') (hc : c.Lived env) : c'.Lived env := by
  have up : ∀ {p n}, c.proc p = .up n → LivedAs env p c.net n := by
    intro p n hp
    have := hc.proc p
    rw [hp] at this
    exact this
  have step : ∀ {p : Nat} {n n' : RawNode}, c.proc p = .up n →
      (∀ sent, NodeStep env ⟨n, sent⟩ ⟨n', sent⟩) → State.Lived env (c.set p (.up n')) := by
    intro p n n' hp hs
    obtain ⟨h0, sent, h1, h2⟩ := up hp
    exact hc.set0 ⟨(NodeReach.keepId (hs sent)).trans h0, sent, h1.step (hs sent), h2⟩
  cases h with
  | start p cfg rng hp hid h =>
    have := hc.proc p
    rw [hp] at this
    obtain ⟨sent, h1, h2⟩ := this
    exact hc.set0 ⟨((RawNode.new_ok h).1.id).trans hid, sent, h2 cfg rng _ hid h, h1⟩
  | call p x hp hpl hns h =>
    exact step hp fun sent => .call x hpl (by cases x <;> first | trivial | exact absurd rfl (hns _)) (by cases x <;> first | trivial | exact absurd rfl (hns _)) h
  | deliver p m hp hm _ h => exact step hp fun sent => .call (.step m) trivial (hc.net m hm).1 (hc.net m hm).2 h
  | inject p m hp hv h =>
    refine step hp fun sent => .call (.step m) trivial ?_ ?_ h
    · rintro (ht | ht | ht)
      · exact absurd (Or.inl ht) hv
      · exact absurd (Or.inr (Or.inr (Or.inr (Or.inr (Or.inr ht))))) hv
      · exact absurd (Or.inr (Or.inr (Or.inr (Or.inr (Or.inl ht))))) hv
    · intro ht
      exact absurd (Or.inr (Or.inr (Or.inl ht))) hv
  | ready p hp h =>
    obtain ⟨h0, sent, h1, h2⟩ := up hp
    obtain ⟨n1, ht⟩ := RawNode.handleReady_take h
    have hs : NodeStep env _ _ := .ready (sent := sent) [] h
    refine hc.set ⟨(NodeReach.keepId hs).trans h0, _, h1.step hs, fun m hm => ?_⟩ ?_
    · rcases List.mem_append.1 hm with hm | hm
      · exact List.mem_append_left _ (h2 m hm)
      · exact List.mem_append_right _ hm
    · rw [RawNode.takeReady_messages ht]
      exact h1.tidy.out
  | compact p i hp _ h => exact step hp fun sent => .compact i h
  | createSnapshot p i cs data hp _ _ h => exact step hp fun sent => .createSnapshot _ _ _ h
  | crash p hp =>
    obtain ⟨h0, sent, h1, h2⟩ := up hp
    exact hc.set0 ⟨sent, h2, fun cfg rng n hid h => h1.crash (.idle cfg rng (hid.trans h0.symm) h)⟩
  | crashReady p some k hp ht hsome =>
    obtain ⟨h0, sent, h1, h2⟩ := up hp
    refine hc.set ⟨sent ++ some, fun m hm => ?_, fun cfg rng n hid h => h1.crash (.inReady cfg rng some (hid.trans h0.symm) ht hsome h)⟩ ?_
    · rcases List.mem_append.1 hm with hm | hm
      · exact List.mem_append_left _ (h2 m hm)
      · exact List.mem_append_right _ hm
    · intro m hm
      have := hsome m hm
      rw [RawNode.takeReady_messages ht] at this
      exact h1.tidy.out m this

theorem Reach.lived {env : Env} {G : Genesis} {c : State} (h : Reach env G c) : c.Lived env := by
  induction h with
  | init disk _ => exact ⟨fun p => ⟨[], (by intro m hm; cases hm), fun cfg rng n _ h => .start cfg _ rng h⟩, by intro m hm; cases hm⟩
  | step _ hs ih => exact hs.lived ih

end Cluster

/-- C93, for clusters of fixed membership. -/
theorem C93_cluster_nodes {env : Env} {G : Cluster.Genesis} {c : Cluster.State} (h : Cluster.Reach env G c) {p : Nat} {n : RawNode}
    (hp : c.proc p = .up n) : LivedAs env p c.net n := by
  have := h.lived.proc p
  rw [hp] at this
  exact this

end Craft
