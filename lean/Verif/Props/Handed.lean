import Verif.Node.Handed
import Verif.Spec.Handed
import Verif.Props.Given
import Mathlib.Data.List.Count
import Mathlib.Data.List.Nodup
import Mathlib.Data.List.Perm.Subperm

/-! # C98: a proposal is not multiplied -/

namespace Craft
variable {P P' : Entry → Prop} {env : Env} {dec : Entry → Option ConfChangeI}

/-- A disk all of whose entries satisfy the condition. -/
def Storage.Holds (P : Entry → Prop) (st : Storage) : Prop := st.From P fun _ => True

theorem Raft.Holds.mono {r : Raft} (h : r.Holds P) (hP : ∀ e, P e → P' e) : r.Holds P' :=
  ⟨RaftLog.From.mono h.log hP fun _ h => h, fun m hm t e he => hP e (h.msgs m hm t e he)⟩

theorem RawNode.new_holds {cfg : Config} {st : Storage} {rng : Nat} {n : RawNode} (h : RawNode.new env cfg st rng = .ok n) (hs : st.Holds P) : n.raft.Holds P := by
  have f := (RawNode.new_ok h).1
  refine ⟨⟨?_, ?_, fun _ _ => trivial⟩, ?_⟩
  · rw [f.storage]; exact hs
  · rw [f.unstable]; intro e he; cases he
  · rw [f.msgs]; intro m hm; cases hm

theorem Raft.applyConfChange_holds {r r' : Raft} {cc : ConfChangeV2} {cs : ConfState} (hP : ∀ e : Entry, e.data = [] → P e)
    (h : r.applyConfChange env cc = .ok (r', cs)) (hr : r.Holds P) : r'.Holds P := by
  obtain ⟨cfg, prs, lrn, h⟩ := Raft.applyConfChange_sim (im := { type := .beat }) rfl h
  exact h.holds hP (fun q => by cases q) (Or.inl (by decide)) ⟨hr.log, hr.msgs⟩

theorem RawNode.bootstrapApply_holds (hP : ∀ e : Entry, e.data = [] → P e) : ∀ {ps : List (Nat × Bytes)} {r r' : Raft},
    RawNode.bootstrapApply env ps r = .ok r' → r.Holds P → r'.Holds P
  | [], r, r', h, hr => by cases h; exact hr
  | p :: ps, r, r', h, hr => by
    obtain ⟨⟨r1, cs⟩, h1, h⟩ := Res.bind_eq_ok.1 h
    exact bootstrapApply_holds hP h (Raft.applyConfChange_holds hP h1 hr)

theorem RawNode.bootstrapEntries_holds : ∀ {ps : List (Nat × Bytes)} {i : Nat},
    (∀ x : Entry, (x.index, x.type, x.data) ∈ (ps.zipIdx i).map (fun q => (q.2, EntryType.confChange, env.serV1 { type := .addNode, nodeId := q.1.1, context := q.1.2 })) → P x) →
    ∀ e ∈ RawNode.bootstrapEntries env i ps, P e
  | [], _, _, e, he => by cases he
  | q :: ps, i, h, e, he => by
    rw [List.zipIdx_cons, List.map_cons] at h
    rcases List.mem_cons.1 he with rfl | he
    · exact h _ List.mem_cons_self
    · exact bootstrapEntries_holds (fun x hx => h x (List.mem_cons_of_mem _ hx)) e he

theorem RawNode.bootstrap_holds {n n' : RawNode} {ps : List (Nat × Bytes)} {x : Option Err} (hP : ∀ e : Entry, e.data = [] → P e)
    (hps : ∀ x : Entry, (x.index, x.type, x.data) ∈ (ps.zipIdx 1).map (fun q => (q.2, EntryType.confChange, env.serV1 { type := .addNode, nodeId := q.1.1, context := q.1.2 })) → P x)
    (h : n.bootstrap env ps = .ok (n', x)) (hn : n.raft.Holds P) : n'.raft.Holds P := by
  unfold RawNode.bootstrap at h
  split at h
  · cases h; exact hn
  dsimp only at h
  obtain ⟨l, h1, h⟩ := Res.bind_eq_ok.1 h
  obtain ⟨r, h2, h⟩ := Res.bind_eq_ok.1 h
  cases h
  refine RawNode.bootstrapApply_holds (r' := r) hP h2 ⟨?_, ?_⟩
  · have hl : (n.raft.becomeFollower env 1 0).log = n.raft.log := Raft.reset_log (env := env) n.raft 1
    rw [hl] at h1
    exact (RaftLog.From.append hn.log (RawNode.bootstrapEntries_holds hps) h1).of rfl rfl
  · have hm : (n.raft.becomeFollower env 1 0).msgs = n.raft.msgs := Raft.reset_msgs (env := env) n.raft 1
    show ∀ m ∈ (n.raft.becomeFollower env 1 0).msgs, m.Holds P
    rw [hm]; exact hn.msgs

theorem RawNode.withStorage_holds {n : RawNode} {st : Storage} (h : n.raft.Holds P) (hs : st.Holds P) : (n.withStorage st).raft.Holds P :=
  ⟨⟨hs, h.log.ents, h.log.snap⟩, h.msgs⟩

theorem RawNode.takeReady_holds {n n' : RawNode} {rd : Ready} (hP : ∀ e : Entry, e.data = [] → P e) (h : n.takeReady env = .ok (n', rd)) (hn : n.raft.Holds P) :
    n'.raft.Holds P ∧ (∀ m ∈ rd.messages, m.Holds P) ∧ ∀ e ∈ rd.committedEntries, P e := by
  unfold RawNode.takeReady at h
  obtain ⟨⟨n0, rd0⟩, h0, h1⟩ := Res.bind_eq_ok.1 h
  obtain ⟨st, h2, h1⟩ := Res.bind_eq_ok.1 h1
  cases h1
  have k0 : n0.raft.Holds P := Call.holds (env := env) (n := n) (c := .getReady) hP (fun q => by cases q) trivial (fun _ q => by cases q)
    (Res.bind_eq_ok.2 ⟨_, h0, rfl⟩) hn
  obtain ⟨hr, _⟩ := getReady_ok h0
  unfold RawNode.readyWithoutAccept newReady at hr
  obtain ⟨es, h3, hr⟩ := Res.bind_eq_ok.1 hr
  cases hr
  exact ⟨RawNode.withStorage_holds k0 (k0.log.storage.save hn.log.ents (Or.inr trivial) h2), hn.msgs, hn.log.nextEnts h3⟩

theorem Members.applyAll_holds (hP : ∀ e : Entry, e.data = [] → P e) : ∀ {es : List Entry} {n n' : RawNode} {a a' : Members.App},
    Members.applyAll env dec es n a = .ok (n', a') → n.raft.Holds P → n'.raft.Holds P
  | [], n, n', a, a', h, hn => by cases h; exact hn
  | e :: es, n, n', a, a', h, hn => by
    unfold Members.applyAll at h
    split at h
    · exact applyAll_holds hP h hn
    split at h
    · exact applyAll_holds hP h hn
    · obtain ⟨⟨n1, cs⟩, h1, h⟩ := Res.bind_eq_ok.1 h
      refine applyAll_holds hP h ?_
      unfold RawNode.applyConfChange at h1
      obtain ⟨⟨r, cs'⟩, h2, h1⟩ := Res.bind_eq_ok.1 h1
      cases h1
      exact Raft.applyConfChange_holds hP h2 hn

theorem Members.handle_holds {n n' : RawNode} {a a' : Members.App} {rd : Ready} (hP : ∀ e : Entry, e.data = [] → P e)
    (h : Members.handle env dec n a = .ok (n', a', rd)) (hn : n.raft.Holds P) :
    n'.raft.Holds P ∧ (∀ m ∈ rd.messages, m.Holds P) ∧ ∀ e ∈ rd.committedEntries, P e := by
  unfold Members.handle at h
  obtain ⟨⟨n1, rd1⟩, h1, h⟩ := Res.bind_eq_ok.1 h
  obtain ⟨⟨n2, a2⟩, h2, h⟩ := Res.bind_eq_ok.1 h
  obtain ⟨n3, h3, h⟩ := Res.bind_eq_ok.1 h
  cases h
  obtain ⟨k1, k2, k3⟩ := RawNode.takeReady_holds hP h1 hn
  exact ⟨Call.holds (env := env) (c := .advance) hP (fun q => by cases q) trivial (fun _ q => by cases q) h3 (applyAll_holds hP h2 k1), k2, k3⟩

/-! ## Clusters -/

namespace Members

def Proc.Holds (P : Entry → Prop) : Proc → Prop
  | .down st => st.Holds P
  | .up n _ => n.raft.Holds P

structure State.Holds (P : Entry → Prop) (c : State) : Prop where
  proc : ∀ p, (c.proc p).Holds P
  net : ∀ m ∈ c.net, m.Holds P
  out : ∀ d ∈ c.out, P d.entry

theorem State.Holds.mono {c : State} (h : c.Holds P) (hP : ∀ e, P e → P' e) : c.Holds P' := by
  refine ⟨fun p => ?_, fun m hm t e he => hP e (h.net m hm t e he), fun d hd => hP _ (h.out d hd)⟩
  have k := h.proc p
  cases hp : c.proc p with
  | down st => rw [hp] at k; exact Storage.From.mono k hP fun _ h => h
  | up n a => rw [hp] at k; exact Raft.Holds.mono k hP

theorem State.Holds.set {c : State} (h : c.Holds P) {p : Nat} {x : Proc} (hx : x.Holds P) : (c.set p x).Holds P := by
  refine ⟨fun q => ?_, h.net, h.out⟩
  unfold State.set
  dsimp only
  split
  · exact hx
  · exact h.proc q

end Members

namespace Handed
open Members Given

/-- The last log index of a running node. -/
def last (c : State) (p : Nat) : Nat :=
  match c.proc p with
  | .up n _ => n.raft.log.lastIndex
  | .down _ => 0

/-- The entries a deed hands to a leader, with the indexes they get if it takes them. -/
def puts (env : Env) (c : State) : Deed → List (Nat × EntryType × Bytes)
  | .act (.call p x) => match c.proc p with
    | .up n _ => if n.raft.state = .leader ∧ (x.msg env n).type = .prop then placed n.raft.log.lastIndex (x.msg env n).entries else []
    | .down _ => []
  | .act (.deliver p m) => if c.leads p ∧ m.type = .prop then placed (last c p) m.entries else []
  | _ => []

theorem puts_hands {c : State} {d : Deed} : (puts env c d).map (·.2) = hands env c d := by
  cases d with
  | boot => rfl
  | act x =>
    cases x with
    | deliver p m =>
      show (if c.leads p ∧ m.type = .prop then placed (last c p) m.entries else []).map (·.2) = if c.leads p ∧ m.type = .prop then m.entries.map fun e => (e.type, e.data) else []
      split
      · exact placed_types
      · rfl
    | call p x =>
      unfold puts
      dsimp only
      cases hp : c.proc p with
      | down st =>
        have hl : c.leads p = false := by unfold State.leads; rw [hp]
        cases x <;> simp [hands, hl]
      | up n a =>
        have hl : c.leads p = decide (n.raft.state = .leader) := by unfold State.leads; rw [hp]
        dsimp only
        have no : (x.msg env n).type ≠ .prop → (if n.raft.state = .leader ∧ (x.msg env n).type = .prop then placed n.raft.log.lastIndex (x.msg env n).entries else []).map (·.2) = [] := by
          intro h
          rw [if_neg fun k => h k.2]; rfl
        have yes : (x.msg env n).type = .prop → (if n.raft.state = .leader ∧ (x.msg env n).type = .prop then placed n.raft.log.lastIndex (x.msg env n).entries else []).map (·.2) =
            if n.raft.state = .leader then (x.msg env n).entries.map (fun e => (e.type, e.data)) else [] := by
          intro h
          by_cases k : n.raft.state = .leader
          · rw [if_pos ⟨k, h⟩, if_pos k]; exact placed_types
          · rw [if_neg fun q => k q.1, if_neg k]; rfl
        cases x with
        | step m =>
          by_cases ht : m.type = .prop
          · rw [yes ht]
            show _ = if c.leads p ∧ m.type = .prop then _ else _
            simp only [hl, ht, and_true, decide_eq_true_eq]
            rfl
          · rw [no ht]
            show _ = if c.leads p ∧ m.type = .prop then _ else _
            rw [if_neg fun k => ht k.2]
        | propose d =>
          rw [yes rfl]
          show _ = if c.leads p then [(EntryType.normal, d)] else []
          simp only [hl, decide_eq_true_eq]
          rfl
        | proposeConfChange cc =>
          rw [yes rfl]
          show _ = if c.leads p then [cc.marshal env] else []
          simp only [hl, decide_eq_true_eq]
          rfl
        | tick => refine no ?_; unfold Call.msg; dsimp only; split <;> exact nofun
        | tickQuiesced => exact no nofun
        | campaign => exact no nofun
        | applyConfChange => exact no nofun
        | getReady => exact no nofun
        | advance => exact no nofun
        | reportUnreachable => exact no nofun
        | reportSnapshot => exact no nofun
        | transferLeader => exact no nofun
        | readIndex => exact no nofun
    | start => rfl
    | ready => rfl
    | compact => rfl
    | createSnapshot => rfl
    | crash => rfl
    | crashReady => rfl

theorem msg_holds {x : Call} {n : RawNode} (hh : ∀ m, x = .step m → m.type ≠ .app ∧ m.type ≠ .heartbeat ∧ m.type ≠ .snap) :
    (x.msg env n).Holds P ∧ x.Stamped := by
  cases x with
  | step m =>
    obtain ⟨k1, k2, k3⟩ := hh m rfl
    refine ⟨fun k => absurd k k1, fun k => ?_⟩
    rcases k with k | k | k
    · exact absurd k k1
    · exact absurd k k2
    · exact absurd k k3
  | tick => refine ⟨?_, trivial⟩; unfold Call.msg; dsimp only; split <;> exact fun q => by cases q
  | propose d => exact ⟨(fun q => by cases q), trivial⟩
  | proposeConfChange cc => exact ⟨(fun q => by cases q), trivial⟩
  | tickQuiesced => exact ⟨(fun q => by cases q), trivial⟩
  | campaign => exact ⟨(fun q => by cases q), trivial⟩
  | applyConfChange => exact ⟨(fun q => by cases q), trivial⟩
  | getReady => exact ⟨(fun q => by cases q), trivial⟩
  | advance => exact ⟨(fun q => by cases q), trivial⟩
  | reportUnreachable => exact ⟨(fun q => by cases q), trivial⟩
  | reportSnapshot => exact ⟨(fun q => by cases q), trivial⟩
  | transferLeader => exact ⟨(fun q => by cases q), trivial⟩
  | readIndex => exact ⟨(fun q => by cases q), trivial⟩

theorem Deed.holds {d : Deed} {c c' : State} (hP : ∀ e : Entry, e.data = [] → P e) (hh : d.Honest c) (ht : ∀ m ∈ c.net, Stamped m)
    (hf : ∀ x : Entry, (x.index, x.type, x.data) ∈ founds env d → P x) (hp : ∀ x : Entry, (x.index, x.type, x.data) ∈ puts env c d → P x)
    (h : d.run env dec c = .ok c') (hc : c.Holds P) : c'.Holds P := by
  cases d with
  | boot p cfg rng peers =>
    unfold Deed.run at h
    dsimp only at h
    have k := hc.proc p
    split at h
    · cases h; exact hc
    · next st e =>
      rw [e] at k
      obtain ⟨n0, h1, h⟩ := Res.bind_eq_ok.1 h
      obtain ⟨⟨n, x⟩, h2, h⟩ := Res.bind_eq_ok.1 h
      cases h
      exact hc.set (x := .up n _) (RawNode.bootstrap_holds hP hf h2 (RawNode.new_holds h1 k))
  | act x =>
    unfold Deed.run at h
    dsimp only at h
    cases x with
    | start p cfg rng =>
      unfold Act.run at h
      dsimp only at h
      have k := hc.proc p
      split at h
      · cases h; exact hc
      · next st e =>
        rw [e] at k
        obtain ⟨n0, h1, h⟩ := Res.bind_eq_ok.1 h
        cases h
        exact hc.set (x := .up n0 _) (RawNode.new_holds h1 k)
    | call p x =>
      unfold Act.run at h
      dsimp only at h
      have k := hc.proc p
      split at h
      · cases h; exact hc
      · next n a e =>
        rw [e] at k
        obtain ⟨n0, h1, h⟩ := Res.bind_eq_ok.1 h
        cases h
        obtain ⟨m1, m2⟩ := msg_holds (env := env) (P := P) (x := x) (n := n) (by rintro m rfl; exact hh)
        refine hc.set (x := .up n0 _) (Call.holds hP m1 m2 (fun hl hpr y hy => hp y ?_) h1 k)
        unfold puts
        dsimp only
        rw [e]
        dsimp only
        rw [if_pos ⟨hl, hpr⟩]
        exact hy
    | deliver p m =>
      unfold Act.run at h
      dsimp only at h
      have k := hc.proc p
      split at h
      · cases h; exact hc
      · next n a e =>
        rw [e] at k
        obtain ⟨n0, h1, h⟩ := Res.bind_eq_ok.1 h
        cases h
        refine hc.set (x := .up n0 _) (Call.holds (c := .step m) hP (hc.net m hh) (ht m hh) (fun hl hpr y hy => hp y ?_) h1 k)
        have hl' : c.leads p = true := by unfold State.leads; rw [e]; exact decide_eq_true hl
        have hlast : last c p = n.raft.log.lastIndex := by unfold last; rw [e]
        show _ ∈ if c.leads p ∧ m.type = .prop then placed (last c p) m.entries else []
        rw [if_pos ⟨hl', hpr⟩, hlast]
        exact hy
    | ready p =>
      unfold Act.run at h
      dsimp only at h
      have k := hc.proc p
      split at h
      · cases h; exact hc
      · next n a e =>
        rw [e] at k
        obtain ⟨⟨n', a', rd⟩, h1, h⟩ := Res.bind_eq_ok.1 h
        cases h
        obtain ⟨k1, k2, k3⟩ := handle_holds hP h1 k
        have w := hc.set (p := p) (x := .up n' a') k1
        refine ⟨w.proc, fun m hm => (List.mem_append.1 hm).elim (hc.net m) (k2 m), fun d hd => ?_⟩
        rcases List.mem_append.1 hd with hd | hd
        · exact hc.out d hd
        · obtain ⟨e, he, rfl⟩ := List.mem_map.1 hd
          exact k3 e he
    | compact p i =>
      unfold Act.run at h
      dsimp only at h
      have k := hc.proc p
      split at h
      · cases h; exact hc
      · next n a e =>
        rw [e] at k
        obtain ⟨⟨st, x⟩, h1, h⟩ := Res.bind_eq_ok.1 h
        cases h
        exact hc.set (x := .up _ _) (RawNode.withStorage_holds k (Storage.From.compact (Raft.Holds.log k).storage h1))
    | createSnapshot p data =>
      unfold Act.run at h
      dsimp only at h
      have k := hc.proc p
      split at h
      · cases h; exact hc
      · next n a e =>
        rw [e] at k
        obtain ⟨⟨st, x⟩, h1, h⟩ := Res.bind_eq_ok.1 h
        cases h
        exact hc.set (x := .up _ _) (RawNode.withStorage_holds k (Storage.From.createSnapshot (Raft.Holds.log k).storage (fun _ _ _ _ => trivial) h1))
    | crash p =>
      unfold Act.run at h
      dsimp only at h
      have k := hc.proc p
      split at h
      · cases h; exact hc
      · next n a e =>
        rw [e] at k
        cases h
        exact hc.set (x := .down _) (Raft.Holds.log k).storage
    | crashReady p keep j =>
      unfold Act.run at h
      dsimp only at h
      have k := hc.proc p
      split at h
      · cases h; exact hc
      · next n a e =>
        rw [e] at k
        obtain ⟨⟨n', rd⟩, h1, h⟩ := Res.bind_eq_ok.1 h
        cases h
        obtain ⟨k1, k2, k3⟩ := RawNode.takeReady_holds hP h1 k
        have w := hc.set (p := p) (x := .down n'.raft.log.storage) k1.log.storage
        refine ⟨w.proc, fun m hm => (List.mem_append.1 hm).elim (hc.net m) (fun hm => k2 m (List.mem_filter.1 hm).1), fun d hd => ?_⟩
        rcases List.mem_append.1 hd with hd | hd
        · exact hc.out d hd
        · obtain ⟨e, he, rfl⟩ := List.mem_map.1 hd
          exact k3 e (List.mem_of_mem_take he)

/-- Where an entry may come from, given the entries that were put on a leader with their indexes. -/
def Placed (disk : Nat → Storage) (fs ev : List (Nat × EntryType × Bytes)) (e : Entry) : Prop :=
  e.data = [] ∨ Founded disk fs e ∨ (e.index, e.type, e.data) ∈ ev

theorem Trace.given {disk : Nat → Storage} {fs : List (Nat × EntryType × Bytes)} {hs : List (EntryType × Bytes)} {c : State} (h : Trace env dec disk fs hs c) :
    ∃ os ms, Given.Trace env dec disk os ms c := by
  induction h with
  | init => exact ⟨_, _, .init⟩
  | deed d _ hh hr ih =>
    obtain ⟨os, ms, t⟩ := ih
    exact ⟨_, _, .deed d t hh hr⟩

theorem Trace.placed {disk : Nat → Storage} {fs : List (Nat × EntryType × Bytes)} {hs : List (EntryType × Bytes)} {c : State} (h : Trace env dec disk fs hs c) :
    ∃ ev : List (Nat × EntryType × Bytes), ev.map (·.2) = hs ∧ c.Holds (Placed disk fs ev) := by
  induction h with
  | init =>
    refine ⟨[], rfl, fun p => ⟨fun e he => ?_, trivial⟩, nofun, nofun⟩
    exact Or.inr (Or.inl (Or.inr ⟨p, e, he, rfl, rfl, rfl⟩))
  | deed d ht hh hr ih =>
    next fs hs c c' =>
    obtain ⟨ev, h1, h2⟩ := ih
    obtain ⟨os, ms, tg⟩ := ht.given
    refine ⟨ev ++ puts env c d, by rw [List.map_append, h1, puts_hands], ?_⟩
    refine Deed.holds (fun e he => Or.inl he) hh (fun m hm => (tg.from.net m hm).term) ?_ ?_ hr (h2.mono ?_)
    · exact fun x hx => Or.inr (Or.inl (Or.inl (List.mem_append_right _ hx)))
    · exact fun x hx => Or.inr (Or.inr (List.mem_append_right _ hx))
    · intro e he
      rcases he with he | he | he
      · exact Or.inl he
      · exact Or.inr (Or.inl (he.imp (List.mem_append_left _) id))
      · exact Or.inr (Or.inr (List.mem_append_left _ he))

theorem Occurs.placed {c : State} {e : Entry} (h : c.Holds P) (ho : Occurs c e) : P e := by
  rcases ho with ⟨d, h1, rfl⟩ | ⟨p, hp⟩ | ⟨p, n, a, h1, h2⟩ | ⟨m, h1, h2, h3⟩
  · exact h.out d h1
  · have k := h.proc p
    cases hq : c.proc p with
    | down st => rw [hq] at k hp; exact Storage.From.ents k e hp
    | up n a => rw [hq] at k hp; exact (Raft.Holds.log k).storage.ents e hp
  · have k := h.proc p
    rw [h1] at k
    exact (Raft.Holds.log k).ents e h2
  · exact h.net m h1 h2 e h3

theorem distinct_count {ev : List (Nat × EntryType × Bytes)} {o : EntryType × Bytes} {is : List Nat} (hn : is.Nodup) (h : ∀ i ∈ is, (i, o) ∈ ev) :
    is.length ≤ (ev.map (·.2)).count o := by
  have h1 : (is.map fun i => (i, o)).Nodup := hn.map fun a b k => (Prod.mk.inj k).1
  have h2 : (is.map fun i => (i, o)) ⊆ ev.filter fun x => x.2 == o := by
    intro x hx
    obtain ⟨i, hi, rfl⟩ := List.mem_map.1 hx
    exact List.mem_filter.2 ⟨h i hi, beq_self_eq_true _⟩
  have h3 := (List.Nodup.subperm h1 h2).length_le
  rw [List.length_map] at h3
  rw [List.count_eq_countP, List.countP_map, List.countP_eq_length_filter]
  exact h3

/-- C98: an entry with a payload occurs, anywhere in the cluster and in anything delivered so far, at no more indexes than the number of times it was handed to a leader
(not counting indexes where it was on a disk from the beginning, or was put by `Bootstrap`). So neither the transport nor the nodes
multiply proposals: an entry that was handed to a leader once exists at one index only. -/
theorem C98_not_multiplied {disk : Nat → Storage} {fs : List (Nat × EntryType × Bytes)} {hs : List (EntryType × Bytes)} {c : State}
    (h : Trace env dec disk fs hs c) {t : EntryType} {d : Bytes} (hd : d ≠ []) {is : List Nat} (hn : is.Nodup)
    (hi : ∀ i ∈ is, ∃ e : Entry, e.index = i ∧ e.type = t ∧ e.data = d ∧ Occurs c e ∧ ¬ Founded disk fs e) :
    is.length ≤ hs.count (t, d) := by
  obtain ⟨ev, rfl, h2⟩ := h.placed
  refine distinct_count hn fun i hm => ?_
  obtain ⟨e, rfl, rfl, rfl, h3, h4⟩ := hi i hm
  exact ((h3.placed h2).resolve_left hd).resolve_left h4

/-- C98: in particular, handed to a leader once, an entry exists at one index only. -/
theorem C98_once {disk : Nat → Storage} {fs : List (Nat × EntryType × Bytes)} {hs : List (EntryType × Bytes)} {c : State}
    (h : Trace env dec disk fs hs c) {e e' : Entry} (hd : e.data ≠ []) (h1 : Occurs c e) (h2 : Occurs c e') (h3 : ¬ Founded disk fs e) (h4 : ¬ Founded disk fs e')
    (ht : e'.type = e.type) (hd' : e'.data = e.data) (hc : hs.count (e.type, e.data) ≤ 1) : e'.index = e.index := by
  by_contra hne
  have := C98_not_multiplied h (t := e.type) (d := e.data) hd (is := [e'.index, e.index]) (by simp [hne]) (by
    intro i hi
    rcases List.mem_cons.1 hi with rfl | hi
    · exact ⟨e', rfl, ht, hd', h2, h4⟩
    · rw [List.mem_singleton.1 hi]; exact ⟨e, rfl, rfl, rfl, h1, h3⟩)
  simp only [List.length_cons, List.length_nil] at this
  omega

end Handed
end Craft

/-! ## Example -/

namespace Craft.Handed.Demo
open Members Given
open Dyn.Demo (env dec)
open Given.Demo (Cmd)

def follow : List Cmd → List (Nat × EntryType × Bytes) → List (EntryType × Bytes) → State → Option (List (Nat × EntryType × Bytes) × List (EntryType × Bytes) × State)
  | [], fs, hs, c => some (fs, hs, c)
  | x :: xs, fs, hs, c => match x.deed? c with
    | none => none
    | some d => match d.run env dec c with
      | .ok c' => follow xs (fs ++ founds env d) (hs ++ hands env c d) c'
      | _ => none

theorem follow_trace {disk : Nat → Storage} {xs : List Cmd} {fs : List (Nat × EntryType × Bytes)} {hs : List (EntryType × Bytes)} {c : State}
    (ht : Trace env dec disk fs hs c) {r : List (Nat × EntryType × Bytes) × List (EntryType × Bytes) × State} (h : follow xs fs hs c = some r) :
    Trace env dec disk r.1 r.2.1 r.2.2 := by
  induction xs generalizing fs hs c with
  | nil => cases h; exact ht
  | cons x xs ih =>
    unfold follow at h
    split at h
    · cases h
    · next d hd =>
      split at h
      · next c' hc' => exact ih (.deed d ht (Given.Demo.Cmd.honest hd) hc') h
      · cases h

/-- The course of events of `Given.Demo`: one proposal, made at node 2 and forwarded to node 1. -/
def final : List (Nat × EntryType × Bytes) × List (EntryType × Bytes) × State := (follow Given.Demo.story [] [] { proc := fun _ => .down {} }).getD ([], [], { proc := fun _ => .down {} })

theorem final_trace : Trace env dec (fun _ => {}) final.1 final.2.1 final.2.2 := by
  have h : (follow Given.Demo.story [] [] { proc := fun _ => .down {} }).isSome = true := by decide +kernel
  obtain ⟨r, hr⟩ := Option.isSome_iff_exists.1 h
  have : final = r := by unfold final; rw [hr]; rfl
  rw [this]
  exact follow_trace .init hr

/-- It was handed to a leader once, and was delivered twice: by both nodes, at index 4. -/
example : final.2.1.count (.normal, [9]) = 1 ∧ (final.2.2.out.filter fun d => decide (d.entry.data = [9])).map (fun d => (d.node, d.entry.index)) = [(1, 4), (2, 4)] ∧
    final.1.map (·.1) = [1, 2, 1, 2] := by decide +kernel

/-- The same, but the transport delivers the forwarded proposal twice. -/
def twice : List Cmd :=
  let r (p : Nat) : Cmd := .deed (.act (.ready p))
  let d := Cmd.deliver
  Given.Demo.story.take 14 ++ [d 1 3, d 1 4, d 1 4, r 1, d 2 5, d 2 6, d 2 7, r 2, d 1 8, d 1 9, d 1 10, r 1]

def final2 : List (Nat × EntryType × Bytes) × List (EntryType × Bytes) × State := (follow twice [] [] { proc := fun _ => .down {} }).getD ([], [], { proc := fun _ => .down {} })

theorem final2_trace : Trace env dec (fun _ => {}) final2.1 final2.2.1 final2.2.2 := by
  have h : (follow twice [] [] { proc := fun _ => .down {} }).isSome = true := by decide +kernel
  obtain ⟨r, hr⟩ := Option.isSome_iff_exists.1 h
  have : final2 = r := by unfold final2; rw [hr]; rfl
  rw [this]
  exact follow_trace .init hr

/-- Now it was handed to a leader twice, and it is in the log twice: at the indexes 4 and 5. -/
example : final2.2.1.count (.normal, [9]) = 2 ∧ (final2.2.2.out.filter fun d => decide (d.entry.data = [9])).map (fun d => (d.node, d.entry.index)) = [(1, 4), (1, 5)] := by
  decide +kernel

/-- It follows from the theorem that in the first course of events it is at one index only. -/
example {e e' : Entry} (h1 : Occurs final.2.2 e) (h2 : Occurs final.2.2 e') (hd : e.type = .normal ∧ e.data = [9]) (hd' : e'.type = .normal ∧ e'.data = [9]) :
    e'.index = e.index := by
  have nf : ∀ x : Entry, x.type = .normal → ¬ Founded (fun _ => {}) final.1 x := by
    rintro x hx (h | ⟨p, e0, h, _⟩)
    · have : ∀ y ∈ final.1, y.2.1 = .confChange := by decide +kernel
      have := this _ h
      rw [show (x.index, x.type, x.data).2.1 = x.type from rfl, hx] at this
      cases this
    · cases h
  refine C98_once final_trace (by rw [hd.2]; nofun) h1 h2 (nf e hd.1) (nf e' hd'.1) (by rw [hd.1, hd'.1]) (by rw [hd.2, hd'.2]) ?_
  rw [hd.1, hd.2]
  decide +kernel

end Craft.Handed.Demo
