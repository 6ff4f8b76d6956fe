import Verif.Node.From
import Verif.Node.History
import Verif.Spec.Given
import Verif.Dyn.BootDemo

/-! # C76: nothing is made up -/

namespace Craft
variable {P P' : Entry → Prop} {S S' : Snapshot → Prop} {env : Env} {dec : Entry → Option ConfChangeI}

/-! ## Weaker conditions -/

theorem Storage.From.mono {st : Storage} (h : st.From P S) (hP : ∀ e, P e → P' e) (hS : ∀ s, S s → S' s) : st.From P' S' :=
  ⟨fun e he => hP e (h.ents e he), hS _ h.snap⟩

theorem Message.From.mono {m : Message} (h : m.From P S) (hP : ∀ e, P e → P' e) (hS : ∀ s, S s → S' s) : m.From P' S' :=
  ⟨fun k e he => hP e (h.ents k e he), fun k => hS _ (h.snap k), h.term⟩

theorem RaftLog.From.mono {l : RaftLog} (h : l.From P S) (hP : ∀ e, P e → P' e) (hS : ∀ s, S s → S' s) : l.From P' S' :=
  ⟨h.storage.mono hP hS, fun e he => hP e (h.ents e he), fun s hs => hS s (h.snap s hs)⟩

theorem Raft.From.mono {r : Raft} (h : r.From P S) (hP : ∀ e, P e → P' e) (hS : ∀ s, S s → S' s) : r.From P' S' :=
  ⟨⟨h.core.log.mono hP hS, h.core.term⟩, fun m hm => (h.msgs m hm).mono hP hS⟩

/-! ## Nodes -/

theorem RawNode.new_from {cfg : Config} {st : Storage} {rng : Nat} {n : RawNode} (h : RawNode.new env cfg st rng = .ok n) (hs : st.From P S) : n.raft.From P S := by
  have f := (RawNode.new_ok h).1
  refine ⟨⟨⟨?_, ?_, ?_⟩, ?_⟩, ?_⟩
  · show n.raft.log.storage.From P S
    rw [f.storage]; exact hs
  · show ∀ e ∈ n.raft.log.unstable.entries, P e
    rw [f.unstable]; intro e he; cases he
  · show ∀ s, n.raft.log.unstable.snapshot = some s → S s
    rw [f.unstable]; intro s hs; cases hs
  · show n.raft.state = .leader ∨ n.raft.state = .candidate → _
    rw [f.state]; intro h; rcases h with h | h <;> cases h
  · rw [f.msgs]; intro m hm; cases hm

theorem Raft.applyConfChange_from {r r' : Raft} {cc : ConfChangeV2} {cs : ConfState} (hP : Closed P) (h : r.applyConfChange env cc = .ok (r', cs)) (hr : r.From P S) :
    r'.From P S := by
  obtain ⟨cfg, prs, lrn, _, ms, h1, h2⟩ := Raft.applyConfChange_sim (im := { type := .beat }) rfl h
  obtain ⟨k1, k2⟩ := (h2.npath).from (S := S) hP (Message.From.of (m := { type := .beat }) ⟨nofun, nofun, nofun, nofun⟩) ⟨hr.core.log, hr.core.term⟩
  refine ⟨k1, fun m hm => ?_⟩
  rw [h1] at hm
  exact (List.mem_append.1 hm).elim (hr.msgs m) (k2 m)

theorem RawNode.bootstrapApply_from (hP : Closed P) : ∀ {ps : List (Nat × Bytes)} {r r' : Raft}, RawNode.bootstrapApply env ps r = .ok r' → r.From P S → r'.From P S
  | [], r, r', h, hr => by cases h; exact hr
  | p :: ps, r, r', h, hr => by
    obtain ⟨⟨r1, cs⟩, h1, h⟩ := Res.bind_eq_ok.1 h
    exact bootstrapApply_from hP h (Raft.applyConfChange_from hP h1 hr)

theorem RawNode.bootstrapEntries_from {ps : List (Nat × Bytes)} {i : Nat}
    (h : ∀ q ∈ ps, ∀ e : Entry, e.type = .confChange → e.data = env.serV1 { type := .addNode, nodeId := q.1, context := q.2 } → P e) :
    ∀ e ∈ RawNode.bootstrapEntries env i ps, P e := by
  induction ps generalizing i with
  | nil => intro e he; cases he
  | cons q ps ih =>
    intro e he
    rcases List.mem_cons.1 he with rfl | he
    · exact h q List.mem_cons_self _ rfl rfl
    · exact ih (fun q hq => h q (List.mem_cons_of_mem _ hq)) e he

theorem RawNode.bootstrap_from {n n' : RawNode} {ps : List (Nat × Bytes)} {x : Option Err} (hP : Closed P)
    (hps : ∀ q ∈ ps, ∀ e : Entry, e.type = .confChange → e.data = env.serV1 { type := .addNode, nodeId := q.1, context := q.2 } → P e)
    (h : n.bootstrap env ps = .ok (n', x)) (hn : n.raft.From P S) : n'.raft.From P S := by
  unfold RawNode.bootstrap at h
  split at h
  · cases h; exact hn
  dsimp only at h
  obtain ⟨l, h1, h⟩ := Res.bind_eq_ok.1 h
  obtain ⟨r, h2, h⟩ := Res.bind_eq_ok.1 h
  cases h
  refine RawNode.bootstrapApply_from (r' := r) hP h2 ⟨⟨?_, ?_⟩, ?_⟩
  · have hl : (n.raft.becomeFollower env 1 0).log = n.raft.log := Raft.reset_log (env := env) n.raft 1
    rw [hl] at h1
    have k := hn.core.log.append (RawNode.bootstrapEntries_from hps) h1
    exact k.of rfl rfl
  · intro k; rcases k with k | k <;> cases k
  · have hm : (n.raft.becomeFollower env 1 0).msgs = n.raft.msgs := Raft.reset_msgs (env := env) n.raft 1
    show ∀ m ∈ (n.raft.becomeFollower env 1 0).msgs, m.From P S
    rw [hm]; exact hn.msgs

theorem RawNode.withStorage_from {n : RawNode} {st : Storage} (h : n.raft.From P S) (hs : st.From P S) : (n.withStorage st).raft.From P S :=
  ⟨⟨⟨hs, h.core.log.ents, h.core.log.snap⟩, h.core.term⟩, h.msgs⟩

theorem RawNode.takeReady_from {n n' : RawNode} {rd : Ready} (hP : Closed P) (h : n.takeReady env = .ok (n', rd)) (hn : n.raft.From P S) :
    n'.raft.From P S ∧ (∀ m ∈ rd.messages, m.From P S) ∧ ∀ e ∈ rd.committedEntries, P e := by
  unfold RawNode.takeReady at h
  obtain ⟨⟨n0, rd0⟩, h0, h1⟩ := Res.bind_eq_ok.1 h
  obtain ⟨st, h2, h1⟩ := Res.bind_eq_ok.1 h1
  cases h1
  have k0 : n0.raft.From P S := Call.from (env := env) (n := n) (c := .getReady) hP (Message.From.of (m := { type := .beat }) ⟨nofun, nofun, nofun, nofun⟩) trivial (Res.bind_eq_ok.2 ⟨_, h0, rfl⟩) hn
  obtain ⟨hr, _⟩ := getReady_ok h0
  unfold RawNode.readyWithoutAccept newReady at hr
  obtain ⟨es, h3, hr⟩ := Res.bind_eq_ok.1 hr
  cases hr
  refine ⟨RawNode.withStorage_from k0 (k0.core.log.storage.save ?_ ?_ h2), hn.msgs, hn.core.log.nextEnts h3⟩
  · exact hn.core.log.ents
  · dsimp only
    split
    · next s hs => exact Or.inr (hn.core.log.snap s hs)
    · exact Or.inl rfl

theorem Members.applyAll_from (hP : Closed P) : ∀ {es : List Entry} {n n' : RawNode} {a a' : Members.App},
    Members.applyAll env dec es n a = .ok (n', a') → n.raft.From P S → n'.raft.From P S
  | [], n, n', a, a', h, hn => by cases h; exact hn
  | e :: es, n, n', a, a', h, hn => by
    unfold Members.applyAll at h
    split at h
    · exact applyAll_from hP h hn
    split at h
    · exact applyAll_from hP h hn
    · obtain ⟨⟨n1, cs⟩, h1, h⟩ := Res.bind_eq_ok.1 h
      refine applyAll_from hP h ?_
      unfold RawNode.applyConfChange at h1
      obtain ⟨⟨r, cs'⟩, h2, h1⟩ := Res.bind_eq_ok.1 h1
      cases h1
      exact Raft.applyConfChange_from hP h2 hn

theorem Members.handle_from {n n' : RawNode} {a a' : Members.App} {rd : Ready} (hP : Closed P) (h : Members.handle env dec n a = .ok (n', a', rd)) (hn : n.raft.From P S) :
    n'.raft.From P S ∧ (∀ m ∈ rd.messages, m.From P S) ∧ ∀ e ∈ rd.committedEntries, P e := by
  unfold Members.handle at h
  obtain ⟨⟨n1, rd1⟩, h1, h⟩ := Res.bind_eq_ok.1 h
  obtain ⟨⟨n2, a2⟩, h2, h⟩ := Res.bind_eq_ok.1 h
  obtain ⟨n3, h3, h⟩ := Res.bind_eq_ok.1 h
  cases h
  obtain ⟨k1, k2, k3⟩ := RawNode.takeReady_from hP h1 hn
  exact ⟨Call.from (env := env) (c := .advance) hP (Message.From.of (m := { type := .beat }) ⟨nofun, nofun, nofun, nofun⟩) trivial h3 (applyAll_from hP h2 k1), k2, k3⟩

/-! ## Clusters -/

namespace Members

def Proc.From (P : Entry → Prop) (S : Snapshot → Prop) : Proc → Prop
  | .down st => st.From P S
  | .up n _ => n.raft.From P S

structure State.From (P : Entry → Prop) (S : Snapshot → Prop) (c : State) : Prop where
  proc : ∀ p, (c.proc p).From P S
  net : ∀ m ∈ c.net, m.From P S
  out : ∀ d ∈ c.out, P d.entry

theorem State.From.mono {c : State} (h : c.From P S) (hP : ∀ e, P e → P' e) (hS : ∀ s, S s → S' s) : c.From P' S' := by
  refine ⟨fun p => ?_, fun m hm => (h.net m hm).mono hP hS, fun d hd => hP _ (h.out d hd)⟩
  have k := h.proc p
  cases hp : c.proc p with
  | down st => rw [hp] at k; exact Storage.From.mono k hP hS
  | up n a => rw [hp] at k; exact Raft.From.mono k hP hS

theorem State.From.set {c : State} (h : c.From P S) {p : Nat} {x : Proc} (hx : x.From P S) : (c.set p x).From P S := by
  refine ⟨fun q => ?_, h.net, h.out⟩
  unfold State.set
  dsimp only
  split
  · exact hx
  · exact h.proc q

end Members

namespace Given
open Members

theorem Accounted.closed (disk : Nat → Storage) (os : List (EntryType × Bytes)) : Closed (Accounted disk os) where
  same := by
    intro e e' h1 h2 h
    unfold Accounted at h ⊢
    rw [h1, h2]; exact h
  empty := Or.inl ⟨rfl, nofun⟩
  leave := Or.inl ⟨rfl, nofun⟩

theorem Accounted.mono {disk : Nat → Storage} {os os' : List (EntryType × Bytes)} {e : Entry} (h : Accounted disk os e) : Accounted disk (os ++ os') e := by
  rcases h with h | h | h
  · exact Or.inl h
  · exact Or.inr (Or.inl (List.mem_append_left _ h))
  · exact Or.inr (Or.inr h)

theorem Made.mono {disk : Nat → Storage} {ms ms' : List (Nat × ConfState × Bytes)} {s : Snapshot} (h : Made disk ms s) : Made disk (ms ++ ms') s := by
  rcases h with h | h | h
  · exact Or.inl h
  · exact Or.inr (Or.inl (List.mem_append_left _ h))
  · exact Or.inr (Or.inr h)

theorem call_from {P : Entry → Prop} {S : Snapshot → Prop} {p : Nat} {x : Call} {n n' : RawNode} (hP : Closed P)
    (hh : ∀ m, x = .step m → m.type ≠ .app ∧ m.type ≠ .heartbeat ∧ m.type ≠ .snap)
    (ho : ∀ o ∈ (Deed.act (.call p x)).offers env, ∀ e : Entry, (e.type, e.data) = o → P e) (h : x.run env n = .ok n') (hn : n.raft.From P S) : n'.raft.From P S := by
  have plain : ∀ m : Message, m.type ≠ .app ∧ m.type ≠ .prop ∧ m.type ≠ .snap ∧ m.type ≠ .heartbeat → m.From P S := fun m => .of
  cases x with
  | step m =>
    obtain ⟨k1, k2, k3⟩ := hh m rfl
    refine Call.from (env := env) (n := n) (c := .step m) hP ⟨fun k => ?_, fun k => absurd k k3, ?_⟩ ?_ h hn
    · intro e he
      have kp : m.type = .prop := k.resolve_left k1
      refine ho (e.type, e.data) ?_ e rfl
      show _ ∈ if m.type = .prop then _ else _
      rw [if_pos kp]
      exact List.mem_map.2 ⟨e, he, rfl⟩
    · intro k; rcases k with k | k | k
      · exact absurd k k1
      · exact absurd k k2
      · exact absurd k k3
    · intro k; rcases k with k | k | k
      · exact absurd k k1
      · exact absurd k k2
      · exact absurd k k3
  | propose d =>
    refine Call.from (env := env) (n := n) (c := .propose d) hP ⟨fun _ e he => ?_, fun k => (by cases k), fun k => by rcases k with k | k | k <;> cases k⟩ trivial h hn
    rw [List.mem_singleton.1 he]
    exact ho (.normal, d) List.mem_cons_self _ rfl
  | proposeConfChange cc =>
    refine Call.from (env := env) (n := n) (c := .proposeConfChange cc) hP ⟨fun _ e he => ?_, fun k => (by cases k), fun k => by rcases k with k | k | k <;> cases k⟩ trivial h hn
    rw [List.mem_singleton.1 he]
    exact ho (cc.marshal env) List.mem_cons_self _ rfl
  | tick =>
    refine Call.from (env := env) (n := n) (c := .tick) hP (plain _ ?_) trivial h hn
    unfold Call.msg
    dsimp only
    split <;> exact ⟨nofun, nofun, nofun, nofun⟩
  | tickQuiesced => exact Call.from (env := env) (n := n) (c := .tickQuiesced) hP (plain (Call.msg env n (.tickQuiesced)) ⟨nofun, nofun, nofun, nofun⟩) trivial h hn
  | campaign => exact Call.from (env := env) (n := n) (c := .campaign) hP (plain (Call.msg env n (.campaign)) ⟨nofun, nofun, nofun, nofun⟩) trivial h hn
  | applyConfChange cc => exact Call.from (env := env) (n := n) (c := .applyConfChange cc) hP (plain (Call.msg env n (.applyConfChange cc)) ⟨nofun, nofun, nofun, nofun⟩) trivial h hn
  | getReady => exact Call.from (env := env) (n := n) (c := .getReady) hP (plain (Call.msg env n (.getReady)) ⟨nofun, nofun, nofun, nofun⟩) trivial h hn
  | advance => exact Call.from (env := env) (n := n) (c := .advance) hP (plain (Call.msg env n (.advance)) ⟨nofun, nofun, nofun, nofun⟩) trivial h hn
  | reportUnreachable i => exact Call.from (env := env) (n := n) (c := .reportUnreachable i) hP (plain (Call.msg env n (.reportUnreachable i)) ⟨nofun, nofun, nofun, nofun⟩) trivial h hn
  | reportSnapshot i f => exact Call.from (env := env) (n := n) (c := .reportSnapshot i f) hP (plain (Call.msg env n (.reportSnapshot i f)) ⟨nofun, nofun, nofun, nofun⟩) trivial h hn
  | transferLeader i => exact Call.from (env := env) (n := n) (c := .transferLeader i) hP (plain (Call.msg env n (.transferLeader i)) ⟨nofun, nofun, nofun, nofun⟩) trivial h hn
  | readIndex ctx => exact Call.from (env := env) (n := n) (c := .readIndex ctx) hP (plain (Call.msg env n (.readIndex ctx)) ⟨nofun, nofun, nofun, nofun⟩) trivial h hn

theorem Deed.from {P : Entry → Prop} {S : Snapshot → Prop} {d : Deed} {c c' : State} (hP : Closed P)
    (hh : d.Honest c) (ho : ∀ o ∈ d.offers env, ∀ e : Entry, (e.type, e.data) = o → P e)
    (hm : ∀ o ∈ d.makes c, ∀ s : Snapshot, (s.metadata.index, s.metadata.confState, s.data) = o → S s)
    (h : d.run env dec c = .ok c') (hc : c.From P S) : c'.From P S := by
  cases d with
  | boot p cfg rng peers =>
    unfold Deed.run at h
    dsimp only at h
    have k := hc.proc p
    split at h
    · cases h; exact hc
    · next st e =>
      rw [e] at k
      obtain ⟨n0, h1, h⟩ := Res.bind_eq_ok.1 h
      obtain ⟨⟨n, x⟩, h2, h⟩ := Res.bind_eq_ok.1 h
      cases h
      refine hc.set (x := .up n _) (RawNode.bootstrap_from hP ?_ h2 (RawNode.new_from h1 k))
      intro q hq e h1 h2
      refine ho (.confChange, env.serV1 { type := .addNode, nodeId := q.1, context := q.2 }) (List.mem_map.2 ⟨q, hq, rfl⟩) e ?_
      rw [h1, h2]
  | act x =>
    unfold Deed.run at h
    dsimp only at h
    cases x with
    | start p cfg rng =>
      unfold Act.run at h
      dsimp only at h
      have k := hc.proc p
      split at h
      · cases h; exact hc
      · next st e =>
        rw [e] at k
        obtain ⟨n0, h1, h⟩ := Res.bind_eq_ok.1 h
        cases h
        exact hc.set (x := .up n0 _) (RawNode.new_from h1 k)
    | call p x =>
      unfold Act.run at h
      dsimp only at h
      have k := hc.proc p
      split at h
      · cases h; exact hc
      · next n a e =>
        rw [e] at k
        obtain ⟨n0, h1, h⟩ := Res.bind_eq_ok.1 h
        cases h
        refine hc.set (x := .up n0 _) (call_from (p := p) hP ?_ ho h1 k)
        rintro m rfl
        exact hh
    | deliver p m =>
      unfold Act.run at h
      dsimp only at h
      have k := hc.proc p
      split at h
      · cases h; exact hc
      · next n a e =>
        rw [e] at k
        obtain ⟨n0, h1, h⟩ := Res.bind_eq_ok.1 h
        cases h
        have hf := hc.net m hh
        exact hc.set (x := .up n0 _) (Call.from (c := .step m) hP hf hf.term h1 k)
    | ready p =>
      unfold Act.run at h
      dsimp only at h
      have k := hc.proc p
      split at h
      · cases h; exact hc
      · next n a e =>
        rw [e] at k
        obtain ⟨⟨n', a', rd⟩, h1, h⟩ := Res.bind_eq_ok.1 h
        cases h
        obtain ⟨k1, k2, k3⟩ := handle_from hP h1 k
        have w := hc.set (p := p) (x := .up n' a') k1
        refine ⟨w.proc, fun m hm => (List.mem_append.1 hm).elim (hc.net m) (k2 m), fun d hd => ?_⟩
        rcases List.mem_append.1 hd with hd | hd
        · exact hc.out d hd
        · obtain ⟨e, he, rfl⟩ := List.mem_map.1 hd
          exact k3 e he
    | compact p i =>
      unfold Act.run at h
      dsimp only at h
      have k := hc.proc p
      split at h
      · cases h; exact hc
      · next n a e =>
        rw [e] at k
        obtain ⟨⟨st, x⟩, h1, h⟩ := Res.bind_eq_ok.1 h
        cases h
        exact hc.set (x := .up _ _) (RawNode.withStorage_from k (Storage.From.compact k.core.log.storage h1))
    | createSnapshot p data =>
      unfold Act.run at h
      dsimp only at h
      have k := hc.proc p
      split at h
      · cases h; exact hc
      · next n a e =>
        rw [e] at k
        obtain ⟨⟨st, x⟩, h1, h⟩ := Res.bind_eq_ok.1 h
        cases h
        refine hc.set (x := .up _ _) (RawNode.withStorage_from k (Storage.From.createSnapshot k.core.log.storage ?_ h1))
        intro s i1 i2 i3
        refine hm (a.index, a.conf, data) ?_ s ?_
        · show _ ∈ match c.proc p with
            | .up _ a => _
            | .down _ => _
          rw [e]; exact List.mem_cons_self
        · rw [i1, i2 _ rfl, i3]
    | crash p =>
      unfold Act.run at h
      dsimp only at h
      have k := hc.proc p
      split at h
      · cases h; exact hc
      · next n a e =>
        rw [e] at k
        cases h
        exact hc.set (x := .down _) k.core.log.storage
    | crashReady p keep j =>
      unfold Act.run at h
      dsimp only at h
      have k := hc.proc p
      split at h
      · cases h; exact hc
      · next n a e =>
        rw [e] at k
        obtain ⟨⟨n', rd⟩, h1, h⟩ := Res.bind_eq_ok.1 h
        cases h
        obtain ⟨k1, k2, k3⟩ := RawNode.takeReady_from hP h1 k
        have w := hc.set (p := p) (x := .down n'.raft.log.storage) k1.core.log.storage
        refine ⟨w.proc, fun m hm => (List.mem_append.1 hm).elim (hc.net m) (fun hm => k2 m (List.mem_filter.1 hm).1), fun d hd => ?_⟩
        rcases List.mem_append.1 hd with hd | hd
        · exact hc.out d hd
        · obtain ⟨e, he, rfl⟩ := List.mem_map.1 hd
          exact k3 e (List.mem_of_mem_take he)

theorem Trace.from {disk : Nat → Storage} {os : List (EntryType × Bytes)} {ms : List (Nat × ConfState × Bytes)} {c : State}
    (h : Trace env dec disk os ms c) : c.From (Accounted disk os) (Made disk ms) := by
  induction h with
  | init =>
    refine ⟨fun p => ⟨fun e he => ?_, ?_⟩, nofun, nofun⟩
    · exact Or.inr (Or.inr ⟨p, e, he, rfl, rfl⟩)
    · exact Or.inr (Or.inr ⟨p, rfl⟩)
  | deed d _ hh hr ih =>
    refine Deed.from (Accounted.closed _ _) hh ?_ ?_ hr (ih.mono (fun _ => Accounted.mono) (fun _ => Made.mono))
    · rintro o ho e rfl
      exact Or.inr (Or.inl (List.mem_append_right _ ho))
    · rintro o ho s rfl
      exact Or.inr (Or.inl (List.mem_append_right _ ho))

/-- C76: whatever happens, every entry that is delivered, stored on a disk, held in memory or under way was offered by an application, or is
empty, or was there from the beginning; its type and data are those offered, unaltered. -/
theorem C76_entries {disk : Nat → Storage} {os : List (EntryType × Bytes)} {ms : List (Nat × ConfState × Bytes)} {c : State}
    (h : Trace env dec disk os ms c) :
    (∀ d ∈ c.out, Accounted disk os d.entry) ∧
    (∀ p, ∀ e ∈ (c.proc p).disk.ents.tail, Accounted disk os e) ∧
    (∀ p n a, c.proc p = .up n a → ∀ e ∈ n.raft.log.unstable.entries, Accounted disk os e) ∧
    (∀ m ∈ c.net, m.type = .app ∨ m.type = .prop → ∀ e ∈ m.entries, Accounted disk os e) := by
  have f := h.from
  refine ⟨f.out, fun p => ?_, fun p n a hp => ?_, fun m hm => (f.net m hm).ents⟩
  · have k := f.proc p
    cases hp : c.proc p with
    | down st => rw [hp] at k; exact Storage.From.ents k
    | up n a => rw [hp] at k; exact (Raft.From.core k).log.storage.ents
  · have k := f.proc p
    rw [hp] at k
    exact (Raft.From.core k).log.ents

/-- C76: and every snapshot on a disk, held in memory or under way is one that an application made, with its index, configuration and data,
or was there from the beginning. -/
theorem C76_snapshots {disk : Nat → Storage} {os : List (EntryType × Bytes)} {ms : List (Nat × ConfState × Bytes)} {c : State}
    (h : Trace env dec disk os ms c) :
    (∀ p, Made disk ms (c.proc p).disk.snapshot) ∧
    (∀ p n a s, c.proc p = .up n a → n.raft.log.unstable.snapshot = some s → Made disk ms s) ∧
    (∀ m ∈ c.net, m.type = .snap → Made disk ms (m.snapshot.getD {})) := by
  have f := h.from
  refine ⟨fun p => ?_, fun p n a s hp => ?_, fun m hm => (f.net m hm).snap⟩
  · have k := f.proc p
    cases hp : c.proc p with
    | down st => rw [hp] at k; exact Storage.From.snap k
    | up n a => rw [hp] at k; exact (Raft.From.core k).log.storage.snap
  · have k := f.proc p
    rw [hp] at k
    exact (Raft.From.core k).log.snap s

/-! ## Example -/

end Given
end Craft

namespace Craft.Given.Demo
open Members
open Dyn.Demo (env dec)

inductive Cmd where
  | deed (d : Deed)
  | deliver (p k : Nat)

def Cmd.deed? (c : State) : Cmd → Option Deed
  | .deed (.act (.deliver _ _)) => none
  | .deed (.act (.call _ (.step _))) => none
  | .deed d => some d
  | .deliver p k => (c.net[k]?).map fun m => .act (.deliver p m)

theorem Cmd.honest {c : State} {x : Cmd} {d : Deed} (h : x.deed? c = some d) : d.Honest c := by
  unfold Cmd.deed? at h
  split at h
  · cases h
  · cases h
  · cases h
    unfold Deed.Honest
    split
    · next p m h1 h2 => exact absurd rfl (h1 p m)
    · next p m h1 h2 => exact absurd rfl (h2 p m)
    · trivial
  · obtain ⟨m, h1, rfl⟩ := Option.map_eq_some_iff.1 h
    exact List.mem_of_getElem? h1

def follow : List Cmd → List (EntryType × Bytes) → List (Nat × ConfState × Bytes) → State → Option (List (EntryType × Bytes) × List (Nat × ConfState × Bytes) × State)
  | [], os, ms, c => some (os, ms, c)
  | x :: xs, os, ms, c => match x.deed? c with
    | none => none
    | some d => match d.run env dec c with
      | .ok c' => follow xs (os ++ d.offers env) (ms ++ d.makes c) c'
      | _ => none

theorem follow_trace {disk : Nat → Storage} {xs : List Cmd} {os : List (EntryType × Bytes)} {ms : List (Nat × ConfState × Bytes)} {c : State}
    (ht : Trace env dec disk os ms c) {r : List (EntryType × Bytes) × List (Nat × ConfState × Bytes) × State} (h : follow xs os ms c = some r) :
    Trace env dec disk r.1 r.2.1 r.2.2 := by
  induction xs generalizing os ms c with
  | nil => cases h; exact ht
  | cons x xs ih =>
    unfold follow at h
    split at h
    · cases h
    · next d hd =>
      split at h
      · next c' hc' => exact ih (.deed d ht (Cmd.honest hd) hc') h
      · cases h

/-- Nodes 1 and 2 are bootstrapped; node 1 is elected; a proposal is made at node 2, which forwards it; both apply it, and node 1
makes a snapshot. Node 3, which missed all, is added and gets the snapshot. -/
def story : List Cmd :=
  let b (p : Nat) : Cmd := .deed (.boot p (Craft.Demo.cfg p) 0 Dyn.BootDemo.peers)
  let r (p : Nat) : Cmd := .deed (.act (.ready p))
  let c (p : Nat) (x : Call) : Cmd := .deed (.act (.call p x))
  let d := Cmd.deliver
  [b 1, b 2, r 1, r 2, c 1 .campaign, r 1, d 2 0, r 2, d 1 1, r 1, d 2 2, r 2, c 2 (.propose [9]), r 2, d 1 3, d 1 4, r 1, d 2 5, d 2 6, r 2, d 1 8, r 1, d 2 9, r 2,
   c 1 (.proposeConfChange (.v2 { changes := [⟨.addNode, 3⟩] })), r 1, d 2 11, r 2, d 1 12, r 1, r 1, .deed (.act (.createSnapshot 1 [5])), .deed (.act (.compact 1 5)), .deed (.act (.start 3 (Craft.Demo.cfg 3) 0)), d 3 14, r 3, d 1 15, r 1, d 3 16, r 3]

def last : List (EntryType × Bytes) × List (Nat × ConfState × Bytes) × State := (follow story [] [] { proc := fun _ => .down {} }).getD ([], [], { proc := fun _ => .down {} })

theorem last_trace : Trace env dec (fun _ => {}) last.1 last.2.1 last.2.2 := by
  have h : (follow story [] [] { proc := fun _ => .down {} }).isSome = true := by decide +kernel
  obtain ⟨r, hr⟩ := Option.isSome_iff_exists.1 h
  have : last = r := by unfold last; rw [hr]; rfl
  rw [this]
  exact follow_trace .init hr

/-- The proposal was offered at node 2 and delivered at both, the snapshot of node 1 arrived at node 3. -/
example : (EntryType.normal, [9]) ∈ last.1 ∧ (last.2.2.out.filter fun d => decide (d.entry.data = [9])).map (·.node) = [1, 2] ∧
    (last.2.2.proc 3).disk.snapshot = { metadata := { confState := { voters := [1, 2, 3] }, index := 5, term := 2 }, data := [5] } ∧ last.2.1 = [(5, { voters := [1, 2, 3] }, [5])] := by decide +kernel

/-- It follows from the theorems that these came from the applications. -/
example : (∀ d ∈ last.2.2.out, Accounted (fun _ => {}) last.1 d.entry) ∧ ∀ p, Made (fun _ => {}) last.2.1 (last.2.2.proc p).disk.snapshot :=
  ⟨(C76_entries last_trace).1, (C76_snapshots last_trace).1⟩

end Craft.Given.Demo
