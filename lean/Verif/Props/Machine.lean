import Verif.Dyn.Machine
import Verif.Dyn.Demo
import Verif.Dyn.BootDemo

/-! # Replicated state machines: C99 -/

namespace Craft.Dyn
open Spec Members
open Cluster (Genesis Delivered)

section
variable {σ : Type} {M : Machine σ} {env : Env} {dec : Entry → Option ConfChangeI}

theorem contig_take {k n : Nat} {es : List Entry} (h : Contig k es) : Contig k (es.take n) := by
  intro i e he
  rw [List.getElem?_take] at he
  split at he
  · exact h i e he
  · cases he

/-- A snapshot on a disk in the beginning. -/
theorem snapSound_init {G : Genesis} {st : Storage} {c : State} (hc : Contig 1 G.log) (hd : GenesisDisk G st) (hh : M.Holds G.log st) :
    SnapSound M G.log c st.snapshot := by
  refine hh.imp id fun h => ?_
  have := hd.snapIndex
  refine ⟨G.log.take st.snapshot.metadata.index, contig_take hc, ?_, fun e he => Or.inl (List.mem_of_mem_take he), h⟩
  rw [List.length_take]; omega

/-- C99. Let every application run the same deterministic state machine over the entries it is handed, save its state in the snapshots it
makes, and load it from the snapshot on its disk when it restarts and from the snapshots it is handed. Then all machines agree, at all times:
there is one sequence of entries such that the machine of every node is in the state after exactly the entries up to the index its
application has applied. -/
theorem C99_replicated_machine {G : Genesis} (hG : GenesisOK dec G) (disk : Nat → Storage)
    (hd : ∀ p, GenesisDisk G (disk p) ∧ M.Holds G.log (disk p)) {hist : List (Nat × Nat × σ)} {c : State} {sm : Nat → σ}
    (hr : M.Run env dec disk hist c sm) : M.Replicated G.log hist c sm := by
  have key : ∃ g, (gen hG).MS M hist c sm g := by
    induction hr with
    | init =>
      obtain ⟨g, hg⟩ := reach_rel hG (env := env) (.init disk fun p => (hd p).1)
      refine ⟨g, hg, ?_, fun p n a h => (by cases h), fun r h => (by cases h), fun h => h⟩
      exact ⟨fun p => ⟨fun _ _ => trivial, snapSound_init hG.contig (hd p).1 (hd p).2⟩, fun m hm => (by cases hm), fun d hd => (by cases hd)⟩
    | act a _ ha hs he ih =>
      obtain ⟨g, hg⟩ := ih
      exact hg.act a ha hs he fun p hf => (False.elim hf)
  obtain ⟨g, hg⟩ := key
  exact hg.replicated hG.contig

open Boot in
theorem boot_ms {peers : List (Nat × Bytes)} (hP : PeersOK env dec peers) {hist : List (Nat × Nat × σ)} {c c' : State} {sm : Nat → σ} {g : DState}
    {a : Boot.Act} (hg : (bgen hP).MS M hist c sm g) (ha : a.Allowed peers c) (hs : M.SavesBoot sm a) (he : a.run env dec peers c = .ok c') :
    ∃ g', (bgen hP).MS M (hist ++ Machine.seenBoot c' (M.nextBoot env dec c sm a) a) c' (M.nextBoot env dec c sm a) g' := by
  cases a with
  | plain a => exact hg.act a ha.1 hs he fun p hf hp => plain_founders ha he hf hp
  | boot p cfg rng =>
    obtain ⟨k1, k2, k3, k4, _⟩ := ha
    unfold Boot.Act.run at he
    obtain ⟨n0, k5, he⟩ := Res.bind_eq_ok.1 he
    obtain ⟨⟨n, e⟩, k6, he⟩ := Res.bind_eq_ok.1 he
    have hnil : hist ++ Machine.seenBoot c' (M.nextBoot env dec c sm (.boot p cfg rng)) (.boot p cfg rng) = hist := List.append_nil _
    rw [hnil]
    cases e with
    | some e =>
      simp only [Res.pure_eq, Res.ok.injEq] at he
      subst he
      refine ⟨g, hg.rel, hg.snaps, fun q n a hq => ?_, hg.hist, hg.lax⟩
      show Sound M _ _ _ (if q = p then M.init else sm q)
      rw [if_neg fun h => by rw [h, k1] at hq; cases hq]
      exact hg.sm q n a hq
    | none =>
      simp only [Res.pure_eq, Res.ok.injEq] at he
      subst he
      refine ⟨g, hg.boot (boot_rel hP hg.rel k1 k2 k3 k4 k5 k6) ?_⟩
      refine RawNode.bootstrap_from closed_true (fun _ _ _ _ _ => trivial) k6 (RawNode.new_from k5 ?_)
      exact ⟨fun _ _ => trivial, Or.inl rfl⟩

open Boot in
/-- The same for a cluster whose founders are started with `Bootstrap`. -/
theorem C99_replicated_machine_boot {peers : List (Nat × Bytes)} (hP : PeersOK env dec peers) {hist : List (Nat × Nat × σ)} {c : State} {sm : Nat → σ}
    (hr : M.BootRun env dec peers hist c sm) : M.Replicated [] hist c sm := by
  have key : ∃ g, (bgen hP).MS M hist c sm g := by
    induction hr with
    | init =>
      obtain ⟨g, hg⟩ := boot_init hP (st := False) fun h => h.elim
      refine ⟨g, hg, ?_, fun p n a h => (by cases h), fun r h => (by cases h), fun h => h⟩
      exact ⟨fun p => ⟨fun _ _ => trivial, Or.inl rfl⟩, fun m hm => (by cases hm), fun d hd => (by cases hd)⟩
    | act a _ ha hs he ih =>
      obtain ⟨g, hg⟩ := ih
      exact boot_ms hP hg ha hs he
  obtain ⟨g, hg⟩ := key
  exact hg.replicated fun i e h => (by cases h)

end

/-! ## Concrete executions -/

namespace MachineDemo
open Craft.Dyn.Demo (env dec Cmd)
open Craft.Cluster.Demo (genesis genesis_disk)

/-- A machine that strings together the data of the entries. -/
def text : Machine Bytes := ⟨[], fun s e => s ++ e.data, id, id, fun _ => rfl⟩

/-- The command as an action, if it is allowed. -/
def act (c : State) (sm : Nat → Bytes) : Cmd → Option Members.Act
  | .start p => match c.proc p with
    | .down _ => if p = 0 then none else some (.start p (Craft.Demo.cfg p) 0)
    | .up _ _ => none
  | .call p x => if (raftOf c p).isSome ∧ Demo.plain x then some (.call p x) else none
  | .deliver p k => match c.net[k]? with
    | some m => if (raftOf c p).isSome ∧ m.to = p then some (.deliver p m) else none
    | none => none
  | .ready p => if (raftOf c p).isSome then some (.ready p) else none
  | .crash p => if (raftOf c p).isSome then some (.crash p) else none
  | .compact p i => match c.proc p with
    | .up n _ => if i ≤ n.raft.log.applied ∧ i ≤ n.raft.log.storage.snapshot.metadata.index then some (.compact p i) else none
    | .down _ => none
  | .snapshot p => if (raftOf c p).isSome then some (.createSnapshot p (text.save (sm p))) else none

theorem up_of {c : State} {p : Nat} (h : (raftOf c p).isSome = true) : ∃ n a, c.proc p = .up n a := by
  unfold raftOf at h
  cases hp : c.proc p with
  | up n a => exact ⟨n, a, rfl⟩
  | down st => rw [hp] at h; cases h

theorem cfg_sane {p : Nat} (h0 : p ≠ 0) (st : Storage) : (Craft.Demo.cfg p).Sane st := by
  refine ⟨h0, ?_, ?_, ?_, ?_, (fun h => by cases h), Or.inl rfl⟩
  · show (0 : Int) < 1; omega
  · show (1 : Int) < 10; omega
  · show (10 : Int) < 2 ^ 31; omega
  · show (0 : Int) < 8; omega

theorem act_ok {c : State} {sm : Nat → Bytes} {x : Cmd} {a : Members.Act} (h : act c sm x = some a) : a.Allowed c ∧ text.Saves sm a := by
  cases x with
  | start p =>
    simp only [act] at h
    split at h
    · next st hp =>
      split at h
      · cases h
      · next h0 =>
        cases h
        exact ⟨⟨st, hp, rfl, Nat.zero_le _, cfg_sane h0 st, by show (8 : Int) ≤ 2 ^ 30; omega⟩, trivial⟩
    · cases h
  | call p x =>
    simp only [act] at h
    split at h
    · next hs =>
      cases h
      refine ⟨⟨up_of hs.1, ?_, ?_⟩, trivial⟩
      · cases x <;> first | trivial | (cases hs.2)
      · rintro m rfl; cases hs.2
    · cases h
  | deliver p k =>
    simp only [act] at h
    split at h
    · next m hk =>
      split at h
      · next hs => cases h; exact ⟨⟨up_of hs.1, List.mem_iff_getElem?.2 ⟨k, hk⟩, hs.2⟩, trivial⟩
      · cases h
    · cases h
  | ready p =>
    simp only [act] at h
    split at h
    · next hs => cases h; exact ⟨up_of hs, trivial⟩
    · cases h
  | crash p =>
    simp only [act] at h
    split at h
    · next hs => cases h; exact ⟨up_of hs, trivial⟩
    · cases h
  | compact p i =>
    simp only [act] at h
    split at h
    · next n a hp =>
      split at h
      · next hs => cases h; exact ⟨⟨n, a, hp, hs.1, hs.2⟩, trivial⟩
      · cases h
    · cases h
  | snapshot p =>
    simp only [act] at h
    split at h
    · next hs => cases h; exact ⟨up_of hs, rfl⟩
    · cases h

/-- Runs the commands. -/
def exec : List Cmd → List (Nat × Nat × Bytes) × State × (Nat → Bytes) → Option (List (Nat × Nat × Bytes) × State × (Nat → Bytes))
  | [], s => some s
  | x :: xs, (hist, c, sm) => match act c sm x with
    | none => none
    | some a => match a.run env dec c with
      | .ok c' => exec xs (hist ++ Machine.seen c' (text.next env dec c sm a) a, c', text.next env dec c sm a)
      | _ => none

theorem exec_run {disk : Nat → Storage} {xs : List Cmd} {hist hist' : List (Nat × Nat × Bytes)} {c c' : State} {sm sm' : Nat → Bytes}
    (hr : text.Run env dec disk hist c sm) (h : exec xs (hist, c, sm) = some (hist', c', sm')) : text.Run env dec disk hist' c' sm' := by
  induction xs generalizing hist c sm with
  | nil => cases h; exact hr
  | cons x xs ih =>
    unfold exec at h
    split at h
    · cases h
    · next a ha =>
      split at h
      · next c1 h1 => exact ih (.act a hr (act_ok ha).1 (act_ok ha).2 h1) h
      · cases h

/-- The story of the cluster that changes its members, with three more steps: nodes 2 and 4 make snapshots, and 2 crashes and restarts. -/
def story : List Cmd := Demo.story ++ [.snapshot 2, .crash 2, .start 2, .start 1]

def last : List (Nat × Nat × Bytes) × State × (Nat → Bytes) := (exec story ([], Demo.init, fun _ => [])).getD ([], Demo.init, fun _ => [])

theorem last_run : text.Run env dec (fun _ => Craft.Demo.store) last.1 last.2.1 last.2.2 := by
  have h : (exec story ([], Demo.init, fun _ => [])).isSome = true := by decide +kernel
  obtain ⟨s, hs⟩ := Option.isSome_iff_exists.1 h
  have hl : last = s := by simp [last, hs]
  rw [hl]
  exact exec_run .init hs



/-- Node, applied index, and state of the machine, whenever a node was done with a Ready: node 4 joins with a snapshot. -/
theorem last_hist : last.1 = [(1, 0, []), (2, 0, []), (1, 0, []), (2, 0, []), (1, 1, []), (2, 1, []), (1, 2, [0, 4, 1, 3]), (1, 2, [0, 4, 1, 3]),
    (2, 2, [0, 4, 1, 3]), (4, 0, []), (1, 2, [0, 4, 1, 3]), (4, 2, [0, 4, 1, 3]), (1, 2, [0, 4, 1, 3]), (4, 2, [0, 4, 1, 3]), (2, 2, [0, 4, 1, 3]),
    (1, 4, [0, 4, 1, 3, 5]), (4, 4, [0, 4, 1, 3, 5]), (2, 4, [0, 4, 1, 3, 5]), (4, 4, [0, 4, 1, 3, 5]), (2, 4, [0, 4, 1, 3, 5]),
    (4, 4, [0, 4, 1, 3, 5]), (2, 4, [0, 4, 1, 3, 5]), (4, 5, [0, 4, 1, 3, 5])] := by decide +kernel

/-- The index the application of a running node has applied. -/
def indexOf (c : State) (p : Nat) : Option Nat := match c.proc p with
  | .up _ a => some a.index
  | .down _ => none

/-- Node 1 restarted from its old snapshot, node 2 from its new one. -/
theorem last_machines : [1, 2, 4].map (fun p => (indexOf last.2.1 p, last.2.2 p)) =
    [(some 2, [0, 4, 1, 3]), (some 4, [0, 4, 1, 3, 5]), (some 5, [0, 4, 1, 3, 5])] := by decide +kernel

/-- C99 holds of it. -/
example : text.Replicated [] last.1 last.2.1 last.2.2 :=
  C99_replicated_machine Demo.genesisOK _ (fun _ => ⟨⟨genesis_disk, by decide⟩, Or.inl rfl⟩) last_run

/-- What node 4 loads is what node 1 saved. -/
theorem last_loaded : (last.2.1.net.filterMap fun m => m.snapshot.map fun x => (x.metadata.index, x.data)) =
    [(2, [0, 4, 1, 3])] := by decide +kernel

open Dyn.BootDemo (peers)

/-- The same with founders that are bootstrapped. -/
def bootAct (c : State) (sm : Nat → Bytes) : Cmd → Option Boot.Act
  | .start p => match c.proc p with
    | .down st => if p ∈ peers.map (·.1) ∧ p ≠ 0 then if st = {} then some (.boot p (Craft.Demo.cfg p) 0) else none
        else (act c sm (.start p)).map .plain
    | .up _ _ => none
  | x => (act c sm x).map .plain

theorem act_start {c : State} {sm : Nat → Bytes} {x : Cmd} {p : Nat} {cfg : Config} {rng : Nat} (h : act c sm x = some (.start p cfg rng)) :
    x = .start p ∧ p ≠ 0 := by
  cases x with
  | start q =>
    simp only [act] at h
    split at h
    · split at h
      · cases h
      · next h0 => cases h; exact ⟨rfl, h0⟩
    · cases h
  | deliver q k =>
    simp only [act] at h
    split at h
    · split at h <;> cases h
    · cases h
  | compact q i =>
    simp only [act] at h
    split at h
    · split at h <;> cases h
    · cases h
  | _ => simp only [act] at h; split at h <;> cases h

theorem bootAct_ok {c : State} {sm : Nat → Bytes} {x : Cmd} {a : Boot.Act} (h : bootAct c sm x = some a) :
    a.Allowed peers c ∧ text.SavesBoot sm a := by
  have other : ∀ {a : Boot.Act}, (act c sm x).map .plain = some a → (∀ p, x = .start p → ¬ (p ∈ peers.map (·.1) ∧ p ≠ 0)) →
      a.Allowed peers c ∧ text.SavesBoot sm a := by
    intro a h hx
    obtain ⟨b, h1, rfl⟩ := Option.map_eq_some_iff.1 h
    refine ⟨⟨(act_ok h1).1, fun p cfg rng he hq => ?_⟩, (act_ok h1).2⟩
    subst he
    obtain ⟨rfl, h0⟩ := act_start h1
    exact absurd ⟨hq, h0⟩ (hx p rfl)
  cases x with
  | start p =>
    simp only [bootAct] at h
    split at h
    · next st hp =>
      split at h
      · next hf =>
        split at h
        · next hs =>
          cases h
          subst hs
          exact ⟨⟨hp, hf.1, rfl, rfl, cfg_sane hf.2 {}, by show (8 : Int) ≤ 2 ^ 30; omega⟩, trivial⟩
        · cases h
      · next hf => exact other h fun q hq => by cases hq; exact hf
    · cases h
  | _ => exact other h fun q hq => by cases hq

def bootExec : List Cmd → List (Nat × Nat × Bytes) × State × (Nat → Bytes) → Option (List (Nat × Nat × Bytes) × State × (Nat → Bytes))
  | [], s => some s
  | x :: xs, (hist, c, sm) => match bootAct c sm x with
    | none => none
    | some a => match a.run env dec peers c with
      | .ok c' => bootExec xs (hist ++ Machine.seenBoot c' (text.nextBoot env dec c sm a) a, c', text.nextBoot env dec c sm a)
      | _ => none

theorem bootExec_run {xs : List Cmd} {hist hist' : List (Nat × Nat × Bytes)} {c c' : State} {sm sm' : Nat → Bytes}
    (hr : text.BootRun env dec peers hist c sm) (h : bootExec xs (hist, c, sm) = some (hist', c', sm')) : text.BootRun env dec peers hist' c' sm' := by
  induction xs generalizing hist c sm with
  | nil => cases h; exact hr
  | cons x xs ih =>
    unfold bootExec at h
    split at h
    · cases h
    · next a ha =>
      split at h
      · next c1 h1 => exact ih (.act a hr (bootAct_ok ha).1 (bootAct_ok ha).2 h1) h
      · cases h

/-- Nodes 1 and 2 are founders; an entry is committed, and 3 joins with a snapshot that 1 made. -/
def bootStory : List Cmd :=
  [.start 1, .start 2, .ready 1, .ready 2, .call 1 .campaign, .ready 1, .deliver 2 0, .ready 2, .deliver 1 1, .ready 1, .deliver 2 2, .ready 2,
   .call 2 (.propose [9]), .ready 2, .deliver 1 3, .deliver 1 4, .ready 1, .deliver 2 5, .deliver 2 6, .ready 2, .deliver 1 8, .ready 1, .deliver 2 9, .ready 2,
   .call 1 (.proposeConfChange (.v2 { changes := [⟨.addNode, 3⟩] })), .ready 1, .deliver 2 11, .ready 2, .deliver 1 12, .ready 1, .ready 1, .snapshot 1,
   .compact 1 5, .start 3, .deliver 3 14, .ready 3, .deliver 1 15, .ready 1, .deliver 3 16, .ready 3]

def bootLast : List (Nat × Nat × Bytes) × State × (Nat → Bytes) := (bootExec bootStory ([], Boot.blank, fun _ => [])).getD ([], Boot.blank, fun _ => [])

theorem bootLast_run : text.BootRun env dec peers bootLast.1 bootLast.2.1 bootLast.2.2 := by
  have h : (bootExec bootStory ([], Boot.blank, fun _ => [])).isSome = true := by decide +kernel
  obtain ⟨s, hs⟩ := Option.isSome_iff_exists.1 h
  have hl : bootLast = s := by simp [bootLast, hs]
  rw [hl]
  exact bootExec_run .init hs

theorem bootLast_machines : [1, 2, 3].map (fun p => (indexOf bootLast.2.1 p, bootLast.2.2 p)) =
    [(some 5, [0, 1, 0, 2, 9, 0, 3]), (some 4, [0, 1, 0, 2, 9]), (some 5, [0, 1, 0, 2, 9, 0, 3])] := by decide +kernel

example : text.Replicated [] bootLast.1 bootLast.2.1 bootLast.2.2 := C99_replicated_machine_boot BootDemo.peersOK bootLast_run

end MachineDemo
end Craft.Dyn
