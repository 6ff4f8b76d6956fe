import Verif.Props.Machine
import Verif.Props.BootReads
import Verif.Spec.MachineReads

/-! # Reading from replicated state machines: C100 -/

namespace Craft.Dyn
open Spec Members ReadInv
open Cluster (Genesis Delivered)

section
variable {σ : Type} {M : Machine σ} {env : Env} {dec : Entry → Option ConfChangeI}

theorem Machine.Path.run {P : State → Act → Prop} {c0 c : State} {sm0 sm : Nat → σ} {hist : List (Nat × Nat × σ)} {asked : List (Nat × Bytes)}
    (h : M.Path env dec P c0 sm0 hist asked c sm) : Members.Run env dec P c0 asked c := by
  induction h with
  | nil => exact .nil
  | act a _ ha hP _ he ih => exact .act a ih ha hP he

theorem Machine.BootPath.run {peers : List (Nat × Bytes)} {c0 c : State} {sm0 sm : Nat → σ} {hist : List (Nat × Nat × σ)} {asked : List (Nat × Bytes)}
    (h : M.BootPath env dec peers (fun c a => a.SafeReads c) c0 sm0 hist asked c sm) : Boot.Run env dec peers c0 asked c := by
  induction h with
  | nil => exact .nil
  | act a _ ha hP _ he ih => exact .act a ih ha hP he

theorem boot_run_out {peers : List (Nat × Bytes)} {c c' : State} {a : Boot.Act} (h : a.run env dec peers c = .ok c') : ∀ d ∈ c.out, d ∈ c'.out := by
  cases a with
  | plain a => exact run_out h
  | boot p cfg rng =>
    unfold Boot.Act.run at h
    obtain ⟨n0, _, h⟩ := Res.bind_eq_ok.1 h
    obtain ⟨⟨n, e⟩, _, h⟩ := Res.bind_eq_ok.1 h
    cases e with
    | some e => cases h; exact fun _ hd => hd
    | none => cases h; exact fun _ hd => hd

namespace MGen
variable {G : MGen} {hist : List (Nat × Nat × σ)} {c c' : State} {sm : Nat → σ} {g : DState}

theorem MS.path {P : State → Act → Prop} {hist' : List (Nat × Nat × σ)} {asked : List (Nat × Bytes)} {sm' : Nat → σ} (h : G.MS M hist c sm g)
    (hf : ∀ p, ¬ G.founder p) (hr : M.Path env G.dec P c sm hist' asked c' sm') :
    (∃ g', G.MS M (hist ++ hist') c' sm' g') ∧ ∀ d ∈ c.out, d ∈ c'.out := by
  induction hr with
  | nil => exact ⟨⟨g, by rw [List.append_nil]; exact h⟩, fun _ h => h⟩
  | act a _ ha _ hs he ih =>
    obtain ⟨⟨g1, h1⟩, ho⟩ := ih
    rw [← List.append_assoc]
    exact ⟨h1.act a ha hs he fun p hp => (hf p hp).elim, fun d hd => run_out he d (ho d hd)⟩

/-- What a machine has done is in the initial log or was handed out. -/
theorem _root_.Craft.Dyn.Sound.le {L0 : List Entry} {k i : Nat} {s : σ} (h : Sound M L0 c k s) (hL : Contig 1 L0) (h0 : L0.length ≤ i)
    (ho : ∀ d ∈ c.out, d.entry.index ≤ i) : k ≤ i := by
  obtain ⟨es, h1, h2, h3, _⟩ := h
  cases k with
  | zero => exact Nat.zero_le _
  | succ k =>
    have hk : k < es.length := by omega
    have hi := h1 k es[k] (List.getElem?_eq_getElem hk)
    rcases h3 es[k] (List.getElem_mem hk) with he | ⟨d, hd, he⟩
    · obtain ⟨j, hj⟩ := List.mem_iff_getElem?.1 he
      have := hL j _ hj
      have := (List.getElem?_eq_some_iff.1 hj).1
      omega
    · have := ho d hd
      rw [he] at this
      omega

theorem MS.sound (h : G.MS M hist c sm g) {k : Nat} {s : σ} (hh : Machine.Had hist c sm k s) : Sound M G.L0 c k s := by
  rcases hh with ⟨q, hq⟩ | ⟨q, n, a, h1, rfl, rfl⟩
  · exact h.hist _ hq
  · exact h.sm q n a h1

theorem MS.linear {g0 g' : DState} {hist' : List (Nat × Nat × σ)} {sm' : Nat → σ} {i : Nat} {gr : DState} (h : G.MS M hist c sm g0) (h' : G.MS M hist' c' sm' g')
    (hL : Contig 1 G.L0) (ho : ∀ d ∈ c.out, d ∈ c'.out) (hr : G.Rel c gr) (hfin : G.RFinal gr i) :
    M.Linear G.L0 (Machine.Had hist c sm) (Machine.Had hist' c' sm') i := by
  have key : ∀ {k s}, Sound M G.L0 c' k s → s = M.after (entryAt G.L0 c') k := by
    rintro k s ⟨es, h1, rfl, h3, rfl⟩
    exact after_fold h1 fun e he => h'.fixed hL (h3 e he)
  refine ⟨entryAt G.L0 c', fun j e hj => ?_, fun k s hh => ⟨?_, key ((h.sound hh).mono ho)⟩, fun k s hh => key (h'.sound hh)⟩
  · have := h'.fixed hL (e := e) (Or.inl (List.mem_of_getElem? hj))
    rw [hL j e hj] at this
    rw [Nat.add_comm]; exact this
  · exact (h.sound hh).le hL hfin.1 fun d hd => RFinal.out hfin hr hd

end MGen

/-- C100. In a cluster with replicated state machines (see C99) whose nodes use safe reads, as in C67, reads are linearizable: once a node is
given index `i` for a request, then, now and at any later time, every machine that has applied index `i` is in a state that comes after every state
any machine was in before the request was made. -/
theorem C100_linearizable {G : Genesis} (hG : GenesisOK dec G) (disk : Nat → Storage)
    (hd : ∀ p, GenesisDisk G (disk p) ∧ M.Holds G.log (disk p)) {c0 c1 c : State} {sm0 sm1 sm : Nat → σ} {h0 h1 h2 : List (Nat × Nat × σ)}
    {a0 a1 a2 : List (Nat × Bytes)}
    (r0 : M.Path env dec (fun c a => a.SafeReads c) { proc := fun p => .down (disk p) } (fun _ => M.init) h0 a0 c0 sm0)
    (r1 : M.Path env dec (fun c a => a.SafeReads c) c0 sm0 h1 a1 c1 sm1)
    (hu : (a0 ++ a1).Nodup) {x : Bytes} (hx : ∀ p, (p, x) ∉ a0) {p : Nat} {n n' : RawNode} {a : App} {rd : Ready} (hp : c1.proc p = .up n a)
    (hr : n.getReady env = .ok (n', rd)) {i : Nat} (hi : ⟨i, x⟩ ∈ rd.readStates)
    (r2 : M.Path env dec (fun _ _ => True) c1 sm1 h2 a2 c sm) :
    M.Linear G.log (Machine.Had h0 c0 sm0) (Machine.Had (h0 ++ h1 ++ h2) c sm) i := by
  obtain ⟨g, hg⟩ := reach_rel hG (env := env) (.init disk fun p => (hd p).1)
  have hf : ∀ p, ¬ (gen hG).founder p := fun p h => h
  have hm : (gen hG).MS M [] { proc := fun p => .down (disk p) } (fun _ => M.init) g :=
    ⟨hg, ⟨fun p => ⟨fun _ _ => trivial, snapSound_init hG.contig (hd p).1 (hd p).2⟩, fun m hm => (by cases hm), fun d hd => (by cases hd)⟩,
      fun p n a h => (by cases h), fun r h => (by cases h), fun h => h⟩
  obtain ⟨⟨gm0, hm0⟩, _⟩ := hm.path hf r0
  rw [List.nil_append] at hm0
  obtain ⟨⟨gm1, hm1⟩, ho1⟩ := hm0.path hf r1
  obtain ⟨⟨gm2, hm2⟩, ho2⟩ := hm1.path hf r2
  have hrr : (gen hG).RR g [] x [] { proc := fun p => .down (disk p) } g :=
    ⟨hg, ⟨fun _ h => h, fun _ => Nat.le_refl _⟩, .init rfl fun p => rfl, fun p n a h => (by cases h), fun h => h⟩
  obtain ⟨g0, hr0⟩ := hrr.run hg.reach hf (Machine.Path.run r0) (List.nodup_append.1 hu).1
  rw [List.nil_append] at hr0
  obtain ⟨g1, hr1⟩ := (hr0.remark hx).run hr0.rel.reach hf (Machine.Path.run r1) hu
  have hst := (hr1.reads.proc p _ (raftOf_up hp)).states ⟨i, x⟩ (by
    have hpr := hr1.rel.proc p
    rw [hp] at hpr
    obtain ⟨s, hu⟩ := hpr
    have h1 := (getReady_ok hr).1
    rw [readyWithoutAccept_eq hu.linv] at h1
    cases h1
    exact hi)
  exact hm0.linear hm2 hG.contig (fun d hd => ho2 d (ho1 d hd)) hr0.rel (hst.2 rfl)

open Boot in
theorem boot_path {peers : List (Nat × Bytes)} (hP : PeersOK env dec peers) {P : State → Boot.Act → Prop} {hist hist' : List (Nat × Nat × σ)}
    {c c' : State} {g : DState} {asked : List (Nat × Bytes)} {sm sm' : Nat → σ} (h : (bgen hP).MS M hist c sm g)
    (hr : M.BootPath env dec peers P c sm hist' asked c' sm') : (∃ g', (bgen hP).MS M (hist ++ hist') c' sm' g') ∧ ∀ d ∈ c.out, d ∈ c'.out := by
  induction hr with
  | nil => exact ⟨⟨g, by rw [List.append_nil]; exact h⟩, fun _ h => h⟩
  | act a _ ha _ hs he ih =>
    obtain ⟨⟨g1, h1⟩, ho⟩ := ih
    rw [← List.append_assoc]
    exact ⟨boot_ms hP h1 ha hs he, fun d hd => boot_run_out he d (ho d hd)⟩

open Boot in
/-- The same for a cluster whose founders are started with `Bootstrap`. -/
theorem C100_linearizable_boot {peers : List (Nat × Bytes)} (hP : PeersOK env dec peers) {c0 c1 c : State} {sm0 sm1 sm : Nat → σ}
    {h0 h1 h2 : List (Nat × Nat × σ)} {a0 a1 a2 : List (Nat × Bytes)}
    (r0 : M.BootPath env dec peers (fun c a => a.SafeReads c) blank (fun _ => M.init) h0 a0 c0 sm0)
    (r1 : M.BootPath env dec peers (fun c a => a.SafeReads c) c0 sm0 h1 a1 c1 sm1)
    (hu : (a0 ++ a1).Nodup) {x : Bytes} (hx : ∀ p, (p, x) ∉ a0) {p : Nat} {n n' : RawNode} {a : App} {rd : Ready} (hp : c1.proc p = .up n a)
    (hr : n.getReady env = .ok (n', rd)) {i : Nat} (hi : ⟨i, x⟩ ∈ rd.readStates)
    (r2 : M.BootPath env dec peers (fun _ _ => True) c1 sm1 h2 a2 c sm) :
    M.Linear [] (Machine.Had h0 c0 sm0) (Machine.Had (h0 ++ h1 ++ h2) c sm) i := by
  obtain ⟨g, hg⟩ := boot_init hP (st := False) fun h => h.elim
  have hm : (bgen hP).MS M [] blank (fun _ => M.init) g :=
    ⟨hg, ⟨fun p => ⟨fun _ _ => trivial, Or.inl rfl⟩, fun m hm => (by cases hm), fun d hd => (by cases hd)⟩,
      fun p n a h => (by cases h), fun r h => (by cases h), fun h => h⟩
  obtain ⟨⟨gm0, hm0⟩, _⟩ := boot_path hP hm r0
  rw [List.nil_append] at hm0
  obtain ⟨⟨gm1, hm1⟩, ho1⟩ := boot_path hP hm0 r1
  obtain ⟨⟨gm2, hm2⟩, ho2⟩ := boot_path hP hm1 r2
  have hrr : (bgen hP).RR g [] x [] blank g :=
    ⟨hg, ⟨fun _ h => h, fun _ => Nat.le_refl _⟩, .init rfl fun p => rfl, fun p n a h => (by cases h), fun h => h⟩
  obtain ⟨g0, hr0⟩ := boot_rr_run hP hg.reach hrr (Machine.BootPath.run r0) (List.nodup_append.1 hu).1
  rw [List.nil_append] at hr0
  obtain ⟨g1, hr1⟩ := boot_rr_run hP hr0.rel.reach (hr0.remark hx) (Machine.BootPath.run r1) hu
  have hst := (hr1.reads.proc p _ (raftOf_up hp)).states ⟨i, x⟩ (by
    have hpr := hr1.rel.proc p
    rw [hp] at hpr
    obtain ⟨s, hu⟩ := hpr
    have h1 := (getReady_ok hr).1
    rw [readyWithoutAccept_eq hu.linv] at h1
    cases h1
    exact hi)
  exact hm0.linear hm2 (fun i e h => (by cases h)) (fun d hd => ho2 d (ho1 d hd)) hr0.rel (hst.2 rfl)

end
/-! ## A concrete execution -/

namespace MachineDemo
open Craft.Dyn.Demo (env dec Cmd)
open Craft.Cluster.Demo (genesis genesis_disk)

/-- What a path has led to. -/
structure Out where
  hist : List (Nat × Nat × Bytes) := []
  asked : List (Nat × Bytes) := []
  c : State
  sm : Nat → Bytes

/-- Runs the commands; a leader is handed read requests only when its configuration has several voters. -/
def walk : List Cmd → Out → Option Out
  | [], o => some o
  | x :: xs, o => match act o.c o.sm x with
    | none => none
    | some a => if x.asksMany o.c then match a.run env dec o.c with
        | .ok c' => walk xs ⟨o.hist ++ Machine.seen c' (text.next env dec o.c o.sm a) a, o.asked ++ a.asks o.c, c', text.next env dec o.c o.sm a⟩
        | _ => none
      else none

theorem act_safe {c : State} {sm : Nat → Bytes} {x : Cmd} {a : Members.Act} (h : act c sm x = some a) (hm : x.asksMany c = true) : a.SafeReads c := by
  cases x with
  | start p =>
    simp only [act] at h
    split at h
    · split at h <;> cases h
      exact ⟨rfl, trivial⟩
    · cases h
  | call p x =>
    simp only [act] at h
    split at h
    · cases h
      refine ⟨trivial, ?_⟩
      cases x with
      | readIndex ctx => exact Demo.many_own hm
      | _ => trivial
    · cases h
  | deliver p k =>
    simp only [act] at h
    split at h
    · split at h
      · cases h; exact ⟨trivial, fun _ => Demo.many_own hm⟩
      · cases h
    · cases h
  | compact p i =>
    simp only [act] at h
    split at h
    · split at h <;> cases h
      exact ⟨trivial, trivial⟩
    · cases h
  | _ =>
    simp only [act] at h
    split at h <;> cases h
    exact ⟨trivial, trivial⟩

theorem walk_path {P : State → Members.Act → Prop} (hP : ∀ c a, a.SafeReads c → P c a) {xs : List Cmd} {c0 : State} {sm0 : Nat → Bytes} {o o' : Out}
    (hr : text.Path env dec P c0 sm0 o.hist o.asked o.c o.sm) (h : walk xs o = some o') :
    text.Path env dec P c0 sm0 o'.hist o'.asked o'.c o'.sm := by
  induction xs generalizing o with
  | nil => cases h; exact hr
  | cons x xs ih =>
    unfold walk at h
    split at h
    · cases h
    · next a ha =>
      split at h
      · next hm =>
        split at h
        · next c1 h1 =>
          refine ih ?_ h
          exact .act a hr (act_ok ha).1 (hP _ _ (act_safe ha hm)) (act_ok ha).2 h1
        · cases h
      · cases h

def out0 : Out := { c := Demo.init, sm := fun _ => [] }
/-- After the story in which 4 joins, and is elected. -/
def out1 : Out := (walk Demo.story { c := Demo.init, sm := fun _ => [] }).getD out0
/-- Then 2 asks for a read with context `[9]`. -/
def out2 : Out := (walk Demo.read9 { c := out1.c, sm := out1.sm }).getD out0
/-- It goes on until it has applied what it needs. -/
def out3 : Out := (walk [.ready 2, .ready 2] { c := out2.c, sm := out2.sm }).getD out0

theorem path_of {P : State → Members.Act → Prop} (hP : ∀ c a, a.SafeReads c → P c a) {xs : List Cmd} {c : State} {sm : Nat → Bytes} {o : Out}
    (h : (walk xs { c := c, sm := sm }).isSome = true) (ho : o = (walk xs { c := c, sm := sm }).getD out0) :
    text.Path env dec P c sm o.hist o.asked o.c o.sm := by
  obtain ⟨o', ho'⟩ := Option.isSome_iff_exists.1 h
  rw [ho'] at ho
  have : o = o' := ho
  rw [this]
  clear ho this
  have ho := ho'
  exact walk_path hP (o := { c := c, sm := sm }) .nil ho

/-- C100 holds of it: the read is given index 5, and when 2 has applied that, its machine is in the state that the machine of 4 was
in when the read was made, while its own was behind. -/
theorem linear : text.Linear [] (Machine.Had out1.hist out1.c out1.sm) (Machine.Had (out1.hist ++ out2.hist ++ out3.hist) out3.c out3.sm) 5 := by
  have r0 := path_of (P := fun c a => a.SafeReads c) (fun _ _ h => h) (xs := Demo.story) (c := Demo.init) (sm := fun _ => []) (o := out1) (by decide +kernel) (by unfold out1; rfl)
  have r1 := path_of (P := fun c a => a.SafeReads c) (fun _ _ h => h) (xs := Demo.read9) (c := out1.c) (sm := out1.sm) (o := out2) (by decide +kernel) (by rw [out2])
  have r2 := path_of (P := fun _ _ => True) (fun _ _ _ => trivial) (xs := [.ready 2, .ready 2]) (c := out2.c) (sm := out2.sm) (o := out3) (by decide +kernel) (by rw [out3])
  have hrep : ⟨5, [9]⟩ ∈ Demo.reports out2.c 2 := by decide +kernel
  obtain ⟨n, a, n', rd, hp, hr, hi⟩ := Demo.reports_mem hrep
  have ha : out1.asked = [] := by decide +kernel
  have ha' : out2.asked = [(4, [9])] := by decide +kernel
  refine C100_linearizable (M := text) Demo.genesisOK (fun _ => Craft.Demo.store) (fun _ => ⟨⟨genesis_disk, by decide⟩, Or.inl rfl⟩) r0 r1 ?_ ?_ hp hr hi r2
  · show (out1.asked ++ out2.asked).Nodup
    rw [ha, ha']; decide
  · show ∀ p, (p, [9]) ∉ out1.asked
    rw [ha]; simp

theorem linear_states : [2, 4].map (fun p => (indexOf out1.c p, out1.sm p)) = [(some 4, [0, 4, 1, 3, 5]), (some 5, [0, 4, 1, 3, 5])] ∧
    (indexOf out3.c 2, out3.sm 2) = (some 5, [0, 4, 1, 3, 5]) := by decide +kernel

end MachineDemo
end Craft.Dyn
