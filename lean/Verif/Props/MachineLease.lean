import Verif.Props.MachineReads
import Verif.Props.MembersLease
import Verif.Spec.MachineLease

/-! # Lease-based reads from replicated state machines: C102 -/

namespace Craft.Dyn
open Spec Members ReadInv LeaseInv
open Cluster (Genesis Delivered)

section
variable {σ : Type} {M : Machine σ} {env : Env} {dec : Entry → Option ConfChangeI}

theorem Machine.LeasePath.run {c0 c : State} {sm0 sm : Nat → σ} {hist : List (Nat × Nat × σ)} {asked : List (Nat × Nat × Bytes)}
    (h : M.LeasePath env dec c0 sm0 hist asked c sm) :
    Members.LeaseRun env dec c0 asked c ∧ ∃ asked', M.Path env dec (fun _ _ => True) c0 sm0 hist asked' c sm := by
  induction h with
  | nil => exact ⟨.nil, _, .nil⟩
  | act a _ ha ho hf hs he ih =>
    obtain ⟨h1, _, h2⟩ := ih
    exact ⟨.act a h1 ha ho hf he, _, .act a h2 ha trivial hs he⟩

theorem Machine.BootLeasePath.run {peers : List (Nat × Bytes)} {c0 c : State} {sm0 sm : Nat → σ} {hist : List (Nat × Nat × σ)}
    {asked : List (Nat × Nat × Bytes)} (h : M.BootLeasePath env dec peers c0 sm0 hist asked c sm) :
    Boot.LeaseRun env dec peers c0 asked c ∧ ∃ asked', M.BootPath env dec peers (fun _ _ => True) c0 sm0 hist asked' c sm := by
  induction h with
  | nil => exact ⟨.nil, _, .nil⟩
  | act a _ ha ho hf hs he ih =>
    obtain ⟨h1, _, h2⟩ := ih
    exact ⟨.act a h1 ha ho hf he, _, .act a h2 ha trivial hs he⟩

namespace MGen
variable {G : MGen} {hist : List (Nat × Nat × σ)} {c c' : State} {sm : Nat → σ}

theorem LR.good {g0 : DState} {asked h1 : List (Nat × Nat × Bytes)} {x : Bytes} {g1 : DState} {i : Nat}
    (hr1 : G.LR g0 x (asked ++ h1) c' g1) (hx : ∀ p T, (p, T, x) ∉ asked) {p : Nat} {n n' : RawNode} {a : App} {rd : Ready}
    (hp : c'.proc p = .up n a) (hr : n.getReady env = .ok (n', rd)) (hi : ⟨i, x⟩ ∈ rd.readStates) :
    ∃ b T, (b, T, x) ∈ h1 ∧ G.RGood g0 T i := by
  obtain ⟨b, T, k1, k2⟩ := (hr1.reads.proc p _ (raftOf_up hp)).states ⟨i, x⟩ (by
    have hpr := hr1.rel.proc p
    rw [hp] at hpr
    obtain ⟨s, hu⟩ := hpr
    have h1 := (getReady_ok hr).1
    rw [readyWithoutAccept_eq hu.linv] at h1
    cases h1
    exact hi)
  exact ⟨b, T, (List.mem_append.1 k1).resolve_left (hx b T), k2 rfl⟩

/-- If everything that was handed out by `c` was handed out in terms up to `T`, an index that is good for term `T` covers it. -/
theorem MS.linear_lease {g0 g' gr : DState} {hist' : List (Nat × Nat × σ)} {sm' : Nat → σ} {i T : Nat} (h : G.MS M hist c sm g0)
    (h' : G.MS M hist' c' sm' g') (hL : Contig 1 G.L0) (ho : ∀ d ∈ c.out, d ∈ c'.out) (hr : G.Rel c gr) (hg : G.RGood gr T i)
    (ht : ∀ d ∈ c.out, d.term ≤ T) :
    M.Linear G.L0 (Machine.Had hist c sm) (Machine.Had hist' c' sm') i := by
  have key : ∀ {k s}, Sound M G.L0 c' k s → s = M.after (entryAt G.L0 c') k := by
    rintro k s ⟨es, h1, rfl, h3, rfl⟩
    exact after_fold h1 fun e he => h'.fixed hL (h3 e he)
  refine ⟨entryAt G.L0 c', fun j e hj => ?_, fun k s hh => ⟨?_, key ((h.sound hh).mono ho)⟩, fun k s hh => key (h'.sound hh)⟩
  · have := h'.fixed hL (e := e) (Or.inl (List.mem_of_getElem? hj))
    rw [hL j e hj] at this
    rw [Nat.add_comm]; exact this
  · exact (h.sound hh).le hL hg.1 fun d hd => RGood.out hg hr hd (ht d hd)

end MGen

/-- C102. In a cluster with replicated state machines (see C99) whose nodes use lease-based reads, as in C97: an index `i` reported for a
request was given by a leader that was handed the request after `c0`, in a term `T`. If no application had been handed an entry in a later term
by `c0`, the read is linearizable with respect to `c0`. -/
theorem C102_lease_linearizable {G : Genesis} (hG : GenesisOK dec G) (disk : Nat → Storage)
    (hd : ∀ p, GenesisDisk G (disk p) ∧ M.Holds G.log (disk p)) {c0 c1 c : State} {sm0 sm1 sm : Nat → σ} {h0 h1 h2 : List (Nat × Nat × σ)}
    {a0 a1 : List (Nat × Nat × Bytes)} {a2 : List (Nat × Bytes)}
    (r0 : M.LeasePath env dec { proc := fun p => .down (disk p) } (fun _ => M.init) h0 a0 c0 sm0)
    (r1 : M.LeasePath env dec c0 sm0 h1 a1 c1 sm1)
    {x : Bytes} (hx : ∀ p T, (p, T, x) ∉ a0) {p : Nat} {n n' : RawNode} {a : App} {rd : Ready} (hp : c1.proc p = .up n a)
    (hr : n.getReady env = .ok (n', rd)) {i : Nat} (hi : ⟨i, x⟩ ∈ rd.readStates)
    (r2 : M.Path env dec (fun _ _ => True) c1 sm1 h2 a2 c sm) :
    ∃ b T, (b, T, x) ∈ a1 ∧ ((∀ d ∈ c0.out, d.term ≤ T) →
      M.Linear G.log (Machine.Had h0 c0 sm0) (Machine.Had (h0 ++ h1 ++ h2) c sm) i) := by
  obtain ⟨g, hg⟩ := reach_rel hG (env := env) (.init disk fun p => (hd p).1)
  have hf : ∀ p, ¬ (gen hG).founder p := fun p h => h
  have hm : (gen hG).MS M [] { proc := fun p => .down (disk p) } (fun _ => M.init) g :=
    ⟨hg, ⟨fun p => ⟨fun _ _ => trivial, snapSound_init hG.contig (hd p).1 (hd p).2⟩, fun m hm => (by cases hm), fun d hd => (by cases hd)⟩,
      fun p n a h => (by cases h), fun r h => (by cases h), fun h => h⟩
  obtain ⟨l0, _, p0⟩ := Machine.LeasePath.run r0
  obtain ⟨l1, _, p1⟩ := Machine.LeasePath.run r1
  obtain ⟨⟨gm0, hm0⟩, _⟩ := hm.path hf p0
  rw [List.nil_append] at hm0
  obtain ⟨⟨gm1, hm1⟩, ho1⟩ := hm0.path hf p1
  obtain ⟨⟨gm2, hm2⟩, ho2⟩ := hm1.path hf r2
  have hrr : (gen hG).LR g x [] { proc := fun p => .down (disk p) } g :=
    ⟨hg, ⟨fun _ h => h, fun _ => Nat.le_refl _⟩, ⟨fun m hm => (by cases hm), fun p r hr => (by cases hr)⟩, fun p n a h => (by cases h), fun h => h⟩
  obtain ⟨g0, hr0⟩ := hrr.run hg.reach hf l0
  rw [List.nil_append] at hr0
  obtain ⟨g1, hr1⟩ := (hr0.remark hx).run hr0.rel.reach hf l1
  obtain ⟨b, T, k1, k2⟩ := hr1.good hx hp hr hi
  exact ⟨b, T, k1, fun ht => hm0.linear_lease hm2 hG.contig (fun d hd => ho2 d (ho1 d hd)) hr0.rel k2 ht⟩

open Boot in
/-- The same for a cluster whose founders are started with `Bootstrap`. -/
theorem C102_lease_linearizable_boot {peers : List (Nat × Bytes)} (hP : PeersOK env dec peers) {c0 c1 c : State} {sm0 sm1 sm : Nat → σ}
    {h0 h1 h2 : List (Nat × Nat × σ)} {a0 a1 : List (Nat × Nat × Bytes)} {a2 : List (Nat × Bytes)}
    (r0 : M.BootLeasePath env dec peers blank (fun _ => M.init) h0 a0 c0 sm0)
    (r1 : M.BootLeasePath env dec peers c0 sm0 h1 a1 c1 sm1)
    {x : Bytes} (hx : ∀ p T, (p, T, x) ∉ a0) {p : Nat} {n n' : RawNode} {a : App} {rd : Ready} (hp : c1.proc p = .up n a)
    (hr : n.getReady env = .ok (n', rd)) {i : Nat} (hi : ⟨i, x⟩ ∈ rd.readStates)
    (r2 : M.BootPath env dec peers (fun _ _ => True) c1 sm1 h2 a2 c sm) :
    ∃ b T, (b, T, x) ∈ a1 ∧ ((∀ d ∈ c0.out, d.term ≤ T) →
      M.Linear [] (Machine.Had h0 c0 sm0) (Machine.Had (h0 ++ h1 ++ h2) c sm) i) := by
  obtain ⟨g, hg⟩ := boot_init hP (st := False) fun h => h.elim
  have hm : (bgen hP).MS M [] blank (fun _ => M.init) g :=
    ⟨hg, ⟨fun p => ⟨fun _ _ => trivial, Or.inl rfl⟩, fun m hm => (by cases hm), fun d hd => (by cases hd)⟩,
      fun p n a h => (by cases h), fun r h => (by cases h), fun h => h⟩
  obtain ⟨l0, _, p0⟩ := Machine.BootLeasePath.run r0
  obtain ⟨l1, _, p1⟩ := Machine.BootLeasePath.run r1
  obtain ⟨⟨gm0, hm0⟩, _⟩ := boot_path hP hm p0
  rw [List.nil_append] at hm0
  obtain ⟨⟨gm1, hm1⟩, ho1⟩ := boot_path hP hm0 p1
  obtain ⟨⟨gm2, hm2⟩, ho2⟩ := boot_path hP hm1 r2
  have hrr : (bgen hP).LR g x [] blank g :=
    ⟨hg, ⟨fun _ h => h, fun _ => Nat.le_refl _⟩, ⟨fun m hm => (by cases hm), fun p r hr => (by cases hr)⟩, fun p n a h => (by cases h), fun h => h⟩
  obtain ⟨g0, hr0⟩ := boot_lr_run hP hg.reach hrr l0
  rw [List.nil_append] at hr0
  obtain ⟨g1, hr1⟩ := boot_lr_run hP hr0.rel.reach (hr0.remark hx) l1
  obtain ⟨b, T, k1, k2⟩ := hr1.good hx hp hr hi
  exact ⟨b, T, k1, fun ht => hm0.linear_lease hm2 (fun i e h => (by cases h)) (fun d hd => ho2 d (ho1 d hd)) hr0.rel k2 ht⟩

end
/-! ## Concrete executions -/

namespace MachineLeaseDemo
open Craft.Dyn.Demo (env dec Cmd)
open Craft.Cluster.Demo (genesis genesis_disk)
open MLeaseDemo (asksFit allowed swap founded)
open MachineDemo (text indexOf)
open Boot

/-- What a path has led to. -/
structure Out where
  hist : List (Nat × Nat × Bytes) := []
  asked : List (Nat × Nat × Bytes) := []
  c : State
  sm : Nat → Bytes

/-- Runs the commands. -/
def walk (peers : List (Nat × Bytes)) : List Cmd → Out → Option Out
  | [], o => some o
  | x :: xs, o => match MLeaseDemo.act peers o.c x with
    | none => none
    | some a => if asksFit o.c x then match a.run env dec peers o.c with
        | .ok c' => walk peers xs ⟨o.hist ++ Machine.seenBoot c' (text.nextBoot env dec o.c o.sm a) a, o.asked ++ a.leaseAsks o.c, c',
            text.nextBoot env dec o.c o.sm a⟩
        | _ => none
      else none

theorem act_saves {peers : List (Nat × Bytes)} {c : State} {sm : Nat → Bytes} {x : Cmd} {a : Boot.Act} (h : MLeaseDemo.act peers c x = some a) :
    text.SavesBoot sm a := by
  cases x with
  | start p =>
    simp only [MLeaseDemo.act] at h
    split at h
    · split at h
      · cases h
      split at h
      · split at h <;> cases h
        trivial
      · cases h; trivial
    · cases h
  | call p x =>
    simp only [MLeaseDemo.act] at h
    split at h <;> cases h
    trivial
  | deliver p k =>
    simp only [MLeaseDemo.act] at h
    split at h
    · split at h <;> cases h
      trivial
    · cases h
  | ready p =>
    simp only [MLeaseDemo.act] at h
    split at h <;> cases h
    trivial
  | _ => cases h

theorem walk_path {peers : List (Nat × Bytes)} {xs : List Cmd} {c0 : State} {sm0 : Nat → Bytes} {o o' : Out}
    (hr : text.BootLeasePath env dec peers c0 sm0 o.hist o.asked o.c o.sm) (h : walk peers xs o = some o') :
    text.BootLeasePath env dec peers c0 sm0 o'.hist o'.asked o'.c o'.sm := by
  induction xs generalizing o with
  | nil => cases h; exact hr
  | cons x xs ih =>
    unfold walk at h
    split at h
    · cases h
    · next a ha =>
      split at h
      · next hm =>
        split at h
        · next c1 h1 =>
          refine ih ?_ h
          obtain ⟨k1, k2, k3⟩ := allowed ha hm
          exact .act a hr k1 k2 k3 (act_saves ha) h1
        · cases h
      · cases h

/-- Without founders it is a path of a cluster with given disks. -/
theorem boot_path {c c' : State} {sm sm' : Nat → Bytes} {hist : List (Nat × Nat × Bytes)} {ask : List (Nat × Nat × Bytes)}
    (hr : text.BootLeasePath env dec [] c sm hist ask c' sm') : text.LeasePath env dec c sm hist ask c' sm' := by
  induction hr with
  | nil => exact .nil
  | act a _ ha ho hf hs he ih =>
    cases a with
    | boot p cfg rng => exact absurd ha.2.1 (by unfold Founder; simp)
    | plain a => exact .act a ih ha.1 ho hf hs he

def after (peers : List (Nat × Bytes)) (xs : List Cmd) (c : State) (sm : Nat → Bytes) : Out :=
  (walk peers xs { c := c, sm := sm }).getD { c := c, sm := sm }

theorem after_path {peers : List (Nat × Bytes)} {xs : List Cmd} {c : State} {sm : Nat → Bytes} (h : (walk peers xs { c := c, sm := sm }).isSome = true) :
    text.BootLeasePath env dec peers c sm (after peers xs c sm).hist (after peers xs c sm).asked (after peers xs c sm).c (after peers xs c sm).sm := by
  obtain ⟨o, ho⟩ := Option.isSome_iff_exists.1 h
  have : after peers xs c sm = o := by unfold after; rw [ho]; rfl
  rw [this]
  exact walk_path (o := { c := c, sm := sm }) .nil ho

/-- While 1, in the joint configuration, replaces 3 by 4 … -/
def s1 : Out := after [] swap Demo.init fun _ => []
/-- … node 2 asks for a read; node 1 answers at once … -/
def s2 : Out := after [] [.call 2 (.readIndex [9]), .ready 2, .deliver 1 10, .ready 1, .deliver 2 11] s1.c s1.sm
/-- … and node 2 goes on. -/
def s3 : Out := after [] [.ready 2] s2.c s2.sm

/-- C102 holds of it: node 1 had applied index 2 before, so that is the least index the read may be given. -/
example : text.Linear genesis.log (Machine.Had s1.hist s1.c s1.sm) (Machine.Had (s1.hist ++ s2.hist ++ s3.hist) s3.c s3.sm) 2 := by
  have r1 := boot_path (after_path (peers := []) (xs := swap) (c := Demo.init) (sm := fun _ => []) (by decide +kernel))
  have r2 := boot_path (after_path (peers := []) (xs := [.call 2 (.readIndex [9]), .ready 2, .deliver 1 10, .ready 1, .deliver 2 11])
    (c := s1.c) (sm := s1.sm) (by decide +kernel))
  have r3 := boot_path (after_path (peers := []) (xs := [.ready 2]) (c := s2.c) (sm := s2.sm) (by decide +kernel))
  obtain ⟨_, _, r3⟩ := Machine.LeasePath.run r3
  have a1 : s1.asked = [] := by decide +kernel
  have a2 : s2.asked = [(1, 1, [9])] := by decide +kernel
  have hrep : ⟨2, [9]⟩ ∈ Demo.reports s2.c 2 := by decide +kernel
  obtain ⟨n, a, n', rd, hp, hr, hi⟩ := Demo.reports_mem hrep
  obtain ⟨b, T, k1, k2⟩ := C102_lease_linearizable (M := text) (x := [9]) Demo.genesisOK (fun _ => Craft.Demo.store)
    (fun _ => ⟨⟨genesis_disk, by decide⟩, Or.inl rfl⟩) r1 r2
    (by show ∀ p T, (p, T, [9]) ∉ s1.asked; rw [a1]; simp) hp hr hi r3
  rw [show (after [] [.call 2 (.readIndex [9]), .ready 2, .deliver 1 10, .ready 1, .deliver 2 11] s1.c s1.sm).asked = s2.asked from rfl, a2] at k1
  cases List.mem_singleton.1 k1
  exact k2 (by show ∀ d ∈ s1.c.out, d.term ≤ 1; decide +kernel)

example : [1, 2].map (fun p => (indexOf s1.c p, s1.sm p)) = [(some 2, [0, 4, 1, 3]), (some 1, [])] := by decide +kernel

theorem exec_path {peers : List (Nat × Bytes)} {xs : List Cmd} {c0 c c' : State} {sm0 sm : Nat → Bytes} {hist : List (Nat × Nat × Bytes)}
    {ask ask' : List (Nat × Nat × Bytes)} (hr : text.BootLeasePath env dec peers c0 sm0 hist ask c sm)
    (h : MLeaseDemo.exec peers xs (ask, c) = some (ask', c')) : ∃ hist' sm', text.BootLeasePath env dec peers c0 sm0 hist' ask' c' sm' := by
  induction xs generalizing ask c sm hist with
  | nil => cases h; exact ⟨_, _, hr⟩
  | cons x xs ih =>
    unfold MLeaseDemo.exec at h
    split at h
    · cases h
    · next a ha =>
      split at h
      · next hm =>
        split at h
        · next c1 h1 =>
          obtain ⟨k1, k2, k3⟩ := allowed ha hm
          exact ih (.act a hr k1 k2 k3 (act_saves ha) h1) h
        · cases h
      · cases h

theorem after_path_boot {peers : List (Nat × Bytes)} {xs : List Cmd} {c : State} {sm : Nat → Bytes}
    (h : (MLeaseDemo.exec peers xs ([], c)).isSome = true) :
    ∃ hist sm', text.BootLeasePath env dec peers c sm hist (MLeaseDemo.after peers xs c).1 (MLeaseDemo.after peers xs c).2 sm' := by
  obtain ⟨⟨ask, c'⟩, hc⟩ := Option.isSome_iff_exists.1 h
  have : MLeaseDemo.after peers xs c = (ask, c') := by unfold MLeaseDemo.after; rw [hc]; rfl
  rw [this]
  exact exec_path .nil hc

/-- Nodes 1 and 2 are founders; 1 is elected and adds 3, and applies index 4; then it is asked for a read. C102 holds of it. -/
example : ∃ c0 c sm0 sm h0 h1, text.BootLeasePath env dec BootDemo.peers blank (fun _ => text.init) h0 [] c0 sm0 ∧
    text.BootLeasePath env dec BootDemo.peers c0 sm0 h1 [(1, 2, [9])] c sm ∧ (∃ d ∈ c0.out, d.entry.index = 4) ∧
    text.Linear [] (Machine.Had h0 c0 sm0) (Machine.Had (h0 ++ h1 ++ []) c sm) 4 := by
  obtain ⟨h0, sm0, r1⟩ := after_path_boot (sm := fun _ => text.init) (peers := BootDemo.peers) (xs := founded) (c := blank) (by decide +kernel)
  obtain ⟨h1, sm, r2⟩ := after_path_boot (sm := sm0) (peers := BootDemo.peers) (xs := [.call 1 (.readIndex [9])])
    (c := (MLeaseDemo.after BootDemo.peers founded blank).2) (by decide +kernel)
  have a1 : (MLeaseDemo.after BootDemo.peers founded blank).1 = [] := by decide +kernel
  have a2 : (MLeaseDemo.after BootDemo.peers [.call 1 (.readIndex [9])] (MLeaseDemo.after BootDemo.peers founded blank).2).1 = [(1, 2, [9])] := by
    decide +kernel
  rw [a1] at r1
  rw [a2] at r2
  have hrep : ∃ n a n' rd, (MLeaseDemo.after BootDemo.peers [.call 1 (.readIndex [9])] (MLeaseDemo.after BootDemo.peers founded blank).2).2.proc 1 = .up n a ∧
      n.getReady env = .ok (n', rd) ∧ ⟨4, [9]⟩ ∈ rd.readStates := Demo.reports_mem (by decide +kernel)
  obtain ⟨n, a, n', rd, hp, hr, hi⟩ := hrep
  have ht : ∀ d ∈ (MLeaseDemo.after BootDemo.peers founded blank).2.out, d.term ≤ 2 := by decide +kernel
  obtain ⟨b, T, k1, k2⟩ := C102_lease_linearizable_boot (M := text) (x := [9]) BootDemo.peersOK r1 r2 (by simp) hp hr hi (.nil (sm := sm))
  cases List.mem_singleton.1 k1
  exact ⟨_, _, _, _, _, _, r1, r2, by decide +kernel, k2 ht⟩

end MachineLeaseDemo
end Craft.Dyn
