import Verif.Dyn.LeaseMain
import Verif.Dyn.BootReads
import Verif.Spec.BootLease
import Verif.Props.BootReads

/-! # Lease-based reads while the membership changes: C97 -/

namespace Craft.Dyn
open Spec Members ReadInv LeaseInv
open Cluster (Genesis Delivered)

namespace MGen
variable {G : MGen} {g0 : DState} {c : State} {T i : Nat}

theorem RGood.out (h : G.RGood g0 T i) (hr : G.Rel c g0) {d : Delivered} (hd : d ∈ c.out) (ht : d.term ≤ T) : d.entry.index ≤ i := by
  obtain ⟨h0, pre, h1, h2⟩ := hr.out d hd
  have hlen : d.entry.index - 1 < (G.L0 ++ pre).length := by
    apply Decidable.byContradiction
    intro hc
    rw [List.getElem?_eq_none (by omega)] at h1
    cases h1
  rw [List.length_append] at hlen
  have := h.1
  rcases h2 with rfl | ⟨T0, q, cf, h3, h4, h5⟩
  · simp only [List.length_nil] at hlen
    omega
  · have := h.2 T0 q cf h3 (by omega)
    have := h5.length_le
    omega

theorem RGood.disk (h : G.RGood g0 T i) (hr : G.Rel c g0) {q j : Nat} (ht : (c.proc q).disk.hardState.term ≤ T) (hd : c.DiskCommitted q j) : j ≤ i := by
  unfold State.DiskCommitted at hd
  have := h.1
  rcases hr.durable q with hb | hb
  · rw [hb.commit] at hd
    rw [hb.term] at ht
    obtain ⟨_, hc1, hc⟩ := hr.reach.inv.commitOk q
    have hl : ((g0.node q).log.take (g0.node q).commit).length = (g0.node q).commit := by
      rw [List.length_take]; omega
    rcases hc with hc | ⟨T0, pre, cf, hc2, hc3, hc4⟩
    · rw [hc, List.length_nil] at hl
      omega
    · have h3 := h.2 T0 pre cf hc2 (by omega)
      have h4 := hc4.length_le
      omega
  · rw [hb.blank] at hd
    have : j ≤ 0 := hd
    omega

theorem LR.answer {asked h1 : List (Nat × Nat × Bytes)} {x : Bytes} {c' : State} {g1 : DState} {env : Env} (hr0 : G.Rel c g0)
    (hr1 : G.LR g0 x (asked ++ h1) c' g1) (hx : ∀ p T, (p, T, x) ∉ asked) {p : Nat} {n n' : RawNode} {a : App} {rd : Ready}
    (hp : c'.proc p = .up n a) (hr : n.getReady env = .ok (n', rd)) (hi : ⟨i, x⟩ ∈ rd.readStates) :
    ∃ b T, (b, T, x) ∈ h1 ∧ c.CoversUpTo T i := by
  obtain ⟨b, T, k1, k2⟩ := (hr1.reads.proc p _ (raftOf_up hp)).states ⟨i, x⟩ (by
    have hpr := hr1.rel.proc p
    rw [hp] at hpr
    obtain ⟨s, hu⟩ := hpr
    have h1 := (getReady_ok hr).1
    rw [readyWithoutAccept_eq hu.linv] at h1
    cases h1
    exact hi)
  have hgood := k2 rfl
  exact ⟨b, T, (List.mem_append.1 k1).resolve_left (hx b T), fun d hd ht => RGood.out hgood hr0 hd ht, fun q j hq hj => RGood.disk hgood hr0 hq hj⟩

end MGen

/-- C97. In a cluster whose members may change, whose nodes use lease-based reads, take any moment `c0` and a request context `x` no leader was
handed before. Whatever index `i` a Ready reports for `x` later, the request was handed to a leader of some term `T` after `c0`, and
`i` covers everything nodes in terms up to `T` knew to be committed at `c0`. -/
theorem C97_lease_read_members {env : Env} {dec : Entry → Option ConfChangeI} {G : Genesis} (hG : GenesisOK dec G) (disk : Nat → Storage)
    (hd : ∀ p, GenesisDisk G (disk p)) {c0 c : State} {h0 h1 : List (Nat × Nat × Bytes)}
    (r0 : Members.LeaseRun env dec { proc := fun p => .down (disk p) } h0 c0) (r1 : Members.LeaseRun env dec c0 h1 c)
    {x : Bytes} (hx : ∀ p T, (p, T, x) ∉ h0) {p : Nat} {n n' : RawNode} {a : App} {rd : Ready} (hp : c.proc p = .up n a)
    (hr : n.getReady env = .ok (n', rd)) {i : Nat} (hi : ⟨i, x⟩ ∈ rd.readStates) :
    ∃ b T, (b, T, x) ∈ h1 ∧ c0.CoversUpTo T i := by
  obtain ⟨g, hg⟩ := reach_rel hG (env := env) (.init disk hd)
  have hrr : (gen hG).LR g [] [] { proc := fun p => .down (disk p) } g :=
    ⟨hg, ⟨fun _ h => h, fun _ => Nat.le_refl _⟩, ⟨fun m hm => (by cases hm), fun p r hr => (by cases hr)⟩, fun p n a h => (by cases h), fun h => h⟩
  have hf : ∀ p, ¬ (gen hG).founder p := fun p h => h
  obtain ⟨g0, hr0⟩ := hrr.run hg.reach hf r0
  rw [List.nil_append] at hr0
  obtain ⟨g1, hr1⟩ := (hr0.remark hx).run hr0.rel.reach hf r1
  exact hr1.answer hr0.rel hx hp hr hi

section
open Boot
variable {env : Env} {dec : Entry → Option ConfChangeI} {peers : List (Nat × Bytes)}

theorem boot_lr_run (h : PeersOK env dec peers) {g0 g : DState} {x : Bytes} {asked asked' : List (Nat × Nat × Bytes)} {c c' : State}
    (hK : (bgen h).Run g0) (hR : (bgen h).LR g0 x asked c g) (hr : Boot.LeaseRun env dec peers c asked' c') :
    ∃ g', (bgen h).LR g0 x (asked ++ asked') c' g' := by
  induction hr with
  | nil => exact ⟨g, by rw [List.append_nil]; exact hR⟩
  | @act c1 c2 asked1 a hr ha hs ho he ih =>
    obtain ⟨g1, h1⟩ := ih
    rw [← List.append_assoc]
    cases a with
    | plain a => exact h1.act hK a ha.1 hs ho he fun p hf hp => plain_founders ha he hf hp
    | boot p cfg rng =>
      obtain ⟨k1, k2, k3, k4, _⟩ := ha
      unfold Boot.Act.run at he
      obtain ⟨n0, k5, he⟩ := Res.bind_eq_ok.1 he
      obtain ⟨⟨n, e⟩, k6, he⟩ := Res.bind_eq_ok.1 he
      rw [show Boot.Act.leaseAsks c1 (.boot p cfg rng) = [] from rfl, List.append_nil]
      cases e with
      | some e =>
        simp only [Res.pure_eq, Res.ok.injEq] at he
        subst he
        exact ⟨g1, h1⟩
      | none =>
        simp only [Res.pure_eq, Res.ok.injEq] at he
        subst he
        refine ⟨g1, h1.set (boot_rel h h1.rel k1 k2 k3 k4 k5 k6) (Or.inl rfl) (fun _ h => h) fun n' a' hn' => ?_⟩
        cases hn'
        obtain ⟨_, _, b3, _, _, _, _, b8, _⟩ := bootstrap_ok (fun h => h.elim) h k4 k5 k6 (st := False)
        rw [b8]
        have hfo : ∀ r, n.raft.core.state = r → r = .follower := fun r hr => hr.symm.trans b3
        refine ⟨.start ?_, (fun hl => (by have := hfo _ hl; cases this)), (fun hr => (by rcases hr with hr | hr <;> (have := hfo _ hr; cases this))), fun hl => (by have := hfo _ hl; cases this)⟩
        rw [bootstrap_reads k5 k6, show cfg.readOnlyOption = .leaseBased from hs]

end

open Boot in
/-- The same for a cluster whose founders are started with `Bootstrap`. -/
theorem C97_lease_read_boot {env : Env} {dec : Entry → Option ConfChangeI} {peers : List (Nat × Bytes)} (hP : PeersOK env dec peers)
    {c0 c : State} {h0 h1 : List (Nat × Nat × Bytes)} (r0 : Boot.LeaseRun env dec peers blank h0 c0) (r1 : Boot.LeaseRun env dec peers c0 h1 c)
    {x : Bytes} (hx : ∀ p T, (p, T, x) ∉ h0) {p : Nat} {n n' : RawNode} {a : App} {rd : Ready} (hp : c.proc p = .up n a)
    (hr : n.getReady env = .ok (n', rd)) {i : Nat} (hi : ⟨i, x⟩ ∈ rd.readStates) :
    ∃ b T, (b, T, x) ∈ h1 ∧ c0.CoversUpTo T i := by
  obtain ⟨g, hg⟩ := boot_init hP (st := False) fun h => h.elim
  have hrr : (bgen hP).LR g [] [] blank g :=
    ⟨hg, ⟨fun _ h => h, fun _ => Nat.le_refl _⟩, ⟨fun m hm => (by cases hm), fun p r hr => (by cases hr)⟩, fun p n a h => (by cases h), fun h => h⟩
  obtain ⟨g0, hr0⟩ := boot_lr_run hP hg.reach hrr r0
  rw [List.nil_append] at hr0
  obtain ⟨g1, hr1⟩ := boot_lr_run hP hr0.rel.reach (hr0.remark hx) r1
  exact hr1.answer hr0.rel hx hp hr hi

/-! ## Concrete executions -/

namespace MLeaseDemo
open Craft.Dyn.Demo (env dec)
open Boot

def cfg (p : Nat) : Config := { Craft.Demo.cfg p with checkQuorum := true, readOnlyOption := .leaseBased }

/-- The command as an action, if it is allowed: starting is bootstrapping for the founders that are still blank. -/
def act (peers : List (Nat × Bytes)) (c : State) : Demo.Cmd → Option Boot.Act
  | .start p => match c.proc p with
    | .down st => if p = 0 then none
        else if p ∈ peers.map (·.1) then if st = {} then some (.boot p (cfg p) 0) else none
        else some (.plain (.start p (cfg p) 0))
    | .up _ _ => none
  | .call p x => if (raftOf c p).isSome ∧ Demo.plain x then some (.plain (.call p x)) else none
  | .deliver p k => match c.net[k]? with
    | some m => if (raftOf c p).isSome ∧ m.to = p then some (.plain (.deliver p m)) else none
    | none => none
  | .ready p => if (raftOf c p).isSome then some (.plain (.ready p)) else none
  | _ => none

theorem up_of {c : State} {p : Nat} (h : (raftOf c p).isSome = true) : ∃ n a, c.proc p = .up n a := by
  unfold raftOf at h
  cases hp : c.proc p with
  | up n a => exact ⟨n, a, rfl⟩
  | down st => rw [hp] at h; cases h

theorem cfg_sane {p : Nat} (h0 : p ≠ 0) (st : Storage) : (cfg p).Sane st := by
  refine ⟨h0, ?_, ?_, ?_, ?_, fun _ => rfl, Or.inl rfl⟩
  · show (0 : Int) < 1; omega
  · show (1 : Int) < 10; omega
  · show (10 : Int) < 2 ^ 31; omega
  · show (0 : Int) < 8; omega

/-- Whether the log indexes of a node fit 64 bits. -/
def fits (c : State) (p : Nat) : Bool :=
  match c.proc p with
  | .up n _ => decide (n.raft.log.lastIndex ≤ u64Max)
  | .down _ => true

theorem fits_ok {c : State} {p : Nat} (h : fits c p = true) : c.Fits p := by
  intro n a hp _
  unfold fits at h
  rw [hp] at h
  exact of_decide_eq_true h

/-- The node a command hands a request to, if any, has indexes that fit. -/
def asksFit (c : State) : Demo.Cmd → Bool
  | .call p _ => fits c p
  | .deliver p _ => fits c p
  | _ => true

theorem allowed {peers : List (Nat × Bytes)} {c : State} {x : Demo.Cmd} {a : Boot.Act} (h : act peers c x = some a)
    (hm : asksFit c x = true) : a.Allowed peers c ∧ a.LeaseOption ∧ a.Fits c := by
  cases x with
  | start p =>
    simp only [act] at h
    split at h
    · next st hp =>
      split at h
      · cases h
      · next h0 =>
        split at h
        · next hf =>
          split at h
          · next hs =>
            cases h
            subst hs
            exact ⟨⟨hp, hf, rfl, rfl, cfg_sane h0 {}, by show (8 : Int) ≤ 2 ^ 30; omega⟩, rfl, trivial⟩
          · cases h
        · next hf =>
          cases h
          refine ⟨⟨⟨st, hp, rfl, Nat.zero_le _, cfg_sane h0 st, by show (8 : Int) ≤ 2 ^ 30; omega⟩, fun q cfg rng he hq => ?_⟩, rfl, trivial⟩
          cases he
          exact absurd hq hf
    · cases h
  | call p x =>
    simp only [act] at h
    split at h
    · next hs =>
      cases h
      refine ⟨⟨⟨up_of hs.1, ?_, ?_⟩, nofun⟩, trivial, ?_⟩
      · cases x <;> first | trivial | (cases hs.2)
      · rintro m rfl; cases hs.2
      · cases x with
        | readIndex ctx => exact fits_ok hm
        | _ => trivial
    · cases h
  | deliver p k =>
    simp only [act] at h
    split at h
    · next m hk =>
      split at h
      · next hs => cases h; exact ⟨⟨⟨up_of hs.1, List.mem_iff_getElem?.2 ⟨k, hk⟩, hs.2⟩, nofun⟩, trivial, fun _ => fits_ok hm⟩
      · cases h
    · cases h
  | ready p =>
    simp only [act] at h
    split at h
    · next hs => cases h; exact ⟨⟨up_of hs, nofun⟩, trivial, trivial⟩
    · cases h
  | _ => cases h

/-- Runs the commands: the requests handed to leaders, and the state. -/
def exec (peers : List (Nat × Bytes)) : List Demo.Cmd → List (Nat × Nat × Bytes) × State → Option (List (Nat × Nat × Bytes) × State)
  | [], s => some s
  | x :: xs, (ask, c) => match act peers c x with
    | none => none
    | some a => if asksFit c x then match a.run env dec peers c with
        | .ok c' => exec peers xs (ask ++ a.leaseAsks c, c')
        | _ => none
      else none

theorem exec_boot {peers : List (Nat × Bytes)} {xs : List Demo.Cmd} {c0 c c' : State} {ask ask' : List (Nat × Nat × Bytes)}
    (hr : Boot.LeaseRun env dec peers c0 ask c) (h : exec peers xs (ask, c) = some (ask', c')) : Boot.LeaseRun env dec peers c0 ask' c' := by
  induction xs generalizing ask c with
  | nil => cases h; exact hr
  | cons x xs ih =>
    unfold exec at h
    split at h
    · cases h
    · next a ha =>
      split at h
      · next hm =>
        split at h
        · next c1 h1 =>
          obtain ⟨k1, k2, k3⟩ := allowed ha hm
          exact ih (.act a hr k1 k2 k3 h1) h
        · cases h
      · cases h

/-- Without founders it is a run of a cluster with given disks. -/
theorem boot_run {c c' : State} {ask : List (Nat × Nat × Bytes)} (hr : Boot.LeaseRun env dec [] c ask c') : Members.LeaseRun env dec c ask c' := by
  induction hr with
  | nil => exact .nil
  | act a _ ha hs ho he ih =>
    cases a with
    | boot p cfg rng => exact absurd ha.2.1 (by unfold Founder; simp)
    | plain a => exact .act a ih ha.1 hs ho he

/-- The result of running commands. -/
def after (peers : List (Nat × Bytes)) (xs : List Demo.Cmd) (c : State) : List (Nat × Nat × Bytes) × State := (exec peers xs ([], c)).getD ([], c)

theorem after_boot {peers : List (Nat × Bytes)} {xs : List Demo.Cmd} {c : State} (h : (exec peers xs ([], c)).isSome = true) :
    Boot.LeaseRun env dec peers c (after peers xs c).1 (after peers xs c).2 := by
  obtain ⟨⟨ask, c'⟩, hc⟩ := Option.isSome_iff_exists.1 h
  have : after peers xs c = (ask, c') := by unfold after; rw [hc]; rfl
  rw [this]
  exact exec_boot .nil hc

/-- The first part of the story of `Verif.Dyn.Demo`, without snapshots: node 1 replaces 3 by 4. -/
def swap : List Demo.Cmd :=
  [.start 1, .start 2, .start 4, .call 1 .campaign, .ready 1, .deliver 2 0, .ready 2, .deliver 1 2, .call 1 (.proposeConfChange Demo.swap34),
   .ready 1, .deliver 2 3, .ready 2, .deliver 1 5, .ready 1, .deliver 2 6, .ready 2, .deliver 1 7, .ready 1, .ready 1]

/-- Nodes 1 and 2 are founders; 1 is elected and adds 3. -/
def founded : List Demo.Cmd :=
  [.start 1, .start 2, .ready 1, .ready 2, .call 1 .campaign, .ready 1, .deliver 2 0, .ready 2, .deliver 1 1, .ready 1, .deliver 2 2, .ready 2,
   .deliver 1 3, .call 1 (.proposeConfChange (.v2 { changes := [⟨.addNode, 3⟩] })), .ready 1, .deliver 2 4, .deliver 2 5, .ready 2, .deliver 1 6,
   .deliver 1 7, .ready 1]

/-- Node 1 removes itself and 3, and still leads once it has left the joint configuration. -/
def leave : List Demo.Cmd :=
  [.start 1, .start 2, .call 1 .campaign, .ready 1, .deliver 2 0, .ready 2, .deliver 1 2,
   .call 1 (.proposeConfChange (.v2 { changes := [⟨.removeNode, 1⟩, ⟨.removeNode, 3⟩] })),
   .ready 1, .deliver 2 3, .ready 2, .deliver 1 5, .ready 1, .deliver 2 6, .ready 2, .deliver 1 7, .ready 1, .ready 1, .deliver 2 8, .ready 2,
   .call 1 (.propose [5]), .ready 1, .deliver 2 10, .ready 2, .deliver 1 11, .ready 1]

end MLeaseDemo

section
open MLeaseDemo
open Craft.Dyn.Demo (env dec)

/-- The hypotheses of C97 are met: while 1, in the joint configuration, replaces 3 by 4, node 2 asks for a read; node 1 answers
at once, with index 2. -/
example : ∃ c0 c h0 h1, Members.LeaseRun env dec Demo.init h0 c0 ∧ Members.LeaseRun env dec c0 h1 c ∧ (∀ p T, (p, T, [9]) ∉ h0) ∧
    (∃ n a n' rd, c.proc 2 = .up n a ∧ n.getReady env = .ok (n', rd) ∧ ⟨2, [9]⟩ ∈ rd.readStates) ∧
    (∃ b T, (b, T, [9]) ∈ h1 ∧ ∃ d ∈ c0.out, d.term ≤ T ∧ d.entry.index = 2) ∧
    ∃ n a, c0.proc 1 = .up n a ∧ n.raft.trk.config.voters.outgoing ≠ [] := by
  have r1 := MLeaseDemo.boot_run (after_boot (peers := []) (xs := swap) (c := Demo.init) (by decide +kernel))
  have r2 := MLeaseDemo.boot_run (after_boot (peers := []) (xs := [.call 2 (.readIndex [9]), .ready 2, .deliver 1 10, .ready 1, .deliver 2 11])
    (c := (after [] swap Demo.init).2) (by decide +kernel))
  have a1 : (after [] swap Demo.init).1 = [] := by decide +kernel
  have a2 : (after [] [.call 2 (.readIndex [9]), .ready 2, .deliver 1 10, .ready 1, .deliver 2 11] (after [] swap Demo.init).2).1 = [(1, 1, [9])] := by
    decide +kernel
  rw [a1] at r1
  rw [a2] at r2
  have hj : (match (after [] swap Demo.init).2.proc 1 with | .up n _ => decide (n.raft.trk.config.voters.outgoing ≠ []) | .down _ => false) = true := by
    decide +kernel
  refine ⟨_, _, _, _, r1, r2, by simp, Demo.reports_mem (by decide +kernel), ⟨1, 1, List.mem_singleton.2 rfl, by decide +kernel⟩, ?_⟩
  split at hj
  · next n a hp => exact ⟨n, a, hp, by simpa using hj⟩
  · cases hj

/-- They are met also by a leader that is not the single voter of the configuration it uses: 1 removed itself, and answers with
index 4. -/
example : ∃ c0 c h0 h1, Members.LeaseRun env dec Demo.init h0 c0 ∧ Members.LeaseRun env dec c0 h1 c ∧ (∀ p T, (p, T, [9]) ∉ h0) ∧
    (∃ n a n' rd, c.proc 1 = .up n a ∧ n.getReady env = .ok (n', rd) ∧ ⟨4, [9]⟩ ∈ rd.readStates) ∧
    (∃ b T, (b, T, [9]) ∈ h1 ∧ ∃ d ∈ c0.out, d.term ≤ T ∧ d.entry.index = 4) ∧
    ∃ n a, c0.proc 1 = .up n a ∧ n.raft.trk.config.voters = { incoming := [2], outgoing := [] } := by
  have r1 := MLeaseDemo.boot_run (after_boot (peers := []) (xs := leave) (c := Demo.init) (by decide +kernel))
  have r2 := MLeaseDemo.boot_run (after_boot (peers := []) (xs := [.call 1 (.readIndex [9])]) (c := (after [] leave Demo.init).2) (by decide +kernel))
  have a1 : (after [] leave Demo.init).1 = [] := by decide +kernel
  have a2 : (after [] [.call 1 (.readIndex [9])] (after [] leave Demo.init).2).1 = [(1, 1, [9])] := by decide +kernel
  rw [a1] at r1
  rw [a2] at r2
  have hj : (match (after [] leave Demo.init).2.proc 1 with
      | .up n _ => decide (n.raft.trk.config.voters = { incoming := [2], outgoing := [] }) | .down _ => false) = true := by
    decide +kernel
  refine ⟨_, _, _, _, r1, r2, by simp, Demo.reports_mem (by decide +kernel), ⟨1, 1, List.mem_singleton.2 rfl, by decide +kernel⟩, ?_⟩
  split at hj
  · next n a hp => exact ⟨n, a, hp, by simpa using hj⟩
  · cases hj

open Boot in
/-- The same in a cluster that was bootstrapped: node 1 has added node 3 and answers with index 4. -/
example : ∃ c0 c h0 h1, Boot.LeaseRun env dec BootDemo.peers blank h0 c0 ∧ Boot.LeaseRun env dec BootDemo.peers c0 h1 c ∧
    (∀ p T, (p, T, [9]) ∉ h0) ∧
    (∃ n a n' rd, c.proc 1 = .up n a ∧ n.getReady env = .ok (n', rd) ∧ ⟨4, [9]⟩ ∈ rd.readStates) ∧
    ∃ b T, (b, T, [9]) ∈ h1 ∧ ∃ d ∈ c0.out, d.term ≤ T ∧ d.entry.index = 4 := by
  have r1 := after_boot (peers := BootDemo.peers) (xs := founded) (c := blank) (by decide +kernel)
  have r2 := after_boot (peers := BootDemo.peers) (xs := [.call 1 (.readIndex [9])]) (c := (after BootDemo.peers founded blank).2) (by decide +kernel)
  have a1 : (after BootDemo.peers founded blank).1 = [] := by decide +kernel
  have a2 : (after BootDemo.peers [.call 1 (.readIndex [9])] (after BootDemo.peers founded blank).2).1 = [(1, 2, [9])] := by decide +kernel
  rw [a1] at r1
  rw [a2] at r2
  exact ⟨_, _, _, _, r1, r2, by simp, Demo.reports_mem (by decide +kernel), 1, 2, List.mem_singleton.2 rfl, by decide +kernel⟩

end
end Craft.Dyn
