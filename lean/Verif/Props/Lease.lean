import Verif.Cluster.LeaseMain
import Verif.Props.Cluster
import Verif.Props.Live

/-! # Lease-based reads: C96 -/

namespace Craft.Cluster
open Spec Abs ReadInv LeaseInv

namespace Gen
variable {G : Gen} {g0 : AState} {c : State} {T i : Nat}

theorem Good.out (h : G.Good g0 T i) (hr : G.Rel c g0) {d : Delivered} (hd : d ∈ c.out) (ht : d.term ≤ T) : d.entry.index ≤ i := by
  obtain ⟨h0, pre, h1, h2⟩ := hr.out d hd
  have hlen : d.entry.index - 1 < (G.L0 ++ pre).length := by
    apply Decidable.byContradiction
    intro hc
    rw [List.getElem?_eq_none (by omega)] at h1
    cases h1
  rw [List.length_append] at hlen
  rcases h2 with rfl | ⟨T1, h2, h3⟩
  · have := h.1
    simp only [List.length_nil] at hlen
    omega
  · have := h.2 T1 pre h3 (Nat.le_trans h2 ht)
    omega

theorem Good.disk (h : G.Good g0 T i) (hr : G.Rel c g0) {q : Nat} (ht : (c.proc q).disk.hardState.term ≤ T) :
    max (c.proc q).disk.view.base (c.proc q).disk.hardState.commit ≤ i := by
  rw [(hr.durable q).commit]
  rw [(hr.durable q).term] at ht
  obtain ⟨hc1, hc⟩ := hr.reach.inv.commitOk q
  have := h.1
  rcases hc with hc | ⟨T1, pre, hc2, hc3, hc4⟩
  · omega
  · have h3 := h.2 T1 pre hc2 (Nat.le_trans hc3 ht)
    have h4 := hc4.length_le
    rw [List.length_take] at h4
    omega

end Gen

/-- C96. In a cluster whose nodes use lease-based reads, take any moment `c0` and a request context `x` no leader was handed
before. Whatever index `i` a Ready reports for `x` later, the request was handed to a leader of some term `T` after `c0`, and
`i` covers everything nodes in terms up to `T` knew to be committed at `c0`. -/
theorem C96_lease_read {env : Env} {G : Genesis} (hG : G.OK) (disk : Nat → Storage) (hd : ∀ p, G.Disk (disk p)) {c0 c : State}
    {as0 as1 : List Act} {h0 h1 : List (Nat × Nat × Bytes)} (r0 : LeaseRun env { proc := fun p => .down (disk p) } as0 h0 c0)
    (r1 : LeaseRun env c0 as1 h1 c) {x : Bytes} (hx : ∀ p T, (p, T, x) ∉ h0) {p : Nat} {n n' : RawNode} {rd : Ready}
    (hp : c.proc p = .up n) (hr : n.getReady env = .ok (n', rd)) {i : Nat} (hi : ⟨i, x⟩ ∈ rd.readStates) :
    ∃ b T, (b, T, x) ∈ h1 ∧ c0.CoversUpTo T i := by
  obtain ⟨g, hg⟩ := Reach.rel hG (env := env) (.init disk hd)
  have hrr : (G.gen hG).LR g [] [] { proc := fun p => .down (disk p) } g :=
    ⟨hg, ⟨fun _ h => h, fun _ => Nat.le_refl _⟩, ⟨fun m hm => (by cases hm), fun p r hr => (by cases hr)⟩⟩
  obtain ⟨g0, hr0⟩ := hrr.run rfl hg.reach r0
  rw [List.nil_append] at hr0
  obtain ⟨g1, hr1⟩ := (hr0.remark hx).run rfl hr0.rel.reach r1
  obtain ⟨b, T, k1, k2⟩ := (hr1.reads.proc p _ (State.raft_up hp)).states ⟨i, x⟩ (by
    have hpr := hr1.rel.proc p
    rw [hp] at hpr
    obtain ⟨s, hu⟩ := hpr
    have h1 := (getReady_ok hr).1
    rw [readyWithoutAccept_eq hu.rel.linv] at h1
    cases h1
    exact hi)
  have hgood := k2 rfl
  refine ⟨b, T, (List.mem_append.1 k1).resolve_left (hx b T), fun d hd ht => ?_, fun q hq => ?_⟩
  · exact Gen.Good.out (G := G.gen hG) hgood hr0.rel hd ht
  · exact Gen.Good.disk (G := G.gen hG) hgood hr0.rel hq

/-- So a lease-based read is linearizable as long as no leader that gets the request is behind: if at `c0` nothing had been
delivered in a term after theirs, the index covers everything that had been delivered. -/
theorem C96_lease_read_current {env : Env} {G : Genesis} (hG : G.OK) (disk : Nat → Storage) (hd : ∀ p, G.Disk (disk p)) {c0 c : State}
    {as0 as1 : List Act} {h0 h1 : List (Nat × Nat × Bytes)} (r0 : LeaseRun env { proc := fun p => .down (disk p) } as0 h0 c0)
    (r1 : LeaseRun env c0 as1 h1 c) {x : Bytes} (hx : ∀ p T, (p, T, x) ∉ h0)
    (hlate : ∀ b T, (b, T, x) ∈ h1 → ∀ d ∈ c0.out, d.term ≤ T) {p : Nat} {n n' : RawNode} {rd : Ready}
    (hp : c.proc p = .up n) (hr : n.getReady env = .ok (n', rd)) {i : Nat} (hi : ⟨i, x⟩ ∈ rd.readStates) :
    ∀ d ∈ c0.out, d.entry.index ≤ i := by
  obtain ⟨b, T, k1, k2, _⟩ := C96_lease_read hG disk hd r0 r1 hx hp hr hi
  exact fun d hd => k2 d hd (hlate b T k1 d hd)

/-! ## Concrete executions -/

namespace LeaseDemo

/-- Node 2 has the shortest election timeout. -/
def env : Env := { Craft.Demo.env with rand := fun p _ => if p = 2 then 0 else 1 }

def cfg (p : Nat) : Config := { Craft.Demo.cfg p with electionTick := 3, checkQuorum := true, readOnlyOption := .leaseBased }

def init : State := { proc := fun _ => .down Craft.Demo.store }

inductive Cmd where
  | start (p : Nat)
  | tick (p : Nat)
  | read (p : Nat) (ctx : Bytes)
  | campaign (p : Nat)
  | deliver (p k : Nat)
  | ready (p : Nat)

/-- The command as an action, if it is allowed. -/
def Cmd.act (c : State) : Cmd → Option Act
  | .start p => match c.proc p with
    | .down _ => if p = 0 then none else some (.start p (cfg p) 0)
    | .up _ => none
  | .tick p => if (c.raft p).isSome then some (.call p .tick) else none
  | .read p ctx => if (c.raft p).isSome then some (.call p (.readIndex ctx)) else none
  | .campaign p => if (c.raft p).isSome then some (.call p .campaign) else none
  | .deliver p k => match c.net[k]? with
    | some m => if (c.raft p).isSome ∧ m.to = p then some (.deliver p m) else none
    | none => none
  | .ready p => if (c.raft p).isSome then some (.ready p) else none

theorem up_of {c : State} {p : Nat} (h : (c.raft p).isSome = true) : ∃ n, c.proc p = .up n := by
  unfold State.raft at h
  cases hp : c.proc p with
  | up n => exact ⟨n, rfl⟩
  | down st => rw [hp] at h; cases h

theorem Cmd.allowed {c : State} {x : Cmd} {a : Act} (h : x.act c = some a) : a.Allowed c ∧ a.LeaseReads := by
  cases x with
  | start p =>
    simp only [Cmd.act] at h
    split at h
    · next st hp =>
      split at h
      · cases h
      · next h0 =>
        cases h
        refine ⟨⟨st, hp, rfl, ⟨h0, ?_, ?_, ?_, ?_, fun _ => rfl, Or.inl rfl⟩, ?_⟩, rfl⟩
        · show (0 : Int) < 1; omega
        · show (1 : Int) < 3; omega
        · show (3 : Int) < 2 ^ 31; omega
        · show (0 : Int) < 8; omega
        · show (8 : Int) ≤ 2 ^ 30; omega
    · cases h
  | tick p =>
    simp only [Cmd.act] at h
    split at h
    · next hs => cases h; exact ⟨⟨up_of hs, trivial, fun _ => nofun⟩, trivial⟩
    · cases h
  | read p ctx =>
    simp only [Cmd.act] at h
    split at h
    · next hs => cases h; exact ⟨⟨up_of hs, trivial, fun _ => nofun⟩, trivial⟩
    · cases h
  | campaign p =>
    simp only [Cmd.act] at h
    split at h
    · next hs => cases h; exact ⟨⟨up_of hs, trivial, fun _ => nofun⟩, trivial⟩
    · cases h
  | deliver p k =>
    simp only [Cmd.act] at h
    split at h
    · next m hm =>
      split at h
      · next hs => cases h; exact ⟨⟨up_of hs.1, List.mem_iff_getElem?.2 ⟨k, hm⟩, hs.2⟩, trivial⟩
      · cases h
    · cases h
  | ready p =>
    simp only [Cmd.act] at h
    split at h
    · next hs => cases h; exact ⟨up_of hs, trivial⟩
    · cases h

/-- Runs the commands: the actions, the requests handed to leaders, and the state. -/
def exec : List Cmd → List Act × List (Nat × Nat × Bytes) × State → Option (List Act × List (Nat × Nat × Bytes) × State)
  | [], s => some s
  | x :: xs, (as, ask, c) => match x.act c with
    | none => none
    | some a => match a.run env c with
      | .ok c' => exec xs (as ++ [a], ask ++ a.leaseAsks c, c')
      | _ => none

theorem exec_run {xs : List Cmd} {c0 c c' : State} {as as' : List Act} {ask ask' : List (Nat × Nat × Bytes)} (hr : LeaseRun env c0 as ask c)
    (h : exec xs (as, ask, c) = some (as', ask', c')) : LeaseRun env c0 as' ask' c' := by
  induction xs generalizing as ask c with
  | nil => cases h; exact hr
  | cons x xs ih =>
    unfold exec at h
    split at h
    · cases h
    · next a ha =>
      split at h
      · next c1 h1 => exact ih (.act a hr (Cmd.allowed ha).1 (Cmd.allowed ha).2 h1) h
      · cases h

/-- All three start; node 1 is elected and its first entry is committed and applied by all. -/
def elected : List Cmd :=
  [.start 1, .start 2, .start 3, .campaign 1, .ready 1, .deliver 2 0, .ready 2, .deliver 1 2, .ready 1, .deliver 2 3, .ready 2,
   .deliver 3 4, .ready 3, .deliver 1 5, .deliver 1 6, .ready 1, .deliver 2 7, .ready 2, .deliver 3 8, .ready 3]


/-- Node 1 is cut off. Everybody's clock ticks three times, in turn; node 2 then campaigns, wins term 2 with the vote of node
3, and commits entry 2. -/
def replaced : List Cmd :=
  [.tick 1, .tick 2, .tick 3, .tick 1, .tick 2, .tick 3, .tick 1, .tick 2, .tick 3, .ready 2, .deliver 3 12, .ready 3, .deliver 2 13,
   .ready 2, .deliver 3 15, .ready 3, .deliver 2 16, .ready 2]

/-- The result of running commands. -/
def after (xs : List Cmd) (c : State) : List Act × List (Nat × Nat × Bytes) × State := (exec xs ([], [], c)).getD ([], [], c)

theorem after_run {xs : List Cmd} {c : State} (h : (exec xs ([], [], c)).isSome = true) :
    LeaseRun env c (after xs c).1 (after xs c).2.1 (after xs c).2.2 := by
  obtain ⟨⟨as, ask, c'⟩, hc⟩ := Option.isSome_iff_exists.1 h
  have : after xs c = (as, ask, c') := by unfold after; rw [hc]; rfl
  rw [this]
  exact exec_run .nil hc

/-- The read results a node's next Ready reports. -/
def reports (c : State) (p : Nat) : List ReadState :=
  match c.proc p with
  | .up n => match n.getReady env with
    | .ok (_, rd) => rd.readStates
    | _ => []
  | .down _ => []

theorem reports_mem {c : State} {p : Nat} {st : ReadState} (h : st ∈ reports c p) :
    ∃ n n' rd, c.proc p = .up n ∧ n.getReady env = .ok (n', rd) ∧ st ∈ rd.readStates := by
  unfold reports at h
  split at h
  · rename_i n hp
    split at h
    · rename_i n' rd hr
      exact ⟨n, n', rd, hp, hr, h⟩
    · cases h
  · cases h

theorem inStep_of {ps : List Nat} {as : List Act}
    (h : ∀ k < as.length + 1, ∀ p ∈ ps, ∀ q ∈ ps, ticksOf p (as.take k) ≤ ticksOf q (as.take k) + 1) : InStep ps as := by
  intro k p hp q hq
  by_cases hk : k ≤ as.length
  · exact h k (by omega) p hp q hq
  · have := h as.length (by omega) p hp q hq
    rw [List.take_of_length_le (by omega)] at this ⊢
    exact this

/-- The cluster after node 1 was elected, and after node 2 was. -/
def c1 : State := (after elected init).2.2
def c2 : State := (after (elected ++ replaced) init).2.2

end LeaseDemo

section
open LeaseDemo

/-- The hypotheses of C96 are met: asked after all had applied entry 1, the leader answers at once, with index 1. -/
example : ∃ as0 as1 c0 c h0 h1, LeaseRun env init as0 h0 c0 ∧ LeaseRun env c0 as1 h1 c ∧ (∀ p T, (p, T, [9]) ∉ h0) ∧
    (∀ b T, (b, T, [9]) ∈ h1 → ∀ d ∈ c0.out, d.term ≤ T) ∧
    (∃ n n' rd, c.proc 1 = .up n ∧ n.getReady env = .ok (n', rd) ∧ ⟨1, [9]⟩ ∈ rd.readStates) ∧ c0.out.length = 3 := by
  have r1 := after_run (xs := elected) (c := init) (by decide +kernel)
  have r2 := after_run (xs := [.read 1 [9]]) (c := c1) (by decide +kernel)
  have a1 : (after elected init).2.1 = [] := by decide +kernel
  have a2 : (after [.read 1 [9]] c1).2.1 = [(1, 1, [9])] := by decide +kernel
  have a3 : ∀ d ∈ c1.out, d.term ≤ 1 := by decide +kernel
  rw [a1] at r1
  rw [a2] at r2
  refine ⟨_, _, _, _, _, _, r1, r2, by simp, fun b T h => ?_, reports_mem (by decide +kernel), by decide +kernel⟩
  simp only [List.mem_singleton, Prod.mk.injEq] at h
  rw [h.2.1]
  exact a3

/-- The same for a read requested by a follower that is asked to forward it, and for one that has to wait: node 1 is asked
before its first entry is committed. -/
example : (⟨1, [9]⟩ : ReadState) ∈ reports (after (elected ++ [.read 3 [9], .ready 3, .deliver 1 11, .ready 1, .deliver 3 12]) init).2.2 3 ∧
    (⟨1, [7]⟩ : ReadState) ∈ reports (after (elected.take 9 ++ [.read 1 [7]] ++ (elected.drop 9).take 5) init).2.2 1 := by
  decide +kernel

/-- Lease-based reads are not linearizable, even if the clocks of all nodes go in step and `check_quorum` is on: a leader that
was cut off counts the answers of the whole last election timeout, so that it goes on for up to two of them, while its followers
wait for one. Here a leader that was already replaced answers a read with an index that misses an entry which another node had
applied before the read was requested. -/
theorem C96_lease_outlives_followers : ∃ as0 as1 c0 c h0 h1, LeaseRun env { proc := fun _ => .down Craft.Demo.store } as0 h0 c0 ∧
    LeaseRun env c0 as1 h1 c ∧ InStep [1, 2, 3] (as0 ++ as1) ∧ (∀ p T, (p, T, [8]) ∉ h0) ∧
    ∃ n n' rd, c.proc 1 = .up n ∧ n.getReady env = .ok (n', rd) ∧ ∃ i, ⟨i, [8]⟩ ∈ rd.readStates ∧ ∃ d ∈ c0.out, i < d.entry.index := by
  have r1 := after_run (xs := elected ++ replaced) (c := init) (by decide +kernel)
  have r2 := after_run (xs := [.read 1 [8]]) (c := c2) (by decide +kernel)
  have a1 : (after (elected ++ replaced) init).2.1 = [] := by decide +kernel
  rw [a1] at r1
  have hs : (⟨1, [8]⟩ : ReadState) ∈ reports (after [.read 1 [8]] c2).2.2 1 := by decide +kernel
  obtain ⟨n, n', rd, p1, p2, p3⟩ := reports_mem hs
  refine ⟨_, _, _, _, _, _, r1, r2, inStep_of (by decide +kernel), by simp, n, n', rd, p1, p2, 1, p3, ?_⟩
  have : ∃ d ∈ c2.out, 1 < d.entry.index := by decide +kernel
  exact this

end

end Craft.Cluster
