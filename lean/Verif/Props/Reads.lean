import Verif.Cluster.ReadsMain
import Verif.Props.Cluster
import Verif.Props.Live

/-! # Linearizable reads: C53 -/

namespace Craft.Cluster
open Spec Abs ReadInv

namespace Gen
variable {G : Gen} {g0 g : AState} {c : State} {i : Nat}

theorem Final.out (h : G.Final g0 i) (hr : G.Rel c g0) {d : Delivered} (hd : d ∈ c.out) : d.entry.index ≤ i := by
  obtain ⟨h0, pre, h1, h2⟩ := hr.out d hd
  have hlen : d.entry.index - 1 < (G.L0 ++ pre).length := by
    apply Decidable.byContradiction
    intro hc
    rw [List.getElem?_eq_none (by omega)] at h1
    cases h1
  rw [List.length_append] at hlen
  rcases h2 with rfl | ⟨T, _, h3⟩
  · have := h.1
    simp only [List.length_nil] at hlen
    omega
  · have := h.2 T pre h3
    omega

theorem Final.disk (h : G.Final g0 i) (hr : G.Rel c g0) {q j : Nat} (hd : c.DiskCommitted q j) : j ≤ i := by
  unfold State.DiskCommitted at hd
  rw [(hr.durable q).commit] at hd
  obtain ⟨hc1, hc⟩ := hr.reach.inv.commitOk q
  have := h.1
  rcases hc with hc | ⟨T, pre, hc2, hc3, hc4⟩
  · omega
  · have h3 := h.2 T pre hc2
    have h4 := hc4.length_le
    rw [List.length_take] at h4
    omega

end Gen

/-- C53. Take a cluster whose nodes use safe reads, and in which no leader is handed the same request context twice. Whatever
index `i` a node's Ready reports for a context `x`, it covers everything that was committed at any time `c0` before the
first request with context `x` reached a leader: every entry any application had received by then, and every index any disk
recorded as committed. -/
theorem C53_read_index_linearizable {env : Env} {G : Genesis} (hG : G.OK) (disk : Nat → Storage) (hd : ∀ p, G.Disk (disk p))
    {c0 c : State} {h0 h1 : List (Nat × Bytes)} (r0 : Run env { proc := fun p => .down (disk p) } h0 c0) (r1 : Run env c0 h1 c)
    (hu : (h0 ++ h1).Nodup) {x : Bytes} (hx : ∀ p, (p, x) ∉ h0) {p : Nat} {n n' : RawNode} {rd : Ready} (hp : c.proc p = .up n)
    (hr : n.getReady env = .ok (n', rd)) {i : Nat} (hi : ⟨i, x⟩ ∈ rd.readStates) :
    (∀ d ∈ c0.out, d.entry.index ≤ i) ∧ ∀ q j, c0.DiskCommitted q j → j ≤ i := by
  obtain ⟨g, hg⟩ := Reach.rel hG (env := env) (.init disk hd)
  have hrr : (G.gen hG).RR g [] x [] { proc := fun p => .down (disk p) } g :=
    ⟨hg, ⟨fun _ h => h, fun _ => Nat.le_refl _⟩, .init rfl fun p => rfl⟩
  obtain ⟨g0, hr0⟩ := hrr.run rfl hg.reach r0 (List.nodup_append.1 hu).1
  rw [List.nil_append] at hr0
  obtain ⟨g1, hr1⟩ := (hr0.remark hx).run rfl hr0.rel.reach r1 hu
  have hst := (hr1.reads.proc p _ (State.raft_up hp)).states ⟨i, x⟩ (by
    have hpr := hr1.rel.proc p
    rw [hp] at hpr
    obtain ⟨s, hu⟩ := hpr
    have h1 := (getReady_ok hr).1
    rw [readyWithoutAccept_eq hu.rel.linv] at h1
    cases h1
    exact hi)
  have hfin := hst.2 rfl
  exact ⟨fun d hd => hfin.out hr0.rel hd, fun q j hj => hfin.disk hr0.rel hj⟩

/-! ## Concrete executions -/

namespace Demo

/-- The read requests handed to leaders. -/
def askedIn : List Cmd → State → List (Nat × Bytes)
  | [], _ => []
  | x :: xs, c => match x.run c with
    | some c' => (x.toAct c).asks c ++ askedIn xs c'
    | none => []

theorem Cmd.safe (x : Cmd) (c : State) : (x.toAct c).SafeReads := by
  cases x with
  | start p => exact rfl
  | snapshot p i => simp only [Cmd.toAct]; split <;> trivial
  | _ => trivial

theorem exec_run {xs : List Cmd} {c0 c c' : State} {h0 : List (Nat × Bytes)} (hr : Run Craft.Demo.env c0 h0 c) (hx : ∀ x ∈ xs, Cmd.Tidy x = true)
    (h : exec xs c = some c') : Run Craft.Demo.env c0 (h0 ++ askedIn xs c) c' := by
  induction xs generalizing c h0 with
  | nil => cases h; rw [askedIn, List.append_nil]; exact hr
  | cons x xs ih =>
    unfold exec at h
    split at h
    · rename_i c1 h1
      obtain ⟨h2, h3⟩ := Cmd.act (hx x List.mem_cons_self) h1
      have := ih (.act _ hr h2 (x.safe c) h3) (fun y hy => hx y (List.mem_cons_of_mem _ hy)) h
      rw [askedIn, h1]
      dsimp only
      rwa [← List.append_assoc]
    · cases h

/-- Node 1 is elected and commits its first entry, which all apply. -/
def elected : List Cmd :=
  [.start 1, .start 2, .start 3, .call 1 .campaign, .ready 1, .deliver 2 0, .ready 2, .deliver 1 2, .ready 1, .deliver 2 3, .ready 2,
   .deliver 3 4, .ready 3, .deliver 1 5, .deliver 1 6, .ready 1, .deliver 2 7, .ready 2, .deliver 3 8, .ready 3]

/-- Node 3 asks for a read with context `[9]`; the leader confirms its leadership with 3 and answers. -/
def read9 : List Cmd :=
  [.call 3 (.readIndex [9]), .ready 3, .deliver 1 11, .ready 1, .deliver 3 13, .ready 3, .deliver 1 14, .ready 1, .deliver 3 15]

/-- Node 3 becomes leader of term 2 and commits entry 2. -/
def replaced : List Cmd :=
  [.call 3 .campaign, .ready 3, .deliver 2 17, .ready 2, .deliver 3 18, .ready 3, .deliver 2 20, .ready 2, .deliver 3 21, .ready 3]

/-- A read with context `[8]` is requested at node 1, which still believes it leads term 1; then two old messages of the read
`[9]` arrive a second time: the request itself and the heartbeat response of node 3. -/
def stale : List Cmd := [.call 1 (.readIndex [8]), .deliver 1 11, .deliver 1 14]

/-- The read results a node's next Ready reports. -/
def reports (c : State) (p : Nat) : List ReadState :=
  match c.proc p with
  | .up n => match n.getReady Craft.Demo.env with
    | .ok (_, rd) => rd.readStates
    | _ => []
  | .down _ => []

theorem reports_mem {c : State} {p : Nat} {st : ReadState} (h : st ∈ reports c p) :
    ∃ n n' rd, c.proc p = .up n ∧ n.getReady Craft.Demo.env = .ok (n', rd) ∧ st ∈ rd.readStates := by
  unfold reports at h
  split at h
  · rename_i n hp
    split at h
    · rename_i n' rd hr
      exact ⟨n, n', rd, hp, hr, h⟩
    · cases h
  · cases h

theorem exec_cluster {xs : List Cmd} (h : (exec xs init).isSome = true) : exec xs init = some (cluster xs) := by
  obtain ⟨c, hc⟩ := Option.isSome_iff_exists.1 h
  rw [cluster, hc]; rfl

end Demo

section
open Demo

/-- The hypotheses of C53 are met: node 3's read comes back with index 1, which indeed covers what had been delivered. -/
example : ∃ c0 c h0 h1, Run Craft.Demo.env init h0 c0 ∧ Run Craft.Demo.env c0 h1 c ∧ (h0 ++ h1).Nodup ∧ (∀ p, (p, [9]) ∉ h0) ∧
    (∃ n n' rd, c.proc 3 = .up n ∧ n.getReady Craft.Demo.env = .ok (n', rd) ∧ ⟨1, [9]⟩ ∈ rd.readStates) ∧ c0.out.length = 3 := by
  have e1 := exec_cluster (xs := elected) (by decide +kernel)
  have e2 : (exec read9 (cluster elected)).isSome = true := by decide +kernel
  obtain ⟨c, hc⟩ := Option.isSome_iff_exists.1 e2
  have hc' : c = (exec read9 (cluster elected)).getD init := by rw [hc]; rfl
  have r1 := exec_run (c0 := init) .nil (by decide) e1
  have r2 := exec_run (c0 := cluster elected) .nil (by decide) hc
  have a1 : [] ++ askedIn elected init = [] := by decide +kernel
  have a2 : [] ++ askedIn read9 (cluster elected) = [(1, [9])] := by decide +kernel
  rw [a1] at r1
  rw [a2] at r2
  refine ⟨_, _, _, _, r1, r2, by decide, by simp, reports_mem ?_, by decide +kernel⟩
  rw [hc']
  decide +kernel

/-- C53 fails when requests may repeat: with a duplicated request and a duplicated heartbeat response, a deposed leader
answers a read with an index that misses an entry another node had already applied before the read was requested. -/
theorem C53_needs_distinct_requests : ∃ c0 c h0 h1, Run Craft.Demo.env { proc := fun _ => .down Craft.Demo.store } h0 c0 ∧
    Run Craft.Demo.env c0 h1 c ∧ (∀ p, (p, [8]) ∉ h0) ∧
    ∃ n n' rd, c.proc 1 = .up n ∧ n.getReady Craft.Demo.env = .ok (n', rd) ∧ ∃ i, ⟨i, [8]⟩ ∈ rd.readStates ∧ ∃ d ∈ c0.out, i < d.entry.index := by
  have e1 := exec_cluster (xs := elected ++ read9 ++ replaced) (by decide +kernel)
  have e2 : (exec stale (cluster (elected ++ read9 ++ replaced))).isSome = true := by decide +kernel
  obtain ⟨c, hc⟩ := Option.isSome_iff_exists.1 e2
  have hc' : c = (exec stale (cluster (elected ++ read9 ++ replaced))).getD init := by rw [hc]; rfl
  have r1 := exec_run (c0 := init) .nil (by decide) e1
  have r2 := exec_run (c0 := cluster (elected ++ read9 ++ replaced)) .nil (by decide) hc
  have a1 : [] ++ askedIn (elected ++ read9 ++ replaced) init = [(1, [9])] := by decide +kernel
  rw [a1] at r1
  have hs : (⟨1, [8]⟩ : ReadState) ∈ reports c 1 := by rw [hc']; decide +kernel
  obtain ⟨n, n', rd, p1, p2, p3⟩ := reports_mem hs
  refine ⟨_, _, _, _, r1, r2, by simp, n, n', rd, p1, p2, 1, p3, ?_⟩
  have : ∃ d ∈ (cluster (elected ++ read9 ++ replaced)).out, 1 < d.entry.index := by decide +kernel
  exact this

end

end Craft.Cluster
