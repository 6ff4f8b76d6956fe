import Verif.Dyn.ReadsMain
import Verif.Props.Members
import Verif.Props.Live

/-! # Linearizable reads while the membership changes: C67 -/

namespace Craft.Dyn
open Spec Members ReadInv
open Cluster (Genesis Delivered)

namespace MGen
variable {G : MGen} {g0 : DState} {c : State} {i : Nat}

theorem RFinal.out (h : G.RFinal g0 i) (hr : G.Rel c g0) {d : Delivered} (hd : d ∈ c.out) : d.entry.index ≤ i := by
  obtain ⟨h0, pre, h1, h2⟩ := hr.out d hd
  have hlen : d.entry.index - 1 < (G.L0 ++ pre).length := by
    apply Decidable.byContradiction
    intro hc
    rw [List.getElem?_eq_none (by omega)] at h1
    cases h1
  rw [List.length_append] at hlen
  have := h.1
  rcases h2 with rfl | ⟨T0, q, cf, h3, _, h4⟩
  · simp only [List.length_nil] at hlen
    omega
  · have := h.2 T0 q cf h3
    have := h4.length_le
    omega

theorem RFinal.disk (h : G.RFinal g0 i) (hr : G.Rel c g0) {q j : Nat} (hd : c.DiskCommitted q j) : j ≤ i := by
  unfold State.DiskCommitted at hd
  have := h.1
  rcases hr.durable q with hb | hb
  · rw [hb.commit] at hd
    obtain ⟨_, hc1, hc⟩ := hr.reach.inv.commitOk q
    have hl : ((g0.node q).log.take (g0.node q).commit).length = (g0.node q).commit := by
      rw [List.length_take]; omega
    rcases hc with hc | ⟨T0, pre, cf, hc2, hc3, hc4⟩
    · rw [hc, List.length_nil] at hl
      omega
    · have h3 := h.2 T0 pre cf hc2
      have h4 := hc4.length_le
      omega
  · rw [hb.blank] at hd
    have : j ≤ 0 := hd
    omega

end MGen

/-- C67. Take a cluster whose members may change, whose nodes use safe reads, in which no leader is handed the same request
context twice, and in which a leader that uses a configuration with a single voter is asked only if it is that voter
itself. Whatever index `i` a node's Ready reports for a context `x`, it covers everything that was committed at any time `c0`
before the first request with context `x` reached a leader: every entry any application had received by then, and every index any
disk recorded as committed. -/
theorem C67_read_index_linearizable_members {env : Env} {dec : Entry → Option ConfChangeI} {G : Genesis} (hG : GenesisOK dec G) (disk : Nat → Storage)
    (hd : ∀ p, GenesisDisk G (disk p)) {c0 c : State} {h0 h1 : List (Nat × Bytes)}
    (r0 : Members.Run env dec (fun c a => a.SafeReads c) { proc := fun p => .down (disk p) } h0 c0)
    (r1 : Members.Run env dec (fun c a => a.SafeReads c) c0 h1 c)
    (hu : (h0 ++ h1).Nodup) {x : Bytes} (hx : ∀ p, (p, x) ∉ h0) {p : Nat} {n n' : RawNode} {a : App} {rd : Ready} (hp : c.proc p = .up n a)
    (hr : n.getReady env = .ok (n', rd)) {i : Nat} (hi : ⟨i, x⟩ ∈ rd.readStates) :
    (∀ d ∈ c0.out, d.entry.index ≤ i) ∧ ∀ q j, c0.DiskCommitted q j → j ≤ i := by
  obtain ⟨g, hg⟩ := reach_rel hG (env := env) (.init disk hd)
  have hrr : (gen hG).RR g [] x [] { proc := fun p => .down (disk p) } g :=
    ⟨hg, ⟨fun _ h => h, fun _ => Nat.le_refl _⟩, .init rfl fun p => rfl, fun p n a h => (by cases h), fun h => h⟩
  have hf : ∀ p, ¬ (gen hG).founder p := fun p h => h
  obtain ⟨g0, hr0⟩ := hrr.run hg.reach hf r0 (List.nodup_append.1 hu).1
  rw [List.nil_append] at hr0
  obtain ⟨g1, hr1⟩ := (hr0.remark hx).run hr0.rel.reach hf r1 hu
  have hst := (hr1.reads.proc p _ (raftOf_up hp)).states ⟨i, x⟩ (by
    have hpr := hr1.rel.proc p
    rw [hp] at hpr
    obtain ⟨s, hu⟩ := hpr
    have h1 := (getReady_ok hr).1
    rw [readyWithoutAccept_eq hu.linv] at h1
    cases h1
    exact hi)
  have hfin := hst.2 rfl
  exact ⟨fun d hd => MGen.RFinal.out hfin hr0.rel hd, fun q j hj => MGen.RFinal.disk hfin hr0.rel hj⟩

/-! ## Concrete executions -/

namespace Demo
open Cluster.Demo (genesis genesis_disk)

/-- The command as an action. -/
def Cmd.toAct (c : State) : Cmd → Act
  | .start p => .start p (Craft.Demo.cfg p) 0
  | .call p x => .call p x
  | .deliver p k => .deliver p (c.net[k]?.getD default)
  | .ready p => .ready p
  | .crash p => .crash p
  | .compact p i => .compact p i
  | .snapshot p => .createSnapshot p [7]

def Cmd.named : Cmd → Bool
  | .start p => decide (p ≠ 0)
  | _ => true

theorem Cmd.act {c c' : State} {x : Cmd} (hx : x.named) (h : x.run c = some c') :
    (x.toAct c).Allowed c ∧ (x.toAct c).run Demo.env Demo.dec c = .ok c' := by
  cases x with
  | start p =>
    simp only [Cmd.run] at h
    split at h <;> try cases h
    rename_i st hp
    split at h <;> cases h
    rename_i n hn
    refine ⟨⟨st, hp, rfl, Nat.zero_le _, Cluster.cfg_sane (by simpa [Cmd.named] using hx) st, by show (8 : Int) ≤ 2 ^ 30; omega⟩, ?_⟩
    simp only [Cmd.toAct, Act.run]; rw [hp]; dsimp only; rw [hn]; rfl
  | call p x =>
    simp only [Cmd.run] at h
    split at h <;> try cases h
    rename_i n a hp
    split at h <;> try cases h
    rename_i hpl
    split at h <;> cases h
    rename_i n' hn
    refine ⟨⟨⟨n, a, hp⟩, ?_, ?_⟩, ?_⟩
    · cases x <;> first | trivial | (cases hpl)
    · intro m hm; subst hm; cases hpl
    · simp only [Cmd.toAct, Act.run]; rw [hp]; dsimp only; rw [hn]; rfl
  | deliver p k =>
    simp only [Cmd.run] at h
    split at h <;> try cases h
    rename_i n a hp
    split at h <;> try cases h
    rename_i m hm
    split at h <;> try cases h
    rename_i hto
    split at h <;> cases h
    rename_i n' hn
    have hg : c.net[k]?.getD default = m := by rw [hm]; rfl
    refine ⟨?_, ?_⟩
    · simp only [Cmd.toAct, hg]
      exact ⟨⟨n, a, hp⟩, List.mem_iff_getElem?.2 ⟨k, hm⟩, hto⟩
    · simp only [Cmd.toAct, Act.run, hg]; rw [hp]; dsimp only; rw [hn]; rfl
  | ready p =>
    simp only [Cmd.run] at h
    split at h <;> try cases h
    rename_i n a hp
    split at h <;> cases h
    rename_i n' a' rd hn
    refine ⟨⟨n, a, hp⟩, ?_⟩
    simp only [Cmd.toAct, Act.run]; rw [hp]; dsimp only; rw [hn]; rfl
  | crash p =>
    simp only [Cmd.run] at h
    split at h <;> cases h
    rename_i n a hp
    refine ⟨⟨n, a, hp⟩, ?_⟩
    simp only [Cmd.toAct, Act.run]; rw [hp]
  | compact p i =>
    simp only [Cmd.run] at h
    split at h <;> try cases h
    rename_i n a hp
    split at h <;> try cases h
    rename_i hi
    split at h <;> cases h
    rename_i st e he
    refine ⟨⟨n, a, hp, hi.1, hi.2⟩, ?_⟩
    simp only [Cmd.toAct, Act.run]; rw [hp]; dsimp only; rw [he]; rfl
  | snapshot p =>
    simp only [Cmd.run] at h
    split at h <;> try cases h
    rename_i n a hp
    split at h <;> cases h
    rename_i st e he
    refine ⟨⟨n, a, hp⟩, ?_⟩
    simp only [Cmd.toAct, Act.run]; rw [hp]; dsimp only; rw [he]; rfl

/-- The read requests handed to leaders. -/
def askedIn : List Cmd → State → List (Nat × Bytes)
  | [], _ => []
  | x :: xs, c => match x.run c with
    | some c' => (x.toAct c).asks c ++ askedIn xs c'
    | none => []

/-- Whether each node that is asked uses a configuration that has not exactly one voter. -/
def many (c : State) (p : Nat) : Bool :=
  match c.proc p with
  | .up n _ => decide (n.raft.trk.config.voters.incoming.length ≠ 1)
  | .down _ => true

def Cmd.asksMany (c : State) : Cmd → Bool
  | .call p (.readIndex _) => many c p
  | .deliver p _ => many c p
  | _ => true

def manyIn : List Cmd → State → Bool
  | [], _ => true
  | x :: xs, c => x.asksMany c && match x.run c with
    | some c' => manyIn xs c'
    | none => true

theorem many_own {c : State} {p : Nat} (h : many c p = true) : c.OwnVoter p := by
  intro n a hp _ v hv
  unfold many at h
  rw [hp] at h
  simp only [decide_eq_true_eq] at h
  rw [hv] at h
  exact absurd rfl h

theorem Cmd.option (x : Cmd) (c : State) : (x.toAct c).SafeOption := by
  cases x <;> first | trivial | exact rfl

theorem Cmd.safe {x : Cmd} {c : State} (h : x.asksMany c = true) : (x.toAct c).SafeReads c := by
  refine ⟨x.option c, ?_⟩
  cases x with
  | call p y =>
    cases y with
    | readIndex ctx => exact many_own h
    | _ => trivial
  | deliver p k => exact fun _ => many_own h
  | _ => trivial

theorem exec_option {xs : List Cmd} {c0 c c' : State} {h0 : List (Nat × Bytes)}
    (hr : Members.Run Demo.env Demo.dec (fun _ a => a.SafeOption) c0 h0 c) (hx : ∀ x ∈ xs, Cmd.named x = true)
    (h : exec xs c = some c') : Members.Run Demo.env Demo.dec (fun _ a => a.SafeOption) c0 (h0 ++ askedIn xs c) c' := by
  induction xs generalizing c h0 with
  | nil => cases h; rw [askedIn, List.append_nil]; exact hr
  | cons x xs ih =>
    unfold exec at h
    split at h
    · rename_i c1 h1
      obtain ⟨h2, h3⟩ := Cmd.act (hx x List.mem_cons_self) h1
      have := ih (.act _ hr h2 (x.option c) h3) (fun y hy => hx y (List.mem_cons_of_mem _ hy)) h
      rw [askedIn, h1]
      dsimp only
      rwa [← List.append_assoc]
    · cases h

theorem exec_run {xs : List Cmd} {c0 c c' : State} {h0 : List (Nat × Bytes)}
    (hr : Members.Run Demo.env Demo.dec (fun c a => a.SafeReads c) c0 h0 c) (hx : ∀ x ∈ xs, Cmd.named x = true) (hm : manyIn xs c = true)
    (h : exec xs c = some c') : Members.Run Demo.env Demo.dec (fun c a => a.SafeReads c) c0 (h0 ++ askedIn xs c) c' := by
  induction xs generalizing c h0 with
  | nil => cases h; rw [askedIn, List.append_nil]; exact hr
  | cons x xs ih =>
    unfold exec at h
    split at h
    · rename_i c1 h1
      unfold manyIn at hm
      rw [h1, Bool.and_eq_true] at hm
      obtain ⟨h2, h3⟩ := Cmd.act (hx x List.mem_cons_self) h1
      have := ih (.act _ hr h2 (Cmd.safe hm.1) h3) (fun y hy => hx y (List.mem_cons_of_mem _ hy)) hm.2 h
      rw [askedIn, h1]
      dsimp only
      rwa [← List.append_assoc]
    · cases h

/-- Node 1 is elected by 2 and removes itself and 3; 1 and 2 apply that (2 is the only voter left). Node 2 is elected in term 2 by
itself and commits and applies an entry. -/
def left : List Cmd :=
  [.start 1, .start 2, .start 3, .call 1 .campaign, .ready 1, .deliver 2 0, .ready 2, .deliver 1 2,
   .call 1 (.proposeConfChange (.v2 { changes := [⟨.removeNode, 1⟩, ⟨.removeNode, 3⟩] })),
   .ready 1, .deliver 2 3, .ready 2, .deliver 1 5, .ready 1, .deliver 2 6, .ready 2, .deliver 1 7, .ready 1, .call 1 (.propose [5]), .ready 1,
   .deliver 2 8, .deliver 2 9, .ready 2, .deliver 1 10, .deliver 1 11, .ready 1, .deliver 2 12, .ready 2, .call 2 .campaign, .ready 2, .ready 2]

/-- After the story of `Verif.Dyn.Demo` (3 replaced by 4, which leads), 2 asks 4 for a read with context `[9]`. -/
def read9 : List Cmd := [.call 2 (.readIndex [9]), .ready 2, .deliver 4 31, .ready 4, .deliver 2 33, .ready 2, .deliver 4 34, .ready 4, .deliver 2 35]

/-- The read results a node's next Ready reports. -/
def reports (c : State) (p : Nat) : List ReadState :=
  match c.proc p with
  | .up n _ => match n.getReady Demo.env with
    | .ok (_, rd) => rd.readStates
    | _ => []
  | .down _ => []

theorem reports_mem {c : State} {p : Nat} {st : ReadState} (h : st ∈ reports c p) :
    ∃ n a n' rd, c.proc p = .up n a ∧ n.getReady Demo.env = .ok (n', rd) ∧ st ∈ rd.readStates := by
  unfold reports at h
  split at h
  · rename_i n a hp
    split at h
    · rename_i n' rd hr
      exact ⟨n, a, n', rd, hp, hr, h⟩
    · cases h
  · cases h

theorem exec_cluster {xs : List Cmd} (h : (exec xs init).isSome = true) : exec xs init = some (cluster xs) := by
  obtain ⟨c, hc⟩ := Option.isSome_iff_exists.1 h
  rw [cluster, hc]; rfl

end Demo

section
open Demo

/-- The hypotheses of C67 are met: after 3 was replaced by 4, and 4 elected, 2's read comes back with index 5. -/
example : ∃ c0 c h0 h1, Members.Run Demo.env Demo.dec (fun c a => a.SafeReads c) init h0 c0 ∧
    Members.Run Demo.env Demo.dec (fun c a => a.SafeReads c) c0 h1 c ∧ (h0 ++ h1).Nodup ∧ (∀ p, (p, [9]) ∉ h0) ∧
    (∃ n a n' rd, c.proc 2 = .up n a ∧ n.getReady Demo.env = .ok (n', rd) ∧ ⟨5, [9]⟩ ∈ rd.readStates) ∧ ∃ d ∈ c0.out, d.entry.index = 5 := by
  have e1 := exec_cluster (xs := story) (by decide +kernel)
  have e2 : (exec read9 (cluster story)).isSome = true := by decide +kernel
  obtain ⟨c, hc⟩ := Option.isSome_iff_exists.1 e2
  have hc' : c = (exec read9 (cluster story)).getD init := by rw [hc]; rfl
  have r1 := exec_run (c0 := init) .nil (by decide) (by decide +kernel) e1
  have r2 := exec_run (c0 := cluster story) .nil (by decide) (by decide +kernel) hc
  have a1 : [] ++ askedIn story init = [] := by decide +kernel
  have a2 : [] ++ askedIn read9 (cluster story) = [(4, [9])] := by decide +kernel
  rw [a1] at r1
  rw [a2] at r2
  refine ⟨_, _, _, _, r1, r2, by decide, by simp, reports_mem ?_, by decide +kernel⟩
  rw [hc']
  decide +kernel

/-- C67 needs its condition on who is asked. A leader that removed itself from the configuration, leaving one voter, still leads;
asked for a read it takes itself to be the only voter and answers at once, although the remaining voter has been elected and has
applied an entry that the answer misses. -/
theorem C67_removed_leader_stale_read : ∃ c0 c h0 h1,
    Members.Run Demo.env Demo.dec (fun _ a => a.SafeOption) { proc := fun _ => .down Craft.Demo.store } h0 c0 ∧
    Members.Run Demo.env Demo.dec (fun _ a => a.SafeOption) c0 h1 c ∧ (h0 ++ h1).Nodup ∧ (∀ p, (p, [8]) ∉ h0) ∧
    ∃ n a n' rd, c.proc 1 = .up n a ∧ n.getReady Demo.env = .ok (n', rd) ∧ ∃ i, ⟨i, [8]⟩ ∈ rd.readStates ∧ ∃ d ∈ c0.out, i < d.entry.index := by
  have e1 := exec_cluster (xs := left) (by decide +kernel)
  have e2 : (exec [.call 1 (.readIndex [8])] (cluster left)).isSome = true := by decide +kernel
  obtain ⟨c, hc⟩ := Option.isSome_iff_exists.1 e2
  have hc' : c = (exec [.call 1 (.readIndex [8])] (cluster left)).getD init := by rw [hc]; rfl
  have r1 := exec_option (c0 := init) .nil (by decide) e1
  have r2 := exec_option (c0 := cluster left) .nil (by decide) hc
  have a1 : [] ++ askedIn left init = [] := by decide +kernel
  have a2 : [] ++ askedIn [.call 1 (.readIndex [8])] (cluster left) = [(1, [8])] := by decide +kernel
  rw [a1] at r1
  rw [a2] at r2
  have hs : (⟨4, [8]⟩ : ReadState) ∈ reports c 1 := by rw [hc']; decide +kernel
  obtain ⟨n, a, n', rd, p1, p2, p3⟩ := reports_mem hs
  refine ⟨_, _, _, _, r1, r2, by decide, by simp, n, a, n', rd, p1, p2, 4, p3, ?_⟩
  have : ∃ d ∈ (cluster left).out, 4 < d.entry.index := by decide +kernel
  exact this

end

end Craft.Dyn
