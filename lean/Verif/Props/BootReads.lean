import Verif.Dyn.BootReads
import Verif.Dyn.BootDemo
import Verif.Props.MembersReads

/-! # Linearizable reads in bootstrapped clusters: C82 -/

namespace Craft.Dyn
open Spec Members Boot

/-- C82. Take a cluster whose founders are started with `Bootstrap` and the same peer list, all others with nothing, whose members may
change from then on, whose nodes use safe reads, in which no leader is handed the same request context twice, and in which a leader
that uses a configuration with a single voter is asked only if it is that voter itself. Whatever index `i` a node's Ready
reports for a context `x`, it covers everything that was committed at any time `c0` before the first request with context `x` reached a leader:
every entry any application had received by then, and every index any disk recorded as committed. -/
theorem C82_read_index_linearizable_boot {env : Env} {dec : Entry → Option ConfChangeI} {peers : List (Nat × Bytes)} (hP : PeersOK env dec peers)
    {c0 c : State} {h0 h1 : List (Nat × Bytes)} (r0 : Boot.Run env dec peers blank h0 c0) (r1 : Boot.Run env dec peers c0 h1 c)
    (hu : (h0 ++ h1).Nodup) {x : Bytes} (hx : ∀ p, (p, x) ∉ h0) {p : Nat} {n n' : RawNode} {a : App} {rd : Ready} (hp : c.proc p = .up n a)
    (hr : n.getReady env = .ok (n', rd)) {i : Nat} (hi : ⟨i, x⟩ ∈ rd.readStates) :
    (∀ d ∈ c0.out, d.entry.index ≤ i) ∧ ∀ q j, c0.DiskCommitted q j → j ≤ i := by
  obtain ⟨g, hg⟩ := boot_init hP (st := False) fun h => h.elim
  have hrr : (bgen hP).RR g [] x [] blank g :=
    ⟨hg, ⟨fun _ h => h, fun _ => Nat.le_refl _⟩, .init rfl fun p => rfl, fun p n a h => (by cases h), fun h => h⟩
  obtain ⟨g0, hr0⟩ := boot_rr_run hP hg.reach hrr r0 (List.nodup_append.1 hu).1
  rw [List.nil_append] at hr0
  obtain ⟨g1, hr1⟩ := boot_rr_run hP hr0.rel.reach (hr0.remark hx) r1 hu
  have hst := (hr1.reads.proc p _ (raftOf_up hp)).states ⟨i, x⟩ (by
    have hpr := hr1.rel.proc p
    rw [hp] at hpr
    obtain ⟨s, hu⟩ := hpr
    have h1 := (getReady_ok hr).1
    rw [readyWithoutAccept_eq hu.linv] at h1
    cases h1
    exact hi)
  have hfin := hst.2 rfl
  exact ⟨fun d hd => MGen.RFinal.out hfin hr0.rel hd, fun q j hj => MGen.RFinal.disk hfin hr0.rel hj⟩

/-! ## A concrete execution -/

namespace BootDemo
open Demo (env dec)

/-- The command as an action. -/
def Cmd.toAct (c : State) : Cmd → Boot.Act
  | .boot p => .boot p (Craft.Demo.cfg p) 0
  | .op x => .plain (x.toAct c)

def Cmd.named : Cmd → Bool
  | .boot p => decide (p ≠ 0)
  | .op x => x.named

theorem Cmd.act {c c' : State} {x : Cmd} (hx : x.named) (h : x.run c = some c') :
    (x.toAct c).Allowed peers c ∧ (x.toAct c).run env dec peers c = .ok c' := by
  cases x with
  | boot p =>
    simp only [Cmd.run] at h
    split at h <;> try cases h
    rename_i hp
    split at h <;> try cases h
    rename_i n0 hn
    split at h <;> cases h
    rename_i n hb
    refine ⟨⟨idle_iff.1 hp.1, hp.2, rfl, rfl, Cluster.cfg_sane (by simpa [Cmd.named] using hx) {}, by show (8 : Int) ≤ 2 ^ 30; omega⟩, ?_⟩
    simp only [Cmd.toAct, Boot.Act.run]
    rw [hn]
    simp only [Res.ok_bind, hb]; rfl
  | op x =>
    simp only [Cmd.run] at h
    split at h <;> try cases h
    rename_i c1 h1
    split at h <;> cases h
    rename_i hall
    obtain ⟨h2, h3⟩ := Demo.Cmd.act hx h1
    refine ⟨⟨h2, fun p cfg rng he hf hd => ?_⟩, h3⟩
    have := List.all_eq_true.1 hall p hf
    rw [idle_iff.2 hd] at this
    have hi : idle (c'.proc p) = true := by simpa using this
    have hu := idle_iff.1 hi
    have h3 : (x.toAct c).run env dec c = .ok c' := h3
    rw [he] at h3
    simp only [Members.Act.run, hd] at h3
    obtain ⟨n, h4, h5⟩ := Res.bind_eq_ok.1 h3
    cases h5
    unfold State.set at hu
    simp only [if_true] at hu
    cases hu

def askedIn : List Cmd → State → List (Nat × Bytes)
  | [], _ => []
  | x :: xs, c => match x.run c with
    | some c' => (x.toAct c).asks c ++ askedIn xs c'
    | none => []

def Cmd.asksMany (c : State) : Cmd → Bool
  | .boot _ => true
  | .op x => x.asksMany c

def manyIn : List Cmd → State → Bool
  | [], _ => true
  | x :: xs, c => x.asksMany c && match x.run c with
    | some c' => manyIn xs c'
    | none => true

theorem Cmd.safe {x : Cmd} {c : State} (h : x.asksMany c = true) : (x.toAct c).SafeReads c := by
  cases x with
  | boot p => exact rfl
  | op x => exact Demo.Cmd.safe h

theorem exec_run {xs : List Cmd} {c0 c c' : State} {h0 : List (Nat × Bytes)}
    (hr : Boot.Run env dec peers c0 h0 c) (hx : ∀ x ∈ xs, Cmd.named x = true) (hm : manyIn xs c = true)
    (h : exec xs c = some c') : Boot.Run env dec peers c0 (h0 ++ askedIn xs c) c' := by
  induction xs generalizing c h0 with
  | nil => cases h; rw [askedIn, List.append_nil]; exact hr
  | cons x xs ih =>
    unfold exec at h
    split at h
    · rename_i c1 h1
      unfold manyIn at hm
      rw [h1, Bool.and_eq_true] at hm
      obtain ⟨h2, h3⟩ := Cmd.act (hx x List.mem_cons_self) h1
      have := ih (.act _ hr h2 (Cmd.safe hm.1) h3) (fun y hy => hx y (List.mem_cons_of_mem _ hy)) hm.2 h
      rw [askedIn, h1]
      dsimp only
      rwa [← List.append_assoc]
    · cases h

theorem exec_cluster {xs : List Cmd} (h : (exec xs init).isSome = true) : exec xs init = some (cluster xs) := by
  obtain ⟨c, hc⟩ := Option.isSome_iff_exists.1 h
  rw [cluster, hc]; rfl

open Demo.Cmd in
/-- After the story, 2 asks the leader 3 for a read. -/
def read9 : List Cmd := [call 2 (.readIndex [9]), ready 2, deliver 3 21, ready 3, deliver 2 23, ready 2, deliver 3 24, ready 3, deliver 2 25].map .op

end BootDemo

section
open BootDemo
open Demo (env dec)

/-- The hypotheses of C82 are met: in a cluster that was bootstrapped and has grown, 2's read comes back with index 5. -/
example : ∃ c0 c h0 h1, Boot.Run env dec peers blank h0 c0 ∧ Boot.Run env dec peers c0 h1 c ∧ (h0 ++ h1).Nodup ∧ (∀ p, (p, [9]) ∉ h0) ∧
    (∃ n a n' rd, c.proc 2 = .up n a ∧ n.getReady env = .ok (n', rd) ∧ ⟨5, [9]⟩ ∈ rd.readStates) ∧ ∃ d ∈ c0.out, d.entry.index = 5 := by
  have e1 := exec_cluster (xs := story) (by decide +kernel)
  have e2 : (exec read9 (cluster story)).isSome = true := by decide +kernel
  obtain ⟨c, hc⟩ := Option.isSome_iff_exists.1 e2
  have hc' : c = (exec read9 (cluster story)).getD init := by rw [hc]; rfl
  have r1 := exec_run (c0 := blank) .nil (by decide) (by decide +kernel) e1
  have r2 := exec_run (c0 := cluster story) .nil (by decide) (by decide +kernel) hc
  have a1 : [] ++ askedIn story blank = [] := by decide +kernel
  have a2 : [] ++ askedIn read9 (cluster story) = [(3, [9])] := by decide +kernel
  rw [a1] at r1
  rw [a2] at r2
  refine ⟨_, _, _, _, r1, r2, by decide, by simp, Demo.reports_mem ?_, by decide +kernel⟩
  rw [hc']
  decide +kernel

end
end Craft.Dyn
