import Verif.Dyn.BootLive
import Verif.Props.BootReads
import Verif.Props.MembersLive

/-! # C83: nothing aborts in a bootstrapped cluster -/

namespace Craft.Dyn
open Spec Members Boot

/-- C83. Take a cluster whose founders are started with `Bootstrap` and the same peer list (somebody is on it, nobody has the id 0, the ids have 64 bits
and the contexts are less than a gigabyte), all
others with nothing, and whose applications promise what they promise for C69. Then everything that may be done next returns: neither
creating and bootstrapping a founder (again, if it crashed before it persisted anything), nor starting any other node, nor any call,
delivery, Ready, snapshot, compaction or restart aborts or reaches undefined behaviour, whatever is lost, duplicated, delayed or
reordered, and whenever nodes crash. -/
theorem C83_never_aborts_boot {env : Env} {peers : List (Nat × Bytes)} (hE : Faithful env) (h1 : peers ≠ [])
    (h2 : ∀ q ∈ peers, q.1 ≠ 0 ∧ q.1 < 2 ^ 64 ∧ q.2.length < 2 ^ 30)
    {c : State} (h : Boot.Live env peers c) (a : Boot.Act) (ha : a.Allowed peers c) (hw : a.Wise env c) :
    ∃ c', a.run env env.conf peers c = .ok c' := by
  have hP := Faithful.peersOk hE h1 h2
  obtain ⟨K, hL⟩ := h.ok hE hP
  obtain ⟨c', e1, _⟩ := boot_act_ok hE hP hL ha hw
  exact ⟨c', e1⟩

/-- And bootstrapping a founder is not refused: afterwards it runs, as a follower of term 1 whose log is the list of peers. -/
theorem C83_bootstrap_runs {env : Env} {peers : List (Nat × Bytes)} (hE : Faithful env) (h1 : peers ≠ [])
    (h2 : ∀ q ∈ peers, q.1 ≠ 0 ∧ q.1 < 2 ^ 64 ∧ q.2.length < 2 ^ 30)
    {c : State} {p : Nat} {cfg : Config} {rng : Nat} (ha : (Boot.Act.boot p cfg rng).Allowed peers c) :
    ∃ n, (Boot.Act.boot p cfg rng).run env env.conf peers c = .ok (c.set p (.up n ⟨0, {}⟩)) ∧ n.raft.state = .follower ∧ n.raft.id = p ∧ n.raft.term = 1 ∧
      VotersExactly n.raft.trk.config peers ∧ n.raft.log.committed = peers.length ∧
      ∀ i q, peers[i]? = some q → ∃ e, n.raft.log.view.ents[i]? = some e ∧ Announces env e q (i + 1) := by
  have hP := Faithful.peersOk hE h1 h2
  obtain ⟨k1, k2, k3, k4, k5, k6⟩ := ha
  obtain ⟨n0, n, hn, hb, hs⟩ := boot_safe (env := env) (K := ⟨fun _ _ => False, fun h => h.elim, 0, 0⟩) (rng := rng) h1 (fun q hq => (h2 q hq).1) k4 k5 k6
  obtain ⟨b1, b2, b3, b4, _, b6, _, _, _, mx, hl⟩ := bootstrap_ok (fun _ => Faithful.autoOk hE) hP k4 hn hb (st := True)
  refine ⟨n, ?_, b3, b6.trans k3, b4, ?_, ?_, ?_⟩
  · simp only [Boot.Act.run]
    rw [hn]
    simp only [Res.ok_bind, hb]; rfl
  · rw [b1]
    exact ⟨fun x => pc_inc _ x, pc_sorted _, rfl, rfl, rfl, rfl⟩
  · rw [hl]; exact boot_length _ _
  · intro i q hq
    have hlt : i < (RawNode.bootstrapEntries env 1 peers).length := by
      rw [boot_length]; exact (List.getElem?_eq_some_iff.1 hq).1
    have he := List.getElem?_eq_getElem hlt
    obtain ⟨e1, e2, e3, q', e4, e5⟩ := boot_get peers 1 i he
    rw [hq] at e4
    cases e4
    refine ⟨_, ?_, by omega, e2, e1, e5⟩
    have hv : n.raft.log.view.ents = RawNode.bootstrapEntries env 1 peers := by
      rw [hl]
      show _ = _
      have hstart : LStart (RaftLog.new {} mx) := ⟨{}, mx, 0, 0, blank_wf, Nat.le_refl 1, Nat.le_refl _, Nat.zero_le _, Nat.le_refl _, rfl⟩
      obtain ⟨_, hv0⟩ := hstart.inv.wf.appended (k := 1) (boot_contig (env := env) peers 1) (boot_entries_ne h1) (Nat.lt_succ_self 0) (Nat.le_refl 1)
      exact congrArg LogView.ents hv0
    rw [hv]; exact he

/-! ## The hypotheses are met -/

namespace BootSafeDemo
open SafeDemo (fine fine_ok proper proper_ok isUp up_ok)
open BootDemo (Cmd peers story idle idle_iff init)

/-- The command is allowed and wise. -/
def ok (c : State) : Cmd → Bool
  | .boot p => decide (p ≠ 0) && idle (c.proc p) && decide (p ∈ peers.map (·.1))
  | .op x => fine proper c x && match x with
    | .start p => !idle (c.proc p) || decide (p ∉ peers.map (·.1))
    | _ => true

theorem ok_sound {c : State} {x : Cmd} (h : ok c x = true) : (x.toAct c).Allowed peers c ∧ (x.toAct c).Wise SafeDemo.env c := by
  cases x with
  | boot p =>
    simp only [ok, Bool.and_eq_true, decide_eq_true_eq] at h
    exact ⟨⟨idle_iff.1 h.1.2, h.2, rfl, rfl, Cluster.cfg_sane h.1.1 {}, by show (8 : Int) ≤ 2 ^ 30; omega⟩, trivial⟩
  | op x =>
    simp only [ok, Bool.and_eq_true] at h
    obtain ⟨h1, h2⟩ := h
    obtain ⟨h3, h4⟩ := fine_ok proper_ok h1
    refine ⟨⟨h3, fun p cfg rng he hf hd => ?_⟩, h4⟩
    cases x with
    | start q =>
      have he : Members.Act.start q _ _ = Members.Act.start p cfg rng := he
      injection he with e1 e2 e3
      subst e1
      simp only [Bool.or_eq_true, Bool.not_eq_true', decide_eq_true_eq] at h2
      rcases h2 with h2 | h2
      · rw [idle_iff.2 hd] at h2; cases h2
      · exact h2 hf
    | _ => simp only [Demo.Cmd.toAct, reduceCtorEq] at he

def exec : List Cmd → State → Option State
  | [], c => some c
  | x :: xs, c => if ok c x then match (x.toAct c).run SafeDemo.env SafeDemo.env.conf peers c with
      | .ok c' => exec xs c'
      | _ => none
    else none

theorem exec_live {xs : List Cmd} {c c' : State} (hr : Boot.Live SafeDemo.env peers c) (h : exec xs c = some c') : Boot.Live SafeDemo.env peers c' := by
  induction xs generalizing c with
  | nil => cases h; exact hr
  | cons x xs ih =>
    unfold exec at h
    split at h
    · rename_i hf
      split at h
      · rename_i c1 h1
        obtain ⟨h2, h3⟩ := ok_sound hf
        exact ih (.act _ hr h2 h3 h1) h
      · cases h
    · cases h

def cluster (xs : List Cmd) : State := (exec xs blank).getD blank

theorem cluster_live (xs : List Cmd) : Boot.Live SafeDemo.env peers (cluster xs) := by
  unfold cluster
  cases h : exec xs blank with
  | none => exact .init
  | some c => exact exec_live .init h

/-- The story of `Verif.Dyn.BootDemo` (a founder that crashes half way and is bootstrapped again, an election, a node that joins with
nothing, a crash, a second election, a restart) is such an execution. -/
theorem story_runs : (exec story blank).isSome = true := by decide +kernel

theorem story_known : ((cluster story).known.map fun k => (k.node, k.app.index, k.app.conf.voters)).drop 15 =
    [(2, 4, [1, 2, 3]), (3, 4, [1, 2, 3]), (2, 4, [1, 2, 3]), (3, 5, [1, 2, 3]), (1, 4, [1, 2, 3])] := by decide +kernel

/-- So at its end every running node can handle its Ready. -/
example {p : Nat} {n : RawNode} {a : App} (hp : (cluster story).proc p = .up n a) :
    ∃ c', (Boot.Act.plain (.ready p)).run SafeDemo.env SafeDemo.env.conf peers (cluster story) = .ok c' :=
  C83_never_aborts_boot SafeDemo.faithful (by decide) (by decide) (cluster_live story) (.plain (.ready p)) ⟨⟨n, a, hp⟩, nofun⟩ trivial

end BootSafeDemo
end Craft.Dyn
