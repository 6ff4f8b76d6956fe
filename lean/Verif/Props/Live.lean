import Verif.Cluster.Live

/-! # C52: nothing aborts -/

namespace Craft.Cluster
open Spec

variable {env : Env} {G : Genesis} {c : State}

theorem Live.ok (hG : G.OK) (hE : Lossless env) (h : Live env G c) : Reach env G c ∧ ∃ K, LiveOk env G K c := by
  induction h with
  | init disk hd =>
    refine ⟨.init disk fun p => (hd p).disk, ⟨leadIn [], ?_, gterm G.log G.log.length, G.log.length⟩, fun _ _ => Iff.rfl, rfl, rfl, ?_, ?_, ?_⟩
    · rintro T a b ⟨m, hm, _⟩; cases hm
    · intro p n hp; cases hp
    · intro p st hp; cases hp; exact ⟨(hd p).tidy, (hd p).hard⟩
    · intro m hm; cases hm
  | act a _ ha hr ih =>
    obtain ⟨h1, K, h2⟩ := ih
    obtain ⟨c', e1, e2, e3⟩ := act_ok hG hE h1 h2 ha
    rw [hr] at e1
    cases e1
    exact ⟨.step h1 e2, e3⟩

/-- C52. In a cluster that keeps its side of the contract - sane settings, messages delivered only to their addressee,
compaction not beyond the snapshot and what was applied, Readys handled one at a time in the documented order - no call into
the library ever aborts or reaches undefined behaviour, whatever is lost, duplicated, delayed or reordered and whenever nodes
crash: everything that may be done next returns. -/
theorem C52_never_aborts (hG : G.OK) (hE : Lossless env) (h : Live env G c) (a : Act) (ha : a.Allowed c) :
    ∃ c', a.run env c = .ok c' := by
  obtain ⟨h1, K, h2⟩ := h.ok hG hE
  obtain ⟨c', e1, _⟩ := act_ok hG hE h1 h2 ha
  exact ⟨c', e1⟩

/-- C52, per call: whatever the application asks of a running node returns, and so does the delivery of any message that was
ever sent to it. -/
theorem C52_calls_return (hG : G.OK) (hE : Lossless env) (h : Live env G c) {p : Nat} {n : RawNode} (hp : c.proc p = .up n) :
    (∀ x : Call, x.Plain → (∀ m, x ≠ .step m) → ∃ n', x.run env n = .ok n') ∧
    (∀ m ∈ c.net, m.to = p → ∃ r, n.step env m = .ok r) ∧
    (∃ r, n.readyWithoutAccept env = .ok r) ∧ ∃ r, n.handleReady env [] = .ok r := by
  obtain ⟨h1, K, h2⟩ := h.ok hG hE
  have hl := upLog hG h1 hp
  refine ⟨fun x hx hs => ?_, fun m hm hto => ?_, ⟨_, readyWithoutAccept_eq hl.1⟩, ?_⟩
  · obtain ⟨n', hn, _⟩ := call_safe hE (h2.up p n hp).1 (upFresh hG h1 h2 hp) hx (fun m hm => absurd hm (hs m))
    exact ⟨n', hn⟩
  · obtain ⟨n', hn, _⟩ := call_safe (x := .step m) hE (h2.up p n hp).1 (upFresh hG h1 h2 hp) trivial
      (fun m' hm' => by cases hm'; exact msgSafe hG h1 h2 hp hm hto)
    simp only [Call.run] at hn
    cases hr : n.step env m with
    | ok r => exact ⟨r, rfl⟩
    | fatal s => rw [hr] at hn; cases hn
    | ub s => rw [hr] at hn; cases hn
  · obtain ⟨_, _, _, hn⟩ := handleReady_eq (env := env) hl.1 hl.2.2
    exact ⟨_, hn⟩

/-! ## The hypotheses are met -/

section
open Demo

theorem env_lossless : Lossless Craft.Demo.env := ⟨fun _ => nofun, fun _ => nofun⟩

theorem cfg_sane {p : Nat} (hp : p ≠ 0) (st : Storage) : (Craft.Demo.cfg p).Sane st :=
  ⟨hp, by show (0 : Int) < 1; omega, by show (1 : Int) < 10; omega, by show (10 : Int) < 2 ^ 31; omega, by show (0 : Int) < 8; omega,
    nofun, Or.inl rfl⟩

def Demo.Cmd.Tidy : Cmd → Bool
  | .start p => decide (p ≠ 0)
  | .compact _ _ => false
  | _ => true

/-- The command as an action. -/
def Demo.Cmd.toAct (c : State) : Cmd → Act
  | .start p => .start p (Craft.Demo.cfg p) 0
  | .call p x => .call p x
  | .deliver p k => .deliver p (c.net[k]?.getD default)
  | .ready p => .ready p
  | .crash p => .crash p
  | .compact p i => .compact p i
  | .snapshot p i => match c.proc p with
    | .up n => .createSnapshot p i (some n.raft.trk.confState) [7]
    | .down _ => .crash p

theorem Demo.Cmd.act {c c' : State} {x : Cmd} (hx : x.Tidy) (h : x.run c = some c') :
    (x.toAct c).Allowed c ∧ (x.toAct c).run Craft.Demo.env c = .ok c' := by
  cases x with
  | start p =>
    simp only [Cmd.run] at h
    split at h <;> try cases h
    rename_i st hp
    split at h <;> cases h
    rename_i n hn
    refine ⟨⟨st, hp, rfl, cfg_sane (by simpa [Cmd.Tidy] using hx) st, by show (8 : Int) ≤ 2 ^ 30; omega⟩, ?_⟩
    simp only [Cmd.toAct, Act.run]; rw [hp]; dsimp only; rw [hn]; rfl
  | call p x =>
    simp only [Cmd.run] at h
    split at h <;> try cases h
    rename_i n hp
    split at h <;> try cases h
    rename_i hpl
    split at h <;> cases h
    rename_i n' hn
    refine ⟨⟨⟨n, hp⟩, ?_, ?_⟩, ?_⟩
    · cases x <;> first | trivial | (cases hpl)
    · intro m hm; subst hm; cases hpl
    · simp only [Cmd.toAct, Act.run]; rw [hp]; dsimp only; rw [hn]; rfl
  | deliver p k =>
    simp only [Cmd.run] at h
    split at h <;> try cases h
    rename_i n hp
    split at h <;> try cases h
    rename_i m hm
    split at h <;> try cases h
    rename_i hto
    split at h <;> cases h
    rename_i n' hn
    have hm' : c.net[k]?.getD default = m := by rw [hm]; rfl
    simp only [Cmd.toAct]
    rw [hm']
    refine ⟨⟨⟨n, hp⟩, List.mem_iff_getElem?.2 ⟨k, hm⟩, hto⟩, ?_⟩
    simp only [Cmd.toAct, Act.run]; rw [hp]; dsimp only; rw [hn]; rfl
  | ready p =>
    simp only [Cmd.run] at h
    split at h <;> try cases h
    rename_i n hp
    split at h <;> cases h
    rename_i n' rd hn
    refine ⟨⟨n, hp⟩, ?_⟩
    simp only [Cmd.toAct, Act.run]; rw [hp]; dsimp only; rw [hn]; rfl
  | crash p =>
    simp only [Cmd.run] at h
    split at h <;> cases h
    rename_i n hp
    refine ⟨⟨n, hp⟩, ?_⟩
    simp only [Cmd.toAct, Act.run]; rw [hp]
  | compact p i => cases hx
  | snapshot p i =>
    simp only [Cmd.run] at h
    split at h <;> try cases h
    rename_i n hp
    split at h <;> try cases h
    rename_i hi
    split at h <;> cases h
    rename_i st e he
    have ha : Cmd.toAct c (.snapshot p i) = .createSnapshot p i (some n.raft.trk.confState) [7] := by simp only [Cmd.toAct, hp]
    rw [ha]
    refine ⟨⟨n, hp, hi, by intro x hx; cases hx; rfl⟩, ?_⟩
    simp only [Cmd.toAct, Act.run]; rw [hp]; dsimp only; rw [he]; rfl

theorem Demo.exec_live {xs : List Cmd} {c c' : State} (hr : Live Craft.Demo.env genesis c) (hx : ∀ x ∈ xs, Cmd.Tidy x = true)
    (h : exec xs c = some c') : Live Craft.Demo.env genesis c' := by
  induction xs generalizing c with
  | nil => cases h; exact hr
  | cons x xs ih =>
    unfold exec at h
    split at h
    · rename_i c1 h1
      obtain ⟨h2, h3⟩ := Cmd.act (hx x List.mem_cons_self) h1
      exact ih (.act _ hr h2 h3) (fun y hy => hx y (List.mem_cons_of_mem _ hy)) h
    · cases h

theorem Demo.clean_disk : genesis.CleanDisk Craft.Demo.store := ⟨genesis_disk, by decide, Or.inl rfl⟩

/-- The story of `Verif.Cluster.Demo` (two elections, a crash, replication) is such an execution. -/
theorem Demo.last_live : Live Craft.Demo.env genesis last := by
  have h : (exec story init).isSome = true := by decide
  obtain ⟨c, hc⟩ := Option.isSome_iff_exists.1 h
  have : last = c := by simp [last, cluster, hc]
  rw [this]
  exact exec_live (.init _ fun _ => clean_disk) (by decide) hc

/-- So in its last state everything that can be done returns: here, the leader (2) proposing, and the restarted node (1)
getting any message ever sent to it. -/
example (n m : RawNode) (h2 : last.proc 2 = .up n) (h1 : last.proc 1 = .up m) :
    (∃ n', (Call.propose [9]).run Craft.Demo.env n = .ok n') ∧ ∀ x ∈ last.net, x.to = 1 → ∃ r, m.step Craft.Demo.env x = .ok r :=
  ⟨(C52_calls_return genesis_ok env_lossless last_live h2).1 _ trivial (fun _ => nofun),
    (C52_calls_return genesis_ok env_lossless last_live h1).2.1⟩

/-- There are such messages. -/
example : (last.net.filter fun x => x.to = 1) ≠ [] := by decide +kernel

end

end Craft.Cluster
