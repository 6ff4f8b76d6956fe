import Verif.Dyn.Boot
import Verif.Dyn.ReadsMain
import Verif.Spec.BootLive

/-! # Read requests in bootstrapped clusters -/

namespace Craft.Dyn
open Spec Members Boot ReadInv
open Cluster (askCtx)

section
variable {env : Env} {dec : Entry → Option ConfChangeI} {peers : List (Nat × Bytes)}

theorem Hush.bootApply : ∀ (ps : List (Nat × Bytes)) {r r' : Raft}, RawNode.bootstrapApply env ps r = .ok r' → Hush r r'
  | [], r, r', h => by cases h; exact .refl
  | q :: ps, r, r', h => by
    unfold RawNode.bootstrapApply at h
    obtain ⟨⟨r1, cs⟩, h1, h⟩ := Res.bind_eq_ok.1 h
    unfold Raft.applyConfChange at h1
    dsimp only at h1
    split at h1
    · cases h1
    · exact (Hush.switchToConfig h1).trans (Hush.bootApply ps h)

/-- A node that was just bootstrapped has no reads pending. -/
theorem bootstrap_reads {cfg : Config} {rng : Nat} {n0 n : RawNode} (hn : RawNode.new env cfg {} rng = .ok n0) (hb : n0.bootstrap env peers = .ok (n, none)) :
    n.raft.reads = { ro := { option := cfg.readOnlyOption }, states := [], waiting := [] } := by
  obtain ⟨hf, _⟩ := RawNode.new_ok hn
  obtain ⟨r1, r2, r3⟩ := hf.reads
  unfold RawNode.bootstrap at hb
  split at hb
  · simp only [Res.ok.injEq, Prod.mk.injEq, reduceCtorEq, and_false] at hb
  · obtain ⟨l, h1, hb⟩ := Res.bind_eq_ok.1 hb
    obtain ⟨r, h2, hb⟩ := Res.bind_eq_ok.1 hb
    simp only [Res.pure_eq, Res.ok.injEq, Prod.mk.injEq, and_true] at hb
    subst hb
    have h3 := (Hush.bootApply peers h2).1
    simp only [Prod.mk.injEq] at h3
    have h4 := h3.1
    dsimp only
    rw [h4]
    show (n0.raft.becomeFollower env 1 0).reads = _
    unfold Raft.becomeFollower Raft.reset Raft.resetRandomizedElectionTimeout Raft.reads
    dsimp only
    split <;> rw [r1, r2, r3]

/-- Only starting it changes a process that is down. -/
theorem plain_keeps {c c' : State} {a : Members.Act} {p : Nat} (ha : a.Allowed c) (hr : a.run env dec c = .ok c') (hp : c.proc p = .down {})
    (hs : ∀ cfg rng, a ≠ .start p cfg rng) : c'.proc p = c.proc p := by
  have key : ∀ {q : Nat} {y : Proc}, q ≠ p → (c.set q y).proc p = c.proc p := fun hq => by
    unfold State.set; dsimp only; rw [if_neg (fun h => hq h.symm)]
  have ne : ∀ {q : Nat} {n : RawNode} {x : App}, c.proc q = .up n x → q ≠ p := by
    rintro q n x h rfl
    rw [hp] at h; cases h
  cases a with
  | start q cfg rng =>
    obtain ⟨st, h1, _⟩ := ha
    have hq : q ≠ p := by rintro rfl; exact hs cfg rng rfl
    simp only [Members.Act.run, h1] at hr
    obtain ⟨n, h4, h5⟩ := Res.bind_eq_ok.1 hr
    cases h5
    exact key hq
  | call q x =>
    obtain ⟨⟨n, a, h1⟩, h2, h3⟩ := ha
    simp only [Members.Act.run, h1] at hr
    obtain ⟨n', h4, h5⟩ := Res.bind_eq_ok.1 hr
    cases h5
    exact key (ne h1)
  | deliver q m =>
    obtain ⟨⟨n, a, h1⟩, h2, h3⟩ := ha
    simp only [Members.Act.run, h1] at hr
    obtain ⟨n', h4, h5⟩ := Res.bind_eq_ok.1 hr
    cases h5
    exact key (ne h1)
  | ready q =>
    obtain ⟨n, a, h1⟩ := ha
    simp only [Members.Act.run, h1] at hr
    obtain ⟨⟨n', a', rd⟩, h4, h5⟩ := Res.bind_eq_ok.1 hr
    cases h5
    exact key (ne h1)
  | compact q i =>
    obtain ⟨n, a, h1, h2, h3⟩ := ha
    simp only [Members.Act.run, h1] at hr
    obtain ⟨⟨st, e⟩, h4, h5⟩ := Res.bind_eq_ok.1 hr
    cases h5
    exact key (ne h1)
  | createSnapshot q data =>
    obtain ⟨n, a, h1⟩ := ha
    simp only [Members.Act.run, h1] at hr
    obtain ⟨⟨st, e⟩, h4, h5⟩ := Res.bind_eq_ok.1 hr
    cases h5
    exact key (ne h1)
  | crash q =>
    obtain ⟨n, a, h1⟩ := ha
    simp only [Members.Act.run, h1] at hr
    cases hr
    exact key (ne h1)
  | crashReady q keep k =>
    obtain ⟨n, a, h1⟩ := ha
    simp only [Members.Act.run, h1] at hr
    obtain ⟨⟨n1, rd⟩, h4, h5⟩ := Res.bind_eq_ok.1 hr
    cases h5
    exact key (ne h1)

theorem plain_founders {c c' : State} {a : Members.Act} (ha : (Boot.Act.plain a).Allowed peers c) (hr : a.run env dec c = .ok c') {p : Nat}
    (hf : Founder peers p) (hp : c.proc p = .down {}) : c'.proc p = c.proc p :=
  plain_keeps ha.1 hr hp fun cfg rng h => ha.2 p cfg rng h hf hp

/-- Executions as programs are executions. -/
theorem boot_act_step {c c' : State} {a : Boot.Act} (ha : a.Allowed peers c) (hr : a.run env dec peers c = .ok c') (hc : c' ≠ c) : Boot.Step env dec peers c c' := by
  cases a with
  | boot p cfg rng =>
    obtain ⟨h1, h2, h3, h4, _⟩ := ha
    unfold Boot.Act.run at hr
    obtain ⟨n0, h5, hr⟩ := Res.bind_eq_ok.1 hr
    obtain ⟨⟨n, e⟩, h6, hr⟩ := Res.bind_eq_ok.1 hr
    cases e with
    | none =>
      simp only [Res.pure_eq, Res.ok.injEq] at hr
      subst hr
      exact .boot p cfg rng h1 h2 h3 h4 h5 h6
    | some e =>
      simp only [Res.pure_eq, Res.ok.injEq] at hr
      exact absurd hr.symm hc
  | plain a =>
    exact .other (act_step a ha.1 hr) fun p hf hp => (plain_founders ha hr hf hp).trans hp

variable {st : Prop} {hA : st → AutoOk dec}

/-- Bootstrapping a founder. -/
theorem boot_rel (h : PeersOK env dec peers) {c : State} {g : DState} (hg : (bgenX h hA).Rel c g) {p : Nat} {cfg : Config} {rng : Nat} {n0 n : RawNode}
    (hp : c.proc p = .down {}) (hf : Founder peers p) (hid : cfg.id = p) (hap : cfg.applied = 0) (hn : RawNode.new env cfg {} rng = .ok n0)
    (hb : n0.bootstrap env peers = .ok (n, none)) : (bgenX h hA).Rel (c.set p (.up n ⟨0, {}⟩)) g := by
  have hd := hg.proc p
  rw [hp] at hd
  rcases hd with hd | hd
  · exfalso
    have h1 := hd.commit
    have h2 := (hg.reach.founder p hf).2
    have h3 : (bgenX h hA).B.length = peers.length := boot_length _ _
    have h4 := List.length_pos_iff.2 h.some
    have h5 : 0 = 0 + (g.node p).commit := h1
    omega
  · exact hg.set' (boot_up hA h hd hid hap hn hb)

/-- The beginning. -/
theorem boot_init (h : PeersOK env dec peers) (hA : st → AutoOk dec) : ∃ g, (bgenX h hA).Rel blank g := by
  obtain ⟨g, h1, h2, h3⟩ := boot_run hA h
  have hB : (bgenX h hA).B ≠ [] := by
    intro h0
    have := boot_length (env := env) peers 1
    rw [show RawNode.bootstrapEntries env 1 peers = [] from h0] at this
    exact h.some (List.length_eq_zero_iff.1 this.symm)
  refine ⟨g, h1, fun p => ?_, nofun, nofun, nofun, nofun⟩
  by_cases hp : Founder peers p
  · obtain ⟨k1, k2, k3⟩ := h2 p hp
    exact Or.inr ⟨rfl, hp, hB, k2, k1, k3, Nat.le_refl 1⟩
  · refine Or.inl ?_
    rw [h3 p hp]
    refine ⟨blank_wf, ⟨rfl, rfl, rfl, .nil 1⟩, rfl, Or.inl rfl, rfl, ⟨Nat.zero_le _, rfl, {}, Or.inl ⟨List.length_pos_iff.2 hB, 0, Nat.le_refl _, rfl⟩, rfl⟩,
      Nat.zero_le _, Nat.le_refl 0⟩

theorem boot_rr_run (h : PeersOK env dec peers) {g0 g : DState} {net0 : List Message} {x : Bytes} {asked asked' : List (Nat × Bytes)} {c c' : State}
    (hK : (bgen h).Run g0) (hR : (bgen h).RR g0 net0 x asked c g) (hr : Boot.Run env dec peers c asked' c') (hn : (asked ++ asked').Nodup) :
    ∃ g', (bgen h).RR g0 net0 x (asked ++ asked') c' g' := by
  induction hr with
  | nil => exact ⟨g, by rw [List.append_nil]; exact hR⟩
  | @act c1 c2 asked1 a hr ha hs he ih =>
    rw [← List.append_assoc, List.nodup_append] at hn
    obtain ⟨g1, h1⟩ := ih hn.1
    rw [← List.append_assoc]
    cases a with
    | plain a => exact h1.act hK a ha.1 hs (fun y hy hc => hn.2.2 y hc y hy rfl) he fun p hf hp => plain_founders ha he hf hp
    | boot p cfg rng =>
      obtain ⟨k1, k2, k3, k4, _⟩ := ha
      unfold Boot.Act.run at he
      obtain ⟨n0, k5, he⟩ := Res.bind_eq_ok.1 he
      obtain ⟨⟨n, e⟩, k6, he⟩ := Res.bind_eq_ok.1 he
      rw [show Boot.Act.asks c1 (.boot p cfg rng) = [] from rfl, List.append_nil]
      cases e with
      | some e =>
        simp only [Res.pure_eq, Res.ok.injEq] at he
        subst he
        exact ⟨g1, h1⟩
      | none =>
        simp only [Res.pure_eq, Res.ok.injEq] at he
        subst he
        refine ⟨g1, h1.set (boot_rel h h1.rel k1 k2 k3 k4 k5 k6) (Or.inl rfl) (fun _ h => h) fun n' a' hn' => ?_⟩
        cases hn'
        obtain ⟨_, _, b3, _, _, _, _, b8, _⟩ := bootstrap_ok (fun h => h.elim) h k4 k5 k6 (st := False)
        rw [b8]
        refine ⟨.start ?_, fun hl => (by rw [show n.raft.state = _ from hl] at b3; cases b3)⟩
        rw [bootstrap_reads k5 k6, show cfg.readOnlyOption = .safe from hs]

end
end Craft.Dyn
