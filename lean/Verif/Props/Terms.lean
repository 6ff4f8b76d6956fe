import Verif.Spec.Terms
import Verif.Node.Terms
import Verif.Props.Given

/-! # C101: terms only grow by elections, one at a time -/

namespace Craft
section
variable {env : Env} {dec : Entry → Option ConfChangeI} {B B' : Nat}

theorem RawNode.new_below {cfg : Config} {st : Storage} {rng : Nat} {n : RawNode} (h : RawNode.new env cfg st rng = .ok n) (hs : st.hardState.term ≤ B) :
    n.raft.Below B := by
  have f := (RawNode.new_ok h).1
  refine ⟨?_, ?_, ?_⟩
  · rw [f.term]; exact hs
  · rw [f.storage]; exact hs
  · rw [f.msgs]; exact nofun

theorem Raft.applyConfChange_below {r r' : Raft} {cc : ConfChangeV2} {cs : ConfState} (h : r.applyConfChange env cc = .ok (r', cs)) (hr : r.Below B) :
    r'.Below B := by
  obtain ⟨cfg, prs, lrn, _, ms, h1, h2⟩ := Raft.applyConfChange_sim (im := { type := .beat }) rfl h
  have h2 := h2.npath
  have et := h2.term_const (by rintro (h | h | h) <;> cases h) (Nat.zero_le _)
  have es := h2.storage_eq
  have ht : r'.term ≤ B := Nat.le_trans (Nat.le_of_eq et) hr.term
  refine ⟨ht, ?_, fun m hm => ?_⟩
  · exact Nat.le_trans (Nat.le_of_eq (congrArg (fun s : Storage => s.hardState.term) es)) hr.disk
  · rw [h1] at hm
    exact (List.mem_append.1 hm).elim (hr.msgs m) (h2.sent_below (Or.inl (Nat.zero_le _)) ht m)

theorem RawNode.bootstrapApply_below : ∀ {ps : List (Nat × Bytes)} {r r' : Raft}, RawNode.bootstrapApply env ps r = .ok r' → r.Below B → r'.Below B
  | [], r, r', h, hr => by cases h; exact hr
  | p :: ps, r, r', h, hr => by
    obtain ⟨⟨r1, cs⟩, h1, h⟩ := Res.bind_eq_ok.1 h
    exact bootstrapApply_below h (Raft.applyConfChange_below h1 hr)

theorem RawNode.bootstrap_below {n n' : RawNode} {ps : List (Nat × Bytes)} {x : Option Err} (h : n.bootstrap env ps = .ok (n', x)) (hn : n.raft.Below B) :
    n'.raft.Below (B + 1) := by
  have hn1 := hn.mono (Nat.le_succ B)
  unfold RawNode.bootstrap at h
  split at h
  · cases h; exact hn1
  dsimp only at h
  obtain ⟨l, h1, h⟩ := Res.bind_eq_ok.1 h
  obtain ⟨r, h2, h⟩ := Res.bind_eq_ok.1 h
  cases h
  refine RawNode.bootstrapApply_below (r' := r) h2 ⟨?_, ?_, ?_⟩
  · exact Nat.le_trans (Nat.le_of_eq (congrArg Core.term (Raft.becomeFollower_core (env := env) n.raft 1 0))) (Nat.le_add_left 1 B)
  · have hl : (n.raft.becomeFollower env 1 0).log = n.raft.log := Raft.reset_log (env := env) n.raft 1
    rw [hl] at h1
    show l.storage.hardState.term ≤ _
    rw [RaftLog.append_storage h1]; exact hn1.disk
  · have hm : (n.raft.becomeFollower env 1 0).msgs = n.raft.msgs := Raft.reset_msgs (env := env) n.raft 1
    show ∀ m ∈ (n.raft.becomeFollower env 1 0).msgs, m.Below _
    rw [hm]; exact hn1.msgs

theorem RawNode.withStorage_below {n : RawNode} {st : Storage} (h : n.raft.Below B) (hs : st.hardState.term ≤ B) : (n.withStorage st).raft.Below B :=
  ⟨h.term, hs, h.msgs⟩

theorem RawNode.takeReady_below {n n' : RawNode} {rd : Ready} (h : n.takeReady env = .ok (n', rd)) (hn : n.raft.Below B) :
    n'.raft.Below B ∧ ∀ m ∈ rd.messages, m.Below B := by
  unfold RawNode.takeReady at h
  obtain ⟨⟨n0, rd0⟩, h0, h1⟩ := Res.bind_eq_ok.1 h
  obtain ⟨st, h2, h1⟩ := Res.bind_eq_ok.1 h1
  cases h1
  have k0 : n0.raft.Below B := Call.below (env := env) (x := .getReady) (n := n) trivial (Or.inl (Nat.zero_le _)) hn (Nat.le_refl _)
    (by rintro (h | h | h) <;> cases h) (Res.bind_eq_ok.2 ⟨_, h0, rfl⟩)
  obtain ⟨hr, _⟩ := getReady_ok h0
  unfold RawNode.readyWithoutAccept newReady at hr
  obtain ⟨es, h3, hr⟩ := Res.bind_eq_ok.1 hr
  cases hr
  refine ⟨RawNode.withStorage_below k0 ?_, hn.msgs⟩
  rw [Storage.save_hard h2]
  have key : ∀ hs : HardState, hs.term ≤ B → (if isEmptyHardState hs = true then n0.raft.log.storage.hardState else hs).term ≤ B := by
    intro hs hh
    split
    · exact k0.disk
    · exact hh
  apply key
  dsimp only
  split
  · exact Nat.zero_le _
  · exact hn.term

theorem Members.applyAll_below : ∀ {es : List Entry} {n n' : RawNode} {a a' : Members.App},
    Members.applyAll env dec es n a = .ok (n', a') → n.raft.Below B → n'.raft.Below B
  | [], n, n', a, a', h, hn => by cases h; exact hn
  | e :: es, n, n', a, a', h, hn => by
    unfold Members.applyAll at h
    split at h
    · exact applyAll_below h hn
    split at h
    · exact applyAll_below h hn
    · obtain ⟨⟨n1, cs⟩, h1, h⟩ := Res.bind_eq_ok.1 h
      refine applyAll_below h ?_
      unfold RawNode.applyConfChange at h1
      obtain ⟨⟨r, cs'⟩, h2, h1⟩ := Res.bind_eq_ok.1 h1
      cases h1
      exact Raft.applyConfChange_below h2 hn

theorem Members.handle_below {n n' : RawNode} {a a' : Members.App} {rd : Ready} (h : Members.handle env dec n a = .ok (n', a', rd)) (hn : n.raft.Below B) :
    n'.raft.Below B ∧ ∀ m ∈ rd.messages, m.Below B := by
  unfold Members.handle at h
  obtain ⟨⟨n1, rd1⟩, h1, h⟩ := Res.bind_eq_ok.1 h
  obtain ⟨⟨n2, a2⟩, h2, h⟩ := Res.bind_eq_ok.1 h
  obtain ⟨n3, h3, h⟩ := Res.bind_eq_ok.1 h
  cases h
  obtain ⟨k1, k2⟩ := RawNode.takeReady_below h1 hn
  exact ⟨Call.below (env := env) (x := .advance) trivial (Or.inl (Nat.zero_le _)) (applyAll_below h2 k1) (Nat.le_refl _)
    (by rintro (h | h | h) <;> cases h) h3, k2⟩

namespace Given
open Members

/-- Every node, disk and message stays below a term. -/
structure Low (B : Nat) (c : State) : Prop where
  proc : ∀ p, match c.proc p with
    | .down st => st.hardState.term ≤ B
    | .up n _ => n.raft.Below B
  net : ∀ m ∈ c.net, m.Below B

theorem Low.mono {c : State} (h : Low B c) (hB : B ≤ B') : Low B' c := by
  refine ⟨fun p => ?_, fun m hm => (h.net m hm).mono hB⟩
  have k := h.proc p
  cases hp : c.proc p with
  | down st => rw [hp] at k; exact Nat.le_trans k hB
  | up n a => rw [hp] at k; exact k.mono hB

theorem Low.set {c : State} (h : Low B c) {p : Nat} {x : Proc} (hx : match x with
    | .down st => st.hardState.term ≤ B
    | .up n _ => n.raft.Below B) : Low B (c.set p x) := by
  refine ⟨fun q => ?_, h.net⟩
  unfold State.set
  dsimp only
  by_cases hq : q = p
  · rw [if_pos hq]; exact hx
  · rw [if_neg hq]; exact h.proc q

theorem electing_camp {x : Call} {n : RawNode} (h : CampMsg (x.msg env n)) : electing x = true := by
  cases x with
  | step m => exact decide_eq_true h
  | tick => rfl
  | campaign => rfl
  | _ => rcases h with h | h | h <;> cases h

theorem call_low {c : State} {p : Nat} {n n' : RawNode} {a : App} {x : Call} (hc : Low B c) (hp : c.proc p = .up n a) (hst : x.Stamped)
    (hi : (x.msg env n).Below B) (h : x.run env n = .ok n') : Low (if electing x then B + 1 else B) (c.set p (.up n' a)) := by
  have k := hc.proc p
  rw [hp] at k
  have hB : B ≤ if electing x then B + 1 else B := by split <;> omega
  refine (hc.mono hB).set (x := .up n' a) (Call.below hst hi k hB (fun hc => ?_) h)
  rw [electing_camp hc]; exact Nat.le_refl _

theorem Deed.low {d : Deed} {c c' : State} (hh : d.Honest c) (ht : d.Termless) (hn : ∀ m ∈ c.net, Stamped m) (h : d.run env dec c = .ok c') (hc : Low B c) :
    Low (if d.electing then B + 1 else B) c' := by
  cases d with
  | boot p cfg rng peers =>
    unfold Deed.run at h
    dsimp only at h
    have k := hc.proc p
    have hc1 := hc.mono (Nat.le_succ B)
    show Low (B + 1) c'
    split at h
    · cases h; exact hc1
    · next st e =>
      rw [e] at k
      obtain ⟨n0, h1, h⟩ := Res.bind_eq_ok.1 h
      obtain ⟨⟨n, x⟩, h2, h⟩ := Res.bind_eq_ok.1 h
      cases h
      exact hc1.set (x := .up n _) (RawNode.bootstrap_below h2 (RawNode.new_below h1 k))
  | act x =>
    unfold Deed.run at h
    dsimp only at h
    cases x with
    | start p cfg rng =>
      unfold Act.run at h
      dsimp only at h
      have k := hc.proc p
      split at h
      · cases h; exact hc
      · next st e =>
        rw [e] at k
        obtain ⟨n0, h1, h⟩ := Res.bind_eq_ok.1 h
        cases h
        exact hc.set (x := .up n0 _) (RawNode.new_below h1 k)
    | call p x =>
      unfold Act.run at h
      dsimp only at h
      show Low (if Given.electing x then B + 1 else B) c'
      split at h
      · cases h
        exact hc.mono (by split <;> omega)
      · next n a e =>
        obtain ⟨n0, h1, h⟩ := Res.bind_eq_ok.1 h
        cases h
        refine call_low hc e ?_ (Or.inl ?_) h1
        · cases x with
          | step m =>
            obtain ⟨k1, k2, k3⟩ := hh
            intro k
            rcases k with k | k | k
            · exact absurd k k1
            · exact absurd k k2
            · exact absurd k k3
          | _ => trivial
        · cases x with
          | step m => exact Nat.le_trans (Nat.le_of_eq ht) (Nat.zero_le _)
          | tick => unfold Call.msg; dsimp only; split <;> exact Nat.zero_le _
          | _ => exact Nat.zero_le _
    | deliver p m =>
      unfold Act.run at h
      dsimp only at h
      show Low (if Given.electing (.step m) then B + 1 else B) c'
      split at h
      · cases h
        exact hc.mono (by split <;> omega)
      · next n a e =>
        obtain ⟨n0, h1, h⟩ := Res.bind_eq_ok.1 h
        cases h
        exact call_low hc e (hn m hh) (hc.net m hh) h1
    | ready p =>
      unfold Act.run at h
      dsimp only at h
      have k := hc.proc p
      split at h
      · cases h; exact hc
      · next n a e =>
        rw [e] at k
        obtain ⟨⟨n', a', rd⟩, h1, h⟩ := Res.bind_eq_ok.1 h
        cases h
        obtain ⟨k1, k2⟩ := handle_below h1 k
        have w := hc.set (p := p) (x := .up n' a') k1
        exact ⟨w.proc, fun m hm => (List.mem_append.1 hm).elim (hc.net m) (k2 m)⟩
    | compact p i =>
      unfold Act.run at h
      dsimp only at h
      have k := hc.proc p
      split at h
      · cases h; exact hc
      · next n a e =>
        rw [e] at k
        obtain ⟨⟨st, x⟩, h1, h⟩ := Res.bind_eq_ok.1 h
        cases h
        exact hc.set (x := .up _ _) (RawNode.withStorage_below k (by rw [Storage.compact_hard h1]; exact k.disk))
    | createSnapshot p data =>
      unfold Act.run at h
      dsimp only at h
      have k := hc.proc p
      split at h
      · cases h; exact hc
      · next n a e =>
        rw [e] at k
        obtain ⟨⟨st, x⟩, h1, h⟩ := Res.bind_eq_ok.1 h
        cases h
        exact hc.set (x := .up _ _) (RawNode.withStorage_below k (by rw [Storage.createSnapshot_hard h1]; exact k.disk))
    | crash p =>
      unfold Act.run at h
      dsimp only at h
      have k := hc.proc p
      split at h
      · cases h; exact hc
      · next n a e =>
        rw [e] at k
        cases h
        exact hc.set (x := .down _) k.disk
    | crashReady p keep j =>
      unfold Act.run at h
      dsimp only at h
      have k := hc.proc p
      split at h
      · cases h; exact hc
      · next n a e =>
        rw [e] at k
        obtain ⟨⟨n', rd⟩, h1, h⟩ := Res.bind_eq_ok.1 h
        cases h
        obtain ⟨k1, k2⟩ := RawNode.takeReady_below h1 k
        have w := hc.set (p := p) (x := .down n'.raft.log.storage) k1.disk
        exact ⟨w.proc, fun m hm => (List.mem_append.1 hm).elim (hc.net m) (fun hm => k2 m (List.mem_filter.1 hm).1)⟩

theorem anything_closed : Closed (fun _ : Entry => True) := ⟨by intros; trivial, trivial, trivial⟩

theorem Course.low {disk : Nat → Storage} {T k : Nat} {c : State} (hT : ∀ p, (disk p).hardState.term ≤ T) (h : Course env dec disk k c) :
    Low (T + k) c ∧ c.From (fun _ => True) (fun _ => True) := by
  induction h with
  | init => exact ⟨⟨fun p => hT p, nofun⟩, ⟨fun p => ⟨fun _ _ => trivial, trivial⟩, nofun, nofun⟩⟩
  | deed d _ hh ht hr ih =>
    obtain ⟨i1, i2⟩ := ih
    refine ⟨?_, Deed.from anything_closed hh (fun _ _ _ _ => trivial) (fun _ _ _ _ => trivial) hr i2⟩
    have := Deed.low hh ht (fun m hm => (i2.net m hm).term) hr i1
    split
    · next he => rw [if_pos he] at this; exact this
    · next he => rw [if_neg he] at this; exact this

/-- If at most `k` events may have begun an election, and no disk knew a term beyond `T` in the beginning, then no node is in a term beyond
`T + k`, no disk records one, and no message carries one; but for pre-votes and their grants, which may carry the term after. -/
theorem C101_terms {disk : Nat → Storage} {T k : Nat} {c : State} (hT : ∀ p, (disk p).hardState.term ≤ T) (h : Course env dec disk k c) :
    (∀ p n a, c.proc p = .up n a → n.raft.term ≤ T + k) ∧ (∀ p, (c.proc p).disk.hardState.term ≤ T + k) ∧
      ∀ m ∈ c.net, m.term ≤ T + k ∨ (m.term = T + k + 1 ∧ (m.type = .preVote ∨ (m.type = .preVoteResp ∧ m.reject = false))) := by
  obtain ⟨⟨h1, h2⟩, _⟩ := h.low hT
  refine ⟨fun p n a e => ?_, fun p => ?_, fun m hm => ?_⟩
  · have := h1 p; rw [e] at this; exact this.term
  · have := h1 p
    cases hp : c.proc p with
    | down st => rw [hp] at this; exact this
    | up n a => rw [hp] at this; exact this.disk
  · rcases h2 m hm with k1 | ⟨k1, k2⟩
    · exact Or.inl k1
    · rcases Nat.lt_or_ge (T + k) m.term with k3 | k3
      · exact Or.inr ⟨by omega, k2⟩
      · exact Or.inl k3

/-- One call: the term of a node grows to that of the message at most, and by one more if it begins an election. -/
theorem C101_step {n n' : RawNode} {m : Message} {e : Option Err} (hm : (m.type = .app ∨ m.type = .heartbeat ∨ m.type = .snap) → m.term ≠ 0)
    (h : n.step env m = .ok (n', e)) : n'.raft.term ≤ max n.raft.term m.term + 1 ∧
      (m.type ≠ .timeoutNow → m.type ≠ .preVoteResp → n'.raft.term ≤ max n.raft.term m.term) := by
  unfold RawNode.step at h
  split at h
  · cases h; exact ⟨by omega, fun _ _ => by omega⟩
  · next hl =>
    split at h
    · obtain ⟨t, h1, h2⟩ := Raft.step_term hm (onRaft_ok h).1
      have : t ≤ max n.raft.term m.term := by
        rcases h1 with rfl | ⟨_, rfl⟩ <;> omega
      refine ⟨by rcases h2 with h2 | ⟨_, h2⟩ <;> omega, fun k1 k2 => ?_⟩
      rcases h2 with h2 | ⟨h3 | h3 | h3, _⟩
      · omega
      · rw [h3] at hl; exact absurd rfl hl
      · exact absurd h3 k1
      · exact absurd h3 k2
    · cases h; exact ⟨by omega, fun _ _ => by omega⟩

/-- Terms are 64 bits wide: with disks that start below `T`, they do not wrap within `2^64 - 2 - T` elections. -/
theorem C101_no_wrap {disk : Nat → Storage} {T k : Nat} {c : State} (hT : ∀ p, (disk p).hardState.term ≤ T) (hk : T + k + 1 < 2 ^ 64)
    (h : Course env dec disk k c) : (∀ p n a, c.proc p = .up n a → n.raft.term + 1 < 2 ^ 64) ∧ ∀ m ∈ c.net, m.term < 2 ^ 64 := by
  obtain ⟨h1, _, h3⟩ := C101_terms hT h
  refine ⟨fun p n a e => ?_, fun m hm => ?_⟩
  · have := h1 p n a e; omega
  · rcases h3 m hm with k1 | ⟨k1, _⟩ <;> omega

end Given
end

/-! ## The story of C76 once more: two nodes are bootstrapped and one campaigns -/

namespace Given.Demo
open Dyn.Demo (env dec)
open Members

theorem Cmd.termless {c : State} {x : Cmd} {d : Deed} (h : x.deed? c = some d) : d.Termless := by
  unfold Cmd.deed? at h
  split at h
  · cases h
  · cases h
  · cases h
    unfold Deed.Termless
    split
    · next p m h1 h2 => exact absurd rfl (h2 p m)
    · trivial
  · obtain ⟨m, h1, rfl⟩ := Option.map_eq_some_iff.1 h
    trivial

def count : List Cmd → Nat → State → Option (Nat × State)
  | [], k, c => some (k, c)
  | x :: xs, k, c => match x.deed? c with
    | none => none
    | some d => match d.run env dec c with
      | .ok c' => count xs (if d.electing then k + 1 else k) c'
      | _ => none

theorem count_course {disk : Nat → Storage} {xs : List Cmd} {k : Nat} {c : State} (ht : Course env dec disk k c) {r : Nat × State}
    (h : count xs k c = some r) : Course env dec disk r.1 r.2 := by
  induction xs generalizing k c with
  | nil => cases h; exact ht
  | cons x xs ih =>
    unfold count at h
    split at h
    · cases h
    · next d hd =>
      split at h
      · next c' hc' => exact ih (.deed d ht (Cmd.honest hd) (Cmd.termless hd) hc') h
      · cases h

def counted : Nat × State := (count story 0 { proc := fun _ => .down {} }).getD (0, { proc := fun _ => .down {} })

theorem counted_course : Course env dec (fun _ => {}) counted.1 counted.2 := by
  have h : (count story 0 { proc := fun _ => .down {} }).isSome = true := by decide +kernel
  obtain ⟨r, hr⟩ := Option.isSome_iff_exists.1 h
  have : counted = r := by unfold counted; rw [hr]; rfl
  rw [this]
  exact count_course .init hr

/-- Three events may have begun elections; the nodes are in term 2 on their disks. -/
example : counted.1 = 3 ∧ (counted.2.proc 1).disk.hardState.term = 2 ∧ (counted.2.proc 3).disk.hardState.term = 2 := by decide +kernel

/-- It follows from the theorem that no message is of a term beyond 4. -/
example : ∀ m ∈ counted.2.net, m.term ≤ 4 := by
  have h : counted.1 = 3 := by decide +kernel
  intro m hm
  rcases (C101_terms (T := 0) (fun _ => Nat.le_refl _) counted_course).2.2 m hm with k | ⟨k, _⟩ <;> omega

end Given.Demo
end Craft
