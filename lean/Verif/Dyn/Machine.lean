import Verif.Dyn.BootReads
import Verif.Dyn.Safety
import Verif.Props.Given
import Verif.Spec.Machine

/-! # Replicated state machines: the invariant -/

namespace Craft.Dyn
open Spec Members

theorem contig_snoc {es : List Entry} {e : Entry} {k : Nat} (h : Contig k es) (he : e.index = k + es.length) : Contig k (es ++ [e]) := by
  intro i x hx
  rcases Nat.lt_or_ge i es.length with hl | hl
  · rw [List.getElem?_append_left hl] at hx; exact h i x hx
  · rw [List.getElem?_append_right hl] at hx
    have hz : i - es.length = 0 := by
      have := (List.getElem?_eq_some_iff.1 hx).1
      simp at this; omega
    rw [hz] at hx
    cases hx
    rw [he]; omega

/-- No action forgets what was handed out. -/
theorem run_out {env : Env} {dec : Entry → Option ConfChangeI} {c c' : State} {a : Act} (h : a.run env dec c = .ok c') : ∀ d ∈ c.out, d ∈ c'.out := by
  intro d hd
  cases a with
  | start p cfg rng =>
    unfold Act.run at h; dsimp only at h
    split at h
    · cases h; exact hd
    · obtain ⟨n, _, h⟩ := Res.bind_eq_ok.1 h; cases h; exact hd
  | call p x =>
    unfold Act.run at h; dsimp only at h
    split at h
    · cases h; exact hd
    · obtain ⟨n, _, h⟩ := Res.bind_eq_ok.1 h; cases h; exact hd
  | deliver p x =>
    unfold Act.run at h; dsimp only at h
    split at h
    · cases h; exact hd
    · obtain ⟨n, _, h⟩ := Res.bind_eq_ok.1 h; cases h; exact hd
  | ready p =>
    unfold Act.run at h; dsimp only at h
    split at h
    · cases h; exact hd
    · obtain ⟨⟨n, a, rd⟩, _, h⟩ := Res.bind_eq_ok.1 h; cases h; exact List.mem_append_left _ hd
  | compact p i =>
    unfold Act.run at h; dsimp only at h
    split at h
    · cases h; exact hd
    · obtain ⟨⟨n, _⟩, _, h⟩ := Res.bind_eq_ok.1 h; cases h; exact hd
  | createSnapshot p data =>
    unfold Act.run at h; dsimp only at h
    split at h
    · cases h; exact hd
    · obtain ⟨⟨n, _⟩, _, h⟩ := Res.bind_eq_ok.1 h; cases h; exact hd
  | crash p =>
    unfold Act.run at h; dsimp only at h
    split at h <;> (cases h; exact hd)
  | crashReady p keep k =>
    unfold Act.run at h; dsimp only at h
    split at h
    · cases h; exact hd
    · obtain ⟨⟨n, rd⟩, _, h⟩ := Res.bind_eq_ok.1 h; cases h; exact List.mem_append_left _ hd

variable {σ : Type}

/-- The entry is in the initial log or was handed out. -/
def Fixed (L0 : List Entry) (c : State) (e : Entry) : Prop := e ∈ L0 ∨ ∃ d ∈ c.out, d.entry = e

/-- The state after `k` such entries, in order. -/
def Sound (M : Machine σ) (L0 : List Entry) (c : State) (k : Nat) (s : σ) : Prop :=
  ∃ es, Contig 1 es ∧ es.length = k ∧ (∀ e ∈ es, Fixed L0 c e) ∧ s = es.foldl M.step M.init

def SnapSound (M : Machine σ) (L0 : List Entry) (c : State) (x : Snapshot) : Prop := x.metadata.index = 0 ∨ Sound M L0 c x.metadata.index (M.load x.data)

variable {M : Machine σ} {L0 : List Entry} {c c' : State} {k : Nat} {s : σ}

theorem Sound.mono (h : Sound M L0 c k s) (ho : ∀ d ∈ c.out, d ∈ c'.out) : Sound M L0 c' k s := by
  obtain ⟨es, h1, h2, h3, h4⟩ := h
  exact ⟨es, h1, h2, fun e he => (h3 e he).imp id fun ⟨d, hd, k⟩ => ⟨d, ho d hd, k⟩, h4⟩

theorem SnapSound.mono {x : Snapshot} (h : SnapSound M L0 c x) (ho : ∀ d ∈ c.out, d ∈ c'.out) : SnapSound M L0 c' x :=
  h.imp id fun h => h.mono ho

theorem Sound.zero : Sound M L0 c 0 M.init := ⟨[], fun i e h => (by cases h), rfl, fun e he => (by cases he), rfl⟩

theorem Sound.feed : ∀ {es : List Entry} {i k : Nat} {s : σ}, Sound M L0 c k s → Contig i es → i ≤ k + 1 → (∀ e ∈ es, Fixed L0 c e) →
    Sound M L0 c (M.feed es (k, s)).1 (M.feed es (k, s)).2
  | [], i, k, s, h, _, _, _ => h
  | e :: es, i, k, s, h, hc, hi, hf => by
    obtain ⟨h1, h2⟩ := Contig.cons.1 hc
    unfold Machine.feed
    split
    · next hle => exact Sound.feed h h2 (by omega) fun x hx => hf x (List.mem_cons_of_mem _ hx)
    · next hle =>
      have hk : e.index = k + 1 := by omega
      refine Sound.feed (i := i + 1) ?_ h2 (by omega) fun x hx => hf x (List.mem_cons_of_mem _ hx)
      obtain ⟨es0, g1, g2, g3, g4⟩ := h
      refine ⟨es0 ++ [e], contig_snoc g1 (by omega), by rw [List.length_append, g2, hk]; rfl, fun x hx => ?_, by rw [List.foldl_append, ← g4]; rfl⟩
      rcases List.mem_append.1 hx with hx | hx
      · exact g3 x hx
      · rw [List.mem_singleton.1 hx]; exact hf e List.mem_cons_self

/-- The application and its machine count alike. -/
theorem applyAll_index {env : Env} {dec : Entry → Option ConfChangeI} : ∀ {es : List Entry} {n n' : RawNode} {a a' : App} {s : σ},
    applyAll env dec es n a = .ok (n', a') → a'.index = (M.feed es (a.index, s)).1
  | [], n, n', a, a', s, h => by cases h; rfl
  | e :: es, n, n', a, a', s, h => by
    unfold applyAll at h
    unfold Machine.feed
    split at h
    · next hle => rw [if_pos hle]; exact applyAll_index h
    · next hle =>
      rw [if_neg hle]
      split at h
      · exact applyAll_index (a := { a with index := e.index }) h
      · obtain ⟨⟨n1, cs⟩, _, h⟩ := Res.bind_eq_ok.1 h
        exact applyAll_index (a := ⟨e.index, cs⟩) h

theorem closed_true : Closed fun _ => True := ⟨fun _ _ _ _ _ => trivial, trivial, trivial⟩

namespace MGen
/-- The invariant. -/
structure MS (G : MGen) (M : Machine σ) (hist : List (Nat × Nat × σ)) (c : State) (sm : Nat → σ) (g : DState) : Prop where
  rel : G.Rel c g
  snaps : c.From (fun _ => True) (SnapSound M G.L0 c)
  sm : ∀ p n a, c.proc p = .up n a → Sound M G.L0 c a.index (sm p)
  hist : ∀ r ∈ hist, Sound M G.L0 c r.2.1 r.2.2
  lax : ¬ G.strict

variable {G : MGen} {hist : List (Nat × Nat × σ)} {sm : Nat → σ} {g : DState} {env : Env}

theorem MS.next (h : G.MS M hist c sm g) (hs : c.From (fun _ => True) (SnapSound M G.L0 c) → c'.From (fun _ => True) (SnapSound M G.L0 c)) {g' : DState} {sm' : Nat → σ} {l : List (Nat × Nat × σ)}
    (hrel : G.Rel c' g') (ho : ∀ d ∈ c.out, d ∈ c'.out)
    (hsm : ∀ p n a, c'.proc p = .up n a → (∃ n0, c.proc p = .up n0 a ∧ sm' p = sm p) ∨ Sound M G.L0 c' a.index (sm' p))
    (hl : ∀ p k s, (p, k, s) ∈ l → ∃ n a, c'.proc p = .up n a ∧ k = a.index ∧ s = sm' p) : G.MS M (hist ++ l) c' sm' g' := by
  have hsm' : ∀ p n a, c'.proc p = .up n a → Sound M G.L0 c' a.index (sm' p) := by
    intro p n a hp
    rcases hsm p n a hp with ⟨n0, h1, h2⟩ | h1
    · rw [h2]; exact (h.sm p n0 a h1).mono ho
    · exact h1
  refine ⟨hrel, (hs h.snaps).mono (fun _ h => h) fun _ h => h.mono ho, hsm', fun r hr => ?_, h.lax⟩
  rcases List.mem_append.1 hr with hr | hr
  · exact (h.hist r hr).mono ho
  · obtain ⟨p, k, s⟩ := r
    obtain ⟨n, a, h1, rfl, rfl⟩ := hl p k s hr
    exact hsm' p n a h1

/-- Handling a Ready. -/
theorem MS.ready {p : Nat} {n n' : RawNode} {a a' : App} {rd : Ready} (h : G.MS M hist c sm g) (hp : c.proc p = .up n a)
    (hh : handle env G.dec n a = .ok (n', a', rd)) (ho : ∀ d ∈ c.out, d ∈ c'.out) (hn : ∀ e ∈ rd.committedEntries, ∃ d ∈ c'.out, d.entry = e) :
    Sound M G.L0 c' a'.index (M.feed rd.committedEntries ((a.install rd.snapshot).index, M.install (sm p) rd.snapshot)).2 := by
  obtain ⟨s, hu⟩ := h.rel.up hp
  have hg := h.rel.reach
  obtain ⟨st, hsv, htk⟩ := takeReady_eq (env := env) hu.linv
  unfold handle at hh
  rw [htk] at hh
  simp only [Res.ok_bind] at hh
  obtain ⟨⟨n2, a2⟩, hall, hh⟩ := Res.bind_eq_ok.1 hh
  obtain ⟨n3, hadv, hh⟩ := Res.bind_eq_ok.1 hh
  simp only [Res.pure_eq, Res.ok.injEq, Prod.mk.injEq] at hh
  obtain ⟨rfl, rfl, rfl⟩ := hh
  obtain ⟨_, hmid, _⟩ := hu.mid hg hsv rfl rfl
  rw [applyAll_index (M := M) (s := M.install (sm p) (readyOf env n).snapshot) hall]
  refine Sound.feed (i := max n.raft.log.applied n.raft.log.view.base + 1) ?_ (hu.linv.nextOut_contig env) (by omega) fun e he => Or.inr (hn e he)
  have hk := h.snaps.proc p
  rw [hp] at hk
  have hk := (Raft.From.core hk).log.snap
  have hsnap : (readyOf env n).snapshot = n.raft.log.unstable.snapshot.getD {} := rfl
  unfold App.install Machine.install
  by_cases he : isEmptySnap (readyOf env n).snapshot = true
  · rw [if_pos he, if_pos he]; exact (h.sm p n a hp).mono ho
  · rw [if_neg he, if_neg he]
    have hne : (readyOf env n).snapshot.metadata.index ≠ 0 := fun h0 => he (decide_eq_true h0)
    refine Sound.mono ?_ ho
    rw [hsnap] at hne ⊢
    cases hs : n.raft.log.unstable.snapshot with
    | none => rw [hs] at hne; exact absurd rfl hne
    | some x =>
      rw [hs] at hne
      exact (hk x hs).resolve_left hne

theorem MS.act (h : G.MS M hist c sm g) (a : Act) (ha : a.Allowed c) (hsv : M.Saves sm a) (hr : a.run env G.dec c = .ok c')
    (hb : ∀ p, G.founder p → c.proc p = .down {} → c'.proc p = c.proc p) :
    ∃ g', G.MS M (hist ++ Machine.seen c' (M.next env G.dec c sm a) a) c' (M.next env G.dec c sm a) g' := by
  obtain ⟨g', hrel, _⟩ := h.rel.step_grows (act_step a ha hr) h.lax hb
  refine ⟨g', ?_⟩
  have ho := run_out hr
  have hfrom : c.From (fun _ => True) (SnapSound M G.L0 c) → c'.From (fun _ => True) (SnapSound M G.L0 c) := by
    refine Given.Deed.from (d := .act a) closed_true ?_ (fun _ _ _ _ => trivial) ?_ hr
    · cases a with
      | call p x => cases x <;> first | trivial | exact absurd rfl (ha.2.2 _)
      | deliver p m => exact ha.2.1
      | _ => trivial
    · intro o hm x hx
      cases a with
      | createSnapshot p data =>
        obtain ⟨n, a, hp⟩ := ha
        simp only [Given.Deed.makes, hp, List.mem_singleton] at hm
        subst hm
        simp only [Prod.mk.injEq] at hx
        obtain ⟨h1, _, h3⟩ := hx
        right
        rw [h1, h3, show data = M.save (sm p) from hsv, M.back]
        exact h.sm p n a hp
      | _ => cases hm
  cases a with
  | start p cfg rng =>
    obtain ⟨st, h1, h2, _⟩ := ha
    simp only [Act.run, h1] at hr
    obtain ⟨n, h3, h4⟩ := Res.bind_eq_ok.1 hr
    cases h4
    refine h.next hfrom hrel ho (fun q n' a' hq => ?_) (fun _ _ _ hm => by cases hm)
    simp only [Machine.next, h1]
    unfold State.set at hq
    dsimp only at hq
    by_cases hqp : q = p
    · subst hqp
      rw [if_pos rfl] at hq ⊢
      cases hq
      right
      have hk := h.snaps.proc q
      rw [h1] at hk
      unfold Machine.install
      split
      · next he =>
        rw [show st.snapshot.metadata.index = 0 from of_decide_eq_true he]
        exact Sound.zero
      · next he =>
        refine Sound.mono ((Storage.From.snap hk).resolve_left fun h0 => ?_) ho
        exact he (decide_eq_true h0)
    · rw [if_neg hqp] at hq ⊢
      exact Or.inl ⟨n', hq, rfl⟩
  | ready p =>
    obtain ⟨n, a, h1⟩ := ha
    simp only [Act.run, h1] at hr
    obtain ⟨⟨n', a', rd⟩, h4, h5⟩ := Res.bind_eq_ok.1 hr
    cases h5
    refine h.next hfrom hrel ho (fun q n2 a2 hq => ?_) (fun q k s hm => ?_)
    · simp only [Machine.next, h1, h4]
      have hq : (c.set p (.up n' a')).proc q = .up n2 a2 := hq
      unfold State.set at hq
      dsimp only at hq
      by_cases hqp : q = p
      · subst hqp
        rw [if_pos rfl] at hq ⊢
        cases hq
        exact Or.inr (h.ready h1 h4 ho fun e he => ⟨⟨q, n.raft.term, e⟩, List.mem_append_right _ (List.mem_map.2 ⟨e, he, rfl⟩), rfl⟩)
      · rw [if_neg hqp] at hq ⊢
        exact Or.inl ⟨n2, hq, rfl⟩
    · have hpp : ({ c.set p (.up n' a') with
          net := c.net ++ rd.messages
          out := c.out ++ rd.committedEntries.map fun e => ⟨p, n.raft.term, e⟩
          led := if n.raft.state = .leader then c.led ++ [⟨p, n.raft.term, n.raft.log.view⟩] else c.led
          known := c.known ++ [⟨p, a'⟩] } : State).proc p = .up n' a' := by
        show (if p = p then _ else _) = _
        rw [if_pos rfl]
      unfold Machine.seen at hm
      dsimp only at hm
      split at hm
      · next n2 a2 hq =>
        simp only [List.mem_singleton, Prod.mk.injEq] at hm
        obtain ⟨rfl, rfl, rfl⟩ := hm
        exact ⟨n2, a2, hq, rfl, rfl⟩
      · cases hm
  | call p x =>
    obtain ⟨⟨n, a, h1⟩, _⟩ := ha
    simp only [Act.run, h1] at hr
    obtain ⟨n', h4, h5⟩ := Res.bind_eq_ok.1 hr
    cases h5
    refine h.next hfrom hrel ho (fun q n2 a2 hq => Or.inl ?_) (fun _ _ _ hm => by cases hm)
    unfold State.set at hq
    dsimp only at hq
    split at hq
    · next hqp => subst hqp; cases hq; exact ⟨n, h1, rfl⟩
    · exact ⟨n2, hq, rfl⟩
  | deliver p x =>
    obtain ⟨⟨n, a, h1⟩, _⟩ := ha
    simp only [Act.run, h1] at hr
    obtain ⟨n', h4, h5⟩ := Res.bind_eq_ok.1 hr
    cases h5
    refine h.next hfrom hrel ho (fun q n2 a2 hq => Or.inl ?_) (fun _ _ _ hm => by cases hm)
    unfold State.set at hq
    dsimp only at hq
    split at hq
    · next hqp => subst hqp; cases hq; exact ⟨n, h1, rfl⟩
    · exact ⟨n2, hq, rfl⟩
  | compact p i =>
    obtain ⟨n, a, h1, _⟩ := ha
    simp only [Act.run, h1] at hr
    obtain ⟨⟨st, e⟩, h4, h5⟩ := Res.bind_eq_ok.1 hr
    cases h5
    refine h.next hfrom hrel ho (fun q n2 a2 hq => Or.inl ?_) (fun _ _ _ hm => by cases hm)
    unfold State.set at hq
    dsimp only at hq
    split at hq
    · next hqp => subst hqp; cases hq; exact ⟨n, h1, rfl⟩
    · exact ⟨n2, hq, rfl⟩
  | createSnapshot p data =>
    obtain ⟨n, a, h1⟩ := ha
    simp only [Act.run, h1] at hr
    obtain ⟨⟨st, e⟩, h4, h5⟩ := Res.bind_eq_ok.1 hr
    cases h5
    refine h.next hfrom hrel ho (fun q n2 a2 hq => Or.inl ?_) (fun _ _ _ hm => by cases hm)
    unfold State.set at hq
    dsimp only at hq
    split at hq
    · next hqp => subst hqp; cases hq; exact ⟨n, h1, rfl⟩
    · exact ⟨n2, hq, rfl⟩
  | crash p =>
    obtain ⟨n, a, h1⟩ := ha
    simp only [Act.run, h1] at hr
    cases hr
    refine h.next hfrom hrel ho (fun q n2 a2 hq => Or.inl ?_) (fun _ _ _ hm => by cases hm)
    unfold State.set at hq
    dsimp only at hq
    split at hq
    · cases hq
    · exact ⟨n2, hq, rfl⟩
  | crashReady p keep k =>
    obtain ⟨n, a, h1⟩ := ha
    simp only [Act.run, h1] at hr
    obtain ⟨⟨n1, rd⟩, h4, h5⟩ := Res.bind_eq_ok.1 hr
    cases h5
    refine h.next hfrom hrel ho (fun q n2 a2 hq => Or.inl ?_) (fun _ _ _ hm => by cases hm)
    have hq : (c.set p (.down n1.raft.log.storage)).proc q = .up n2 a2 := hq
    unfold State.set at hq
    dsimp only at hq
    split at hq
    · cases hq
    · exact ⟨n2, hq, rfl⟩

/-- A founder is bootstrapped. -/
theorem MS.boot {p : Nat} {n : RawNode} {g' : DState} (h : G.MS M hist c sm g) (hrel : G.Rel (c.set p (.up n ⟨0, {}⟩)) g')
    (hf : n.raft.From (fun _ => True) (SnapSound M G.L0 c)) :
    G.MS M hist (c.set p (.up n ⟨0, {}⟩)) (fun q => if q = p then M.init else sm q) g' := by
  have := h.next (c' := c.set p (.up n ⟨0, {}⟩)) (l := []) (sm' := fun q => if q = p then M.init else sm q)
    (fun hc => hc.set (x := .up n ⟨0, {}⟩) hf) hrel (fun _ h => h) (fun q n2 a2 hq => ?_) (fun _ _ _ hm => by cases hm)
  · rwa [List.append_nil] at this
  · unfold State.set at hq
    dsimp only at hq ⊢
    by_cases hqp : q = p
    · rw [if_pos hqp] at hq ⊢
      cases hq
      exact Or.inr Sound.zero
    · rw [if_neg hqp] at hq ⊢
      exact Or.inl ⟨n2, hq, rfl⟩

/-- The sequence of entries. -/
noncomputable def entryAt (L0 : List Entry) (c : State) (i : Nat) : Entry :=
  open Classical in if h : ∃ d ∈ c.out, d.entry.index = i then h.choose.entry else (L0[i - 1]?).getD {}

theorem MS.fixed (h : G.MS M hist c sm g) (hL : Contig 1 G.L0) {e : Entry} (he : Fixed G.L0 c e) : entryAt G.L0 c e.index = e := by
  unfold entryAt
  split
  · next hd =>
    obtain ⟨k1, k2⟩ := hd.choose_spec
    generalize hd.choose = d at k1 k2
    rcases he with he | ⟨d', h1, rfl⟩
    · obtain ⟨i, hi⟩ := List.mem_iff_getElem?.1 he
      have hx := hL i e hi
      obtain ⟨_, pre, h2, _⟩ := h.rel.out d k1
      rw [k2, show e.index - 1 = i by omega, List.getElem?_append_left (List.getElem?_eq_some_iff.1 hi).1, hi] at h2
      exact (Option.some.inj h2).symm
    · exact h.rel.agreement.1 d k1 d' h1 k2
  · next hd =>
    rcases he with he | ⟨d', h1, rfl⟩
    · obtain ⟨i, hi⟩ := List.mem_iff_getElem?.1 he
      have hx := hL i e hi
      rw [show e.index - 1 = i by omega, hi]; rfl
    · exact absurd ⟨d', h1, rfl⟩ hd

theorem after_fold {f : Nat → Entry} {es : List Entry} (hc : Contig 1 es) (hf : ∀ e ∈ es, f e.index = e) :
    es.foldl M.step M.init = M.after f es.length := by
  induction es using List.reverseRecOn with
  | nil => rfl
  | append_singleton es e ih =>
    have h1 : Contig 1 es := fun i x hx => hc i x (by rw [List.getElem?_append_left (List.getElem?_eq_some_iff.1 hx).1]; exact hx)
    have h2 : e.index = 1 + es.length := hc es.length e (by simp)
    have h3 := hf e (by simp)
    rw [List.foldl_append, ih h1 fun x hx => hf x (List.mem_append_left _ hx), List.length_append]
    show M.step _ e = M.step _ (f (es.length + 1))
    rw [show es.length + 1 = e.index by omega, h3]

theorem MS.replicated (h : G.MS M hist c sm g) (hL : Contig 1 G.L0) : M.Replicated G.L0 hist c sm := by
  have key : ∀ {k s}, Sound M G.L0 c k s → s = M.after (entryAt G.L0 c) k := by
    rintro k s ⟨es, h1, rfl, h3, rfl⟩
    exact after_fold h1 fun e he => h.fixed hL (h3 e he)
  refine ⟨entryAt G.L0 c, fun i e hi => ?_, fun d hd => h.fixed hL (Or.inr ⟨d, hd, rfl⟩), fun p n a hp => key (h.sm p n a hp), fun p k s hr => key (h.hist _ hr)⟩
  have := h.fixed hL (e := e) (Or.inl (List.mem_of_getElem? hi))
  rw [hL i e hi] at this
  rw [Nat.add_comm]; exact this

end MGen
end Craft.Dyn
