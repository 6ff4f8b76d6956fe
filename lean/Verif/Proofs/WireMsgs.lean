import Verif.Proofs.Wire
import Verif.Spec.Wire

/-! # Every message type: fields, sizes, reading back -/

namespace Craft.Pb

/-- What is shown of each message type: its fields can be written, `ByteSizeLong` is right, and the fields give the message. -/
structure Good {M : Type} (set : M → Raw → Option M) (empty : M) (m : M) (raws : List Raw) (size : Nat) : Prop where
  ok : ∀ r ∈ raws, RawOk r
  len : (encs raws).length = size
  back : raws.foldlM set empty = some m

theorem Good.merge {M : Type} {set : M → Raw → Option M} {e m : M} {raws : List Raw} {size : Nat} (h : Good set e m raws size) :
    merge set e (encs raws) = some m := by rw [merge_encs h.ok, h.back]

theorem Good.parse {M : Type} {set : M → Raw → Option M} {e m : M} {raws : List Raw} {size : Nat} (h : Good set e m raws size) (hs : size < 2 ^ 31) :
    parse set e (serialize raws) = some m := by
  unfold Pb.parse serialize
  rw [h.len, if_pos hs, h.merge]

theorem int_ok {k n : Nat} (h1 : 1 ≤ k) (h2 : k < 2 ^ 29) (h : n < 2 ^ 64) : RawOk (k, .int n) := ⟨⟨h1, h2⟩, h⟩
theorem len_ok {k : Nat} {b : Bytes} (h1 : 1 ≤ k) (h2 : k < 2 ^ 29) (h : b.length < 2 ^ 31) : RawOk (k, .len b) := ⟨⟨h1, h2⟩, h⟩
theorem bool_ok {k : Nat} {b : Bool} (h1 : 1 ≤ k) (h2 : k < 2 ^ 29) : RawOk (k, ofBool b) := by
  cases b
  · exact int_ok (n := 0) h1 h2 (by decide)
  · exact int_ok (n := 1) h1 h2 (by decide)

theorem opt_bytes {b : Bytes} {o : Option Bytes} (h : o = some b) : b.length ≤ optSize (fun b : Bytes => lenSize b.length) o := by
  rw [h]; simp only [optSize, lenSize]; omega

theorem opt_msg {X : Type} {f : X → Nat} {x : X} {o : Option X} (h : o = some x) : f x ≤ optSize (fun x => lenSize (f x)) o := by
  rw [h]; simp only [optSize, lenSize]; omega

theorem rep_msg {X : Type} {f : X → Nat} {x : X} {xs : List X} (h : x ∈ xs) : f x ≤ (xs.map fun x => lenSize (f x)).sum := by
  induction xs with
  | nil => cases h
  | cons y ys ih =>
    simp only [List.map_cons, List.sum_cons]
    rcases List.mem_cons.1 h with rfl | h
    · simp only [lenSize]; omega
    · have := ih h; omega

theorem entryTypeNo_lt (t : EntryType) : entryTypeNo t < 4 := by cases t <;> decide
theorem entryType_back (t : EntryType) : entryTypeOf (entryTypeNo t % 2 ^ 32) = some t := by cases t <;> rfl
theorem msgTypeNo_lt (t : MsgType) : msgTypeNo t < 32 := by cases t <;> decide
theorem msgType_back (t : MsgType) : msgTypeOf (msgTypeNo t % 2 ^ 32) = some t := by cases t <;> rfl
theorem transitionNo_lt (t : CCTransition) : transitionNo t < 4 := by cases t <;> decide
theorem transition_back (t : CCTransition) : transitionOf (transitionNo t % 2 ^ 32) = some t := by cases t <;> rfl
theorem ccTypeNo_lt {t : CCType} (h : ∀ k, t ≠ .unknown k) : ccTypeNo t < 4 := by
  cases t with
  | unknown n => exact absurd rfl (h n)
  | _ => decide
theorem ccType_back {t : CCType} (h : ∀ k, t ≠ .unknown k) : ccTypeOf (ccTypeNo t % 2 ^ 32) = some t := by
  cases t with
  | unknown n => exact absurd rfl (h n)
  | _ => rfl

theorem setEnum_some {X M : Type} {of : Nat → Option X} {n : Nat} {m : M} {put : X → M} {x : X} (h : of (n % 2 ^ 32) = some x) :
    setEnum of n m put = some (put x) := by unfold setEnum; rw [h]

theorem ofBool_back (b : Bool) : ∃ n, ofBool b = .int n ∧ decide (n ≠ 0) = b := by cases b <;> exact ⟨_, rfl, rfl⟩

theorem PEntry.good {m : PEntry} (h : m.InRange) (hs : m.byteSize < 2 ^ 31) : Good PEntry.set {} m m.raws m.byteSize := by
  have hd : ∀ b, m.data = some b → b.length < 2 ^ 31 := fun b hb => by
    have := opt_bytes hb
    unfold PEntry.byteSize at hs; omega
  refine ⟨fun r hr => ?_, ?_, ?_⟩
  · unfold PEntry.raws at hr
    simp only [List.mem_append] at hr
    rcases hr with ((hr | hr) | hr) | hr <;> obtain ⟨x, hx, rfl⟩ := mem_opt hr
    · exact int_ok (by decide) (by decide) (by have := entryTypeNo_lt x; omega)
    · exact int_ok (by decide) (by decide) (h.term _ hx)
    · exact int_ok (by decide) (by decide) (h.index _ hx)
    · exact len_ok (by decide) (by decide) (hd _ hx)
  · unfold PEntry.raws PEntry.byteSize
    rw [length_encs_append, length_encs_append, length_encs_append, len_opt_enum (by decide) (fun t _ => by have := entryTypeNo_lt t; omega),
      len_opt_int (by decide) h.term, len_opt_int (by decide) h.index,
      len_opt_len (f := fun b => b) (g := fun b : Bytes => b.length) (by decide) (fun b hb => ⟨rfl, by have := hd b hb; omega⟩)]
    omega
  · have e : m.raws = opt 1 (fun t => .int (entryTypeNo t)) m.type ++ (opt 2 .int m.term ++ (opt 3 .int m.index ++ (opt 4 .len m.data ++ []))) := by
      unfold PEntry.raws; simp only [List.append_assoc, List.append_nil]
    rw [e]
    refine (fold_opt (fun o => { type := o : PEntry }) fun x _ => setEnum_some (entryType_back x)).trans ?_
    refine (fold_opt (fun o => { type := m.type, term := o : PEntry }) fun x _ => rfl).trans ?_
    refine (fold_opt (fun o => { type := m.type, term := m.term, index := o : PEntry }) fun x _ => rfl).trans ?_
    exact fold_opt (fun o => { type := m.type, term := m.term, index := m.index, data := o : PEntry }) fun x _ => rfl

theorem PHardState.good {m : PHardState} (h : m.InRange) : Good PHardState.set {} m m.raws m.byteSize := by
  refine ⟨fun r hr => ?_, ?_, ?_⟩
  · unfold PHardState.raws at hr
    simp only [List.mem_append] at hr
    rcases hr with (hr | hr) | hr <;> obtain ⟨x, hx, rfl⟩ := mem_opt hr
    · exact int_ok (by decide) (by decide) (h.term _ hx)
    · exact int_ok (by decide) (by decide) (h.vote _ hx)
    · exact int_ok (by decide) (by decide) (h.commit _ hx)
  · unfold PHardState.raws PHardState.byteSize
    rw [length_encs_append, length_encs_append, len_opt_int (by decide) h.term, len_opt_int (by decide) h.vote, len_opt_int (by decide) h.commit]
  · have e : m.raws = opt 1 .int m.term ++ (opt 2 .int m.vote ++ (opt 3 .int m.commit ++ [])) := by
      unfold PHardState.raws; simp only [List.append_assoc, List.append_nil]
    rw [e]
    refine (fold_opt (fun o => { term := o : PHardState }) fun x _ => rfl).trans ?_
    refine (fold_opt (fun o => { term := m.term, vote := o : PHardState }) fun x _ => rfl).trans ?_
    exact fold_opt (fun o => { term := m.term, vote := m.vote, commit := o : PHardState }) fun x _ => rfl

theorem PConfState.good {m : PConfState} (h : m.InRange) : Good PConfState.set {} m m.raws m.byteSize := by
  refine ⟨fun r hr => ?_, ?_, ?_⟩
  · unfold PConfState.raws at hr
    simp only [List.mem_append] at hr
    rcases hr with (((hr | hr) | hr) | hr) | hr
    · obtain ⟨x, hx, rfl⟩ := mem_rep hr
      exact int_ok (by decide) (by decide) (h.voters _ hx)
    · obtain ⟨x, hx, rfl⟩ := mem_rep hr
      exact int_ok (by decide) (by decide) (h.learners _ hx)
    · obtain ⟨x, hx, rfl⟩ := mem_rep hr
      exact int_ok (by decide) (by decide) (h.votersOutgoing _ hx)
    · obtain ⟨x, hx, rfl⟩ := mem_rep hr
      exact int_ok (by decide) (by decide) (h.learnersNext _ hx)
    · obtain ⟨x, hx, rfl⟩ := mem_opt hr
      exact bool_ok (by decide) (by decide)
  · unfold PConfState.raws PConfState.byteSize
    rw [length_encs_append, length_encs_append, length_encs_append, length_encs_append, len_rep_int (by decide) h.voters,
      len_rep_int (by decide) h.learners, len_rep_int (by decide) h.votersOutgoing, len_rep_int (by decide) h.learnersNext, len_opt_bool (by decide)]
  · have e : m.raws = rep 1 .int m.voters ++ (rep 2 .int m.learners ++ (rep 3 .int m.votersOutgoing ++ (rep 4 .int m.learnersNext ++
        (opt 5 ofBool m.autoLeave ++ [])))) := by
      unfold PConfState.raws; simp only [List.append_assoc, List.append_nil]
    rw [e]
    refine (fold_rep (fun o => { voters := o : PConfState }) fun zs x _ => rfl).trans ?_
    rw [List.nil_append]
    refine (fold_rep (fun o => { voters := m.voters, learners := o : PConfState }) fun zs x _ => rfl).trans ?_
    rw [List.nil_append]
    refine (fold_rep (fun o => { voters := m.voters, learners := m.learners, votersOutgoing := o : PConfState }) fun zs x _ => rfl).trans ?_
    rw [List.nil_append]
    refine (fold_rep (fun o => { voters := m.voters, learners := m.learners, votersOutgoing := m.votersOutgoing, learnersNext := o : PConfState })
      fun zs x _ => rfl).trans ?_
    rw [List.nil_append]
    refine fold_opt (fun o => { voters := m.voters, learners := m.learners, votersOutgoing := m.votersOutgoing, learnersNext := m.learnersNext, autoLeave := o : PConfState }) fun x _ => ?_
    cases x <;> rfl

theorem PSnapMeta.good {m : PSnapMeta} (h : m.InRange) (hs : m.byteSize < 2 ^ 31) : Good PSnapMeta.set {} m m.raws m.byteSize := by
  have hc : ∀ c, m.confState = some c → Good PConfState.set {} c c.raws c.byteSize ∧ c.byteSize < 2 ^ 31 := fun c hc => by
    have := opt_msg (f := PConfState.byteSize) hc
    unfold PSnapMeta.byteSize at hs
    exact ⟨PConfState.good (h.confState c hc), by omega⟩
  refine ⟨fun r hr => ?_, ?_, ?_⟩
  · unfold PSnapMeta.raws at hr
    simp only [List.mem_append] at hr
    rcases hr with (hr | hr) | hr <;> obtain ⟨x, hx, rfl⟩ := mem_opt hr
    · exact len_ok (by decide) (by decide) (by rw [(hc x hx).1.len]; exact (hc x hx).2)
    · exact int_ok (by decide) (by decide) (h.index _ hx)
    · exact int_ok (by decide) (by decide) (h.term _ hx)
  · unfold PSnapMeta.raws PSnapMeta.byteSize
    rw [length_encs_append, length_encs_append, len_opt_int (by decide) h.index, len_opt_int (by decide) h.term,
      len_opt_len (f := fun c => encs (PConfState.raws c)) (g := PConfState.byteSize) (by decide)
        (fun c hx => ⟨(hc c hx).1.len, by have := (hc c hx).2; omega⟩)]
  · have e : m.raws = opt 1 (fun c => .len (encs (PConfState.raws c))) m.confState ++ (opt 2 .int m.index ++ (opt 3 .int m.term ++ [])) := by
      unfold PSnapMeta.raws; simp only [List.append_assoc, List.append_nil]
    rw [e]
    refine (fold_opt (fun o => { confState := o : PSnapMeta }) fun x hx => ?_).trans ?_
    · show (Pb.merge PConfState.set {} (encs x.raws)).map _ = _
      rw [(hc x hx).1.merge]; rfl
    refine (fold_opt (fun o => { confState := m.confState, index := o : PSnapMeta }) fun x _ => rfl).trans ?_
    exact fold_opt (fun o => { confState := m.confState, index := m.index, term := o : PSnapMeta }) fun x _ => rfl

theorem PSnapshot.good {m : PSnapshot} (h : m.InRange) (hs : m.byteSize < 2 ^ 31) : Good PSnapshot.set {} m m.raws m.byteSize := by
  have hd : ∀ b, m.data = some b → b.length < 2 ^ 31 := fun b hb => by
    have := opt_bytes hb
    unfold PSnapshot.byteSize at hs; omega
  have hc : ∀ c, m.metadata = some c → Good PSnapMeta.set {} c c.raws c.byteSize ∧ c.byteSize < 2 ^ 31 := fun c hc => by
    have := opt_msg (f := PSnapMeta.byteSize) hc
    unfold PSnapshot.byteSize at hs
    exact ⟨PSnapMeta.good (h.metadata c hc) (by omega), by omega⟩
  refine ⟨fun r hr => ?_, ?_, ?_⟩
  · unfold PSnapshot.raws at hr
    simp only [List.mem_append] at hr
    rcases hr with hr | hr <;> obtain ⟨x, hx, rfl⟩ := mem_opt hr
    · exact len_ok (by decide) (by decide) (hd _ hx)
    · exact len_ok (by decide) (by decide) (by rw [(hc x hx).1.len]; exact (hc x hx).2)
  · unfold PSnapshot.raws PSnapshot.byteSize
    rw [length_encs_append, len_opt_len (f := fun b => b) (g := fun b : Bytes => b.length) (by decide) (fun b hb => ⟨rfl, by have := hd b hb; omega⟩),
      len_opt_len (f := fun c => encs (PSnapMeta.raws c)) (g := PSnapMeta.byteSize) (by decide)
        (fun c hx => ⟨(hc c hx).1.len, by have := (hc c hx).2; omega⟩)]
  · have e : m.raws = opt 1 .len m.data ++ (opt 2 (fun c => .len (encs (PSnapMeta.raws c))) m.metadata ++ []) := by
      unfold PSnapshot.raws; simp only [List.append_nil]
    rw [e]
    refine (fold_opt (fun o => { data := o : PSnapshot }) fun x hx => rfl).trans ?_
    refine fold_opt (fun o => { data := m.data, metadata := o : PSnapshot }) fun x hx => ?_
    show (Pb.merge PSnapMeta.set {} (encs x.raws)).map _ = _
    rw [(hc x hx).1.merge]; rfl

theorem PConfChange.good {m : PConfChange} (h : m.InRange) (hs : m.byteSize < 2 ^ 31) : Good PConfChange.set {} m m.raws m.byteSize := by
  have hd : ∀ b, m.context = some b → b.length < 2 ^ 31 := fun b hb => by
    have := opt_bytes hb
    unfold PConfChange.byteSize at hs; omega
  refine ⟨fun r hr => ?_, ?_, ?_⟩
  · unfold PConfChange.raws at hr
    simp only [List.mem_append] at hr
    rcases hr with ((hr | hr) | hr) | hr <;> obtain ⟨x, hx, rfl⟩ := mem_opt hr
    · exact int_ok (by decide) (by decide) (h.id _ hx)
    · exact int_ok (by decide) (by decide) (by have := ccTypeNo_lt (h.type x hx); omega)
    · exact int_ok (by decide) (by decide) (h.nodeId _ hx)
    · exact len_ok (by decide) (by decide) (hd _ hx)
  · unfold PConfChange.raws PConfChange.byteSize
    rw [length_encs_append, length_encs_append, length_encs_append, len_opt_enum (f := ccTypeNo) (by decide) (fun t ht => by have := ccTypeNo_lt (h.type t ht); omega),
      len_opt_int (by decide) h.id, len_opt_int (by decide) h.nodeId,
      len_opt_len (f := fun b => b) (g := fun b : Bytes => b.length) (by decide) (fun b hb => ⟨rfl, by have := hd b hb; omega⟩)]
    omega
  · have e : m.raws = opt 1 .int m.id ++ (opt 2 (fun t => .int (ccTypeNo t)) m.type ++ (opt 3 .int m.nodeId ++ (opt 4 .len m.context ++ []))) := by
      unfold PConfChange.raws; simp only [List.append_assoc, List.append_nil]
    rw [e]
    refine (fold_opt (fun o => { id := o : PConfChange }) fun x _ => rfl).trans ?_
    refine (fold_opt (fun o => { id := m.id, type := o : PConfChange }) fun x hx => setEnum_some (ccType_back (h.type x hx))).trans ?_
    refine (fold_opt (fun o => { id := m.id, type := m.type, nodeId := o : PConfChange }) fun x _ => rfl).trans ?_
    exact fold_opt (fun o => { id := m.id, type := m.type, nodeId := m.nodeId, context := o : PConfChange }) fun x _ => rfl

theorem PCCSingle.good {m : PCCSingle} (h : m.InRange) : Good PCCSingle.set {} m m.raws m.byteSize := by
  refine ⟨fun r hr => ?_, ?_, ?_⟩
  · unfold PCCSingle.raws at hr
    simp only [List.mem_append] at hr
    rcases hr with hr | hr <;> obtain ⟨x, hx, rfl⟩ := mem_opt hr
    · exact int_ok (by decide) (by decide) (by have := ccTypeNo_lt (h.type x hx); omega)
    · exact int_ok (by decide) (by decide) (h.nodeId _ hx)
  · unfold PCCSingle.raws PCCSingle.byteSize
    rw [length_encs_append, len_opt_enum (by decide) (fun t ht => by have := ccTypeNo_lt (h.type t ht); omega), len_opt_int (by decide) h.nodeId]
    omega
  · have e : m.raws = opt 1 (fun t => .int (ccTypeNo t)) m.type ++ (opt 2 .int m.nodeId ++ []) := by
      unfold PCCSingle.raws; simp only [List.append_nil]
    rw [e]
    refine (fold_opt (fun o => { type := o : PCCSingle }) fun x hx => setEnum_some (ccType_back (h.type x hx))).trans ?_
    exact fold_opt (fun o => { type := m.type, nodeId := o : PCCSingle }) fun x _ => rfl

theorem PConfChangeV2.good {m : PConfChangeV2} (h : m.InRange) (hs : m.byteSize < 2 ^ 31) : Good PConfChangeV2.set {} m m.raws m.byteSize := by
  have hd : ∀ b, m.context = some b → b.length < 2 ^ 31 := fun b hb => by
    have := opt_bytes hb
    unfold PConfChangeV2.byteSize at hs; omega
  have hc : ∀ c ∈ m.changes, Good PCCSingle.set {} c c.raws c.byteSize ∧ c.byteSize < 2 ^ 31 := fun c hc => by
    have := rep_msg (f := PCCSingle.byteSize) hc
    unfold PConfChangeV2.byteSize at hs
    exact ⟨PCCSingle.good (h.changes c hc), by omega⟩
  refine ⟨fun r hr => ?_, ?_, ?_⟩
  · unfold PConfChangeV2.raws at hr
    simp only [List.mem_append] at hr
    rcases hr with (hr | hr) | hr
    · obtain ⟨x, hx, rfl⟩ := mem_opt hr
      exact int_ok (by decide) (by decide) (by have := transitionNo_lt x; omega)
    · obtain ⟨x, hx, rfl⟩ := mem_rep hr
      exact len_ok (by decide) (by decide) (by rw [(hc x hx).1.len]; exact (hc x hx).2)
    · obtain ⟨x, hx, rfl⟩ := mem_opt hr
      exact len_ok (by decide) (by decide) (hd _ hx)
  · unfold PConfChangeV2.raws PConfChangeV2.byteSize
    rw [length_encs_append, length_encs_append, len_opt_enum (by decide) (fun t _ => by have := transitionNo_lt t; omega),
      len_rep_len (f := fun c => encs (PCCSingle.raws c)) (g := PCCSingle.byteSize) (by decide)
        (fun c hx => ⟨(hc c hx).1.len, by have := (hc c hx).2; omega⟩),
      len_opt_len (f := fun b => b) (g := fun b : Bytes => b.length) (by decide) (fun b hb => ⟨rfl, by have := hd b hb; omega⟩)]
    omega
  · have e : m.raws = opt 1 (fun t => .int (transitionNo t)) m.transition ++ (rep 2 (fun c => .len (encs (PCCSingle.raws c))) m.changes ++
        (opt 3 .len m.context ++ [])) := by
      unfold PConfChangeV2.raws; simp only [List.append_assoc, List.append_nil]
    rw [e]
    refine (fold_opt (fun o => { transition := o : PConfChangeV2 }) fun x _ => setEnum_some (transition_back x)).trans ?_
    refine (fold_rep (fun o => { transition := m.transition, changes := o : PConfChangeV2 }) fun zs x hx => ?_).trans ?_
    · show (Pb.merge PCCSingle.set {} (encs x.raws)).map _ = _
      rw [(hc x hx).1.merge]; rfl
    rw [List.nil_append]
    exact fold_opt (fun o => { transition := m.transition, changes := m.changes, context := o : PConfChangeV2 }) fun x _ => rfl

theorem PMessage.good {m : PMessage} (h : m.InRange) (hs : m.byteSize < 2 ^ 31) : Good PMessage.set {} m m.raws m.byteSize := by
  have hd : ∀ b, m.context = some b → b.length < 2 ^ 31 := fun b hb => by
    have := opt_bytes hb
    unfold PMessage.byteSize at hs; omega
  have he : ∀ c ∈ m.entries, Good PEntry.set {} c c.raws c.byteSize ∧ c.byteSize < 2 ^ 31 := fun c hc => by
    have := rep_msg (f := PEntry.byteSize) hc
    unfold PMessage.byteSize at hs
    exact ⟨PEntry.good (h.entries c hc) (by omega), by omega⟩
  have hc : ∀ c, m.snapshot = some c → Good PSnapshot.set {} c c.raws c.byteSize ∧ c.byteSize < 2 ^ 31 := fun c hc => by
    have := opt_msg (f := PSnapshot.byteSize) hc
    unfold PMessage.byteSize at hs
    exact ⟨PSnapshot.good (h.snapshot c hc) (by omega), by omega⟩
  refine ⟨fun r hr => ?_, ?_, ?_⟩
  · unfold PMessage.raws at hr
    simp only [List.mem_append] at hr
    rcases hr with ((((((((((hr | hr) | hr) | hr) | hr) | hr) | hr) | hr) | hr) | hr) | hr) | hr
    · obtain ⟨x, hx, rfl⟩ := mem_opt hr
      exact int_ok (by decide) (by decide) (by have := msgTypeNo_lt x; omega)
    · obtain ⟨x, hx, rfl⟩ := mem_opt hr
      exact int_ok (by decide) (by decide) (h.to _ hx)
    · obtain ⟨x, hx, rfl⟩ := mem_opt hr
      exact int_ok (by decide) (by decide) (h.src _ hx)
    · obtain ⟨x, hx, rfl⟩ := mem_opt hr
      exact int_ok (by decide) (by decide) (h.term _ hx)
    · obtain ⟨x, hx, rfl⟩ := mem_opt hr
      exact int_ok (by decide) (by decide) (h.logTerm _ hx)
    · obtain ⟨x, hx, rfl⟩ := mem_opt hr
      exact int_ok (by decide) (by decide) (h.index _ hx)
    · obtain ⟨x, hx, rfl⟩ := mem_rep hr
      exact len_ok (by decide) (by decide) (by rw [(he x hx).1.len]; exact (he x hx).2)
    · obtain ⟨x, hx, rfl⟩ := mem_opt hr
      exact int_ok (by decide) (by decide) (h.commit _ hx)
    · obtain ⟨x, hx, rfl⟩ := mem_opt hr
      exact len_ok (by decide) (by decide) (by rw [(hc x hx).1.len]; exact (hc x hx).2)
    · obtain ⟨x, hx, rfl⟩ := mem_opt hr
      exact bool_ok (by decide) (by decide)
    · obtain ⟨x, hx, rfl⟩ := mem_opt hr
      exact int_ok (by decide) (by decide) (h.rejectHint _ hx)
    · obtain ⟨x, hx, rfl⟩ := mem_opt hr
      exact len_ok (by decide) (by decide) (hd _ hx)
  · unfold PMessage.raws PMessage.byteSize
    simp only [length_encs_append]
    rw [len_opt_enum (by decide) (fun t _ => by have := msgTypeNo_lt t; omega), len_opt_int (by decide) h.to, len_opt_int (by decide) h.src,
      len_opt_int (by decide) h.term, len_opt_int (by decide) h.logTerm, len_opt_int (by decide) h.index,
      len_rep_len (f := fun c => encs (PEntry.raws c)) (g := PEntry.byteSize) (by decide)
        (fun c hx => ⟨(he c hx).1.len, by have := (he c hx).2; omega⟩),
      len_opt_int (by decide) h.commit,
      len_opt_len (f := fun c => encs (PSnapshot.raws c)) (g := PSnapshot.byteSize) (by decide)
        (fun c hx => ⟨(hc c hx).1.len, by have := (hc c hx).2; omega⟩), len_opt_bool (by decide), len_opt_int (by decide) h.rejectHint,
      len_opt_len (f := fun b => b) (g := fun b : Bytes => b.length) (by decide) (fun b hb => ⟨rfl, by have := hd b hb; omega⟩)]
    omega
  · have e : m.raws = opt 1 (fun t => .int (msgTypeNo t)) m.type ++ (opt 2 .int m.to ++ (opt 3 .int m.src ++ (opt 4 .int m.term ++ (opt 5 .int m.logTerm ++
        (opt 6 .int m.index ++ (rep 7 (fun e => .len (encs (PEntry.raws e))) m.entries ++ (opt 8 .int m.commit ++
        (opt 9 (fun s => .len (encs (PSnapshot.raws s))) m.snapshot ++ (opt 10 ofBool m.reject ++ (opt 11 .int m.rejectHint ++
        (opt 12 .len m.context ++ []))))))))))) := by
      unfold PMessage.raws; simp only [List.append_assoc, List.append_nil]
    rw [e]
    refine (fold_opt (fun o => { type := o : PMessage }) fun x _ => setEnum_some (msgType_back x)).trans ?_
    refine (fold_opt (fun o => { type := m.type, «to» := o : PMessage }) fun x _ => rfl).trans ?_
    refine (fold_opt (fun o => { type := m.type, «to» := m.to, src := o : PMessage }) fun x _ => rfl).trans ?_
    refine (fold_opt (fun o => { type := m.type, «to» := m.to, src := m.src, term := o : PMessage }) fun x _ => rfl).trans ?_
    refine (fold_opt (fun o => { type := m.type, «to» := m.to, src := m.src, term := m.term, logTerm := o : PMessage }) fun x _ => rfl).trans ?_
    refine (fold_opt (fun o => { type := m.type, «to» := m.to, src := m.src, term := m.term, logTerm := m.logTerm, index := o : PMessage })
      fun x _ => rfl).trans ?_
    refine (fold_rep (fun o => { type := m.type, «to» := m.to, src := m.src, term := m.term, logTerm := m.logTerm, index := m.index, entries := o : PMessage }) fun zs x hx => ?_).trans ?_
    · show (Pb.merge PEntry.set {} (encs x.raws)).map _ = _
      rw [(he x hx).1.merge]; rfl
    rw [List.nil_append]
    refine (fold_opt (fun o => { type := m.type, «to» := m.to, src := m.src, term := m.term, logTerm := m.logTerm, index := m.index, entries := m.entries, commit := o : PMessage }) fun x _ => rfl).trans ?_
    refine (fold_opt (fun o => { type := m.type, «to» := m.to, src := m.src, term := m.term, logTerm := m.logTerm, index := m.index, entries := m.entries, commit := m.commit, snapshot := o : PMessage }) fun x hx => ?_).trans ?_
    · show (Pb.merge PSnapshot.set {} (encs x.raws)).map _ = _
      rw [(hc x hx).1.merge]; rfl
    refine (fold_opt (fun o => { type := m.type, «to» := m.to, src := m.src, term := m.term, logTerm := m.logTerm, index := m.index, entries := m.entries, commit := m.commit, snapshot := m.snapshot, reject := o : PMessage }) fun x _ => by cases x <;> rfl).trans ?_
    refine (fold_opt (fun o => { type := m.type, «to» := m.to, src := m.src, term := m.term, logTerm := m.logTerm, index := m.index, entries := m.entries, commit := m.commit, snapshot := m.snapshot, reject := m.reject, rejectHint := o : PMessage }) fun x _ => rfl).trans ?_
    exact fold_opt (fun o => { type := m.type, «to» := m.to, src := m.src, term := m.term, logTerm := m.logTerm, index := m.index, entries := m.entries, commit := m.commit, snapshot := m.snapshot, reject := m.reject, rejectHint := m.rejectHint, context := o : PMessage })
      fun x _ => rfl

/-! ## Bytes -/

theorem Good.bytes {M : Type} {set : M → Raw → Option M} {e m : M} {raws : List Raw} {size : Nat} (h : Good set e m raws size) (hs : size < 2 ^ 31) :
    Pb.parse set e (serialize raws) = some m ∧ (serialize raws).length = size :=
  ⟨h.parse hs, by unfold serialize; rw [h.len, if_pos hs, h.len]⟩

theorem varintSize_le {n : Nat} (h : n < 2 ^ 64) : varintSize n ≤ 10 := by
  unfold varintSize
  have hpos : n ||| 1 ≠ 0 := by rw [or_one]; split <;> omega
  have hb : Nat.log2 (n ||| 1) < 64 := by
    rw [Nat.log2_lt hpos, or_one]
    split <;> omega
  omega

theorem optSize_le {o : Option Nat} (h : U64 o) : optSize varintSize o ≤ 11 := by
  cases o with
  | none => simp [optSize]
  | some n => have := varintSize_le (h n rfl); simp only [optSize]; omega

theorem kindSize_le {o : Option CCType} (h : KnownKind o) : optSize (fun t => varintSize (ccTypeNo t)) o ≤ 11 := by
  cases o with
  | none => simp [optSize]
  | some t =>
    have h1 := ccTypeNo_lt (h t rfl)
    have := varintSize_le (n := ccTypeNo t) (by omega)
    simp only [optSize]; omega

/-! ## Unknown fields -/

theorem Newer.ok {last : Nat} {r : Raw} (h : Newer last r) : RawOk r := ⟨⟨by have := h.1; omega, h.2.1⟩, h.2.2⟩

theorem Mixed.ok {last : Nat} {rs rs' : List Raw} (h : Mixed last rs rs') (hr : ∀ r ∈ rs, RawOk r) : ∀ r ∈ rs', RawOk r := by
  induction h with
  | nil => exact hr
  | old _ ih =>
    intro r hm
    rcases List.mem_cons.1 hm with rfl | hm
    · exact hr _ List.mem_cons_self
    · exact ih (fun r h => hr r (List.mem_cons_of_mem _ h)) r hm
  | new hn _ ih =>
    intro r hm
    rcases List.mem_cons.1 hm with rfl | hm
    · exact hn.ok
    · exact ih hr r hm

theorem Mixed.fold {M : Type} {set : M → Raw → Option M} {last : Nat} (hset : ∀ m r, last < r.1 → set m r = some m) {rs rs' : List Raw}
    (h : Mixed last rs rs') : ∀ m, rs'.foldlM set m = rs.foldlM set m := by
  induction h with
  | nil => intro m; rfl
  | old _ ih =>
    intro m
    simp only [List.foldlM_cons]
    exact congrArg _ (funext fun x => ih x)
  | new hn _ ih =>
    intro m
    rw [List.foldlM_cons, hset m _ hn.1]
    exact ih m

theorem Good.newer {M : Type} {set : M → Raw → Option M} {e m : M} {raws : List Raw} {size last : Nat} (h : Good set e m raws size)
    (hset : ∀ m r, last < r.1 → set m r = some m) {rs : List Raw} (hm : Mixed last raws rs) : Pb.parse set e (encs rs) = some m := by
  unfold Pb.parse
  rw [merge_encs (hm.ok h.ok), hm.fold hset, h.back]

theorem PEntry.set_newer {m : PEntry} {r : Raw} (h : 4 < r.1) : m.set r = some m := by
  obtain ⟨k, v⟩ := r
  unfold PEntry.set
  split <;> first | rfl | (rename_i e; injection e with e1 e2; subst e1; dsimp only at h; omega)

theorem PHardState.set_newer {m : PHardState} {r : Raw} (h : 3 < r.1) : m.set r = some m := by
  obtain ⟨k, v⟩ := r
  unfold PHardState.set
  split <;> first | rfl | (rename_i e; injection e with e1 e2; subst e1; dsimp only at h; omega)

theorem PConfState.set_newer {m : PConfState} {r : Raw} (h : 5 < r.1) : m.set r = some m := by
  obtain ⟨k, v⟩ := r
  unfold PConfState.set
  split <;> first | rfl | (rename_i e; injection e with e1 e2; subst e1; dsimp only at h; omega)

theorem PSnapMeta.set_newer {m : PSnapMeta} {r : Raw} (h : 3 < r.1) : m.set r = some m := by
  obtain ⟨k, v⟩ := r
  unfold PSnapMeta.set
  split <;> first | rfl | (rename_i e; injection e with e1 e2; subst e1; dsimp only at h; omega)

theorem PSnapshot.set_newer {m : PSnapshot} {r : Raw} (h : 2 < r.1) : m.set r = some m := by
  obtain ⟨k, v⟩ := r
  unfold PSnapshot.set
  split <;> first | rfl | (rename_i e; injection e with e1 e2; subst e1; dsimp only at h; omega)

theorem PMessage.set_newer {m : PMessage} {r : Raw} (h : 12 < r.1) : m.set r = some m := by
  obtain ⟨k, v⟩ := r
  unfold PMessage.set
  split <;> first | rfl | (rename_i e; injection e with e1 e2; subst e1; dsimp only at h; omega)

theorem PConfChange.set_newer {m : PConfChange} {r : Raw} (h : 4 < r.1) : m.set r = some m := by
  obtain ⟨k, v⟩ := r
  unfold PConfChange.set
  split <;> first | rfl | (rename_i e; injection e with e1 e2; subst e1; dsimp only at h; omega)

theorem PCCSingle.set_newer {m : PCCSingle} {r : Raw} (h : 2 < r.1) : m.set r = some m := by
  obtain ⟨k, v⟩ := r
  unfold PCCSingle.set
  split <;> first | rfl | (rename_i e; injection e with e1 e2; subst e1; dsimp only at h; omega)

theorem PConfChangeV2.set_newer {m : PConfChangeV2} {r : Raw} (h : 3 < r.1) : m.set r = some m := by
  obtain ⟨k, v⟩ := r
  unfold PConfChangeV2.set
  split <;> first | rfl | (rename_i e; injection e with e1 e2; subst e1; dsimp only at h; omega)

theorem PConfChange.unknown {m : PConfChange} {k : Nat} (hm : m.type = some (.unknown k)) (h4 : 4 ≤ k) (hk : k < 2 ^ 32) (h1 : U64 m.id) (h2 : U64 m.nodeId)
    (hs : m.byteSize < 2 ^ 31) : PConfChange.ofBytes m.toBytes = some { m with type := none } := by
  have hd : ∀ b, m.context = some b → b.length < 2 ^ 31 := fun b hb => by
    have := opt_bytes hb
    unfold PConfChange.byteSize at hs; omega
  have hno : ∀ t, m.type = some t → ccTypeNo t < 2 ^ 64 := fun t ht => by
    rw [hm] at ht; cases ht; show k < _; omega
  have hok : ∀ r ∈ m.raws, RawOk r := by
    intro r hr
    unfold PConfChange.raws at hr
    simp only [List.mem_append] at hr
    rcases hr with ((hr | hr) | hr) | hr <;> obtain ⟨x, hx, rfl⟩ := mem_opt hr
    · exact int_ok (by decide) (by decide) (h1 _ hx)
    · exact int_ok (by decide) (by decide) (hno x hx)
    · exact int_ok (by decide) (by decide) (h2 _ hx)
    · exact len_ok (by decide) (by decide) (hd _ hx)
  have hlen : (encs m.raws).length = m.byteSize := by
    unfold PConfChange.raws PConfChange.byteSize
    rw [length_encs_append, length_encs_append, length_encs_append, len_opt_enum (f := ccTypeNo) (by decide) hno,
      len_opt_int (by decide) h1, len_opt_int (by decide) h2,
      len_opt_len (f := fun b => b) (g := fun b : Bytes => b.length) (by decide) (fun b hb => ⟨rfl, by have := hd b hb; omega⟩)]
    omega
  unfold PConfChange.ofBytes PConfChange.toBytes Pb.parse serialize
  rw [hlen, if_pos hs, merge_encs hok]
  have e : m.raws = opt 1 .int m.id ++ ((2, .int k) :: (opt 3 .int m.nodeId ++ (opt 4 .len m.context ++ []))) := by
    unfold PConfChange.raws; rw [hm]; simp [opt, ccTypeNo]
  rw [e]
  refine (fold_opt (fun o => { id := o : PConfChange }) fun x _ => rfl).trans ?_
  rw [List.foldlM_cons]
  have hset : PConfChange.set { id := m.id } (2, .int k) = some { id := m.id } := by
    show setEnum ccTypeOf k _ _ = _
    unfold setEnum
    rw [Nat.mod_eq_of_lt hk]
    have : ccTypeOf k = none := by
      unfold ccTypeOf
      split <;> first | rfl | omega
    rw [this]
  rw [hset]
  refine (fold_opt (fun o => { id := m.id, nodeId := o : PConfChange }) fun x _ => rfl).trans ?_
  exact fold_opt (fun o => { id := m.id, nodeId := m.nodeId, context := o : PConfChange }) fun x _ => rfl

end Craft.Pb
