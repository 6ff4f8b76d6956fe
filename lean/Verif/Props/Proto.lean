import Verif.Spec.Proto
import Verif.Proofs.WireMsgs

/-! # C86: what is written is what `raft.proto` says -/

namespace Craft.Proto

open Craft.Pb

theorem varintK_spec (k : Nat) : ∀ n, n < 128 ^ (k + 1) → Varint n (varintK k n) := by
  induction k with
  | zero =>
    intro n hn
    have : n < 128 := by simpa using hn
    simp only [varintK]
    rw [Nat.mod_eq_of_lt this]
    exact .last this
  | succ k ih =>
    intro n hn
    simp only [varintK]
    split
    · next h => exact .last h
    · next h =>
      have h2 : n / 128 < 128 ^ (k + 1) := by
        rw [Nat.div_lt_iff_lt_mul (by omega), ← Nat.pow_succ]; exact hn
      have e : n = n % 128 + 128 * (n / 128) := by omega
      have := Varint.more (lo := n % 128) (hi := n / 128) (by omega) (by omega) (ih _ h2)
      rw [← e] at this
      exact this

theorem varint_spec {n : Nat} (hn : n < 2 ^ 64) : Varint n (varint n) := varintK_spec 9 n (by omega)

/-- A field of the generated code is one of the schema. -/
inductive Same : Nat × PV → Raw → Prop
  | num {k n : Nat} : Same (k, .num n) (k, .int n)
  | bytes {k : Nat} {b : Bytes} : Same (k, .bytes b) (k, .len b)
  | msg {k : Nat} {b : Bytes} {gs : List (Nat × PV)} : Wire gs b → Same (k, .msg gs) (k, .len b)

inductive AllSame : List (Nat × PV) → List Raw → Prop
  | nil : AllSame [] []
  | cons {f : Nat × PV} {r : Raw} {fs : List (Nat × PV)} {rs : List Raw} : Same f r → AllSame fs rs → AllSame (f :: fs) (r :: rs)

theorem AllSame.append {fs gs : List (Nat × PV)} {rs ss : List Raw} (h : AllSame fs rs) (h2 : AllSame gs ss) : AllSame (fs ++ gs) (rs ++ ss) := by
  induction h with
  | nil => exact h2
  | cons h _ ih => exact .cons h ih

theorem AllSame.opt {X : Type} {k : Nat} {f : X → PV} {g : X → Val} {o : Option X} (h : ∀ x, o = some x → Same (k, f x) (k, g x)) :
    AllSame (optional k f o) (Pb.opt k g o) := by
  cases o with
  | none => exact .nil
  | some x => exact .cons (h x rfl) .nil

theorem AllSame.rep {X : Type} {k : Nat} {f : X → PV} {g : X → Val} {xs : List X} (h : ∀ x ∈ xs, Same (k, f x) (k, g x)) :
    AllSame (repeated k f xs) (Pb.rep k g xs) := by
  induction xs with
  | nil => exact .nil
  | cons x xs ih => exact .cons (h x (by simp)) (ih fun y hy => h y (by simp [hy]))

theorem AllSame.wire {fs : List (Nat × PV)} {rs : List Raw} (h : AllSame fs rs) (hr : ∀ r ∈ rs, RawOk r) : Wire fs (encs rs) := by
  induction h with
  | nil => exact .nil
  | @cons f r fs rs h hs ih =>
    have ih := ih fun x hx => hr x (by simp [hx])
    have ho := hr r (by simp)
    show Wire _ (enc r ++ encs rs)
    cases h with
    | @num k n =>
      obtain ⟨⟨h1, h2⟩, h3⟩ := ho
      have h2 : k < 2 ^ 29 := h2
      have h3 : n < 2 ^ 64 := h3
      have := Wire.num (varint_spec (n := 8 * k + 0) (by omega)) (varint_spec h3) ih
      unfold enc
      dsimp only
      rw [Nat.mul_comm k 8]
      exact this
    | @bytes k b =>
      obtain ⟨⟨h1, h2⟩, h3⟩ := ho
      have h2 : k < 2 ^ 29 := h2
      have h3 : b.length < 2 ^ 31 := h3
      have := Wire.bytes (b := b) (varint_spec (n := 8 * k + 2) (by omega)) (varint_spec (by omega)) ih
      unfold enc
      dsimp only
      rw [Nat.mul_comm k 8]
      exact this
    | @msg k b gs hg =>
      obtain ⟨⟨h1, h2⟩, h3⟩ := ho
      have h2 : k < 2 ^ 29 := h2
      have h3 : b.length < 2 ^ 31 := h3
      have := Wire.msg (b := b) (varint_spec (n := 8 * k + 2) (by omega)) hg (varint_spec (by omega)) ih
      unfold enc
      dsimp only
      rw [Nat.mul_comm k 8]
      exact this

theorem same_bool (k : Nat) (b : Bool) : Same (k, bool b) (k, ofBool b) := by
  cases b <;> exact .num

theorem same_entryType (k : Nat) (t : EntryType) : Same (k, enum entryTypes t) (k, .int (entryTypeNo t)) := by
  cases t <;> exact .num

theorem same_msgType (k : Nat) (t : MsgType) : Same (k, enum messageTypes t) (k, .int (msgTypeNo t)) := by
  cases t <;> exact .num

theorem same_transition (k : Nat) (t : CCTransition) : Same (k, enum transitions t) (k, .int (transitionNo t)) := by
  cases t <;> exact .num

theorem same_ccType (k : Nat) {t : CCType} (h : ∀ j, t ≠ .unknown j) : Same (k, enum changeTypes t) (k, .int (ccTypeNo t)) := by
  cases t with
  | unknown j => exact absurd rfl (h j)
  | _ => exact .num

theorem entry_same (m : PEntry) : AllSame (entry m) m.raws :=
  (((AllSame.opt fun _ _ => same_entryType _ _).append (.opt fun _ _ => .num)).append (.opt fun _ _ => .num)).append (.opt fun _ _ => .bytes)

theorem hardState_same (m : PHardState) : AllSame (hardState m) m.raws :=
  ((AllSame.opt fun _ _ => .num).append (.opt fun _ _ => .num)).append (.opt fun _ _ => .num)

theorem confState_same (m : PConfState) : AllSame (confState m) m.raws :=
  ((((AllSame.rep fun _ _ => .num).append (.rep fun _ _ => .num)).append (.rep fun _ _ => .num)).append (.rep fun _ _ => .num)).append
    (.opt fun _ _ => same_bool _ _)

theorem confChange_same {m : PConfChange} (h : KnownKind m.type) : AllSame (confChange m) m.raws :=
  (((AllSame.opt fun _ _ => .num).append (.opt fun t ht => same_ccType _ (h t ht))).append (.opt fun _ _ => .num)).append (.opt fun _ _ => .bytes)

theorem confChangeSingle_same {m : PCCSingle} (h : KnownKind m.type) : AllSame (confChangeSingle m) m.raws :=
  (AllSame.opt fun t ht => same_ccType _ (h t ht)).append (.opt fun _ _ => .num)

theorem entry_wire {m : PEntry} (h : m.InRange) (hs : m.byteSize < 2 ^ 31) : Wire (entry m) (encs m.raws) :=
  (entry_same m).wire (PEntry.good h hs).ok

theorem confState_wire {m : PConfState} (h : m.InRange) : Wire (confState m) (encs m.raws) := (confState_same m).wire (PConfState.good h).ok

theorem confChangeSingle_wire {m : PCCSingle} (h : m.InRange) : Wire (confChangeSingle m) (encs m.raws) :=
  (confChangeSingle_same h.type).wire (PCCSingle.good h).ok

theorem snapshotMetadata_wire {m : PSnapMeta} (h : m.InRange) (hs : m.byteSize < 2 ^ 31) : Wire (snapshotMetadata m) (encs m.raws) :=
  AllSame.wire (((AllSame.opt fun c hc => .msg (confState_wire (h.confState c hc))).append (.opt fun _ _ => .num)).append (.opt fun _ _ => .num))
    (PSnapMeta.good h hs).ok

theorem snapshot_wire {m : PSnapshot} (h : m.InRange) (hs : m.byteSize < 2 ^ 31) : Wire (snapshot m) (encs m.raws) :=
  AllSame.wire ((AllSame.opt fun _ _ => .bytes).append (.opt fun c hc => .msg (snapshotMetadata_wire (h.metadata c hc) (by
    have := opt_msg (f := PSnapMeta.byteSize) hc
    unfold PSnapshot.byteSize at hs; omega)))) (PSnapshot.good h hs).ok

theorem confChangeV2_wire {m : PConfChangeV2} (h : m.InRange) (hs : m.byteSize < 2 ^ 31) : Wire (confChangeV2 m) (encs m.raws) :=
  AllSame.wire (((AllSame.opt fun _ _ => same_transition _ _).append (.rep fun c hc => .msg (confChangeSingle_wire (h.changes c hc)))).append
    (.opt fun _ _ => .bytes)) (PConfChangeV2.good h hs).ok

theorem message_wire {m : PMessage} (h : m.InRange) (hs : m.byteSize < 2 ^ 31) : Wire (message m) (encs m.raws) := by
  have he : ∀ e ∈ m.entries, e.byteSize < 2 ^ 31 := fun e he => by
    have := rep_msg (f := PEntry.byteSize) he
    unfold PMessage.byteSize at hs; omega
  have hsn : ∀ s, m.snapshot = some s → s.byteSize < 2 ^ 31 := fun s hx => by
    have := opt_msg (f := PSnapshot.byteSize) hx
    unfold PMessage.byteSize at hs; omega
  refine AllSame.wire ?_ (PMessage.good h hs).ok
  exact (((((((((((AllSame.opt fun _ _ => same_msgType _ _).append (.opt fun _ _ => .num)).append (.opt fun _ _ => .num)).append (.opt fun _ _ => .num)).append
    (.opt fun _ _ => .num)).append (.opt fun _ _ => .num)).append (.rep fun e hm => .msg (entry_wire (h.entries e hm) (he e hm)))).append
    (.opt fun _ _ => .num)).append (.opt fun s hx => .msg (snapshot_wire (h.snapshot s hx) (hsn s hx)))).append (.opt fun _ _ => same_bool _ _)).append
    (.opt fun _ _ => .num)).append (.opt fun _ _ => .bytes)

theorem toBytes_eq {M : Type} {set : M → Raw → Option M} {e m : M} {raws : List Raw} {size : Nat} (h : Good set e m raws size) (hs : size < 2 ^ 31) :
    serialize raws = encs raws := if_pos (h.len ▸ hs)

/-- Serialised messages are what the schema and the published encoding say: any implementation of `raft.proto` understands them. -/
theorem C86_message_schema {m : PMessage} (h : m.InRange) (hs : m.byteSize < 2 ^ 31) : Wire (message m) m.toBytes := by
  unfold PMessage.toBytes; rw [toBytes_eq (PMessage.good h hs) hs]; exact message_wire h hs

theorem C86_entry_schema {m : PEntry} (h : m.InRange) (hs : m.byteSize < 2 ^ 31) : Wire (entry m) m.toBytes := by
  unfold PEntry.toBytes; rw [toBytes_eq (PEntry.good h hs) hs]; exact entry_wire h hs

theorem C86_hardState_schema {m : PHardState} (h : m.InRange) : Wire (hardState m) m.toBytes := by
  have h1 := optSize_le h.term; have h2 := optSize_le h.vote; have h3 := optSize_le h.commit
  unfold PHardState.toBytes
  rw [toBytes_eq (PHardState.good h) (by unfold PHardState.byteSize; omega)]
  exact (hardState_same m).wire (PHardState.good h).ok

theorem C86_confState_schema {m : PConfState} (h : m.InRange) (hs : m.byteSize < 2 ^ 31) : Wire (confState m) m.toBytes := by
  unfold PConfState.toBytes; rw [toBytes_eq (PConfState.good h) hs]; exact confState_wire h

theorem C86_snapshotMetadata_schema {m : PSnapMeta} (h : m.InRange) (hs : m.byteSize < 2 ^ 31) : Wire (snapshotMetadata m) m.toBytes := by
  unfold PSnapMeta.toBytes; rw [toBytes_eq (PSnapMeta.good h hs) hs]; exact snapshotMetadata_wire h hs

theorem C86_snapshot_schema {m : PSnapshot} (h : m.InRange) (hs : m.byteSize < 2 ^ 31) : Wire (snapshot m) m.toBytes := by
  unfold PSnapshot.toBytes; rw [toBytes_eq (PSnapshot.good h hs) hs]; exact snapshot_wire h hs

theorem C86_confChange_schema {m : PConfChange} (h : m.InRange) (hs : m.byteSize < 2 ^ 31) : Wire (confChange m) m.toBytes := by
  unfold PConfChange.toBytes; rw [toBytes_eq (PConfChange.good h hs) hs]; exact (confChange_same h.type).wire (PConfChange.good h hs).ok

theorem C86_confChangeSingle_schema {m : PCCSingle} (h : m.InRange) : Wire (confChangeSingle m) m.toBytes := by
  have h1 := optSize_le h.nodeId; have h2 := kindSize_le h.type
  unfold PCCSingle.toBytes
  rw [toBytes_eq (PCCSingle.good h) (by unfold PCCSingle.byteSize; omega)]
  exact confChangeSingle_wire h

theorem C86_confChangeV2_schema {m : PConfChangeV2} (h : m.InRange) (hs : m.byteSize < 2 ^ 31) : Wire (confChangeV2 m) m.toBytes := by
  unfold PConfChangeV2.toBytes; rw [toBytes_eq (PConfChangeV2.good h hs) hs]; exact confChangeV2_wire h hs

theorem Varint.unique {n : Nat} {a b : Bytes} (h : Varint n a) (h2 : Varint n b) : a = b := by
  induction h generalizing b with
  | @last n hn =>
    cases h2 with
    | last _ => rfl
    | more _ _ _ => omega
  | @more lo hi bs h1 h3 _ ih =>
    generalize e : lo + 128 * hi = m at h2
    cases h2 with
    | last _ => omega
    | @more lo2 hi2 bs2 g1 g3 g =>
      have e1 : lo2 = lo := by omega
      have e2 : hi2 = hi := by omega
      subst e1; subst e2
      rw [ih g]

theorem Wire.unique {fs : List (Nat × PV)} {a b : Bytes} (h : Wire fs a) (h2 : Wire fs b) : a = b := by
  induction h generalizing b with
  | nil => cases h2; rfl
  | num k1 v1 _ ih =>
    cases h2 with
    | num k2 v2 w => rw [k1.unique k2, v1.unique v2, ih w]
  | bytes k1 v1 _ ih =>
    cases h2 with
    | bytes k2 v2 w => rw [k1.unique k2, v1.unique v2, ih w]
  | msg k1 _ v1 _ ih1 ih =>
    cases h2 with
    | msg k2 w1 v2 w =>
      have := ih1 w1
      subst this
      rw [k1.unique k2, v1.unique v2, ih w]

/-- And what another implementation of the schema writes is read as it was meant. -/
theorem C86_message_understood {m : PMessage} (h : m.InRange) (hs : m.byteSize < 2 ^ 31) {bs : Bytes} (hw : Wire (message m) bs) :
    PMessage.ofBytes bs = some m := by
  rw [hw.unique (C86_message_schema h hs)]; exact ((PMessage.good h hs).bytes hs).1

theorem C86_hardState_understood {m : PHardState} (h : m.InRange) {bs : Bytes} (hw : Wire (hardState m) bs) : PHardState.ofBytes bs = some m := by
  have h1 := optSize_le h.term; have h2 := optSize_le h.vote; have h3 := optSize_le h.commit
  rw [hw.unique (C86_hardState_schema h)]; exact ((PHardState.good h).bytes (by unfold PHardState.byteSize; omega)).1

theorem C86_entry_understood {m : PEntry} (h : m.InRange) (hs : m.byteSize < 2 ^ 31) {bs : Bytes} (hw : Wire (entry m) bs) :
    PEntry.ofBytes bs = some m := by
  rw [hw.unique (C86_entry_schema h hs)]; exact ((PEntry.good h hs).bytes hs).1

theorem C86_snapshot_understood {m : PSnapshot} (h : m.InRange) (hs : m.byteSize < 2 ^ 31) {bs : Bytes} (hw : Wire (snapshot m) bs) :
    PSnapshot.ofBytes bs = some m := by
  rw [hw.unique (C86_snapshot_schema h hs)]; exact ((PSnapshot.good h hs).bytes hs).1

theorem C86_confChange_understood {m : PConfChange} (h : m.InRange) (hs : m.byteSize < 2 ^ 31) {bs : Bytes} (hw : Wire (confChange m) bs) :
    PConfChange.ofBytes bs = some m := by
  rw [hw.unique (C86_confChange_schema h hs)]; exact ((PConfChange.good h hs).bytes hs).1

theorem C86_confChangeV2_understood {m : PConfChangeV2} (h : m.InRange) (hs : m.byteSize < 2 ^ 31) {bs : Bytes} (hw : Wire (confChangeV2 m) bs) :
    PConfChangeV2.ofBytes bs = some m := by
  rw [hw.unique (C86_confChangeV2_schema h hs)]; exact ((PConfChangeV2.good h hs).bytes hs).1

/-! ### The hypotheses are met: a hard state with a two-byte term and no commit, byte for byte -/

example : Wire (hardState { term := some 300, vote := some 2 }) [8, 172, 2, 16, 2] :=
  Wire.num (key := [8]) (val := [172, 2]) (.last (by decide)) (Varint.more (lo := 44) (hi := 2) (by decide) (by decide) (.last (by decide)))
    (Wire.num (key := [16]) (val := [2]) (rest := []) (.last (by decide)) (.last (by decide)) .nil)

end Craft.Proto
