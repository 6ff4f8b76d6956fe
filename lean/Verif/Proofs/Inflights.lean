import Verif.Model.Inflights

/-! Helper lemmas for `Verif/Props/Inflights.lean`. -/

namespace Craft

theorem toI32_nat {x : Nat} (h : x < 2 ^ 31) : toI32 (x : Int) = x := by
  unfold toI32
  rw [Int.bmod_def]
  have : ((x : Int) % (2 ^ 32 : Nat)) = x := by
    apply Int.emod_eq_of_lt <;> omega
  rw [this]
  split <;> omega

theorem toI32_of {x : Int} (h0 : 0 ≤ x) (h : x < 2 ^ 31) : toI32 x = x := by
  obtain ⟨n, rfl⟩ := Int.eq_ofNat_of_zero_le h0
  exact toI32_nat (by omega)

/-- Representation relation: the ring buffer holds the queue `q` (oldest first). -/
structure Inflights.Rep (f : Inflights) (sz : Nat) (q : List Nat) : Prop where
  size_eq : f.size = sz
  size_pos : 0 < sz
  size_le : sz ≤ 2 ^ 30
  count_eq : f.count = q.length
  start_ge : 0 ≤ f.start
  start_lt : f.start.toNat < sz
  len_le : q.length ≤ sz
  buf_le : f.buffer.length ≤ sz
  empty : q = [] → f.start = 0
  elems : ∀ k, k < q.length → f.buffer[(f.start.toNat + k) % sz]? = q[k]?

namespace Inflights

theorem rep_new (sz : Nat) (h0 : 0 < sz) (h : sz ≤ 2 ^ 30) : (Inflights.new sz).Rep sz [] := by
  constructor <;> simp [Inflights.new, *]

theorem rep_full {f : Inflights} {sz : Nat} {q : List Nat} (h : f.Rep sz q) : f.full = true ↔ q.length = sz := by
  simp only [full, h.count_eq, h.size_eq, decide_eq_true_eq]
  omega

theorem rep_reset {f : Inflights} {sz : Nat} {q : List Nat} (h : f.Rep sz q) : f.reset.Rep sz [] := by
  constructor <;> simp [reset, h.size_eq, h.size_pos, h.size_le, h.buf_le]

/-- The position after the last element. -/
theorem mod_add_ne {st k n sz : Nat} (hk : k < n) (hn : n < sz) :
    (st + k) % sz ≠ (st + n) % sz := by
  intro h
  have := (Nat.sub_mod_eq_zero_of_mod_eq h.symm)
  rw [show st + n - (st + k) = n - k by omega, Nat.mod_eq_of_lt (by omega)] at this
  omega

theorem mod_wrap {a sz : Nat} (h : a < 2 * sz) : a % sz = if sz ≤ a then a - sz else a := by
  split
  · rw [Nat.mod_eq_sub_mod ‹_›, Nat.mod_eq_of_lt (by omega)]
  · exact Nat.mod_eq_of_lt (by omega)

theorem grow_getElem {b : List Nat} {n i : Nat} (h : b.length ≤ n) (hi : i < b.length) :
    (b.take n ++ List.replicate (n - b.length) 0)[i]? = b[i]? := by
  rw [List.getElem?_append_left (by simp; omega), List.getElem?_take]
  simp; omega

/-- One store into a buffer that has room. -/
theorem rep_store {f : Inflights} {sz : Nat} {q : List Nat} {x : Nat} (h : f.Rep sz q)
    (hlt : q.length < sz) (b : List Nat) (hb : b.length ≤ sz)
    (hold : ∀ i, i < f.buffer.length → b[i]? = f.buffer[i]?)
    (hpos : (f.start.toNat + q.length) % sz < b.length) :
    ({ f with buffer := b.set ((f.start.toNat + q.length) % sz) x, count := f.count + 1 } : Inflights).Rep sz (q ++ [x]) := by
  constructor
  · exact h.size_eq
  · exact h.size_pos
  · exact h.size_le
  · simp [h.count_eq]
  · exact h.start_ge
  · exact h.start_lt
  · simp; omega
  · simpa using hb
  · simp
  · intro k hk
    simp at hk
    rcases Nat.lt_or_ge k q.length with hk' | hk'
    · have hne := mod_add_ne (st := f.start.toNat) hk' hlt
      simp only
      rw [List.getElem?_set_ne (Ne.symm hne), List.getElem?_append_left hk', ← h.elems k hk']
      apply hold
      have := h.elems k hk'
      rw [List.getElem?_eq_getElem hk'] at this
      exact (List.getElem?_eq_some_iff.1 this).1
    · have : k = q.length := by omega
      subst this
      simp only
      rw [List.getElem?_set_self hpos]
      simp

theorem rep_add {f : Inflights} {sz : Nat} {q : List Nat} (x : Nat) (h : f.Rep sz q) (hlt : q.length < sz) :
    ∃ f', f.add x = .ok f' ∧ f'.Rep sz (q ++ [x]) := by
  have hs := h.size_le
  have hst := h.start_lt
  have hst0 := h.start_ge
  have hbl := h.buf_le
  obtain ⟨st, hste⟩ := Int.eq_ofNat_of_zero_le hst0
  have hstn : f.start.toNat = st := by simp [hste]
  have hnf : f.full = false := by
    cases hf : f.full with
    | false => rfl
    | true => have := (rep_full h).1 hf; omega
  have hnext : toI32 (f.start + f.count) = ((st + q.length : Nat) : Int) := by
    rw [h.count_eq, hste]
    rw [toI32_of] <;> omega
  have hsize : toI32 f.size = sz := by rw [h.size_eq, toI32_nat (by omega)]
  have hmod : (((st + q.length) % sz : Nat) : Int) =
      if ((st + q.length : Nat) : Int) ≥ (sz : Int) then ((st + q.length : Nat) : Int) - sz else ((st + q.length : Nat) : Int) := by
    rw [mod_wrap (by omega)]
    split <;> split <;> omega
  have hple : (st + q.length) % sz ≤ f.buffer.length := by
    rcases Nat.eq_zero_or_pos q.length with h0 | h0
    · have : q = [] := List.length_eq_zero_iff.1 h0
      have := h.empty this
      have : st = 0 := by omega
      simp [this, h0]
    · have := h.elems (q.length - 1) (by omega)
      rw [List.getElem?_eq_getElem (l := q) (by omega)] at this
      have hlt' := (List.getElem?_eq_some_iff.1 this).1
      rw [hstn] at hlt'
      rw [mod_wrap (by omega)] at hlt' ⊢
      split <;> split at hlt' <;> omega
  have hpsz : (st + q.length) % sz < sz := Nat.mod_lt _ h.size_pos
  have h31 : (st + q.length) % sz < 2 ^ 31 := by omega
  have hlen32 : toI32 (f.buffer.length : Int) = f.buffer.length := toI32_nat (by omega)
  unfold add
  rw [hnf]
  simp only [Bool.false_eq_true, if_false, hnext, hsize]
  rw [← hmod, if_neg (by rw [toI32_nat h31]; simp), hlen32]
  clear hlen32 hnext hsize hmod
  by_cases hg : (((st + q.length) % sz : Nat) : Int) ≥ f.buffer.length
  · rw [if_pos hg]
    have hpe : (st + q.length) % sz = f.buffer.length := by omega
    -- growth
    have hgrow : ∃ n : Nat, f.grow = .ok { f with buffer := f.buffer.take n ++ List.replicate (n - f.buffer.length) 0 } ∧
        f.buffer.length < n ∧ n ≤ sz := by
      unfold grow resize
      have h2 : toI32 (2 * (f.buffer.length : Int)) = ((2 * f.buffer.length : Nat) : Int) := by
        rw [toI32_of] <;> omega
      simp only [h2, h.size_eq, toI32_nat (show sz < 2 ^ 31 by omega)]
      by_cases h0 : f.buffer.length = 0
      · refine ⟨1, ?_, by omega, by omega⟩
        simp [h0]
      · rw [if_neg (by omega)]
        by_cases h3 : ((2 * f.buffer.length : Nat) : Int) > sz
        · refine ⟨sz, ?_, by omega, by omega⟩
          rw [if_pos h3, if_neg (by omega)]
          simp
        · refine ⟨2 * f.buffer.length, ?_, by omega, by omega⟩
          rw [if_neg h3, if_neg (by omega)]
          simp only [Int.toNat_natCast, Res.ok_bind, Res.pure_eq]
    obtain ⟨n, hgr, hn1, hn2⟩ := hgrow
    rw [hgr]
    simp only [Res.ok_bind, Res.pure_eq]
    unfold bufSet
    rw [if_pos (by
      constructor
      · omega
      · simp only [List.length_append, List.length_take, List.length_replicate]; omega)]
    simp only [Res.ok_bind, Int.toNat_natCast]
    refine ⟨_, rfl, ?_⟩
    have := rep_store (x := x) h hlt (f.buffer.take n ++ List.replicate (n - f.buffer.length) 0) (by simp; omega)
      (fun i hi => grow_getElem (by omega) hi) (by
        rw [hstn]; simp only [List.length_append, List.length_take, List.length_replicate]; omega)
    rw [hstn] at this
    exact this
  · rw [if_neg hg]
    simp only [Res.ok_bind, Res.pure_eq]
    unfold bufSet
    rw [if_pos (by omega)]
    simp only [Res.ok_bind, Int.toNat_natCast]
    refine ⟨_, rfl, ?_⟩
    have := rep_store (x := x) h hlt f.buffer hbl (fun i _ => rfl) (by rw [hstn]; omega)
    rw [hstn] at this
    exact this

/-- The scanning loop of `FreeLE`. -/
theorem freeLoop_spec (b : List Nat) (sz to : Nat) (h0 : 0 < sz) (_hs : sz ≤ 2 ^ 30) :
    ∀ (q : List Nat) (i : Int) (st : Nat), st < sz →
      (∀ k, k < q.length → b[(st + k) % sz]? = q[k]?) →
      freeLoop b sz to q.length i st =
        .ok (i + (q.takeWhile (fun y => decide (y ≤ to))).length,
          (((st + (q.takeWhile (fun y => decide (y ≤ to))).length) % sz : Nat) : Int)) := by
  intro q
  induction q with
  | nil =>
    intro i st hst _
    simp [freeLoop, Nat.mod_eq_of_lt hst]
  | cons y ys ih =>
    intro i st hst hel
    have hb := hel 0 (by simp)
    simp only [Nat.add_zero, Nat.mod_eq_of_lt hst, List.getElem?_cons_zero] at hb
    have hlt := (List.getElem?_eq_some_iff.1 hb).1
    have hg : bufGet b st "inflights.cc:45" = .ok y := by
      unfold bufGet
      rw [if_pos (by omega)]
      simp [List.getD_eq_getElem?_getD, hb]
    simp only [List.length_cons, freeLoop, hg, Res.ok_bind]
    by_cases hy : to < y
    · rw [if_pos hy]
      simp [show ¬ y ≤ to by omega, Nat.mod_eq_of_lt hst]
    · rw [if_neg hy]
      have hnew : (if (st : Int) + 1 ≥ (sz : Int) then toI32 ((st : Int) + 1 - sz) else (st : Int) + 1) =
          (((st + 1) % sz : Nat) : Int) := by
        rw [mod_wrap (by omega)]
        split
        · rw [toI32_of (by omega) (by omega)]; split <;> omega
        · split <;> omega
      rw [hnew, ih (i + 1) ((st + 1) % sz) (Nat.mod_lt _ h0)]
      · simp only [List.takeWhile_cons, show y ≤ to by omega, decide_true, if_true, List.length_cons]
        rw [Nat.mod_add_mod]
        simp only [Res.ok.injEq, Prod.mk.injEq]
        constructor
        · omega
        · congr 2; omega
      · intro k hk
        have := hel (k + 1) (by simpa using hk)
        rw [Nat.mod_add_mod, show st + 1 + k = st + (k + 1) by omega, this]
        simp

theorem rep_freeLE {f : Inflights} {sz : Nat} {q : List Nat} (to : Nat) (h : f.Rep sz q) :
    ∃ f', f.freeLE to = .ok f' ∧ f'.Rep sz (q.dropWhile (fun y => decide (y ≤ to))) := by
  obtain ⟨st, hste⟩ := Int.eq_ofNat_of_zero_le h.start_ge
  have hstn : f.start.toNat = st := by simp [hste]
  have hst : st < sz := by rw [← hstn]; exact h.start_lt
  have hs := h.size_le
  cases q with
  | nil =>
    refine ⟨f, ?_, by simpa using h⟩
    unfold freeLE
    rw [if_pos (by simpa using h.count_eq)]
  | cons y ys =>
    have hcne : f.count ≠ 0 := by rw [h.count_eq]; simp; omega
    have hb := h.elems 0 (by simp)
    simp only [Nat.add_zero, hstn, Nat.mod_eq_of_lt hst, List.getElem?_cons_zero] at hb
    have hlt := (List.getElem?_eq_some_iff.1 hb).1
    have hg : bufGet f.buffer f.start "inflights.cc:37" = .ok y := by
      unfold bufGet
      rw [hste, if_pos ⟨by omega, by omega⟩]
      simp [List.getD_eq_getElem?_getD, hb]
    unfold freeLE
    rw [if_neg hcne, hg]
    simp only [Res.ok_bind]
    by_cases hy : to < y
    · rw [if_pos hy]
      refine ⟨f, rfl, ?_⟩
      simpa [List.dropWhile_cons, show ¬ y ≤ to by omega] using h
    · rw [if_neg hy]
      have hloop := freeLoop_spec f.buffer sz to h.size_pos hs (y :: ys) 0 st hst
        (fun k hk => by have := h.elems k hk; rwa [hstn] at this)
      have hcn : f.count.toNat = (y :: ys).length := by rw [h.count_eq]; simp
      have hst32 : toI32 f.start = (st : Int) := by rw [hste]; exact toI32_nat (by omega)
      rw [hcn, hst32, h.size_eq, hloop]
      simp only [Res.ok_bind, Res.pure_eq]
      refine ⟨_, rfl, ?_⟩
      let m := ((y :: ys).takeWhile (fun y => decide (y ≤ to))).length
      have hm : (y :: ys).dropWhile (fun y => decide (y ≤ to)) = (y :: ys).drop m := by
        have := List.takeWhile_append_dropWhile (p := fun y => decide (y ≤ to)) (l := y :: ys)
        calc _ = (List.takeWhile (fun y => decide (y ≤ to)) (y :: ys) ++
              List.dropWhile (fun y => decide (y ≤ to)) (y :: ys)).drop m := by simp only [m, List.drop_left]
          _ = _ := by rw [this]
      have hmle : m ≤ (y :: ys).length := (List.takeWhile_prefix _).length_le
      have hcount : f.count - (0 + (m : Int)) = (((y :: ys).length - m : Nat) : Int) := by
        rw [h.count_eq]; omega
      change Rep ⟨if f.count - (0 + (m : Int)) = 0 then 0 else (((st + m) % sz : Nat) : Int),
        f.count - (0 + (m : Int)), (sz : Int), f.buffer⟩ sz _
      rw [hm, hcount]
      have hmodlt : (st + m) % sz < sz := Nat.mod_lt _ h.size_pos
      constructor
      · rfl
      · exact h.size_pos
      · exact h.size_le
      · rw [List.length_drop]
      · simp only; split <;> omega
      · simp only; split
        · simpa using h.size_pos
        · rw [Int.toNat_natCast]; exact hmodlt
      · have := h.len_le
        rw [List.length_drop]; omega
      · exact h.buf_le
      · intro hnil
        have : (y :: ys).length - m = 0 := by
          rw [← List.length_drop, hnil]; rfl
        simp only
        rw [if_pos (by omega)]
      · intro k hk
        rw [List.length_drop] at hk
        simp only
        rw [if_neg (by omega), Int.toNat_natCast, Nat.mod_add_mod, Nat.add_assoc]
        have := h.elems (m + k) (by omega)
        rw [hstn] at this
        rw [this, List.getElem?_drop]

theorem rep_freeFirst {f : Inflights} {sz : Nat} {y : Nat} {ys : List Nat} (h : f.Rep sz (y :: ys)) :
    ∃ f', f.freeFirstOne = .ok f' ∧ f'.Rep sz ((y :: ys).dropWhile (fun z => decide (z ≤ y))) := by
  obtain ⟨st, hste⟩ := Int.eq_ofNat_of_zero_le h.start_ge
  have hstn : f.start.toNat = st := by simp [hste]
  have hst : st < sz := by rw [← hstn]; exact h.start_lt
  have hb := h.elems 0 (by simp)
  simp only [Nat.add_zero, hstn, Nat.mod_eq_of_lt hst, List.getElem?_cons_zero] at hb
  have hlt := (List.getElem?_eq_some_iff.1 hb).1
  have hg : bufGet f.buffer f.start "inflights.cc:66" = .ok y := by
    unfold bufGet
    rw [hste, if_pos ⟨by omega, by omega⟩]
    simp [List.getD_eq_getElem?_getD, hb]
  unfold freeFirstOne
  rw [hg]
  simp only [Res.ok_bind]
  exact rep_freeLE y h

end Inflights
end Craft
