import Verif.Model.Wire

/-! # Lemmas on the wire format -/

namespace Craft.Pb

theorem readVarintK_append (k : Nat) : ∀ n, n < 128 ^ (k + 1) → ∀ rest, readVarintK (k + 1) (varintK k n ++ rest) = some (n, rest) := by
  induction k with
  | zero =>
    intro n hn rest
    have : n < 128 := by simpa using hn
    simp only [varintK, List.cons_append, List.nil_append, readVarintK]
    rw [Nat.mod_eq_of_lt this, if_pos this]
  | succ k ih =>
    intro n hn rest
    simp only [varintK]
    split
    · rename_i h
      simp only [List.cons_append, List.nil_append, readVarintK]
      rw [if_pos h]
    · rename_i h
      have h2 : n / 128 < 128 ^ (k + 1) := by
        rw [Nat.div_lt_iff_lt_mul (by omega), ← Nat.pow_succ]; exact hn
      simp only [List.cons_append]
      rw [readVarintK, if_neg (by omega), ih _ h2 rest]
      simp only [Option.some.injEq, Prod.mk.injEq, and_true]
      omega

theorem readVarint_append {n : Nat} (hn : n < 2 ^ 64) (rest : Bytes) : readVarint (varint n ++ rest) = some (n, rest) := by
  unfold readVarint varint
  rw [readVarintK_append 9 n (by omega) rest]
  simp only [Nat.mod_eq_of_lt hn]

theorem varintK_ne (k n : Nat) : varintK k n ≠ [] := by
  cases k with
  | zero => simp [varintK]
  | succ k => simp only [varintK]; split <;> simp

theorem varintK_length (k : Nat) : ∀ n, n < 128 ^ (k + 1) → ∀ j, j ≤ k → 128 ^ j ≤ n ∨ j = 0 → n < 128 ^ (j + 1) → (varintK k n).length = j + 1 := by
  induction k with
  | zero => intro n _ j hj _ _; simp only [varintK, List.length_singleton]; omega
  | succ k ih =>
    intro n hn j hj h1 h2
    simp only [varintK]
    split
    · rename_i h
      have : j = 0 := by
        rcases h1 with h1 | h1
        · cases j with
          | zero => rfl
          | succ j =>
            have : 128 ^ 1 ≤ 128 ^ (j + 1) := Nat.pow_le_pow_right (by omega) (by omega)
            omega
        · exact h1
      subst this; rfl
    · rename_i h
      cases j with
      | zero => simp at h2; omega
      | succ j =>
        rcases h1 with h1 | h1
        · rw [List.length_cons, ih (n / 128) ?_ j (by omega) ?_ ?_]
          · rw [Nat.div_lt_iff_lt_mul (by omega), ← Nat.pow_succ]; exact hn
          · left
            rw [Nat.le_div_iff_mul_le (by omega), ← Nat.pow_succ]; exact h1
          · rw [Nat.div_lt_iff_lt_mul (by omega), ← Nat.pow_succ]; exact h2
        · omega

theorem or_one (n : Nat) : n ||| 1 = if n % 2 = 0 then n + 1 else n := by
  have h := Nat.div_add_mod (n ||| 1) 2
  have h1 : (n ||| 1) / 2 = n / 2 := by
    have : (n ||| 1) >>> 1 = n >>> 1 ||| 1 >>> 1 := Nat.shiftRight_or_distrib
    simpa [Nat.shiftRight_succ] using this
  have h2 : (n ||| 1) % 2 = 1 := by
    rw [Nat.or_mod_two_eq_one]; simp
  split <;> omega

theorem varint_size {n : Nat} (hn : n < 2 ^ 64) : (varint n).length = varintSize n := by
  have key : ∀ j, j ≤ 9 → (128 ^ j ≤ n ∨ j = 0) → n < 128 ^ (j + 1) → (varint n).length = varintSize n := by
    intro j hj h1 h2
    rw [varint, varintK_length 9 n (by omega) j hj h1 h2]
    unfold varintSize
    have e1 : (128 : Nat) ^ j = 2 ^ (7 * j) := by rw [Nat.pow_mul]
    have e2 : (128 : Nat) ^ (j + 1) = 2 ^ (7 * j + 7) := by
      rw [show 7 * j + 7 = 7 * (j + 1) by omega, Nat.pow_mul]
    rw [e1] at h1
    rw [e2] at h2
    have hpos : n ||| 1 ≠ 0 := by rw [or_one]; split <;> omega
    have hlo : 7 * j ≤ Nat.log2 (n ||| 1) := by
      rw [Nat.le_log2 hpos, or_one]
      rcases h1 with h1 | h1
      · split <;> omega
      · subst h1; split <;> omega
    have hhi : Nat.log2 (n ||| 1) < 7 * j + 7 := by
      rw [Nat.log2_lt hpos, or_one]
      have : 2 ^ (7 * j + 7) % 2 = 0 := by
        rw [show 7 * j + 7 = (7 * j + 6) + 1 by omega, Nat.pow_succ]; omega
      split <;> omega
    have hb : Nat.log2 (n ||| 1) < 64 := by
      rw [Nat.log2_lt hpos, or_one]
      split <;> omega
    omega
  by_cases h0 : n < 128 ^ 1
  · exact key 0 (by omega) (Or.inr rfl) h0
  by_cases h1 : n < 128 ^ 2
  · exact key 1 (by omega) (Or.inl (by omega)) h1
  by_cases h2 : n < 128 ^ 3
  · exact key 2 (by omega) (Or.inl (by omega)) h2
  by_cases h3 : n < 128 ^ 4
  · exact key 3 (by omega) (Or.inl (by omega)) h3
  by_cases h4 : n < 128 ^ 5
  · exact key 4 (by omega) (Or.inl (by omega)) h4
  by_cases h5 : n < 128 ^ 6
  · exact key 5 (by omega) (Or.inl (by omega)) h5
  by_cases h6 : n < 128 ^ 7
  · exact key 6 (by omega) (Or.inl (by omega)) h6
  by_cases h7 : n < 128 ^ 8
  · exact key 7 (by omega) (Or.inl (by omega)) h7
  by_cases h8 : n < 128 ^ 9
  · exact key 8 (by omega) (Or.inl (by omega)) h8
  · exact key 9 (by omega) (Or.inl (by omega)) (by omega)

/-- A field that can be written. -/
def RawOk (r : Raw) : Prop :=
  (1 ≤ r.1 ∧ r.1 < 2 ^ 29) ∧ match r.2 with
    | .int n => n < 2 ^ 64
    | .fix64 b => b.length = 8
    | .len b => b.length < 2 ^ 31
    | .fix32 b => b.length = 4

theorem readBytes_append (b rest : Bytes) : readBytes b.length (b ++ rest) = some (b, rest) := by
  unfold readBytes
  rw [if_neg (by rw [List.length_append]; omega)]
  simp

theorem readField_enc {r : Raw} (h : RawOk r) (rest : Bytes) : readField (enc r ++ rest) = some (r, rest) := by
  obtain ⟨k, v⟩ := r
  obtain ⟨⟨h1, h2⟩, h3⟩ := h
  dsimp only at h1 h2 h3
  cases v with
  | int n =>
    unfold readField enc
    rw [List.append_assoc, readVarint_append (by omega)]
    try dsimp only
    have e : k * 8 % 2 ^ 32 = k * 8 := Nat.mod_eq_of_lt (by omega)
    rw [e, if_neg (by omega)]
    unfold readVal
    rw [show k * 8 % 8 = 0 by omega]
    try dsimp only
    rw [readVarint_append h3]
    try dsimp only
    rw [show k * 8 / 8 = k by omega]
    rfl
  | fix64 b =>
    unfold readField enc
    rw [List.append_assoc, readVarint_append (by omega)]
    try dsimp only
    have e : (k * 8 + 1) % 2 ^ 32 = k * 8 + 1 := Nat.mod_eq_of_lt (by omega)
    rw [e, if_neg (by omega)]
    unfold readVal
    rw [show (k * 8 + 1) % 8 = 1 by omega]
    try dsimp only
    have := readBytes_append b rest
    rw [h3] at this
    rw [this]
    try dsimp only
    rw [show (k * 8 + 1) / 8 = k by omega]
    rfl
  | len b =>
    unfold readField enc
    rw [List.append_assoc, List.append_assoc, readVarint_append (by omega)]
    try dsimp only
    have e : (k * 8 + 2) % 2 ^ 32 = k * 8 + 2 := Nat.mod_eq_of_lt (by omega)
    rw [e, if_neg (by omega)]
    unfold readVal
    rw [show (k * 8 + 2) % 8 = 2 by omega]
    try dsimp only
    rw [readVarint_append (by omega)]
    try dsimp only
    rw [if_neg (by omega), readBytes_append]
    try dsimp only
    rw [show (k * 8 + 2) / 8 = k by omega]
    rfl
  | fix32 b =>
    unfold readField enc
    rw [List.append_assoc, readVarint_append (by omega)]
    try dsimp only
    have e : (k * 8 + 5) % 2 ^ 32 = k * 8 + 5 := Nat.mod_eq_of_lt (by omega)
    rw [e, if_neg (by omega)]
    unfold readVal
    rw [show (k * 8 + 5) % 8 = 5 by omega]
    try dsimp only
    have := readBytes_append b rest
    rw [h3] at this
    rw [this]
    try dsimp only
    rw [show (k * 8 + 5) / 8 = k by omega]
    rfl

theorem enc_ne (r : Raw) : 0 < (enc r).length := by
  obtain ⟨k, v⟩ := r
  have : ∀ n, 0 < (varint n).length := fun n => List.length_pos_iff.2 (varintK_ne 9 n)
  cases v <;> simp only [enc, List.length_append] <;> (have h0 := this (k * 8); have h1 := this (k * 8 + 1); have h2 := this (k * 8 + 2); have h5 := this (k * 8 + 5); omega)

theorem readFieldsK_encs {rs : List Raw} (h : ∀ r ∈ rs, RawOk r) : ∀ k, (encs rs).length ≤ k → readFieldsK k (encs rs) = some rs := by
  induction rs with
  | nil => intro k _; cases k <;> rfl
  | cons r rs ih =>
    intro k hk
    have hlen : (encs (r :: rs)).length = (enc r).length + (encs rs).length := by
      unfold encs; rw [List.flatMap_cons, List.length_append]
    have hne := enc_ne r
    have e : encs (r :: rs) = enc r ++ encs rs := by unfold encs; rw [List.flatMap_cons]
    obtain ⟨k, rfl⟩ : ∃ j, k = j + 1 := ⟨k - 1, by omega⟩
    cases hb : encs (r :: rs) with
    | nil => rw [hb, List.length_nil] at hlen; omega
    | cons b bs =>
      unfold readFieldsK
      rw [← hb, e, readField_enc (h r List.mem_cons_self)]
      dsimp only
      rw [ih (fun x hx => h x (List.mem_cons_of_mem _ hx)) k (by omega)]

theorem readFields_encs {rs : List Raw} (h : ∀ r ∈ rs, RawOk r) : readFields (encs rs) = some rs := readFieldsK_encs h _ (Nat.le_refl _)

theorem merge_encs {M : Type} {set : M → Raw → Option M} {m : M} {rs : List Raw} (h : ∀ r ∈ rs, RawOk r) : merge set m (encs rs) = rs.foldlM set m := by
  unfold merge; rw [readFields_encs h]

theorem encs_append (a b : List Raw) : encs (a ++ b) = encs a ++ encs b := by unfold encs; rw [List.flatMap_append]

theorem length_encs_append (a b : List Raw) : (encs (a ++ b)).length = (encs a).length + (encs b).length := by rw [encs_append, List.length_append]

theorem tag_len {k : Nat} (hk : k < 128) : (varint k).length = 1 := by
  unfold varint varintK; rw [if_pos hk]; rfl

theorem enc_int {k n : Nat} (hk : k < 16) (hn : n < 2 ^ 64) : (enc (k, .int n)).length = 1 + varintSize n := by
  simp only [enc, List.length_append]
  rw [tag_len (by omega), varint_size hn]

theorem enc_len {k : Nat} {b : Bytes} (hk : k < 16) (hn : b.length < 2 ^ 64) : (enc (k, .len b)).length = 1 + lenSize b.length := by
  simp only [enc, List.length_append]
  rw [tag_len (by omega), varint_size hn]
  unfold lenSize; omega

theorem len_opt_int {k : Nat} (hk : k < 16) {o : Option Nat} (h : ∀ n, o = some n → n < 2 ^ 64) :
    (encs (opt k .int o)).length = optSize varintSize o := by
  cases o with
  | none => rfl
  | some n => simp only [opt, encs, List.flatMap_cons, List.flatMap_nil, List.append_nil]; exact enc_int hk (h n rfl)

theorem len_opt_enum {X : Type} {k : Nat} (hk : k < 16) {f : X → Nat} {o : Option X} (h : ∀ x, o = some x → f x < 2 ^ 64) :
    (encs (opt k (fun t => .int (f t)) o)).length = optSize (fun t => varintSize (f t)) o := by
  cases o with
  | none => rfl
  | some n => simp only [opt, encs, List.flatMap_cons, List.flatMap_nil, List.append_nil]; exact enc_int hk (h n rfl)

theorem len_opt_bool {k : Nat} (hk : k < 16) {o : Option Bool} : (encs (opt k ofBool o)).length = optSize (fun _ => 1) o := by
  cases o with
  | none => rfl
  | some b =>
    simp only [opt, encs, List.flatMap_cons, List.flatMap_nil, List.append_nil]
    cases b
    · exact enc_int (n := 0) hk (by omega)
    · exact enc_int (n := 1) hk (by omega)

theorem len_opt_len {X : Type} {k : Nat} (hk : k < 16) {f : X → Bytes} {g : X → Nat} {o : Option X}
    (h : ∀ x, o = some x → (f x).length = g x ∧ g x < 2 ^ 64) :
    (encs (opt k (fun t => .len (f t)) o)).length = optSize (fun x => lenSize (g x)) o := by
  cases o with
  | none => rfl
  | some x =>
    obtain ⟨h1, h2⟩ := h x rfl
    simp only [opt, encs, List.flatMap_cons, List.flatMap_nil, List.append_nil]
    rw [enc_len hk (by omega), h1]; rfl

theorem len_rep_int {k : Nat} (hk : k < 16) {ns : List Nat} (h : ∀ n ∈ ns, n < 2 ^ 64) : (encs (rep k .int ns)).length = ns.length + varintSizes ns := by
  induction ns with
  | nil => rfl
  | cons n ns ih =>
    have := ih fun x hx => h x (List.mem_cons_of_mem _ hx)
    simp only [rep, List.map_cons, encs, List.flatMap_cons, List.length_append, varintSizes, List.sum_cons, List.length_cons] at this ⊢
    rw [this, enc_int hk (h n List.mem_cons_self)]
    omega

theorem len_rep_len {X : Type} {k : Nat} (hk : k < 16) {f : X → Bytes} {g : X → Nat} {xs : List X}
    (h : ∀ x ∈ xs, (f x).length = g x ∧ g x < 2 ^ 64) :
    (encs (rep k (fun t => .len (f t)) xs)).length = xs.length + (xs.map fun x => lenSize (g x)).sum := by
  induction xs with
  | nil => rfl
  | cons x xs ih =>
    have := ih fun y hy => h y (List.mem_cons_of_mem _ hy)
    obtain ⟨h1, h2⟩ := h x List.mem_cons_self
    simp only [rep, List.map_cons, encs, List.flatMap_cons, List.length_append, List.sum_cons, List.length_cons] at this ⊢
    rw [this, enc_len hk (by omega), h1]
    omega

/-! ## Taking the fields -/

theorem fold_opt {M X : Type} {set : M → Raw → Option M} {k : Nat} {f : X → Val} (put : Option X → M) {o : Option X} {rest : List Raw}
    (hs : ∀ x, o = some x → set (put none) (k, f x) = some (put (some x))) :
    (opt k f o ++ rest).foldlM set (put none) = rest.foldlM set (put o) := by
  cases o with
  | none => rfl
  | some x => simp only [opt, List.cons_append, List.nil_append, List.foldlM_cons, hs x rfl]; rfl

theorem fold_rep {M X : Type} {set : M → Raw → Option M} {k : Nat} {f : X → Val} (put : List X → M) {rest : List Raw} :
    ∀ {xs ys : List X}, (∀ zs, ∀ x ∈ xs, set (put zs) (k, f x) = some (put (zs ++ [x]))) →
      (rep k f xs ++ rest).foldlM set (put ys) = rest.foldlM set (put (ys ++ xs)) := by
  intro xs
  induction xs with
  | nil => intro ys _; rw [List.append_nil]; rfl
  | cons x xs ih =>
    intro ys h
    simp only [rep, List.map_cons, List.cons_append, List.foldlM_cons]
    rw [h ys x List.mem_cons_self]
    simp only [Option.bind_eq_bind, Option.bind_some]
    have := ih (ys := ys ++ [x]) fun zs y hy => h zs y (List.mem_cons_of_mem _ hy)
    simp only [rep, List.append_assoc, List.cons_append, List.nil_append] at this
    exact this

theorem mem_opt {X : Type} {k : Nat} {f : X → Val} {o : Option X} {r : Raw} (h : r ∈ opt k f o) : ∃ x, o = some x ∧ r = (k, f x) := by
  cases o with
  | none => cases h
  | some x => exact ⟨x, rfl, List.mem_singleton.1 h⟩

theorem mem_rep {X : Type} {k : Nat} {f : X → Val} {xs : List X} {r : Raw} (h : r ∈ rep k f xs) : ∃ x ∈ xs, r = (k, f x) := by
  obtain ⟨x, h1, h2⟩ := List.mem_map.1 h
  exact ⟨x, h1, h2.symm⟩

end Craft.Pb
