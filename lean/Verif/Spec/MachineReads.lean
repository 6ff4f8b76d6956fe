import Verif.Spec.Machine
import Verif.Spec.MembersReads

/-! # Reading from replicated state machines -/

namespace Craft.Machine
open Members
variable {σ : Type} (M : Machine σ)

/-- An execution of a cluster with its machines in which every action meets the condition `P`, from any state to another, with what was seen
of the machines and the read requests that were handed to leaders in it. -/
inductive Path (env : Env) (dec : Entry → Option ConfChangeI) (P : State → Members.Act → Prop) :
    State → (Nat → σ) → List (Nat × Nat × σ) → List (Nat × Bytes) → State → (Nat → σ) → Prop
  | nil {c sm} : Path env dec P c sm [] [] c sm
  | act {c0 sm0 hist asked c sm c'} (a : Members.Act) : Path env dec P c0 sm0 hist asked c sm → a.Allowed c → P c a → M.Saves sm a →
      a.run env dec c = .ok c' →
      Path env dec P c0 sm0 (hist ++ seen c' (M.next env dec c sm a) a) (asked ++ a.asks c) c' (M.next env dec c sm a)

/-- The same for a cluster whose founders are bootstrapped. -/
inductive BootPath (env : Env) (dec : Entry → Option ConfChangeI) (peers : List (Nat × Bytes)) (P : State → Boot.Act → Prop) :
    State → (Nat → σ) → List (Nat × Nat × σ) → List (Nat × Bytes) → State → (Nat → σ) → Prop
  | nil {c sm} : BootPath env dec peers P c sm [] [] c sm
  | act {c0 sm0 hist asked c sm c'} (a : Boot.Act) : BootPath env dec peers P c0 sm0 hist asked c sm → a.Allowed peers c → P c a → M.SavesBoot sm a →
      a.run env dec peers c = .ok c' →
      BootPath env dec peers P c0 sm0 (hist ++ seenBoot c' (M.nextBoot env dec c sm a) a) (asked ++ a.asks c) c' (M.nextBoot env dec c sm a)

/-- Some machine is, or was when it was seen, in state `s` when its application had applied up to index `k`. -/
def Had (hist : List (Nat × Nat × σ)) (c : State) (sm : Nat → σ) (k : Nat) (s : σ) : Prop :=
  (∃ q, (q, k, s) ∈ hist) ∨ ∃ q n a, c.proc q = .up n a ∧ k = a.index ∧ s = sm q

/-- Reads are linearizable. `past` are the indexes and states of machines before the request was made, `now` all until now: there is one
sequence of entries all states come from, and the index `i` that the read was given is not behind any index in the past. So whoever waits until
it has applied index `i` reads a state that has everything in it any machine had in it before the request. -/
def Linear (log : List Entry) (past now : Nat → σ → Prop) (i : Nat) : Prop :=
  ∃ f : Nat → Entry, (∀ i e, log[i]? = some e → f (i + 1) = e) ∧ (∀ k s, past k s → k ≤ i ∧ s = M.after f k) ∧ ∀ k s, now k s → s = M.after f k

end Craft.Machine
