import Verif.Spec.BootLease
import Verif.Spec.MachineReads

/-! # Lease-based reads from replicated state machines -/

namespace Craft.Machine
open Members
variable {σ : Type} (M : Machine σ)

/-- An execution of a cluster with its machines whose nodes use lease-based reads, from any state to another, with what was seen of the
machines and the read requests that were handed to leaders in it (the node, the term it led, and the context). -/
inductive LeasePath (env : Env) (dec : Entry → Option ConfChangeI) :
    State → (Nat → σ) → List (Nat × Nat × σ) → List (Nat × Nat × Bytes) → State → (Nat → σ) → Prop
  | nil {c sm} : LeasePath env dec c sm [] [] c sm
  | act {c0 sm0 hist asked c sm c'} (a : Members.Act) : LeasePath env dec c0 sm0 hist asked c sm → a.Allowed c → a.LeaseOption → a.Fits c →
      M.Saves sm a → a.run env dec c = .ok c' →
      LeasePath env dec c0 sm0 (hist ++ seen c' (M.next env dec c sm a) a) (asked ++ a.leaseAsks c) c' (M.next env dec c sm a)

/-- The same for a cluster whose founders are bootstrapped. -/
inductive BootLeasePath (env : Env) (dec : Entry → Option ConfChangeI) (peers : List (Nat × Bytes)) :
    State → (Nat → σ) → List (Nat × Nat × σ) → List (Nat × Nat × Bytes) → State → (Nat → σ) → Prop
  | nil {c sm} : BootLeasePath env dec peers c sm [] [] c sm
  | act {c0 sm0 hist asked c sm c'} (a : Boot.Act) : BootLeasePath env dec peers c0 sm0 hist asked c sm → a.Allowed peers c → a.LeaseOption →
      a.Fits c → M.SavesBoot sm a → a.run env dec peers c = .ok c' →
      BootLeasePath env dec peers c0 sm0 (hist ++ seenBoot c' (M.nextBoot env dec c sm a) a) (asked ++ a.leaseAsks c) c' (M.nextBoot env dec c sm a)

end Craft.Machine
