import Verif.Proofs.Inflights
import Verif.Model.Raft

/-! # C05, C06: `Inflights` (`/repo/src/tracker/inflights.{h,cc}`) -/

namespace Craft

namespace Spec

/-- Operations on the window of in-flight messages. -/
inductive InflOp where
  | add (x : Nat) | freeLE (to : Nat) | freeFirst | reset

/-- The bounded FIFO queue the window should be; `none`: the caller broke the contract (`Add` on a full window,
`FreeFirstOne` on an empty one). -/
def fifoStep (size : Nat) (q : List Nat) : InflOp → Option (List Nat)
  | .add x => if q.length < size then some (q ++ [x]) else none
  | .freeLE to => some (q.dropWhile fun y => decide (y ≤ to))
  | .freeFirst => match q with
    | [] => none
    | y :: _ => some (q.dropWhile fun z => decide (z ≤ y))
  | .reset => some []

def fifoRun (size : Nat) : List Nat → List InflOp → Option (List Nat)
  | q, [] => some q
  | q, op :: ops => match fifoStep size q op with
    | none => none
    | some q => fifoRun size q ops

end Spec

open Spec (InflOp fifoStep fifoRun)

/-- The model's operations. -/
def Inflights.opStep (f : Inflights) : InflOp → Res Inflights
  | .add x => f.add x
  | .freeLE to => f.freeLE to
  | .freeFirst => f.freeFirstOne
  | .reset => .ok f.reset

def Inflights.opRun : Inflights → List InflOp → Res Inflights
  | f, [] => .ok f
  | f, op :: ops => do
    let f ← f.opStep op
    f.opRun ops

theorem Inflights.rep_step {f : Inflights} {sz : Nat} {q q' : List Nat} (op : InflOp) (h : f.Rep sz q)
    (hs : fifoStep sz q op = some q') : ∃ f', f.opStep op = .ok f' ∧ f'.Rep sz q' := by
  cases op with
  | add x =>
    simp only [fifoStep] at hs
    split at hs
    · cases hs; exact rep_add x h ‹_›
    · cases hs
  | freeLE to => cases hs; exact rep_freeLE to h
  | freeFirst =>
    cases q with
    | nil => cases hs
    | cons y ys => cases hs; exact rep_freeFirst h
  | reset => cases hs; exact ⟨_, rfl, rep_reset h⟩

theorem Inflights.rep_run {sz : Nat} (ops : List InflOp) : ∀ {f : Inflights} {q q' : List Nat}, f.Rep sz q →
    fifoRun sz q ops = some q' → ∃ f', f.opRun ops = .ok f' ∧ f'.Rep sz q' := by
  induction ops with
  | nil => intro f q q' h hr; cases hr; exact ⟨f, rfl, h⟩
  | cons op ops ih =>
    intro f q q' h hr
    unfold fifoRun at hr
    split at hr
    · cases hr
    · rename_i q1 hq1
      obtain ⟨f1, h1, r1⟩ := rep_step op h hq1
      obtain ⟨f2, h2, r2⟩ := ih r1 hr
      exact ⟨f2, by simp [opRun, h1, h2], r2⟩

/-- C05: for every size up to 2^30 and every operation sequence allowed by the contract, the code runs without abort or
out-of-bounds access, and `Count` and `Full` are those of the FIFO queue. (`FreeLE` is in the alphabet, so agreement of
`Count` after every sequence is agreement of the whole content.) -/
theorem C05_inflights_fifo (size : Nat) (hpos : 0 < size) (hsz : size ≤ 2 ^ 30) (ops : List InflOp) (q : List Nat)
    (hq : fifoRun size [] ops = some q) :
    ∃ f, (Inflights.new size).opRun ops = .ok f ∧ f.count = q.length ∧ (f.full = true ↔ q.length = size) ∧
      q.length ≤ size := by
  obtain ⟨f, h, r⟩ := Inflights.rep_run ops (Inflights.rep_new size hpos hsz) hq
  exact ⟨f, h, r.count_eq, Inflights.rep_full r, r.len_le⟩

/-- C05, contract violation: `Add` on a full window aborts (it never overwrites). -/
theorem C05_inflights_add_full (size : Nat) (hpos : 0 < size) (hsz : size ≤ 2 ^ 30) (ops : List InflOp) (q : List Nat)
    (hq : fifoRun size [] ops = some q) (hfull : q.length = size) (x : Nat) :
    ∃ f, (Inflights.new size).opRun ops = .ok f ∧ f.add x = .fatal "inflights.cc:22" := by
  obtain ⟨f, h, r⟩ := Inflights.rep_run ops (Inflights.rep_new size hpos hsz) hq
  refine ⟨f, h, ?_⟩
  unfold Inflights.add
  rw [if_pos ((Inflights.rep_full r).2 hfull)]

-- a wrap-around sequence with growth meets the hypotheses
example : fifoRun 3 [] [.add 1, .add 2, .add 3, .freeLE 2, .add 4, .add 5, .freeFirst] = some [4, 5] := by decide

/-- C06 is false of the code: with a window size of 2^32+3, which `Config::Validate` accepts, `Add` truncates the size
to 3 and overwrites a live element; after four `Add`s, freeing the first element frees nothing. -/
theorem C06_inflights_every_size_false :
    (∃ c c' : Config, c.maxInflightMsgs = 2 ^ 32 + 3 ∧ c.validate = some c') ∧
    ∃ (ops : List InflOp) (q : List Nat), fifoRun (2 ^ 32 + 3) [] ops = some q ∧ q.length = 3 ∧
      ∃ f, (Inflights.new (2 ^ 32 + 3)).opRun ops = .ok f ∧ f.count = 4 := by
  refine ⟨⟨{ id := 1, electionTick := 10, heartbeatTick := 1, maxInflightMsgs := 2 ^ 32 + 3 }, _, rfl, rfl⟩, ?_⟩
  refine ⟨[.add 10, .add 11, .add 12, .add 13, .freeLE 10], [11, 12, 13], by decide, rfl, ?_⟩
  exact ⟨_, rfl, rfl⟩

/-- What does hold of C06: sizes up to 2^30 (see `C05_inflights_fifo`). -/
theorem C06_inflights_partial (size : Nat) (hpos : 0 < size) (hsz : size ≤ 2 ^ 30) (ops : List InflOp) (q : List Nat)
    (hq : fifoRun size [] ops = some q) :
    ∃ f, (Inflights.new size).opRun ops = .ok f ∧ f.count = q.length := by
  obtain ⟨f, h, r, _⟩ := C05_inflights_fifo size hpos hsz ops q hq
  exact ⟨f, h, r⟩

end Craft
