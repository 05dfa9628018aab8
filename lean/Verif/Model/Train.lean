import Verif.Model.PreProcess
/-!
# Model of the loops of `Train` and `Test` over the batches of a data iterator

src/sol/model/online_model.cc:132-192, src/sol/model/model.cc:117-151.  The iterator is the list of batches that `Next` returns before
the null pointer (Model/DataIter).  The random numbers of active learning are a sequence of which every example takes one.
The counters are natural numbers, and `size_t(pow(base, n))` is the power.
-/

namespace Sol.Train
open Sol.Online Sol.PreProcess Sol.Loss

variable {α A : Type} [Zero α] [One α] [Add α] [Sub α] [Mul α] [Div α] [Neg α] [FCmp α] [IntCast α] [FFun α] [FSqrt α]

/-- An `ExpIterDisplayer` or `StepIterDisplayer` (online_model.cc:24-51). -/
inductive Disp where
  | exp (next base n : Nat)
  | step (next step : Nat)
deriving DecidableEq, Repr

/-- `next_show_time()`. -/
def Disp.next : Disp → Nat
  | .exp k _ _ => k
  | .step k _ => k

/-- `next()`. -/
def Disp.advance : Disp → Disp
  | .exp _ b n => .exp (b ^ (n + 1)) b (n + 1)
  | .step k d => .step (k + d) d

/-- `ExpIterDisplayer(base)`. -/
def Disp.newExp (b : Nat) : Disp := .exp b b 1

/-- `StepIterDisplayer(step)`. -/
def Disp.newStep (k : Nat) : Disp := .step k k

/-- A call of `iter_callback_`. -/
structure Report (α : Type) where
  data : Nat
  iter : Int
  upd : Nat
  rate : α
deriving DecidableEq, Repr

/-- The arguments of the call. -/
def report (s : St α A) : Report α := ⟨s.data, s.t, s.upd, ((s.err : Int) : α) / ((s.data : Int) : α)⟩

/-- What the loop carries: the model, the displayer, the reports so far, the number of random numbers used. -/
structure Loop (α A : Type) where
  s : St α A
  disp : Disp
  reports : List (Report α)
  used : Nat

/-- The pre-processing that is set in the model. -/
structure Pre where
  sel : Sel
  norm : Norm

/-- One example (online_model.cc:162-176). -/
def point (G : Alg α A) (c : Cfg α) (p : Pre) (ρ : Nat → α) (l : Loop α A) (e : Ex α) : Res (Loop α A) := do
  let x ← preProcess c.clf p.sel p.norm e
  let s ← trainOne G c l.s x (ρ l.used)
  if l.disp.next ≤ s.data then .ok ⟨s, l.disp.advance, l.reports ++ [report s], l.used + 1⟩ else .ok ⟨s, l.disp, l.reports, l.used + 1⟩

/-- The loop over a batch (online_model.cc:161-177). -/
def batch (G : Alg α A) (c : Cfg α) (p : Pre) (ρ : Nat → α) : Loop α A → List (Ex α) → Res (Loop α A)
  | l, [] => .ok l
  | l, e :: es => do
    let l ← point G c p ρ l e
    batch G c p ρ l es

/-- The loop over the batches (online_model.cc:157-178). -/
def batches (G : Alg α A) (c : Cfg α) (p : Pre) (ρ : Nat → α) : Loop α A → List (List (Ex α)) → Res (Loop α A)
  | l, [] => .ok l
  | l, b :: bs => do
    let l ← batch G c p ρ l b
    batches G c p ρ l bs

/-- `OnlineModel::Train` without `BeginTrain` (online_model.cc:144-192): the model, the displayer, the reports and the error rate. -/
def train (G : Alg α A) (c : Cfg α) (p : Pre) (ρ : Nat → α) (s : St α A) (d : Disp) (bs : List (List (Ex α))) :
    Res (St α A × Disp × List (Report α) × α) := do
  let l ← batches G c p ρ ⟨s, d, [], 0⟩ bs
  .ok ({ l.s with fresh := true }, l.disp, l.reports ++ [report l.s], (report l.s).rate)

/-- A line of the output of `Test` (model.cc:139-145): label, predicted label, scores. -/
structure Row (α : Type) where
  label : Int
  pred : Int
  scores : List α
deriving DecidableEq, Repr

/-- One example of `Test` (model.cc:134-146): errors, examples, lines. -/
def testPoint (c : Cfg α) (p : Pre) (s : St α A) (r : Nat × Nat × List (Row α)) (e : Ex α) : Res (Nat × Nat × List (Row α)) := do
  let x ← preProcess c.clf p.sel p.norm e
  let (v, label) ← predict c s x.x
  .ok (if label ≠ x.label then r.1 + 1 else r.1, r.2.1 + 1, r.2.2 ++ [⟨x.label, label, v⟩])

/-- The loop over a batch (model.cc:133-147). -/
def testBatch (c : Cfg α) (p : Pre) (s : St α A) : Nat × Nat × List (Row α) → List (Ex α) → Res (Nat × Nat × List (Row α))
  | r, [] => .ok r
  | r, e :: es => do
    let r ← testPoint c p s r e
    testBatch c p s r es

/-- The loop over the batches (model.cc:129-148). -/
def testBatches (c : Cfg α) (p : Pre) (s : St α A) : Nat × Nat × List (Row α) → List (List (Ex α)) → Res (Nat × Nat × List (Row α))
  | r, [] => .ok r
  | r, b :: bs => do
    let r ← testBatch c p s r b
    testBatches c p s r bs

/-- `Model::Test` (model.cc:117-151): the model afterwards, the lines and the error rate. -/
def test (G : Alg α A) (c : Cfg α) (p : Pre) (s : St α A) (bs : List (List (Ex α))) : Res (St α A × List (Row α) × α) := do
  let s ← (if s.fresh then G.endTrain c s else .ok s : Res (St α A))
  let (err, n, rows) ← testBatches c p s (0, 0, []) bs
  .ok (s, rows, ((err : Int) : α) / ((n : Int) : α))

end Sol.Train
