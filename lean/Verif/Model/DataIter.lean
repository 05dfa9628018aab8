import Verif.Base.Outcome
/-!
# Model of src/sol/pario/data_iter.cc and data_read_task.cc

The caller's thread and the reading threads communicate through two blocking queues.  The queues are atomic bounded
first-in first-out queues here; that `BlockQueue` behaves like that under every schedule is C20-C22.
A file is what `DataReader::Next` delivers after opening and after every `Rewind`: a sequence of points, followed by
the end of file or by a read error (`bad`).
Not modelled: contents of recycled batches (every batch is refilled from `data_num = 0`), memory release, batches that
the caller still holds when it destroys the iterator (leaked).
-/

namespace Sol.DataIter

variable {P : Type}

/-- Where a reading thread is in `DataReadTask::run` (data_read_task.cc:30-58). -/
inductive RPc (P : Type) where
  /-- not started -/
  | new
  /-- at the outer `while`, `status == Status_OK` -/
  | loop
  /-- has an empty batch -/
  | fill
  /-- has a batch to hand over; `ok`: `status == Status_OK` -/
  | put (b : List P) (ok : Bool)
  /-- got the exit signal -/
  | signal
  /-- after the loop -/
  | last
  | done
deriving DecidableEq, Repr

/-- A `DataReadTask`: the file, `pass_num_`, the points still to come in this pass. -/
structure Reader (P : Type) where
  pts : List P
  bad : Bool
  passes : Nat
  rest : List P
  pc : RPc P
deriving DecidableEq, Repr

/-- Where the caller is. -/
inductive CPc where
  | idle
  /-- `Next` called, the previous batch not yet returned (data_iter.cc:81-83) -/
  | giveBack
  /-- at `mini_batch_buf_.Dequeue()` (data_iter.cc:86) -/
  | deq
  /-- dequeued the null pointer (data_iter.cc:87-88) -/
  | gotNull
  /-- at `mini_batch_buf_.Enqueue(nullptr)` (data_iter.cc:93) -/
  | putNull
  /-- destructor: `while (mini_batch_factory_.size() > 0)` (data_iter.cc:31) -/
  | dTest
  /-- data_iter.cc:32 -/
  | dTake
  /-- data_iter.cc:37 -/
  | dSignal
  /-- data_iter.cc:41 -/
  | dLoop
  /-- data_iter.cc:42 -/
  | dDeq
  /-- data_iter.cc:43-47 -/
  | dNull
  /-- data_iter.cc:54-56 -/
  | dJoin
  /-- data_iter.cc:59 -/
  | dTest2
  /-- data_iter.cc:60 -/
  | dTake2
  | gone
deriving DecidableEq, Repr

/-- Everything.  `started` is `running_reader_idx_ + 1`.  In `factory`, `true` is a batch and `false` the null pointer;
    in `buf`, `none` is the null pointer.  `delivered`: what `Next` has returned; `ended`: its last result was null. -/
structure State (P : Type) where
  size : Nat
  num : Nat
  factory : List Bool
  buf : List (Option (List P))
  rd : List (Reader P)
  started : Nat
  cpc : CPc
  held : Option (List P)
  delivered : List (List P)
  ended : Bool
deriving DecidableEq, Repr

/-- A reader as created by `AddReader` (data_iter.cc:65-78). -/
def newReader (f : List P × Bool × Nat) : Reader P := ⟨f.1, f.2.1, f.2.2, f.1, .new⟩

/-- The constructor (data_iter.cc:16-26) followed by `AddReader` for each file (with its number of passes); it has
    enqueued `batch_num` batches and the null pointer, which needs `batch_num ≥ 1`. -/
def start (size num : Nat) (files : List (List P × Bool × Nat)) : State P :=
  ⟨size, num, List.replicate num true, [none], files.map newReader, 0, .idle, none, [], false⟩

/-- How the inner loop of `run` ends (data_read_task.cc:40-53). -/
inductive Outcome (P : Type) where
  | full (rest : List P)
  | eof
  | err
deriving DecidableEq, Repr

/-- The inner loop: room left, points to come, points in the batch. -/
def fillLoop (bad : Bool) : Nat → List P → List P → List P × Outcome P
  | 0, rest, acc => (acc, .full rest)
  | _ + 1, [], acc => (acc, if bad then .err else .eof)
  | n + 1, x :: rest, acc => fillLoop bad n rest (acc ++ [x])

/-- The reader after the inner loop. -/
def filled (size : Nat) (r : Reader P) : Reader P :=
  match fillLoop r.bad size r.rest [] with
  | (b, .full rest) => { r with rest := rest, pc := .put b true }
  | (b, .eof) => { r with passes := r.passes - 1, rest := r.pts, pc := .put b true }
  | (b, .err) => { r with pc := .put b false }

/-- Steps of reading thread `i`. -/
inductive RStep : State P → Nat → State P → Prop where
  /-- data_read_task.cc:33-34 -/
  | take (s : State P) (i : Nat) (r : Reader P) (l : List Bool) : s.rd[i]? = some r → r.pc = .loop → r.passes > 0 →
      s.factory = true :: l → RStep s i { s with factory := l, rd := s.rd.set i { r with pc := .fill } }
  /-- data_read_task.cc:35-38: exit signal -/
  | exit (s : State P) (i : Nat) (r : Reader P) (l : List Bool) : s.rd[i]? = some r → r.pc = .loop → r.passes > 0 →
      s.factory = false :: l → RStep s i { s with factory := l, rd := s.rd.set i { r with pc := .signal } }
  | exit2 (s : State P) (i : Nat) (r : Reader P) : s.rd[i]? = some r → r.pc = .signal → s.factory.length < s.num →
      RStep s i { s with factory := s.factory ++ [false], rd := s.rd.set i { r with pc := .last } }
  /-- all passes done -/
  | leave (s : State P) (i : Nat) (r : Reader P) : s.rd[i]? = some r → r.pc = .loop → r.passes = 0 →
      RStep s i { s with rd := s.rd.set i { r with pc := .last } }
  /-- data_read_task.cc:39-53 -/
  | fill (s : State P) (i : Nat) (r : Reader P) : s.rd[i]? = some r → r.pc = .fill →
      RStep s i { s with rd := s.rd.set i (filled s.size r) }
  /-- data_read_task.cc:54 -/
  | put (s : State P) (i : Nat) (r : Reader P) (b : List P) (ok : Bool) : s.rd[i]? = some r → r.pc = .put b ok →
      s.buf.length < s.num →
      RStep s i { s with buf := s.buf ++ [some b], rd := s.rd.set i { r with pc := if ok then .loop else .last } }
  /-- data_read_task.cc:56-57 -/
  | last (s : State P) (i : Nat) (r : Reader P) : s.rd[i]? = some r → r.pc = .last → s.buf.length < s.num →
      RStep s i { s with buf := s.buf ++ [none], rd := s.rd.set i { r with pc := .done } }

/-- `ThreadTask::Start` (thread_task.h:20-24). -/
def startReader (r : Reader P) : Reader P :=
  match r.pc with
  | .new => { r with pc := .loop }
  | _ => r

/-- Steps of the caller in `Next` (data_iter.cc:80-99); the caller passes the batch it got last. -/
inductive CStep : State P → State P → Prop where
  | call (s : State P) : s.cpc = .idle →
      CStep s { s with cpc := if s.held.isSome then .giveBack else .deq }
  | giveBack (s : State P) (b : List P) : s.cpc = .giveBack → s.held = some b → s.factory.length < s.num →
      CStep s { s with factory := s.factory ++ [true], held := none, cpc := .deq }
  | batch (s : State P) (b : List P) (l : List (Option (List P))) : s.cpc = .deq → s.buf = some b :: l →
      CStep s { s with buf := l, held := some b, delivered := s.delivered ++ [b], ended := false, cpc := .idle }
  | null (s : State P) (l : List (Option (List P))) : s.cpc = .deq → s.buf = none :: l →
      CStep s { s with buf := l, cpc := .gotNull }
  | next (s : State P) (r : Reader P) : s.cpc = .gotNull → s.rd[s.started]? = some r →
      CStep s { s with rd := s.rd.set s.started (startReader r), started := s.started + 1, cpc := .deq }
  | noMore (s : State P) : s.cpc = .gotNull → s.rd.length ≤ s.started → CStep s { s with cpc := .putNull }
  | putNull (s : State P) : s.cpc = .putNull → s.buf.length < s.num →
      CStep s { s with buf := s.buf ++ [none], ended := true, cpc := .idle }

/-- Steps of the caller in the destructor (data_iter.cc:28-63). -/
inductive DStep : State P → State P → Prop where
  | destroy (s : State P) : s.cpc = .idle → DStep s { s with cpc := .dTest }
  | more (s : State P) : s.cpc = .dTest → s.factory ≠ [] → DStep s { s with cpc := .dTake }
  | drained (s : State P) : s.cpc = .dTest → s.factory = [] → DStep s { s with cpc := .dSignal }
  | take (s : State P) (x : Bool) (l : List Bool) : s.cpc = .dTake → s.factory = x :: l →
      DStep s { s with factory := l, cpc := .dTest }
  | signal (s : State P) : s.cpc = .dSignal → s.factory.length < s.num →
      DStep s { s with factory := s.factory ++ [false], cpc := .dLoop }
  | loop (s : State P) : s.cpc = .dLoop → s.started ≤ s.rd.length → DStep s { s with cpc := .dDeq }
  | endLoop (s : State P) : s.cpc = .dLoop → s.rd.length < s.started → DStep s { s with cpc := .dJoin }
  | batch (s : State P) (b : List P) (l : List (Option (List P))) : s.cpc = .dDeq → s.buf = some b :: l →
      DStep s { s with buf := l, cpc := .dLoop }
  | null (s : State P) (l : List (Option (List P))) : s.cpc = .dDeq → s.buf = none :: l →
      DStep s { s with buf := l, cpc := .dNull }
  | next (s : State P) (r : Reader P) : s.cpc = .dNull → s.rd[s.started]? = some r →
      DStep s { s with rd := s.rd.set s.started (startReader r), started := s.started + 1, cpc := .dLoop }
  | noNext (s : State P) : s.cpc = .dNull → s.rd.length ≤ s.started →
      DStep s { s with started := s.started + 1, cpc := .dLoop }
  | join (s : State P) : s.cpc = .dJoin → (∀ r ∈ s.rd, r.pc = .new ∨ r.pc = .done) → DStep s { s with cpc := .dTest2 }
  | more2 (s : State P) : s.cpc = .dTest2 → s.factory ≠ [] → DStep s { s with cpc := .dTake2 }
  | take2 (s : State P) (x : Bool) (l : List Bool) : s.cpc = .dTake2 → s.factory = x :: l →
      DStep s { s with factory := l, cpc := .dTest2 }
  | finish (s : State P) : s.cpc = .dTest2 → s.factory = [] → DStep s { s with cpc := .gone }

/-- `AddReader` while the caller is not inside `Next`. -/
inductive AStep : State P → State P → Prop where
  | add (s : State P) (f : List P × Bool × Nat) : s.cpc = .idle →
      AStep s { s with rd := s.rd ++ [newReader f], ended := false }

/-- Reading threads and `Next`. -/
def Step (s s' : State P) : Prop := (∃ i, RStep s i s') ∨ CStep s s'

/-- What can be reached with the files `fs` added so far, the caller only using `Next` (and returning each batch) and
    `AddReader`. -/
inductive IterReach (size num : Nat) : List (List P × Bool × Nat) → State P → Prop where
  | init (fs : List (List P × Bool × Nat)) : IterReach size num fs (start size num fs)
  | step {fs : List (List P × Bool × Nat)} {s s' : State P} : IterReach size num fs s → Step s s' →
      IterReach size num fs s'
  | add {fs : List (List P × Bool × Nat)} {s : State P} (f : List P × Bool × Nat) : IterReach size num fs s →
      s.cpc = .idle → IterReach size num (fs ++ [f]) { s with rd := s.rd ++ [newReader f], ended := false }

end Sol.DataIter
