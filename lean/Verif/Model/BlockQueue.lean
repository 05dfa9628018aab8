import Verif.Base.Outcome
/-!
# Model of include/sol/util/block_queue.h with monitor.h and mutex.h

Threads run over one queue; `lock_` is a mutex, `nonfull_` and `nonempty_` are condition variables on it.  A waiting
thread continues after a notification or spuriously, and must take the lock again.
The code between two synchronisation operations is cut into steps that each touch the shared fields once; the fields
are touched only while holding the lock.
-/

namespace Sol.BlockQueue

/-- The fields (block_queue.h:172-178).  An element of `new T[queue_size]` that was never assigned is `none`. -/
structure Queue (T : Type) where
  elems : List (Option T)
  num : Int
  head : Nat
  tail : Nat
  cap : Nat

/-- The constructor (block_queue.h:63-73). -/
def new (T : Type) (cap : Nat) : Queue T := ⟨List.replicate cap none, 0, 0, 0, cap⟩

variable {T : Type}

/-- Storing an element (block_queue.h:93-95, :111-113). -/
def push (q : Queue T) (x : T) : Queue T :=
  { q with elems := q.elems.set q.tail (some x), tail := (q.tail + 1) % q.cap, num := q.num + 1 }

/-- The element at the head. -/
def front (q : Queue T) : Option T := q.elems[q.head]?.join

/-- Removing the element at the head (block_queue.h:125-127, :157-159). -/
def pop (q : Queue T) : Queue T := { q with head := (q.head + 1) % q.cap, num := q.num - 1 }

/-- Where a thread is with respect to the lock. -/
inductive Phase where
  /-- wants the lock: has called `lock()` or was woken -/
  | want
  /-- holds the lock, in the body -/
  | inside
  /-- in `wait()` -/
  | waiting
  /-- holds the lock, before the last notification -/
  | notify
  /-- holds the lock, before `unlock()` -/
  | unlock
deriving DecidableEq, Repr

/-- Position in `Dequeue`: the first `while`, the `for` loop, or behind the unguarded `wait` (block_queue.h:152). -/
inductive At where
  | first
  | loop
  | take
deriving DecidableEq, Repr

/-- A thread.  `enq bulk rest`: `Enqueue` (bulk or single) with the elements still to store.  `deq force at k got`:
    `Dequeue` with the number of elements still wanted and those already taken (the single `Dequeue` is the one that
    wants one element: block_queue.h:120-131 and :140-164 then do the same). -/
inductive Thread (T : Type) where
  | idle
  | enq (ph : Phase) (bulk : Bool) (rest : List T)
  | deq (ph : Phase) (force : Bool) (pos : At) (k : Nat) (got : List (Option T))

/-- Notification of a thread waiting on `nonempty_`. -/
def wakeDeq : Thread T → Thread T
  | .deq .waiting f p k g => .deq .want f p k g
  | t => t

/-- Notification of a thread waiting on `nonfull_`. -/
def wakeEnq : Thread T → Thread T
  | .enq .waiting b r => .enq .want b r
  | t => t

/-- Waiting on `nonempty_`. -/
def waitsDeq : Thread T → Bool
  | .deq .waiting _ _ _ _ => true
  | _ => false

/-- Waiting on `nonfull_`. -/
def waitsEnq : Thread T → Bool
  | .enq .waiting _ _ => true
  | _ => false

/-- The whole system; `ins` and `outs` record the elements stored and removed, in order. -/
structure State (T : Type) where
  q : Queue T
  lock : Option Nat
  thr : List (Thread T)
  ins : List T
  outs : List (Option T)

/-- `n` threads and an empty queue. -/
def start (T : Type) (cap n : Nat) : State T := ⟨new T cap, none, List.replicate n .idle, [], []⟩

/-- A call. -/
inductive Call (T : Type) where
  | enqueue (x : T)
  | enqueueBulk (l : List T)
  | dequeue
  | dequeueBulk (k : Nat) (force : Bool)

/-- The thread after a call. -/
def enter : Call T → Thread T
  | .enqueue x => .enq .want false [x]
  | .enqueueBulk l => .enq .want true l
  | .dequeue => .deq .want false .first 1 []
  | .dequeueBulk k f => .deq .want f .first k []

/-- The condition of block_queue.h:150: `force == true && i > 0 && elem_list[i - 1] != nullptr`. -/
def mustFill (isNull : Option T → Bool) (force : Bool) (got : List (Option T)) : Bool :=
  match got.getLast? with
  | some x => force && !isNull x
  | none => false

/-- Steps of a thread `i` that is inside a call. -/
inductive Run (isNull : Option T → Bool) : State T → Nat → State T → Prop where
  /-- `lock()` succeeds, or `wait()` returns with the lock. -/
  | acquireEnq (s : State T) (i : Nat) (b : Bool) (r : List T) : s.lock = none → s.thr[i]? = some (.enq .want b r) →
      Run isNull s i { s with lock := some i, thr := s.thr.set i (.enq .inside b r) }
  | acquireDeq (s : State T) (i : Nat) (f : Bool) (p : At) (k : Nat) (g : List (Option T)) : s.lock = none →
      s.thr[i]? = some (.deq .want f p k g) →
      Run isNull s i { s with lock := some i, thr := s.thr.set i (.deq .inside f p k g) }
  /-- block_queue.h:90-92 (single), :107-110 (bulk: notifies before waiting). -/
  | full (s : State T) (i : Nat) (b : Bool) (x : T) (r : List T) : s.lock = some i →
      s.thr[i]? = some (.enq .inside b (x :: r)) → s.q.num = s.q.cap →
      Run isNull s i { s with lock := none, thr := (if b then s.thr.map wakeDeq else s.thr).set i (.enq .waiting b (x :: r)) }
  /-- block_queue.h:93-95, :111-113. -/
  | put (s : State T) (i : Nat) (b : Bool) (x : T) (r : List T) : s.lock = some i →
      s.thr[i]? = some (.enq .inside b (x :: r)) → s.q.num ≠ s.q.cap →
      Run isNull s i { s with q := push s.q x, ins := s.ins ++ [x], thr := s.thr.set i (.enq .inside b r) }
  /-- All elements stored. -/
  | stored (s : State T) (i : Nat) (b : Bool) : s.lock = some i → s.thr[i]? = some (.enq .inside b []) →
      Run isNull s i { s with thr := s.thr.set i (.enq .notify b []) }
  /-- `nonempty_.notify()` (block_queue.h:96) wakes one waiting thread `j`, -/
  | notifyOne (s : State T) (i j : Nat) (t : Thread T) : s.lock = some i → s.thr[i]? = some (.enq .notify false []) →
      s.thr[j]? = some t → waitsDeq t = true →
      Run isNull s i { s with thr := (s.thr.set j (wakeDeq t)).set i (.enq .unlock false []) }
  /-- or none when none is waiting. -/
  | notifyNone (s : State T) (i : Nat) : s.lock = some i → s.thr[i]? = some (.enq .notify false []) →
      (∀ t ∈ s.thr, waitsDeq t = false) →
      Run isNull s i { s with thr := s.thr.set i (.enq .unlock false []) }
  /-- `nonempty_.notify_all()` (block_queue.h:115). -/
  | notifyAllDeq (s : State T) (i : Nat) : s.lock = some i → s.thr[i]? = some (.enq .notify true []) →
      Run isNull s i { s with thr := (s.thr.map wakeDeq).set i (.enq .unlock true []) }
  /-- block_queue.h:97, :116. -/
  | unlockEnq (s : State T) (i : Nat) (b : Bool) (r : List T) : s.lock = some i → s.thr[i]? = some (.enq .unlock b r) →
      Run isNull s i { s with lock := none, thr := s.thr.set i .idle }
  /-- block_queue.h:122-124, :143-145. -/
  | empty (s : State T) (i : Nat) (f : Bool) (k : Nat) (g : List (Option T)) : s.lock = some i →
      s.thr[i]? = some (.deq .inside f .first k g) → s.q.num = 0 →
      Run isNull s i { s with lock := none, thr := s.thr.set i (.deq .waiting f .first k g) }
  | nonempty (s : State T) (i : Nat) (f : Bool) (k : Nat) (g : List (Option T)) : s.lock = some i →
      s.thr[i]? = some (.deq .inside f .first k g) → s.q.num ≠ 0 →
      Run isNull s i { s with thr := s.thr.set i (.deq .inside f .loop k g) }
  /-- `i == num` (block_queue.h:148). -/
  | gotAll (s : State T) (i : Nat) (f : Bool) (g : List (Option T)) : s.lock = some i →
      s.thr[i]? = some (.deq .inside f .loop 0 g) →
      Run isNull s i { s with thr := s.thr.set i (.deq .notify f .loop 0 g) }
  /-- The unguarded wait (block_queue.h:151-152). -/
  | fill (s : State T) (i : Nat) (f : Bool) (k : Nat) (g : List (Option T)) : s.lock = some i →
      s.thr[i]? = some (.deq .inside f .loop (k + 1) g) → s.q.num = 0 → mustFill isNull f g = true →
      Run isNull s i { s with lock := none, thr := (s.thr.map wakeEnq).set i (.deq .waiting f .take (k + 1) g) }
  /-- `break` (block_queue.h:154). -/
  | giveUp (s : State T) (i : Nat) (f : Bool) (k : Nat) (g : List (Option T)) : s.lock = some i →
      s.thr[i]? = some (.deq .inside f .loop (k + 1) g) → s.q.num = 0 → mustFill isNull f g = false →
      Run isNull s i { s with thr := s.thr.set i (.deq .notify f .loop (k + 1) g) }
  /-- block_queue.h:125-127, :157-159. -/
  | takeNext (s : State T) (i : Nat) (f : Bool) (k : Nat) (g : List (Option T)) : s.lock = some i →
      s.thr[i]? = some (.deq .inside f .loop (k + 1) g) → s.q.num ≠ 0 →
      Run isNull s i { s with q := pop s.q, outs := s.outs ++ [front s.q], thr := s.thr.set i (.deq .inside f .loop k (g ++ [front s.q])) }
  /-- The same after the unguarded wait: no test. -/
  | takeBlind (s : State T) (i : Nat) (f : Bool) (k : Nat) (g : List (Option T)) : s.lock = some i →
      s.thr[i]? = some (.deq .inside f .take (k + 1) g) →
      Run isNull s i { s with q := pop s.q, outs := s.outs ++ [front s.q], thr := s.thr.set i (.deq .inside f .loop k (g ++ [front s.q])) }
  /-- `nonfull_.notify_all()` (block_queue.h:128, :161). -/
  | notifyAllEnq (s : State T) (i : Nat) (f : Bool) (p : At) (k : Nat) (g : List (Option T)) : s.lock = some i →
      s.thr[i]? = some (.deq .notify f p k g) →
      Run isNull s i { s with thr := (s.thr.map wakeEnq).set i (.deq .unlock f p k g) }
  /-- block_queue.h:129, :162. -/
  | unlockDeq (s : State T) (i : Nat) (f : Bool) (p : At) (k : Nat) (g : List (Option T)) : s.lock = some i →
      s.thr[i]? = some (.deq .unlock f p k g) →
      Run isNull s i { s with lock := none, thr := s.thr.set i .idle }

/-- Steps of the system: an idle thread calls an operation from `ops`, a thread runs, or a waiting thread wakes up
    spuriously. -/
inductive Step (isNull : Option T → Bool) (ops : Call T → Prop) : State T → State T → Prop where
  | call (s : State T) (i : Nat) (c : Call T) : ops c → s.thr[i]? = some .idle →
      Step isNull ops s { s with thr := s.thr.set i (enter c) }
  | run (s s' : State T) (i : Nat) : Run isNull s i s' → Step isNull ops s s'
  | spurious (s : State T) (i : Nat) (t : Thread T) : s.thr[i]? = some t →
      Step isNull ops s { s with thr := s.thr.set i (wakeEnq (wakeDeq t)) }

/-- States reachable with the given operations. -/
inductive Reach (isNull : Option T → Bool) (ops : Call T → Prop) (cap n : Nat) : State T → Prop where
  | start : Reach isNull ops cap n (start T cap n)
  | step {s s' : State T} : Reach isNull ops cap n s → Step isNull ops s s' → Reach isNull ops cap n s'

/-- Everything but the forced bulk `Dequeue`. -/
def unforced : Call T → Prop
  | .dequeueBulk _ true => False
  | _ => True

end Sol.BlockQueue
