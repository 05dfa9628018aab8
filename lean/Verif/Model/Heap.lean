import Verif.Base.Num
/-!
# Model of include/sol/util/heap.h

`values` is the array behind `values_`; the comparator is a function to `bool` (`MinHeap`: `<`, `MaxHeap`: `>`).
`HeapSort` (heap.h:152-166) is not modelled: it is never instantiated (it names members that do not exist).
Simplification: `2 * parent_pos + 1` does not wrap around (fewer than 2^31 elements in the heap).
-/

namespace Sol.Heap

/-- The members of `Heap` (heap.h:87-96) apart from the pointer to the values; `N_` and `K_` are `index_t`. -/
structure State where
  N : Nat
  K : Nat
  id2pos : List Nat
  pos2id : List Nat
deriving Repr, DecidableEq

/-- `invalid_index` (types.h). -/
def invalidIndex : Nat := 4294967295

/-- `K_ - 1` in `index_t`. -/
def last (K : Nat) : Nat := (K + 4294967295) % 4294967296

variable {α : Type}

/-- `value_by_pos` (heap.h:76-78). -/
def valueByPos (vals : List α) (pos2id : List Nat) (pos : Nat) : Res α := do
  let id ← lget pos2id pos
  lget vals id

/-- Choice of the child (heap.h:198-200). -/
def pickChild (cmp : α → α → Bool) (vals : List α) (pos2id : List Nat) (child m : Nat) : Res Nat :=
  if child < m then do
    let a ← valueByPos vals pos2id (child + 1)
    let b ← valueByPos vals pos2id child
    .ok (if cmp a b then child + 1 else child)
  else .ok child

theorem pickChild_bounds {cmp : α → α → Bool} {vals : List α} {pos2id : List Nat} {child m c : Nat} (h : child ≤ m)
    (hc : pickChild cmp vals pos2id child m = .ok c) : child ≤ c ∧ c ≤ m := by
  unfold pickChild at hc
  split at hc
  · simp only [Res.bind_eq_ok, Res.ok.injEq] at hc
    obtain ⟨a, _, b, _, hc⟩ := hc
    split at hc <;> omega
  · simp only [Res.ok.injEq] at hc
    omega

/-- The loop of `AdjustHeap` (heap.h:195-209); result: the two tables and `parent_pos`. -/
def siftLoop (cmp : α → α → Bool) (vals : List α) (m : Nat) (tgtVal : α) (pos2id id2pos : List Nat) (parent : Nat) :
    Res (List Nat × List Nat × Nat) :=
  if hm : 2 * parent + 1 ≤ m then
    match hc : pickChild cmp vals pos2id (2 * parent + 1) m with
    | .ub k => .ub k
    | .ok child =>
      match valueByPos vals pos2id child with
      | .ub k => .ub k
      | .ok v =>
        if cmp v tgtVal = false then .ok (pos2id, id2pos, parent)
        else
          match lget pos2id child with
          | .ub k => .ub k
          | .ok childId =>
            match lset pos2id parent childId with
            | .ub k => .ub k
            | .ok pos2id' =>
              match lset id2pos childId parent with
              | .ub k => .ub k
              | .ok id2pos' =>
                have := pickChild_bounds hm hc
                siftLoop cmp vals m tgtVal pos2id' id2pos' child
  else .ok (pos2id, id2pos, parent)
termination_by m - parent

/-- `AdjustHeap` (heap.h:191-214). -/
def adjust (cmp : α → α → Bool) (vals : List α) (h : State) (s m : Nat) : Res State := do
  let tgtId ← lget h.pos2id s
  let tgtVal ← lget vals tgtId
  let r ← siftLoop cmp vals m tgtVal h.pos2id h.id2pos s
  let pos2id ← lset r.1 r.2.2 tgtId
  let id2pos ← lset r.2.1 tgtId r.2.2
  .ok { h with pos2id := pos2id, id2pos := id2pos }

/-- The loop of `BuildHeap` (heap.h:146-149): adjust positions `i - 1`, ..., `0`. -/
def buildLoop (cmp : α → α → Bool) (vals : List α) : Nat → State → Res State
  | 0, h => .ok h
  | i + 1, h => do
    let h ← adjust cmp vals h i (last h.K)
    buildLoop cmp vals i h

/-- `BuildHeap` (heap.h:145-150). -/
def build (cmp : α → α → Bool) (vals : List α) (h : State) : Res State := buildLoop cmp vals (last h.K / 2 + 1) h

/-- `Init` (heap.h:100-117). -/
def init (cmp : α → α → Bool) (vals : List α) (N K : Nat) : Res State :=
  build cmp vals ⟨N, K, List.range N, List.range K⟩

/-- The loop filling `id2pos_map_` from the given indexes (heap.h:136-138). -/
def placeLoop : Nat → List Nat → List Nat → Res (List Nat)
  | _, [], id2pos => .ok id2pos
  | i, id :: l, id2pos => do
    let id2pos ← lset id2pos id i
    placeLoop (i + 1) l id2pos

/-- `Init` with given indexes (heap.h:119-142); `indexes` is read for its first `K` elements. -/
def initWith (cmp : α → α → Bool) (vals : List α) (indexes : List Nat) (N K : Nat) : Res State :=
  if K ≤ indexes.length then do
    let id2pos ← placeLoop 0 (indexes.take K) (List.replicate N K)
    build cmp vals ⟨N, K, id2pos, indexes.take K⟩
  else .ub .outOfBounds

/-- `UpdateHeap` (heap.h:169-188): the new heap and the returned index. -/
def update (cmp : α → α → Bool) (vals : List α) (h : State) (idx : Nat) : Res (State × Nat) := do
  let curPos ← lget h.id2pos idx
  if curPos < h.K then .ok (h, invalidIndex)
  else do
    let curVal ← lget vals idx
    let thresh ← valueByPos vals h.pos2id 0
    if cmp thresh curVal then do
      let retId ← lget h.pos2id 0
      let id2pos ← lset h.id2pos retId h.K
      let id2pos ← lset id2pos idx 0
      let pos2id ← lset h.pos2id 0 idx
      let h' ← adjust cmp vals { h with id2pos := id2pos, pos2id := pos2id } 0 (last h.K)
      .ok (h', retId)
    else .ok (h, idx)

/-- `isTopK` (heap.h:73-75). -/
def isTopK (h : State) (idx : Nat) : Res Bool := do
  let p ← lget h.id2pos idx
  .ok (decide (p < h.K))

/-- `set_N` (heap.h:226-239); `none` is the exception. -/
def setN (h : State) (N : Nat) : Option State :=
  if h.K = 0 then some h
  else if N < h.N then none
  else some { h with N := N, id2pos := h.id2pos ++ (List.range (N - h.N)).map (· + h.N) }

/-- Offering all indexes `0, ..., n - 1` in order, as in ogd.cc:209-218; the returned indexes. -/
def offerAll (cmp : α → α → Bool) (vals : List α) : List Nat → State → Res State
  | [], h => .ok h
  | i :: l, h => do
    let r ← update cmp vals h i
    offerAll cmp vals l r.1

end Sol.Heap
