import Verif.Base.Outcome
/-!
# Model of `DataPoint::Sort` (src/sol/pario/data_point.cc:43-93)

The two parallel vectors of a data point are two arrays; the value type is arbitrary.
-/

namespace Sol.Sort

variable {V : Type}

/-- `DataPoint::IsSorted` (data_point.cc:43-49): strictly ascending. -/
def isSorted : List UInt32 → Bool
  | [] => true
  | [_] => true
  | x :: y :: l => if y ≤ x then false else isSorted (y :: l)

/-- "scan right side" (data_point.cc:59-61). -/
def scanRight (a : Array UInt32) (temp : UInt32) (i j : Nat) : Res Nat :=
  if h : i < j then do
    let x ← rd a j
    if temp < x then scanRight a temp i (j - 1) else .ok j
  else .ok j
termination_by j

/-- "scan left side" (data_point.cc:68-70). -/
def scanLeft (a : Array UInt32) (temp : UInt32) (i j : Nat) : Res Nat :=
  if h : i < j then do
    let x ← rd a i
    if x < temp then scanLeft a temp (i + 1) j else .ok i
  else .ok i
termination_by j - i

/-- Arrays and the two cursors. -/
structure PState (V : Type) where
  a : Array UInt32
  b : Array V
  i : Nat
  j : Nat

/-- data_point.cc:62-66: fill the hole at `i` from `j`. -/
def fillLeft (s : PState V) : Res (PState V) :=
  if s.i < s.j then do
    let x ← rd s.a s.j
    let a ← wr s.a s.i x
    let y ← rd s.b s.j
    let b ← wr s.b s.i y
    .ok ⟨a, b, s.i + 1, s.j⟩
  else .ok s

/-- data_point.cc:71-75: fill the hole at `j` from `i`. -/
def fillRight (s : PState V) : Res (PState V) :=
  if s.i < s.j then do
    let x ← rd s.a s.i
    let a ← wr s.a s.j x
    let y ← rd s.b s.i
    let b ← wr s.b s.j y
    .ok ⟨a, b, s.i, s.j - 1⟩
  else .ok s

/-- One round of the outer loop (data_point.cc:59-75). -/
def round (temp : UInt32) (s : PState V) : Res (PState V) := do
  let j ← scanRight s.a temp s.i s.j
  let s ← fillLeft { s with j := j }
  let i ← scanLeft s.a temp s.i s.j
  fillRight { s with i := i }

theorem scanRight_bounds (a : Array UInt32) (temp : UInt32) (i j : Nat) {r : Nat} (hij : i ≤ j)
    (h : scanRight a temp i j = .ok r) : i ≤ r ∧ r ≤ j := by
  induction j using Nat.strongRecOn with
  | _ j ih =>
    unfold scanRight at h
    split at h
    · rw [Res.bind_eq_ok] at h
      obtain ⟨x, _, h⟩ := h
      split at h
      · have := ih (j - 1) (by omega) (by omega) h
        omega
      · simp only [Res.ok.injEq] at h; omega
    · simp only [Res.ok.injEq] at h; omega

theorem scanLeft_bounds (a : Array UInt32) (temp : UInt32) (i j : Nat) {r : Nat} (hij : i ≤ j)
    (h : scanLeft a temp i j = .ok r) : i ≤ r ∧ r ≤ j := by
  induction hn : j - i using Nat.strongRecOn generalizing i with
  | _ n ih =>
    unfold scanLeft at h
    split at h
    · rw [Res.bind_eq_ok] at h
      obtain ⟨x, _, h⟩ := h
      split at h
      · have := ih (j - (i + 1)) (by omega) (i + 1) (by omega) h rfl
        omega
      · simp only [Res.ok.injEq] at h; omega
    · simp only [Res.ok.injEq] at h; omega

theorem round_progress (temp : UInt32) (s s' : PState V) (h : s.i < s.j) (hr : round temp s = .ok s') :
    s.i ≤ s'.i ∧ s'.j ≤ s.j ∧ s'.i ≤ s'.j ∧ s'.j - s'.i < s.j - s.i := by
  unfold round at hr
  rw [Res.bind_eq_ok] at hr
  obtain ⟨j, hj, hr⟩ := hr
  have b1 := scanRight_bounds _ _ _ _ (by omega) hj
  rw [Res.bind_eq_ok] at hr
  obtain ⟨s1, h1, hr⟩ := hr
  rw [Res.bind_eq_ok] at hr
  obtain ⟨i, hi, hr⟩ := hr
  have hs1 : s.i ≤ s1.i ∧ s1.j = j ∧ s1.i ≤ s1.j ∧ s1.j - s1.i < s.j - s.i := by
    unfold fillLeft at h1
    split at h1
    · simp only [Res.bind_eq_ok, Res.ok.injEq] at h1
      obtain ⟨x, _, y, _, a, _, b, _, rfl⟩ := h1
      dsimp only at *
      omega
    · simp only [Res.ok.injEq] at h1
      subst h1
      dsimp only at *
      omega
  have b2 := scanLeft_bounds _ _ _ _ (by omega) hi
  unfold fillRight at hr
  split at hr
  · simp only [Res.bind_eq_ok, Res.ok.injEq] at hr
    obtain ⟨x, _, y, _, a, _, b, _, rfl⟩ := hr
    dsimp only at *
    omega
  · simp only [Res.ok.injEq] at hr
    subst hr
    dsimp only at *
    omega

/-- The outer loop `while (i < j)` (data_point.cc:58-76). -/
def loop (temp : UInt32) (s : PState V) : Res (PState V) :=
  if h : s.i < s.j then
    match hr : round temp s with
    | .ub k => .ub k
    | .ok s' =>
      have := round_progress temp s s' h hr
      loop temp s'
  else .ok s
termination_by s.j - s.i

/-- The partition part of `QuickSort` (data_point.cc:53-78). -/
def partition (a : Array UInt32) (b : Array V) (low high : Nat) : Res (PState V) := do
  let temp ← rd a low
  let tempInd ← rd b low
  let s ← loop temp ⟨a, b, low, high⟩
  let a ← wr s.a s.i temp
  let b ← wr s.b s.i tempInd
  .ok { s with a := a, b := b }

theorem loop_bounds (temp : UInt32) (s s' : PState V) (h : s.i ≤ s.j) (hr : loop temp s = .ok s') :
    s.i ≤ s'.i ∧ s'.j ≤ s.j ∧ s'.i = s'.j := by
  induction hn : s.j - s.i using Nat.strongRecOn generalizing s with
  | _ n ih =>
    unfold loop at hr
    split at hr
    · rename_i hlt
      split at hr
      · simp at hr
      · rename_i s1 hr1
        have p := round_progress temp s s1 hlt hr1
        have := ih (s1.j - s1.i) (by omega) s1 (by omega) hr rfl
        omega
    · simp only [Res.ok.injEq] at hr
      subst hr
      omega

theorem partition_bounds (a : Array UInt32) (b : Array V) (low high : Nat) {s : PState V} (h : low ≤ high)
    (hr : partition a b low high = .ok s) : low ≤ s.i ∧ s.j ≤ high ∧ s.i = s.j := by
  unfold partition at hr
  simp only [Res.bind_eq_ok, Res.ok.injEq] at hr
  obtain ⟨t, _, ti, _, s1, h1, a', _, b', _, rfl⟩ := hr
  have := loop_bounds _ _ _ (by simpa using h) h1
  simpa using this

/-- `QuickSort` (data_point.cc:51-86) on the positions `low .. high` (inclusive), with `low ≤ high`
    as in all its calls. -/
def quickSort (a : Array UInt32) (b : Array V) (low high : Nat) (hlh : low ≤ high) :
    Res (Array UInt32 × Array V) :=
  match hp : partition a b low high with
  | .ub k => .ub k
  | .ok s =>
    have hb := partition_bounds a b low high hlh hp
    let left : Res (Array UInt32 × Array V) :=
      if h : low < s.i then quickSort s.a s.b low (s.i - 1) (by omega) else .ok (s.a, s.b)
    match left with
    | .ub k => .ub k
    | .ok (a, b) =>
      if h : s.i < high then quickSort a b (s.j + 1) high (by omega) else .ok (a, b)
termination_by high - low

/-- `DataPoint::Sort` (data_point.cc:88-93).  Without features `IsSorted` holds, so `size() - 1` is not reached. -/
def sort (a : Array UInt32) (b : Array V) : Res (Array UInt32 × Array V) :=
  if isSorted a.toList = false then quickSort a b 0 (a.size - 1) (Nat.zero_le _)
  else .ok (a, b)

end Sol.Sort
