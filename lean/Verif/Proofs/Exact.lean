import Verif.Proofs.Closed
import Mathlib.Algebra.BigOperators.Ring.Finset
import Mathlib.Algebra.Order.BigOperators.Ring.Finset
import Mathlib.Algebra.Order.Field.Basic
import Mathlib.Tactic.Ring
import Mathlib.Tactic.Linarith
import Mathlib.Tactic.Positivity
import Mathlib.Tactic.FieldSimp
/-! Updates and scores in exact arithmetic. -/

set_option linter.unusedSectionVars false
set_option linter.unusedVariables false

namespace Sol.Olm

open Sol.Online Sol.Sparse Sol.Loss Sol.Spec

/-- Coordinate `i` of the weights of class `c`. -/
def cell {α : Type} [Zero α] (w : List (List α)) (c i : Nat) : α := coord (w.getD c []) i

/-- The direction of an update: the features, and `b` for the bias. -/
def dir {α : Type} [Zero α] [Add α] (b : α) (x : SVec α) (i : Nat) : α := feat x i + if i = 0 then b else 0

section
variable {α A : Type} [Field α]

theorem feat_of_mem {x : SVec α} (hx : Ascending x) {i : Nat} {y : α} (h : (i, y) ∈ x) : feat x i = y := by
  simp [feat, featureAt_mem hx h]

theorem feat_eq_zero {x : SVec α} {i : Nat} (h : ∀ p ∈ x, p.1 ≠ i) : feat x i = 0 := by
  unfold feat
  cases hf : featureAt x i with
  | none => rfl
  | some y => exact absurd rfl (h _ (featureAt_some hf))

theorem coord_eq_zero {w : List α} {i : Nat} (h : w.length ≤ i) : coord w i = 0 := by
  simp [coord, List.getD_eq_getElem?_getD, List.getElem?_eq_none h]

theorem coord_lt {w : List α} {i : Nat} (h : i < w.length) : coord w i = w[i] := by
  simp [coord, List.getD_eq_getElem?_getD, h]

theorem coord_mapIdx {w : List α} {i : Nat} (f : Nat → α → α) (h : i < w.length) : coord (w.mapIdx f) i = f i (coord w i) := by
  rw [coord_lt (by simpa using h), coord_lt h]
  simp

theorem coord_grow (d n : Nat) (w : List α) (hw : w.length = d) (i : Nat) : coord (growTo d n 0 w) i = coord w i := by
  subst hw
  simp only [coord, growTo, List.take_length, List.getD_eq_getElem?_getD]
  by_cases h : i < w.length
  · rw [List.getElem?_append_left h]
  · rw [List.getElem?_append_right (by omega), List.getElem?_eq_none (l := w) (by omega), List.getElem?_replicate]
    split <;> rfl

/-- The coordinates after `w -= k * x; w[0] -= k * b`. -/
theorem coord_step (k b : α) {x : SVec α} {w : List α} (hw : 1 ≤ w.length) (hr : ∀ p ∈ x, p.1 < w.length) (i : Nat) :
    coord ((w.mapIdx (touch x fun _ a y => a - k * y)).mapIdx (atZero (· - k * b))) i = coord w i - k * dir b x i := by
  by_cases hi : i < w.length
  · rw [coord_mapIdx _ (by simpa using hi), coord_mapIdx _ hi]
    simp only [atZero, touch, dir, feat]
    cases featureAt x i <;> simp only [Option.getD_some, Option.getD_none] <;> split <;> ring
  · rw [coord_eq_zero (by simpa using hi), coord_eq_zero (by omega)]
    have : feat x i = 0 := feat_eq_zero fun p hp h => hi (h ▸ hr p hp)
    simp [dir, this, show i ≠ 0 by omega]

theorem cell_zipWith {n : Nat} {gl : List α} {l : List (List α)} (F : α → List α → List α) (h1 : gl.length = n)
    (h2 : l.length = n) (c i : Nat) (hc : c < n) :
    cell (List.zipWith F gl l) c i = coord (F (gl.getD c 0) (l.getD c [])) i := by
  subst h1
  simp [cell, List.getD_eq_getElem?_getD, hc, show c < l.length by omega]

theorem cell_mem {n : Nat} {l : List (List α)} (h : l.length = n) {c : Nat} (hc : c < n) : l.getD c [] ∈ l := by
  subst h
  simp [List.getD_eq_getElem?_getD, hc]

theorem linear_sum {x : SVec α} (hx : Ascending x) {D : Nat} (hD : ∀ p ∈ x, p.1 < D) (u : Nat → α) :
    linear u x = ∑ i ∈ Finset.range D, u i * feat x i := by
  unfold linear
  induction x with
  | nil => simp [feat, featureAt]
  | cons p x ih =>
    obtain ⟨j, y⟩ := p
    have hlt : ∀ q ∈ x, j < q.1 := fun q hq => List.rel_of_pairwise_cons hx hq
    have hj : j < D := hD (j, y) List.mem_cons_self
    have h0 : feat x j = 0 := feat_eq_zero fun q hq => by have := hlt q hq; omega
    have hfe : ∀ i, feat ((j, y) :: x) i = feat x i + if i = j then y else 0 := by
      intro i
      by_cases hi : i = j
      · subst hi
        rw [h0]
        simp [feat, featureAt]
      · have : ¬ (j = i) := fun h => hi h.symm
        simp [feat, featureAt, this, hi]
    simp only [List.map_cons, List.sum_cons, hfe, mul_add, Finset.sum_add_distrib, mul_ite, mul_zero]
    rw [ih hx.of_cons fun q hq => hD q (List.mem_cons_of_mem _ hq), Finset.sum_ite_eq']
    simp [hj, add_comm]

theorem sqnorm_linear {x : SVec α} (hx : Ascending x) : sqnorm x = linear (feat x) x := by
  unfold sqnorm linear
  congr 1
  apply List.map_congr_left
  rintro ⟨i, y⟩ hp
  simp [feat_of_mem hx hp]

theorem norm2_eq (x : SVec α) : norm2 x = sqnorm x := by
  unfold norm2 reduceSum sqnorm
  suffices ∀ v : α, x.foldl (fun v p => v + p.2 * p.2) v = v + (x.map fun p => p.2 * p.2).sum by simpa using this 0
  induction x with
  | nil => simp
  | cons p x ih => intro v; simp [ih, add_assoc]

theorem dotmul_eq {w : List α} {x : SVec α} (hx : Ascending x) : dotmul w x = .ok (linear (coord w) x) := by
  unfold dotmul dotOp
  rw [dotLoop_ok _ _ _ (take_lt hx _), take_trim x hx]
  congr 1
  have : ∀ (v : α), (x.filter fun p => decide (p.1 < w.length)).foldl (fun v p => v + w.getD p.1 0 * p.2) v
      = v + linear (coord w) x := by
    unfold linear
    clear hx
    induction x with
    | nil => intro v; simp
    | cons p x ih =>
      intro v
      by_cases h : p.1 < w.length
      · rw [List.filter_cons_of_pos (by simpa using h), List.foldl_cons, ih]
        simp [coord, add_assoc]
      · rw [List.filter_cons_of_neg (by simpa using h), ih, List.map_cons, List.sum_cons, coord_eq_zero (by omega)]
        simp
  simpa using this 0

theorem score_eq {w : List α} {x : SVec α} (hx : Ascending x) (hw : 1 ≤ w.length) :
    score w x = .ok (linear (coord w) x + coord w 0) := by
  unfold score
  rw [dotmul_eq hx, Res.bind_ok, lget_ok hw, Res.bind_ok, coord_lt hw]

theorem scores_eq {l : List (List α)} {x : SVec α} (hx : Ascending x) (hl : ∀ v ∈ l, 1 ≤ v.length) :
    scores l x = .ok (l.map fun w => linear (coord w) x + coord w 0) := by
  induction l with
  | nil => rfl
  | cons v l ih =>
    simp only [scores, score_eq hx (hl v List.mem_cons_self), ih fun v hv => hl v (List.mem_cons_of_mem _ hv), Res.bind_ok,
      List.map_cons]

end

section
variable {α A : Type} [Field α] [LinearOrder α] [IsStrictOrderedRing α] [FFun α] [FSqrt α]

theorem predict_eq {c : Cfg α} {inv : Nat → A → Prop} {s : St α A} {x : SVec α} (h : Fit c inv s) (hx : Ascending x)
    {p : List α} {l : Int} (hp : predict c s x = .ok (p, l)) :
    p = s.w.map (fun w => linear (coord w) x + coord w 0) ∧ labelOf c.clf p = .ok l := by
  unfold predict at hp
  rw [scores_eq hx fun v hv => by rw [h.w.2 v hv]; exact h.dim, Res.bind_ok] at hp
  obtain ⟨l', h1, h2⟩ := Res.bind_eq_ok.1 hp
  obtain ⟨rfl, rfl⟩ := Prod.mk.inj (Res.ok.inj h2)
  exact ⟨rfl, h1⟩

theorem predict_get {c : Cfg α} {inv : Nat → A → Prop} {s : St α A} {x : SVec α} (h : Fit c inv s) (hx : Ascending x)
    {p : List α} {l : Int} (hp : predict c s x = .ok (p, l)) (k : Nat) (hk : k < c.clf) :
    p.getD k 0 = linear (cell s.w k) x + cell s.w k 0 := by
  rw [(predict_eq h hx hp).1]
  have : k < s.w.length := by rw [h.w.1]; exact hk
  simp only [List.getD_eq_getElem?_getD, List.getElem?_map, List.getElem?_eq_getElem this, Option.map_some, Option.getD_some]
  have h2 : ∀ i, cell s.w k i = coord s.w[k] i := fun i => by simp [cell, List.getD_eq_getElem?_getD, this]
  rw [funext h2]

/-- The weights after an update of OGD, PA and variants. -/
theorem etaStep_cell {c : Cfg α} {inv : Nat → A → Prop} {s : St α A} {x : SVec α} (h : Fit c inv s) (hx : Good x)
    (hd : Sparse.dim x ≤ s.dim) :
    ∃ w', etaStep c s x = .ok { s with w := w' } ∧ Vecs c.clf s.dim w' ∧
      ∀ k < c.clf, ∀ i, cell w' k i = cell s.w k i - s.eta * s.g.getD k 0 * dir c.biasEta0 x i := by
  have hin : ∀ p ∈ x, p.1 < s.dim := fun p hp => lt_of_lt_of_le (hx.lt_dim p hp) hd
  refine ⟨_, etaStep_closed h hx.1, ⟨by simp [h.g, h.w.1], ?_⟩, ?_⟩
  · intro v hv
    obtain ⟨i, hi, rfl⟩ := List.mem_iff_getElem.1 hv
    simp only [List.getElem_zipWith]
    have := h.w.2 _ (List.getElem_mem (l := s.w) (n := i) (by simp at hi; omega))
    split <;> simp [this]
  · intro k hk i
    rw [cell_zipWith _ h.g h.w.1 k i hk]
    have hv := h.w.2 _ (cell_mem h.w.1 hk)
    by_cases hg : s.g.getD k 0 = 0
    · rw [if_pos (by simpa using hg), hg]
      simp [cell]
    · rw [if_neg (by simpa using hg)]
      have := coord_step (s.eta * s.g.getD k 0) c.biasEta0 (x := x) (w := s.w.getD k []) (by rw [hv]; exact h.dim)
        (by rw [hv]; exact hin) i
      rw [show biasEta c s * s.g.getD k 0 = s.eta * s.g.getD k 0 * c.biasEta0 by unfold biasEta; ring]
      exact this

theorem enter_cell {c : Cfg α} {G : Alg α A} {inv : Nat → A → Prop} {s : St α A} (h : Fit c inv s) (x : SVec α) (k i : Nat)
    (hk : k < c.clf) : cell (enter G s x).w k i = cell s.w k i := by
  simp only [enter, updateDim]
  split
  · have hlt : k < s.w.length := by rw [h.w.1]; exact hk
    have h1 : s.w.getD k [] = s.w[k] := by simp [List.getD_eq_getElem?_getD, hlt]
    have h2 : (s.w.map (growTo s.dim (Sparse.dim x) 0)).getD k [] = growTo s.dim (Sparse.dim x) 0 s.w[k] := by
      simp [List.getD_eq_getElem?_getD, hlt]
    simp only [cell, h1, h2]
    exact coord_grow _ _ _ (h.w.2 _ (List.getElem_mem hlt)) i
  · rfl

end
end Sol.Olm
