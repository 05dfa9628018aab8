import Verif.Proofs.Lazy
import Verif.Proofs.Stg
import Verif.Props.Online
/-! C35, C36: lazy L1 regularisation and truncated gradient. -/

set_option linter.unusedSectionVars false

namespace Sol.Props

open Sol.Online Sol.Olm Sol.Sparse Sol.Loss Sol.Spec

section
variable {α : Type} [Field α] [LinearOrder α] [IsStrictOrderedRing α] [FFun α] [FSqrt α]

/-- A model before its first example: zero weights, and all time stamps at the initial time. -/
structure Unused (c : Cfg α) (t0 : Int) (s : St α (List Int)) : Prop where
  fit : Fit c stamps s
  zero : ∀ k < c.clf, ∀ i, cell s.w k i = 0
  time : s.t = t0
  stamp : ∀ (i : Nat), i < s.dim → s.alg.getD i 0 = t0
  eta : 0 ≤ s.eta

/-- The same model for the eager algorithm. -/
def asEager (s : St α (List Int)) : St α Unit :=
  ⟨s.dim, s.w, s.g, s.eta, s.margin, s.vi, s.t, s.data, s.upd, s.err, s.fresh, ()⟩

/-- Examples whose features are numbered from 1 and whose labels are in range. -/
def Numbered (c : Cfg α) (l : List (Ex α × α)) : Prop :=
  ∀ p ∈ l, Good p.1.x ∧ (∀ q ∈ p.1.x, 1 ≤ q.1) ∧ LabelOk c.clf p.1.label

theorem owes_start {c : Cfg α} {eta0 lambda : α} {t0 : Int} (hl : 0 ≤ lambda) (hb : 0 ≤ c.biasEta0) {s : St α (List Int)}
    (h : Unused c t0 s) : Owes c eta0 lambda t0 s (asEager s) := by
  have he := h.eta
  refine ⟨h.fit, ⟨h.fit.dim, h.fit.w, h.fit.g, trivial⟩, rfl, rfl, rfl, rfl, rfl, rfl, rfl, rfl, rfl, h.eta, by rw [h.time], ?_,
    .inr h.zero, ?_, ?_⟩
  · intro i hi
    rw [h.stamp i hi, h.time]
  · intro k hk
    show cell s.w k 0 = _
    rw [h.zero k hk, soft_zero (by positivity)]
  · intro k hk i _ hi
    show cell s.w k i = _
    rw [h.zero k hk, h.stamp i hi, h.time, sub_self, soft_zero (by simp)]

theorem owes_trace {c : Cfg α} {eta0 lambda thresh thresh' : α} {t0 : Int} (hl : 0 ≤ lambda) (hb : 0 ≤ c.biasEta0) (he0 : 0 ≤ eta0)
    (hsm : c.smooth = 0) (hk : Matches c.kind c.clf) {s s' : St α (List Int)} {u : St α Unit} {l : List (Ex α × α)}
    {evs : List Event} (hn : Numbered c l) (h : Owes c eta0 lambda t0 s u)
    (ht : Trace (fobosL1 eta0 (fun _ => 1) lambda thresh t0) c s l evs s') :
    ∃ u', Trace (eagerL1 eta0 lambda c.biasEta0 thresh') c u l evs u' ∧ Owes c eta0 lambda t0 s' u' := by
  induction ht generalizing u with
  | nil s => exact ⟨u, .nil u, h⟩
  | cons h1 _ ih =>
    rename_i e r _ _ _ _ _
    obtain ⟨a, b, d⟩ := hn _ List.mem_cons_self
    obtain ⟨u1, h2, h3, -⟩ := owes_step (thresh' := thresh') hl hb he0 hsm hk a b d h h1
    obtain ⟨u', h4, h5⟩ := ih (fun p hp => hn p (List.mem_cons_of_mem _ hp)) h3
    exact ⟨u', .cons h2 h4, h5⟩

/-- C35: with a constant step size FOBOS-L1, which postpones shrinking a weight until its feature comes back, and the
    algorithm that shrinks every weight after every example see the same events (predicted labels and updates) on every
    stream.  After `EndTrain` they have the same weights.  The bias agrees if it was never moved; see `C35_is_violated`. -/
theorem C35_lazy_is_eager_partial (c : Cfg α) (eta0 lambda thresh : α) (t0 : Int) (hl : 0 ≤ lambda) (hb : 0 ≤ c.biasEta0)
    (he0 : 0 ≤ eta0) (hsm : c.smooth = 0) (hk : Matches c.kind c.clf) (s s' : St α (List Int)) (hs : Unused c t0 s)
    (l : List (Ex α × α)) (evs : List Event) (hn : Numbered c l)
    (ht : Trace (fobosL1 eta0 (fun _ => 1) lambda thresh t0) c s l evs s') :
    ∃ u' s'' u'', Trace (eagerL1 eta0 lambda c.biasEta0 thresh) c (asEager s) l evs u' ∧
      (fobosL1 eta0 (fun _ => 1) lambda thresh t0).endTrain c s' = .ok s'' ∧
      (eagerL1 eta0 lambda c.biasEta0 thresh).endTrain c u' = .ok u'' ∧ s''.dim = u''.dim ∧
      (∀ k < c.clf, ∀ i, 1 ≤ i → cell s''.w k i = cell u''.w k i) ∧
      ∀ k < c.clf, cell s'.w k 0 = 0 → cell s''.w k 0 = cell u''.w k 0 := by
  obtain ⟨u', h1, h2⟩ := owes_trace (thresh' := thresh) hl hb he0 hsm hk hn (owes_start hl hb hs) ht
  obtain ⟨s'', u'', h3, h4, h5, h6, h7⟩ := owes_end (thresh := thresh) hl hb h2
  exact ⟨u', s'', u'', h1, h3, h4, h5, h6, fun k hk hz => by rw [(h7 k hk hz).1, (h7 k hk hz).2]⟩

/-- C35: after every stream, both algorithms compute the same scores for the next example. -/
theorem C35_same_scores (c : Cfg α) (eta0 lambda thresh : α) (t0 : Int) (hl : 0 ≤ lambda) (hb : 0 ≤ c.biasEta0)
    (he0 : 0 ≤ eta0) (hsm : c.smooth = 0) (hk : Matches c.kind c.clf) (s s1 s2 : St α (List Int)) (hs : Unused c t0 s)
    (l : List (Ex α × α)) (evs : List Event) (hn : Numbered c l)
    (ht : Trace (fobosL1 eta0 (fun _ => 1) lambda thresh t0) c s l evs s1)
    (e : Ex α) (r : α) (ev : Event) (hn' : Numbered c [(e, r)])
    (hh : Happens (fobosL1 eta0 (fun _ => 1) lambda thresh t0) c s1 e r ev s2) :
    ∃ u1 s0 s0' p, Trace (eagerL1 eta0 lambda c.biasEta0 thresh) c (asEager s) l evs u1 ∧
      (fobosL1 eta0 (fun _ => 1) lambda thresh t0).beginIter (enter (fobosL1 eta0 (fun _ => 1) lambda thresh t0) s1 e.x) e.x
        = .ok s0 ∧ (fobosL1 eta0 (fun _ => 1) lambda thresh t0).prep c s0 e.x = .ok s0' ∧
      predict c s0' e.x = .ok (p, ev.pred) ∧
      predict c (enter (eagerL1 eta0 lambda c.biasEta0 thresh) u1 e.x) e.x = .ok (p, ev.pred) := by
  obtain ⟨u1, h1, h2⟩ := owes_trace (thresh' := thresh) hl hb he0 hsm hk hn (owes_start hl hb hs) ht
  obtain ⟨a, b, d⟩ := hn' _ List.mem_cons_self
  obtain ⟨u', -, -, s0, s0', p, h3, h4, h5, h6⟩ := owes_step (thresh' := thresh) hl hb he0 hsm hk a b d h2 hh
  exact ⟨u1, s0, s0', p, h1, h3, h4, h5, h6⟩

end

/-- Final weights of a run on `Rat`. -/
def finalOf {A : Type} (G : Alg Rat A) [FFun Rat] (c : Cfg Rat) (s : St Rat A) (l : List (Ex Rat × Rat)) : Res (List (List Rat)) := do
  let s ← trainLoop G c s l
  let s ← G.endTrain c s
  .ok s.w

/-- Three examples; feature 1 is absent from the second. -/
def stream3 : List (Ex Rat × Rat) := [(⟨1, [(1, 2)]⟩, 0), (⟨-1, [(2, 1)]⟩, 0), (⟨1, [(1, 1 / 4), (2, 1)]⟩, 0)]

/-- An instance: lambda 1/4, step size 1/2; the weights are shrunk and not all zero at the end. -/
theorem C35_instance :
    letI : FFun Rat := unusedFun
    letI : FSqrt Rat := ⟨fun a => a⟩
    Unused (cfg1 : Cfg Rat) 0 (model1 [0]) ∧ Numbered (cfg1 : Cfg Rat) stream3 ∧
    (Yields (finalOf (fobosL1 (1 / 2) (fun _ => 1) (1 / 4) 0 0) cfg1 (model1 [0]) stream3) fun w => w = [[0, 3 / 4, 0]]) ∧
    Yields (finalOf (eagerL1 (1 / 2) (1 / 4) 0 0) cfg1 (model1 ()) stream3) fun w => w = [[0, 3 / 4, 0]] := by
  refine ⟨⟨⟨by decide, ⟨rfl, by simp [model1]⟩, rfl, rfl⟩, ?_, rfl, ?_, by decide⟩, ?_, ?_, ?_⟩
  · intro k hk i
    have : k = 0 := by simp [cfg1] at hk; exact hk
    subst this
    cases i with
    | zero => rfl
    | succ i => simp [cell, coord, model1]
  · intro i hi
    have : i = 0 := by simp [model1] at hi; exact hi
    subst this
    rfl
  · intro p hp
    simp only [stream3, List.mem_cons, List.not_mem_nil, or_false] at hp
    rcases hp with rfl | rfl | rfl <;> simp [Good, Ascending, LabelOk, cfg1]
  · decide +kernel
  · decide +kernel

/-- C35 fails for the bias: `EndTrain` shrinks it twice, once as a weight by `eta * lambda` and once by `bias_eta * lambda`
    (ogd.cc:162-165). -/
theorem C35_is_violated :
    letI : FFun Rat := unusedFun
    letI : FSqrt Rat := ⟨fun a => a⟩
    let c : Cfg Rat := { cfg1 with biasEta0 := 1 }
    (Yields (finalOf (fobosL1 (1 / 2) (fun _ => 1) (1 / 4) 0 0) c (model1 [0]) [(⟨1, [(1, 1)]⟩, 0)]) fun w =>
      w = [[1 / 4, 3 / 8]]) ∧
    Yields (finalOf (eagerL1 (1 / 2) (1 / 4) 1 0) c (model1 ()) [(⟨1, [(1, 1)]⟩, 0)]) fun w => w = [[3 / 8, 3 / 8]] := by
  decide +kernel

section
variable {α : Type} [Zero α] [One α] [Add α] [Sub α] [Mul α] [Div α] [Neg α] [FCmp α] [IntCast α] [FFun α] [FSqrt α]

/-- C36, what holds: in the first class every feature of the example on which `k` or more steps have passed is truncated by
    the largest multiple of `k` steps.  What fails, for all models and examples: in every other class no feature is ever
    truncated, because the first class has already advanced the shared time stamps. -/
theorem C36_first_class_partial (eta0 : α) (pow : Int → α) (k : Int) (hk : 0 < k) (lambda thresh : α) (t0 : Int) (c : Cfg α)
    (s s' : St α (List Int)) (x : SVec α) (hx : Ascending x) (hx1 : ∀ p ∈ x, 1 ≤ p.1) (w : List α) (l : List (List α))
    (hw : s.w = w :: l) (h : (stg eta0 pow k lambda thresh t0).prep c s x = .ok s') :
    ∃ w' l', s'.w = w' :: l' ∧
      (∀ (j i : Nat), 1 ≤ i → (l'[j]?.bind fun (w : List α) => w[i]?) = l[j]?.bind fun (w : List α) => w[i]?) ∧
      (∀ (i : Nat), 1 ≤ i → (∀ y, (i, y) ∉ x) → w'[i]? = w[i]?) ∧
      ∀ (i : Nat) (y : α), (i, y) ∈ x → ∃ q, s.alg[i]? = some q ∧ (s.t - 1 - q < k → w'[i]? = w[i]?) ∧
        (k ≤ s.t - 1 - q → ∃ a, w[i]? = some a ∧
          w'[i]? = some (trunc a (((s.t - 1 - q - (s.t - 1 - q) % k : Int) : α) * (s.eta * lambda)))) := by
  have h' : (stgClasses k (s.t - 1) (s.eta * lambda) (lambda * biasEta c s) x s.w s.alg >>= fun r =>
      .ok { s with w := r.1, alg := r.2 }) = .ok s' := h
  obtain ⟨⟨r, last'⟩, h1, h2⟩ := Res.bind_eq_ok.1 h'
  obtain rfl := Res.ok.inj h2
  rw [hw] at h1
  obtain ⟨w', l', rfl, -, a, b, d⟩ := stgClasses_first k _ hk _ _ x hx hx1 w l r _ _ h1
  refine ⟨w', l', rfl, a, b, fun i y hy => ?_⟩
  obtain ⟨q, e1, e2, e3⟩ := d i y hy
  refine ⟨q, e1, e2, fun hq => ?_⟩
  obtain ⟨a, f1, f2⟩ := e3 hq
  rw [due, if_neg (by omega)] at f2
  exact ⟨a, f1, f2⟩

end

/-- C36 fails: three classes with the same weights, every truncation due; only the first class is truncated. -/
theorem C36_is_violated :
    letI : FFun Rat := unusedFun
    letI : FSqrt Rat := ⟨fun a => a⟩
    let s : St Rat (List Int) := { model3 [0, 0] with dim := 2, w := [[0, 1], [0, 1], [0, 1]], t := 4 }
    Yields ((stg (α := Rat) 1 (fun _ => 1) 2 (1 / 4) 0 0).prep cfg3 s [(1, 1)]) fun r =>
      r.w = [[0, 1 / 2], [0, 1], [0, 1]] := by
  decide +kernel

end Sol.Props
