import Verif.Proofs.Olm
import Verif.Base.F32
import Mathlib.Algebra.Order.Field.Basic
import Mathlib.Algebra.Order.Field.Rat
import Mathlib.Data.Rat.Defs
/-! C29, C30, C31 and C54: the training loop of all algorithms without feature selection. -/

set_option linter.unusedSectionVars false

namespace Sol.Props

open Sol.Online Sol.Olm Sol.Spec Sol.Sparse Sol.Loss

section
variable {α A : Type} [Zero α] [One α] [Add α] [Sub α] [Mul α] [Div α] [Neg α] [FCmp α] [IntCast α] [FFun α] [FSqrt α]

theorem known_safe {c : Cfg α} {G : Alg α A} {inv : Nat → A → Prop} (h : Known c G inv) :
    Safe c G inv (fun _ => inv) := by
  cases h
  · exact safe_perceptron c
  · exact safe_ogd c _ _
  · exact safe_pa c _
  · exact safe_pa1 c _ _
  · exact safe_pa2 c _ _
  · exact safe_alma2 c _ _ _
  · exact safe_arow c _
  · exact safe_cw c _ _ _
  · exact safe_eccw c _ _ _
  · exact safe_stg c _ _ _ _ _ _
  · exact safe_fobosL1_fresh c _ _ _ _ _
  · exact safe_rda c _ _
  · exact safe_rdaL1 c _ _ _ _
  · exact safe_erdaL1 c _ _ _ _ _
  · exact safe_sop c _
  · exact safe_adaFobos c _
  · exact safe_adaFobosL1 c _ _ _ _
  · exact safe_adaRda c _
  · exact safe_adaRdaL1 c _ _ _

theorem known_closes {c : Cfg α} {G : Alg α A} {inv : Nat → A → Prop} (h : Known c G inv) : Closes c G inv := by
  cases h
  · exact closes_finish rfl
  · exact closes_finish rfl
  · exact closes_finish rfl
  · exact closes_finish rfl
  · exact closes_finish rfl
  · exact closes_finish rfl
  · exact closes_finish rfl
  · exact closes_finish rfl
  · exact closes_finish rfl
  · exact closes_stg c _ _ _ _ _ _
  · exact closes_fobosL1 c _ _ _ _ _
  · exact closes_rda c _ _
  · exact closes_rdaL1 c _ _ _ _
  · exact closes_erdaL1 c _ _ _ _ _
  · exact closes_sop c _
  · exact closes_finish rfl
  · exact closes_adaFobosL1 c _ _ _ _
  · exact closes_adaRda c _
  · exact closes_adaRdaL1 c _ _ _

/-- C29: training goes through the examples one by one; the counters are the numbers of examples, of examples that were
    not passed over, of updates and of wrong predictions, and the result is errors over examples. -/
theorem C29_counters {c : Cfg α} {G : Alg α A} {inv : Nat → A → Prop} (hG : Known c G inv)
    (hk : Matches c.kind c.clf) (s : St α A) (hs : Fit c inv s) (l : List (Ex α × α)) (hl : Usable c l) :
    ∃ evs s', Trace G c s l evs s' ∧
      train G c s l = .ok ({ s' with fresh := true }, (((s'.err : Int) : α)) / (((s'.data : Int) : α))) ∧
      evs.length = l.length ∧
      s'.data = s.data + l.length ∧
      s'.t = s.t + (evs.countP fun ev => !ev.skip) ∧
      s'.upd = s.upd + (evs.countP fun ev => ev.fired) ∧
      s'.err = s.err + wrong l evs := by
  obtain ⟨evs, s', h1, h2, -, h3, -, h4, h5, h6, h7⟩ := trace (known_safe hG) hk l hl s hs
  exact ⟨evs, s', h1, by simp [train, h2], h3, h5, h4, h6, h7⟩

theorem wrong_le (l : List (Ex α × α)) (evs : List Event) : wrong l evs ≤ l.length := by
  induction l generalizing evs with
  | nil => simp [wrong]
  | cons p l ih =>
    cases evs with
    | nil => simp [wrong]
    | cons ev evs =>
      have := ih evs
      simp only [wrong, List.length_cons]
      split <;> omega

end

/-- C29: the reported rate is between 0 and 1 (exact arithmetic) once there was an example. -/
theorem C29_rate_partial {α A : Type} [Field α] [LinearOrder α] [IsStrictOrderedRing α] [FFun α] [FSqrt α] {c : Cfg α}
    {G : Alg α A} {inv : Nat → A → Prop} (hG : Known c G inv) (hk : Matches c.kind c.clf) (s : St α A) (hs : Fit c inv s)
    (l : List (Ex α × α)) (hl : Usable c l) (he : s.err ≤ s.data) (hd : 0 < s.data + l.length) :
    ∃ s' rate, train G c s l = .ok (s', rate) ∧ rate * (s'.data : α) = s'.err ∧ 0 ≤ rate ∧ rate ≤ 1 := by
  obtain ⟨evs, s', -, h1, -, h2, -, -, h3⟩ := C29_counters hG hk s hs l hl
  have hw := wrong_le l evs
  have hle : s'.err ≤ s'.data := by omega
  have hpos : (0 : α) < s'.data := by
    have : 0 < s'.data := by omega
    exact_mod_cast this
  refine ⟨_, _, h1, ?_, ?_, ?_⟩
  · simp only [Int.cast_natCast]
    exact div_mul_cancel₀ _ (ne_of_gt hpos)
  · simp only [Int.cast_natCast]
    exact div_nonneg (Nat.cast_nonneg _) hpos.le
  · simp only [Int.cast_natCast]
    rw [div_le_one hpos]
    exact_mod_cast hle

/-! ### Concrete models -/

/-- The computation ends without undefined behaviour and its result satisfies `p`. -/
def Yields {β : Type} (r : Res β) (p : β → Prop) : Prop :=
  match r with
  | .ok b => p b
  | .ub _ => False

instance {β : Type} (r : Res β) (p : β → Prop) [DecidablePred p] : Decidable (Yields r p) :=
  match r with
  | .ok b => inferInstanceAs (Decidable (p b))
  | .ub _ => isFalse id

/-- The computation runs into undefined behaviour or an exception. -/
def Fails {β : Type} (r : Res β) (k : UB) : Prop :=
  match r with
  | .ok _ => False
  | .ub k' => k' = k

instance {β : Type} (r : Res β) (k : UB) : Decidable (Fails r k) :=
  match r with
  | .ok _ => isFalse id
  | .ub k' => inferInstanceAs (Decidable (k' = k))

/-- A fresh model with one classifier. -/
def model1 {α A : Type} [Zero α] [One α] (alg : A) : St α A :=
  ⟨1, [[0]], [0], 1, 1, 0, 0, 0, 0, 0, false, alg⟩

/-- A fresh model with three classifiers. -/
def model3 {α A : Type} [Zero α] [One α] (alg : A) : St α A :=
  ⟨1, [[0], [0], [0]], [0, 0, 0], 1, 1, 0, 0, 0, 0, 0, false, alg⟩

/-- Binary classification with the hinge loss. -/
def cfg1 {α : Type} [Zero α] : Cfg α := ⟨1, .hinge, 0, false, 0, none⟩

/-- Three classes with the max-score hinge loss, lazy updates. -/
def cfg3 {α : Type} [Zero α] : Cfg α := ⟨3, .maxHinge, 0, true, 0, none⟩

/-- The functions are not called in the examples below. -/
@[instance_reducible] def unusedFun {α : Type} [Zero α] : FFun α := ⟨fun a => a, fun a => a, 0, 0⟩

/-- A fresh model meets the hypotheses, for an algorithm without and one with vectors of its own. -/
theorem C29_hypotheses : Matches (cfg1 (α := Rat)).kind 1 ∧ Matches (cfg3 (α := Rat)).kind 3 ∧
    Fit (cfg1 (α := Rat)) (none' Unit) (model1 ()) ∧ Fit (cfg3 (α := Rat)) (vecs 3) (model3 [[1], [1], [1]]) ∧
    Usable (cfg3 (α := Rat)) [(⟨2, [(1, 1), (7, 1 / 2)]⟩, 0), (⟨0, []⟩, 0)] := by
  refine ⟨rfl, by simp [Matches, cfg3], ⟨by decide, ⟨rfl, by simp [model1]⟩, rfl, trivial⟩,
    ⟨by decide, ⟨rfl, by simp [model3]⟩, rfl, ⟨rfl, by simp [model3]⟩⟩, ?_⟩
  intro p hp
  rcases List.mem_cons.1 hp with rfl | hp
  · refine ⟨⟨by simp [Ascending], by simp⟩, .inr (by decide)⟩
  · obtain rfl := List.mem_singleton.1 hp
    exact ⟨⟨by simp [Ascending], by simp⟩, .inr (by decide)⟩

/-- Two examples with opposite labels: both are mistakes of the perceptron and lead to updates. -/
theorem C29_instance :
    letI : FFun Rat := unusedFun
    letI : FSqrt Rat := ⟨fun a => a⟩
    Yields (train (perceptron (α := Rat)) { cfg1 with kind := .bool } (model1 ())
        [(⟨-1, [(1, 2)]⟩, 0), (⟨1, [(1, 1)]⟩, 0)])
      fun r => r.1.data = 2 ∧ r.1.upd = 2 ∧ r.1.err = 2 ∧ r.1.t = 2 ∧ r.2 = 1 ∧ r.1.w = [[0, -1]] := by
  decide +kernel

/-- C29 fails: training on an empty data set reports NaN. -/
theorem C29_is_violated :
    letI : FFun F32 := unusedFun
    letI : FSqrt F32 := ⟨fun a => a⟩
    Yields (train (perceptron (α := F32)) { cfg1 with kind := .bool } (model1 ()) []) fun r => r.2 = F32.nan := by
  decide +kernel

section
variable {α A : Type} [Zero α] [One α] [Add α] [Sub α] [Mul α] [Div α] [Neg α] [FCmp α] [IntCast α] [FFun α] [FSqrt α]

/-! ### C31: growth -/

theorem growTo_zero {d n : Nat} {w : List α} (hw : w.length = d) : growTo d n 0 w = w ++ List.replicate (n - d) 0 := by
  simp [growTo, ← hw]

theorem extended_enter {c : Cfg α} {G : Alg α A} {inv : Nat → A → Prop} {s : St α A} (hs : Fit c inv s) (x : SVec α) :
    (enter G s x).w.length = s.w.length ∧
    ∀ (i : Nat) (w : List α), s.w[i]? = some w → ∃ w', (enter G s x).w[i]? = some w' ∧ Extended w w' := by
  simp only [enter, updateDim]
  split
  · refine ⟨by simp, fun i w hi => ⟨growTo s.dim (Sparse.dim x) 0 w, by simp [hi], Sparse.dim x - s.dim, ?_⟩⟩
    exact growTo_zero (hs.w.2 w (List.mem_of_getElem? hi))
  · exact ⟨rfl, fun i w hi => ⟨w, hi, 0, by simp⟩⟩

/-- The dot product does not see zeros appended to the weights (`0 * y = 0`, `v + 0 = v`). -/
theorem dotmul_extended (h0 : ∀ y : α, 0 * y = 0) (ha : ∀ v : α, v + 0 = v) (w : List α) (n : Nat) (x : SVec α)
    (hx : Ascending x) : dotmul (w ++ List.replicate n 0) x = dotmul w x := by
  unfold dotmul dotOp
  rw [dotLoop_ok _ _ _ (take_lt hx _), dotLoop_ok _ _ _ (take_lt hx _), take_trim x hx, take_trim x hx]
  congr 1
  suffices ∀ v : α, List.foldl (fun v p => v + (w ++ List.replicate n (0 : α)).getD p.1 0 * p.2) v
      (List.filter (fun p => decide (p.1 < (w ++ List.replicate n (0 : α)).length)) x)
      = List.foldl (fun v p => v + w.getD p.1 0 * p.2) v (List.filter (fun p => decide (p.1 < w.length)) x) from this 0
  intro v
  clear hx
  induction x generalizing v with
  | nil => rfl
  | cons p x ih =>
    obtain ⟨i, y⟩ := p
    by_cases h1 : i < w.length
    · rw [List.filter_cons_of_pos (by simpa using Nat.lt_add_right n h1), List.filter_cons_of_pos (by simpa using h1)]
      simp only [List.foldl_cons]
      rw [ih]
      congr 2
      simp only [List.getD_eq_getElem?_getD, List.getElem?_append_left h1]
    · rw [List.filter_cons_of_neg (l := x) (p := fun p => decide (p.1 < w.length)) (by simpa using h1)]
      by_cases h2 : i < w.length + n
      · rw [List.filter_cons_of_pos (by simpa using h2)]
        simp only [List.foldl_cons]
        rw [← ih]
        congr 1
        have : (w ++ List.replicate n (0 : α)).getD i 0 = 0 := by
          simp [List.getD_eq_getElem?_getD, List.getElem?_append_right (not_lt.1 h1), List.getElem?_replicate]
          split <;> simp
        rw [this, h0, ha]
      · rw [List.filter_cons_of_neg (by simpa using h2)]
        exact ih v

theorem score_extended (h0 : ∀ y : α, 0 * y = 0) (ha : ∀ v : α, v + 0 = v) {w w' : List α} (h : Extended w w')
    (hw : 1 ≤ w.length) (x : SVec α) (hx : Ascending x) : score w' x = score w x := by
  obtain ⟨n, rfl⟩ := h
  unfold score
  rw [dotmul_extended h0 ha w n x hx]
  have : lget (w ++ List.replicate n 0) 0 = lget w 0 := by
    rw [lget_ok hw, lget_ok (by simp; omega)]
    simp [List.getElem_append_left hw]
  rw [this]

theorem scores_extended (h0 : ∀ y : α, 0 * y = 0) (ha : ∀ v : α, v + 0 = v) (l l' : List (List α)) (x : SVec α)
    (hx : Ascending x) (hl : ∀ v ∈ l, 1 ≤ v.length) (hlen : l'.length = l.length)
    (h : ∀ (i : Nat) (w : List α), l[i]? = some w → ∃ w', l'[i]? = some w' ∧ Extended w w') : scores l' x = scores l x := by
  induction l generalizing l' with
  | nil => rw [List.length_eq_zero_iff.1 hlen]
  | cons w l ih =>
    cases l' with
    | nil => simp at hlen
    | cons w' l' =>
      obtain ⟨w'', h1, h2⟩ := h 0 w rfl
      obtain rfl : w' = w'' := by simpa using h1
      simp only [scores]
      rw [score_extended h0 ha h2 (hl w List.mem_cons_self) x hx, ih l' (fun v hv => hl v (List.mem_cons_of_mem _ hv))
        (by simpa using hlen) (fun i w hi => by simpa using h (i + 1) w (by simpa using hi))]

/-- C31: the growth of the model for a new example keeps all weights, appends zeros up to the new dimension (the larger of
    the old one and that of the example) and leaves the scores and labels of all examples as they were. -/
theorem C31_growth {c : Cfg α} {G : Alg α A} {inv : Nat → A → Prop} (h0 : ∀ y : α, 0 * y = 0) (ha : ∀ v : α, v + 0 = v)
    (s : St α A) (hs : Fit c inv s) (x : SVec α) :
    (enter G s x).dim = max s.dim (Sparse.dim x) ∧
    Vecs c.clf (enter G s x).dim (enter G s x).w ∧
    (∀ (i : Nat) (w : List α), s.w[i]? = some w → ∃ w', (enter G s x).w[i]? = some w' ∧ Extended w w') ∧
    ∀ z, Ascending z → predict c (enter G s x) z = predict c s z := by
  have hf : Fit c (none' A) (enter G s x) := fit_enter (inv := none' A) x ⟨hs.dim, hs.w, hs.g, trivial⟩ (fun _ _ _ _ h => h)
  refine ⟨enter_dim G s x, hf.w, (extended_enter hs x).2, fun z hz => ?_⟩
  unfold predict
  rw [scores_extended h0 ha s.w (enter G s x).w z hz (fun v hv => by rw [hs.w.2 v hv]; exact hs.dim) (extended_enter hs x).1
    (extended_enter hs x).2]

/-- C31: during training the dimension never shrinks and all vectors have the dimension of the model. -/
theorem C31_shape {c : Cfg α} {G : Alg α A} {inv : Nat → A → Prop} (hG : Known c G inv)
    (hk : Matches c.kind c.clf) (s : St α A) (hs : Fit c inv s) (l : List (Ex α × α)) (hl : Usable c l) :
    ∃ s', trainLoop G c s l = .ok s' ∧ Fit c inv s' ∧ s.dim ≤ s'.dim ∧ ∀ p ∈ l, Sparse.dim p.1.x ≤ s'.dim := by
  induction l generalizing s with
  | nil => exact ⟨s, rfl, hs, le_refl _, by simp⟩
  | cons q l ih =>
    obtain ⟨e, r⟩ := q
    obtain ⟨hx, hlab⟩ := hl (e, r) List.mem_cons_self
    obtain ⟨ev, s1, hh, hf1, hb⟩ := happens (known_safe hG) hk s hs e r hx hlab
    obtain ⟨s2, h1, h2, h3, h4⟩ := ih s1 hf1 fun p hp => hl p (List.mem_cons_of_mem _ hp)
    have hone : trainOne G c s e r = .ok s1 := by obtain ⟨_, _, _, _, _, _, _, _, h⟩ := hh; exact h
    have hd := hb.dim
    refine ⟨s2, by simp [trainLoop, hone, h1], h2, by omega, ?_⟩
    intro p hp
    rcases List.mem_cons.1 hp with rfl | hp
    · simp only; omega
    · exact h4 p hp

end

/-- The laws hold in every field; a model of dimension 2 grows to dimension 8. -/
theorem C31_instance : (∀ y : Rat, 0 * y = 0) ∧ (∀ v : Rat, v + 0 = v) ∧
    letI : FFun Rat := unusedFun
    letI : FSqrt Rat := ⟨fun a => a⟩
    (enter (perceptron (α := Rat)) { model1 () with dim := 2, w := [[1, 3]] } [(1, 1), (7, 1 / 2)]).w
      = [[1, 3, 0, 0, 0, 0, 0, 0]] := by
  refine ⟨fun y => zero_mul y, fun v => add_zero v, ?_⟩
  decide +kernel

section
variable {α A : Type} [Zero α] [One α] [Add α] [Sub α] [Mul α] [Div α] [Neg α] [FCmp α] [IntCast α] [FFun α] [FSqrt α]

/-! ### C30 -/

theorem margin_hooks {G : Alg α A} (h : Margin G) : (∀ s x, G.beginIter s x = .ok s) ∧ (∀ c s x, G.prep c s x = .ok s) ∧
    (∀ s x, G.endIter s x = .ok s) := by
  cases h <;> exact ⟨fun _ _ => rfl, fun _ _ _ => rfl, fun _ _ => rfl⟩

/-- C30: an example that does not ask for an update leaves all weights as they are (the vectors only grow by zeros). -/
theorem C30_no_update_partial {c : Cfg α} {G : Alg α A} {inv : Nat → A → Prop} (hm : Margin G) (s : St α A)
    (hs : Fit c inv s) (e : Ex α) (r : α) (ev : Event) (s' : St α A) (hh : Happens G c s e r ev s') (hf : ev.fired = false) :
    s'.w.length = s.w.length ∧
    (∀ (i : Nat) (w : List α), s.w[i]? = some w → ∃ w', s'.w[i]? = some w' ∧ Extended w w') ∧
    s'.upd = s.upd ∧ s'.t = s.t + (if ev.skip then 0 else 1) := by
  obtain ⟨hb, hp, he⟩ := margin_hooks hm
  obtain ⟨s0, s1, p, h0, h1, h2, h3, h4, h5⟩ := hh
  rw [hb] at h0
  obtain rfl := Res.ok.inj h0
  rw [hp] at h1
  obtain rfl := Res.ok.inj h1
  have hx := extended_enter (G := G) hs e.x
  have hu : (enter G s e.x).upd = s.upd := by simp [enter, updateDim]; split <;> rfl
  have ht : (enter G s e.x).t = s.t + 1 := by simp [enter, updateDim]; split <;> rfl
  simp only [trainOne, iterate, hb, hp, Res.bind_ok, h2, h3] at h5
  cases hsk : ev.skip with
  | true =>
    simp only [hsk, if_true, Res.bind_ok, Res.ok.injEq] at h5
    have hw : s'.w = (enter G s e.x).w ∧ s'.upd = (enter G s e.x).upd ∧ s'.t = (enter G s e.x).t - 1 := by
      rw [← h5]; split <;> exact ⟨rfl, rfl, rfl⟩
    rw [hw.1, hw.2.1, hw.2.2]
    exact ⟨hx.1, hx.2, hu, by simp [ht]⟩
  | false =>
    simp only [hsk, Bool.false_eq_true, if_false] at h5
    obtain ⟨⟨s2, pred⟩, h6, h7⟩ := Res.bind_eq_ok.1 h5
    obtain ⟨s3, h8, h9⟩ := Res.bind_eq_ok.1 h6
    simp only [Res.ok.injEq, Prod.mk.injEq] at h9
    obtain ⟨rfl, rfl⟩ := h9
    simp only [learn] at h8
    obtain ⟨⟨l, g, m, v⟩, h10, h11⟩ := Res.bind_eq_ok.1 h8
    obtain ⟨s4, h12, h13⟩ := Res.bind_eq_ok.1 h11
    rw [he] at h13
    obtain rfl := Res.ok.inj h13
    have hnf : fires c ev.pred e.label l = false := by
      by_contra hcon
      have : ev.fired = true := h4.2 ⟨hsk, l, g, m, v, h10, by
        simp only [Bool.not_eq_false] at hcon
        unfold fires at hcon
        split at hcon
        · rename_i hz; simpa [hz] using hcon
        · rename_i hz; simpa [hz] using hcon⟩
      simp [hf] at this
    simp only [maybeUpdate, hnf, Bool.false_eq_true, if_false, Res.ok.injEq] at h12
    have hw : s'.w = (enter G s e.x).w ∧ s'.upd = (enter G s e.x).upd ∧ s'.t = (enter G s e.x).t := by
      rw [← Res.ok.inj h7, ← h12]; split <;> exact ⟨rfl, rfl, rfl⟩
    rw [hw.1, hw.2.1, hw.2.2]
    exact ⟨hx.1, hx.2, hu, by simp [ht]⟩

/-- C30: an example asks for an update exactly if it is not passed over and its loss is positive, or with lazy updates if
    it is misclassified; an example passed over asks for nothing. -/
theorem C30_rule {c : Cfg α} {G : Alg α A} {s s' : St α A} {e : Ex α} {r : α} {ev : Event}
    (hh : Happens G c s e r ev s') :
    (ev.skip = true → ev.fired = false) ∧
    (c.lazyUpdate = true → ev.pred = e.label → ev.fired = false) ∧
    (c.lazyUpdate = false → ∀ s1 p l g m v, G.prep c (enter G s e.x) e.x = .ok s1 →
      (∀ s x, G.beginIter s x = .ok s) → predict c s1 e.x = .ok (p, ev.pred) →
      gradient c.kind (costMargin c e.label s1.margin) (G.handler c s1 e.x) s1.vi e.label p ev.pred s1.g = .ok (l, g, m, v) →
      (0 <? l) = false → ev.fired = false) := by
  obtain ⟨s0, s1, p, h0, h1, h2, h3, h4, h5⟩ := hh
  refine ⟨fun h => ?_, fun h h' => ?_, fun h s1' p' l g m v a1 a2 a3 a4 a5 => ?_⟩
  · by_contra hc
    have := (h4.1 (by simpa using hc)).1
    simp [h] at this
  · by_contra hc
    obtain ⟨-, l, g, m, v, -, hr⟩ := h4.1 (by simpa using hc)
    simp [h, h'] at hr
  · by_contra hc
    obtain ⟨-, l', g', m', v', hg, hr⟩ := h4.1 (by simpa using hc)
    rw [a2] at h0
    obtain rfl := Res.ok.inj h0
    rw [a1] at h1
    obtain rfl := Res.ok.inj h1
    rw [a3] at h2
    obtain ⟨rfl, -⟩ := Prod.mk.inj (Res.ok.inj h2)
    rw [a4] at hg
    obtain ⟨rfl, -⟩ := Prod.mk.inj (Res.ok.inj hg)
    simp [h, a5] at hr

end

/-- C30 fails for FOBOS with L1 regularisation: active learning passes the example over, yet its weight drops from 8 to 5;
    the time stamp is not advanced, so passing it over again lowers the weight to 2. -/
theorem C30_is_violated :
    letI : FFun Rat := unusedFun
    letI : FSqrt Rat := ⟨fun a => a⟩
    let G := fobosL1 (α := Rat) 1 (fun _ => 1) 1 0 0
    let c : Cfg Rat := { cfg1 with smooth := 1 }
    let s : St Rat (List Int) := { model1 [0, 0] with dim := 2, w := [[0, 8]], t := 3 }
    Yields (iterate G c s ⟨1, [(1, 1)]⟩ (1 / 2)) fun r => r.1.w = [[0, 5]] ∧ r.1.t = 3 ∧ r.1.alg = [0, 0] ∧
      Yields (iterate G c r.1 ⟨1, [(1, 1)]⟩ (1 / 2)) fun r' => r'.1.w = [[0, 2]] ∧ r'.1.t = 3 := by
  decide +kernel

/-- The hypotheses of C30 are met: a correctly classified example with margin above 1 does not change the weights. -/
theorem C30_instance :
    letI : FFun Rat := unusedFun
    letI : FSqrt Rat := ⟨fun a => a⟩
    Yields (iterate (pa (α := Rat) 1) cfg1 { model1 () with dim := 2, w := [[0, 2]] } ⟨1, [(1, 1), (3, 1)]⟩ 0)
      fun r => r.1.w = [[0, 2, 0, 0]] ∧ r.1.upd = 0 ∧ r.2 = 1 := by
  decide +kernel

section
variable {α A : Type} [Zero α] [One α] [Add α] [Sub α] [Mul α] [Div α] [Neg α] [FCmp α] [IntCast α] [FFun α] [FSqrt α]

/-! ### C54: memory safety of training and evaluation -/

theorem gives_testLoop {c : Cfg α} {s : St α A} (hc : 1 ≤ c.clf) (hd : 1 ≤ s.dim) (hw : Vecs c.clf s.dim s.w)
    (l : List (Ex α)) (hl : ∀ e ∈ l, Ascending e.x) (n : Nat) : Gives (testLoop c s l n) (fun m => m ≤ n + l.length) := by
  induction l generalizing n with
  | nil => exact .ok (by simp)
  | cons e l ih =>
    refine (gives_predict (x := e.x) hc (hl e List.mem_cons_self) hd hw).bind fun r _ => ?_
    refine (ih (fun e he => hl e (List.mem_cons_of_mem _ he)) _).mono fun m hm => ?_
    simp only [List.length_cons]
    split at hm <;> omega

/-- C54: training followed by evaluation never leaves an array and never throws, for every algorithm, any floating-point
    behaviour, any stream of usable examples and any evaluation data in ascending order. -/
theorem C54_safe_partial {c : Cfg α} {G : Alg α A} {inv : Nat → A → Prop} (hG : Known c G inv)
    (hk : Matches c.kind c.clf) (s : St α A) (hs : Fit c inv s) (l : List (Ex α × α)) (hl : Usable c l)
    (m : List (Ex α)) (hm : ∀ e ∈ m, Ascending e.x) :
    ∃ s1 r1 s2 r2, train G c s l = .ok (s1, r1) ∧ Fit c inv s1 ∧ test G c s1 m = .ok (s2, r2) ∧ Fit c inv s2 := by
  have hc : 1 ≤ c.clf := by
    unfold Matches at hk
    split at hk <;> omega
  obtain ⟨evs, s1, -, h1, hf, -⟩ := trace (known_safe hG) hk l hl s hs
  have hf1 : Fit c inv { s1 with fresh := true } := ⟨hf.dim, hf.w, hf.g, hf.alg⟩
  obtain ⟨s2, h2, hf2, -, -⟩ := known_closes hG _ hf1
  obtain ⟨n, h3, -⟩ := gives_testLoop hc hf2.dim hf2.w m hm 0
  refine ⟨{ s1 with fresh := true }, ((s1.err : Int) : α) / ((s1.data : Int) : α), s2, ((n : Int) : α) / ((m.length : Int) : α),
    ?_, hf1, ?_, hf2⟩
  · simp [train, h1]
  · simp [test, h2, h3]

end

/-- C54 fails when the dimension was set larger than that of the data (parameter `dim`, or a loaded model): `EndTrain` of
    FOBOS-L1 combines vectors of different lengths and throws. -/
theorem C54_is_violated :
    letI : FFun Rat := unusedFun
    letI : FSqrt Rat := ⟨fun a => a⟩
    let G := fobosL1 (α := Rat) 1 (fun _ => 1) 1 0 0
    let s : St Rat (List Int) := { model1 [0] with dim := 3, w := [[0, 0, 0]] }
    Yields (train G cfg1 s [(⟨1, [(1, 1)]⟩, 0)]) fun r => Fails (test G cfg1 r.1 []) .exception := by
  decide +kernel

/-- C54 fails for a label outside the classes: with three classes, label 3 leaves the score array. -/
theorem C54_label_violated :
    letI : FFun Rat := unusedFun
    letI : FSqrt Rat := ⟨fun a => a⟩
    Fails (train (perceptron (α := Rat)) { cfg3 with kind := .maxBool } (model3 ()) [(⟨3, [(1, 1)]⟩, 0)]) .outOfBounds := by
  decide +kernel

end Sol.Props
