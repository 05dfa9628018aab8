import Verif.Proofs.Olm
import Verif.Spec.Exact
/-! Closed forms of the vector updates, for any number type. -/

set_option linter.unusedSectionVars false
set_option linter.unusedVariables false

namespace Sol.Olm

open Sol.Online Sol.Sparse Sol.Loss Sol.Spec

section
variable {α β : Type}

theorem featureAt_mem {x : SVec α} (hx : Ascending x) {i : Nat} {y : α} (h : (i, y) ∈ x) : featureAt x i = some y := by
  induction x with
  | nil => simp at h
  | cons p x ih =>
    obtain ⟨j, z⟩ := p
    unfold featureAt
    rcases List.mem_cons.1 h with h | h
    · obtain ⟨rfl, rfl⟩ := Prod.mk.inj h
      simp
    · have hlt : j < i := List.rel_of_pairwise_cons hx h
      rw [List.find?_cons_of_neg (by simp; omega)]
      exact ih hx.of_cons h

theorem featureAt_some {x : SVec α} {i : Nat} {y : α} (h : featureAt x i = some y) : (i, y) ∈ x := by
  unfold featureAt at h
  obtain ⟨⟨j, z⟩, h1, h2⟩ := Option.map_eq_some_iff.1 h
  have h3 := List.find?_some h1
  simp only [beq_iff_eq] at h3
  simp only at h2
  subst h3 h2
  exact List.mem_of_find?_eq_some h1

theorem featureAt_none {x : SVec α} {i : Nat} (h : featureAt x i = none) : ∀ p ∈ x, p.1 ≠ i := by
  unfold featureAt at h
  rw [Option.map_eq_none_iff, List.find?_eq_none] at h
  intro p hp
  simpa using h p hp

/-- What a sparse update makes of element `a` at index `i`. -/
def touch (x : SVec α) (F : Nat → β → α → β) (i : Nat) (a : β) : β :=
  match featureAt x i with
  | some y => F i a y
  | none => a

/-- The closed form of a sparse update. -/
theorem calcExp_closed {op : α → α → α} {f : List α → Nat → α → Res α} (r : Nat → α → α → α) {w : List α} {x : SVec α}
    (hx : Ascending x)
    (hf : ∀ (w' : List α) (i : Nat) (y a : α), w'.length = w.length → i < w.length → w'[i]? = some a →
      w[i]? = some a → f w' i y = .ok (r i a y)) :
    calcExp op f w x = .ok (w.mapIdx (touch x fun i a y => op a (r i a y))) := by
  unfold calcExp
  rw [take_trim x hx]
  obtain ⟨w', h1, h2, h3, h4⟩ := calcLoop_ok op f (fun i y => match w[i]? with | some a => r i a y | none => y) w
    (x.filter fun p => p.1 < w.length) (fun p hp => by simpa using (List.mem_filter.1 hp).2) (hx.filter _).distinct (by
      intro w' hw' p hp hwp
      have hlt : p.1 < w.length := by simpa using (List.mem_filter.1 hp).2
      have ha : w[p.1]? = some w[p.1] := List.getElem?_eq_getElem hlt
      rw [hf w' p.1 p.2 w[p.1] hw' hlt (by rw [hwp, ha]) ha]
      simp only [ha])
  rw [h1]
  congr 1
  apply List.ext_getElem?
  intro i
  rw [List.getElem?_mapIdx]
  by_cases hi : i < w.length
  · have ha : w[i]? = some w[i] := List.getElem?_eq_getElem hi
    rw [ha]
    simp only [Option.map_some, touch]
    cases hfa : featureAt x i with
    | none =>
      rw [h4 i fun p hp => featureAt_none hfa p (List.mem_filter.1 hp).1, ha]
    | some y =>
      obtain ⟨a, h5, h6⟩ := h3 (i, y) (List.mem_filter.2 ⟨featureAt_some hfa, by simpa using hi⟩)
      simp only [ha] at h5 h6
      rw [h6, Option.some.inj h5]
  · rw [List.getElem?_eq_none (by omega), List.getElem?_eq_none (by omega)]
    rfl

/-- What happens at the bias. -/
def atZero (f : β → β) (i : Nat) (a : β) : β := if i = 0 then f a else a

theorem atBias_closed (f : α → α) {v : List α} (h : 1 ≤ v.length) : atBias f v = .ok (v.mapIdx (atZero f)) := by
  cases v with
  | nil => simp at h
  | cons a v =>
    simp only [atBias, lget_ok (w := a :: v) (i := 0) (by simp), Res.bind_ok, lset_ok (w := a :: v) (i := 0) _ (by simp)]
    congr 1
    have hv : v.mapIdx (fun i => atZero f (i + 1)) = v := by
      apply List.ext_getElem?
      intro i
      rw [List.getElem?_mapIdx]
      cases v[i]? <;> simp [atZero]
    simp only [List.set_cons_zero, List.mapIdx_cons, hv, List.getElem_cons_zero]
    simp [atZero]

theorem each1_closed [Zero α] [FCmp α] {f : α → β → Res β} (F : α → β → β) (gl : List α) (l : List β)
    (hlen : gl.length = l.length) (hf : ∀ g, ∀ v ∈ l, f g v = .ok (F g v)) :
    each1 f gl l = .ok (List.zipWith (fun g v => if g =? 0 then v else F g v) gl l) := by
  induction gl generalizing l with
  | nil =>
    have : l = [] := List.length_eq_zero_iff.1 (by simpa using hlen.symm)
    subst this
    rfl
  | cons g gl ih =>
    cases l with
    | nil => simp at hlen
    | cons v l =>
      simp only [each1, List.zipWith_cons_cons]
      rw [ih l (by simpa using hlen) fun g v hv => hf g v (List.mem_cons_of_mem _ hv), hf g v List.mem_cons_self]
      split <;> rfl

theorem eachAll_closed {f : β → Res β} (F : β → β) (l : List β) (hf : ∀ v ∈ l, f v = .ok (F v)) :
    eachAll f l = .ok (l.map F) := by
  induction l with
  | nil => rfl
  | cons v l ih =>
    simp only [eachAll, hf v List.mem_cons_self, ih fun v hv => hf v (List.mem_cons_of_mem _ hv), Res.bind_ok, List.map_cons]

theorem eachWith_closed {f : List α → List α → Res (List α)} (F : List α → List α → List α) (l us : List (List α))
    (hlen : l.length = us.length) (hf : ∀ v ∈ l, ∀ u ∈ us, f v u = .ok (F v u)) :
    eachWith f l us = .ok (List.zipWith F l us) := by
  induction l generalizing us with
  | nil => simp [eachWith]
  | cons v l ih =>
    cases us with
    | nil => simp at hlen
    | cons u us =>
      simp only [eachWith, hf v List.mem_cons_self u List.mem_cons_self, Res.bind_ok,
        ih us (by simpa using hlen) fun v hv u hu => hf v (List.mem_cons_of_mem _ hv) u (List.mem_cons_of_mem _ hu),
        List.zipWith_cons_cons]

end

section
variable {α A : Type} [Zero α] [One α] [Add α] [Sub α] [Mul α] [Div α] [Neg α] [FCmp α] [IntCast α] [FFun α] [FSqrt α]

/-- The closed form of `w -= k * x; w[0] -= b`. -/
theorem step_closed (k b : α) {x : SVec α} {w : List α} (hx : Ascending x) (hw : 1 ≤ w.length) :
    step k b x w = .ok ((w.mapIdx (touch x fun _ a y => a - k * y)).mapIdx (atZero (· - b))) := by
  unfold step
  rw [calcExp_closed (fun _ _ y => k * y) hx (fun _ _ _ _ _ _ _ _ => rfl), Res.bind_ok,
    atBias_closed _ (by simpa using hw)]

/-- The closed form of the update of OGD, PA and variants. -/
theorem etaStep_closed {c : Cfg α} {inv : Nat → A → Prop} {s : St α A} {x : SVec α} (h : Fit c inv s) (hx : Ascending x) :
    etaStep c s x = .ok { s with w := List.zipWith (fun g v => if g =? 0 then v else
      (v.mapIdx (touch x fun _ a y => a - s.eta * g * y)).mapIdx (atZero (· - biasEta c s * g))) s.g s.w } := by
  unfold etaStep
  rw [each1_closed _ _ _ (by rw [h.g, h.w.1]) fun g v hv => step_closed _ _ hx (by rw [h.w.2 v hv]; exact h.dim)]
  rfl

end

/-! ### Runs of algorithms without hooks -/

section
variable {α A : Type} [Zero α] [One α] [Add α] [Sub α] [Mul α] [Div α] [Neg α] [FCmp α] [IntCast α] [FFun α] [FSqrt α]

theorem margin_hooks {G : Alg α A} (h : Margin G) : (∀ s x, G.beginIter s x = .ok s) ∧ (∀ c s x, G.prep c s x = .ok s) ∧
    (∀ s x, G.endIter s x = .ok s) := by
  cases h <;> exact ⟨fun _ _ => rfl, fun _ _ _ => rfl, fun _ _ => rfl⟩

/-- An example that does not lead to an update only makes the vectors grow. -/
theorem idle {c : Cfg α} {G : Alg α A} (hm : Margin G) {s s' : St α A} {e : Ex α} {r : α} {ev : Event}
    (hh : Happens G c s e r ev s') (hf : ev.fired = false) :
    s'.w = (enter G s e.x).w ∧ s'.alg = (enter G s e.x).alg ∧ s'.upd = (enter G s e.x).upd ∧
      s'.eta = (enter G s e.x).eta ∧ s'.t = (enter G s e.x).t - (if ev.skip then 1 else 0) := by
  obtain ⟨hb, hp, he⟩ := margin_hooks hm
  obtain ⟨s0, s1, p, h0, h1, h2, h3, h4, h5⟩ := hh
  rw [hb] at h0
  obtain rfl := Res.ok.inj h0
  rw [hp] at h1
  obtain rfl := Res.ok.inj h1
  simp only [trainOne, iterate, hb, hp, Res.bind_ok, h2, h3] at h5
  cases hsk : ev.skip with
  | true =>
    simp only [hsk, if_true, Res.bind_ok, Res.ok.injEq] at h5
    rw [← h5]
    split <;> exact ⟨rfl, rfl, rfl, rfl, rfl⟩
  | false =>
    simp only [hsk, Bool.false_eq_true, if_false] at h5
    obtain ⟨⟨s2, pred⟩, h6, h7⟩ := Res.bind_eq_ok.1 h5
    obtain ⟨s3, h8, h9⟩ := Res.bind_eq_ok.1 h6
    simp only [Res.ok.injEq, Prod.mk.injEq] at h9
    obtain ⟨rfl, rfl⟩ := h9
    simp only [learn] at h8
    obtain ⟨⟨l, g, m, v⟩, h10, h11⟩ := Res.bind_eq_ok.1 h8
    obtain ⟨s4, h12, h13⟩ := Res.bind_eq_ok.1 h11
    rw [he] at h13
    obtain rfl := Res.ok.inj h13
    have hnf : fires c ev.pred e.label l = false := by
      by_contra hcon
      have : ev.fired = true := h4.2 ⟨hsk, l, g, m, v, h10, by
        simp only [Bool.not_eq_false] at hcon
        unfold fires at hcon
        split at hcon
        · rename_i hz; simpa [hz] using hcon
        · rename_i hz; simpa [hz] using hcon⟩
      simp [hf] at this
    simp only [maybeUpdate, hnf, Bool.false_eq_true, if_false, Res.ok.injEq] at h12
    rw [← Res.ok.inj h7, ← h12]
    split <;> simp

/-- An example that leads to an update: prediction and gradient are computed with the grown model, then `Update` runs. -/
theorem fired {c : Cfg α} {G : Alg α A} (hm : Margin G) {s s' : St α A} {e : Ex α} {r : α} {ev : Event}
    (hh : Happens G c s e r ev s') (hf : ev.fired = true) :
    ∃ p l g m v s2, predict c (enter G s e.x) e.x = .ok (p, ev.pred) ∧
      gradient c.kind (costMargin c e.label (enter G s e.x).margin) (G.handler c (enter G s e.x) e.x) (enter G s e.x).vi
        e.label p ev.pred (enter G s e.x).g = .ok (l, g, m, v) ∧
      (if c.lazyUpdate then ev.pred ≠ e.label else (0 <? l) = true) ∧
      G.update c { enter G s e.x with g := g, margin := m, vi := v, upd := (enter G s e.x).upd + 1 } e.x l = .ok s2 ∧
      ∃ n, s' = { s2 with err := n } := by
  obtain ⟨hb, hp, he⟩ := margin_hooks hm
  obtain ⟨s0, s1, p, h0, h1, h2, h3, h4, h5⟩ := hh
  rw [hb] at h0
  obtain rfl := Res.ok.inj h0
  rw [hp] at h1
  obtain rfl := Res.ok.inj h1
  obtain ⟨hsk, l, g, m, v, hg, hr⟩ := h4.1 hf
  have hfi : fires c ev.pred e.label l = true := by
    unfold fires
    split
    · rename_i hz; simpa [hz] using hr
    · rename_i hz; simpa [hz] using hr
  simp only [trainOne, iterate, hb, hp, Res.bind_ok, h2, h3, hsk, Bool.false_eq_true, if_false] at h5
  obtain ⟨⟨s2, pred⟩, h6, h7⟩ := Res.bind_eq_ok.1 h5
  obtain ⟨s3, h8, h9⟩ := Res.bind_eq_ok.1 h6
  simp only [Res.ok.injEq, Prod.mk.injEq] at h9
  obtain ⟨rfl, rfl⟩ := h9
  simp only [learn, hg, Res.bind_ok, maybeUpdate, hfi, if_true, he] at h8
  obtain ⟨s4, h10, h11⟩ := Res.bind_eq_ok.1 h8
  obtain rfl := Res.ok.inj h11
  refine ⟨p, l, g, m, v, s4, h2, hg, hr, h10, ?_⟩
  simp only [Res.ok.injEq] at h7
  rw [← h7]
  split
  · exact ⟨_, rfl⟩
  · exact ⟨s4.err, rfl⟩

end
end Sol.Olm
