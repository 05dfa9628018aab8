import Verif.Proofs.LeadingRuns
/-! SOFS, AdaFOBOS-OFS and AdaRDA-OFS beside AROW, AdaFOBOS and AdaRDA. -/

set_option linter.unusedSectionVars false
set_option linter.unusedVariables false

namespace Sol.Select

open Sol.Online Sol.Sparse Sol.Loss Sol.Olm Sol.Spec Sol.Heap

section
variable {α : Type} [Field α] [LinearOrder α] [IsStrictOrderedRing α] [FFun α] [FSqrt α]

theorem less_false {a b : α} : less a b = false ↔ b ≤ a := flt_false_iff a b
theorem more_false {a b : α} : more a b = false ↔ a ≤ b := flt_false_iff b a

/-- Variances: from one down. -/
theorem sense_more : Sense (more (α := α)) 1 fun a => 0 < a ∧ a ≤ 1 where
  weak := Props.weak_larger
  add a b a' b' h1 h2 := by rw [more_false] at *; exact add_le_add h1 h2
  worst a h := more_false.2 h.2
  first := ⟨one_pos, le_refl _⟩

/-- Scales: from `delta` up. -/
theorem sense_less (delta : α) : Sense (less (α := α)) delta fun a => delta ≤ a where
  weak := Props.weak_smaller
  add a b a' b' h1 h2 := by rw [less_false] at *; exact add_le_add h1 h2
  worst a h := less_false.2 h
  first := le_refl _

theorem grows_sofs {r : α} (hr : 0 < r) : Grows (more (α := α)) (fun a => 0 < a ∧ a ≤ 1) (fun g s => s / (1 + s * (g * g / r)))
    (fun g s y => s / (1 + s * y * y * (g * g / r))) (fun g x sig => arowSig (g * g / r) x sig) := by
  have hq : ∀ g : α, 0 ≤ g * g / r := fun g => div_nonneg (mul_self_nonneg g) hr.le
  have key : ∀ a t : α, (0 < a ∧ a ≤ 1) → 0 ≤ t → (0 < a / (1 + t) ∧ a / (1 + t) ≤ 1) ∧ a / (1 + t) ≤ a := by
    intro a t ha ht
    have h1 : a / (1 + t) ≤ a := div_le_self ha.1.le (by linarith)
    exact ⟨⟨div_pos ha.1 (by linarith), h1.trans ha.2⟩, h1⟩
  refine ⟨fun g a y ha => ?_, fun g a ha => ?_, fun g x v hx hv => ?_⟩
  · have h0 : 0 ≤ a * y * y * (g * g / r) := by
      rw [mul_assoc a]
      exact mul_nonneg (mul_nonneg ha.1.le (mul_self_nonneg y)) (hq g)
    obtain ⟨h1, h2⟩ := key a _ ha h0
    exact ⟨h1, more_false.2 h2⟩
  · exact (key a _ ha (mul_nonneg ha.1.le (hq g))).1
  · unfold arowSig
    rw [calcExp_closed (fun _ s y => 1 + s * (y * y) * (g * g / r)) hx fun w' i y a _ _ h _ => by rw [lget_eq_ok.2 h]; rfl, Res.bind_ok,
      atBias_closed _ (by simpa using hv)]
    unfold renew
    congr 4
    funext _ a y
    simp only [mul_assoc]

/-! ### The state between examples -/

/-- Budget and order of the heap. -/
def ofsTop (cmp : α → α → Bool) (P : α → Prop) (clf B d : Nat) (w : List (List α)) (a : OfsSt α) : Prop :=
  ofsKept clf B d w a ∧ OfsBest cmp P clf B d a

/-- The features in the heap. -/
def held (a : OfsSt α) : List Nat := a.heap.pos2id.map (· + 1)

theorem ofsTop_grow {cmp : α → α → Bool} {init : α} {P : α → Prop} (hs : Sense cmp init P) {clf B n : Nat} (hc : 1 ≤ clf) (d m : Nat)
    (w : List (List α)) (a : OfsSt α) (hdm : d < m) (hw : Vecs n d w) (h : ofsTop cmp P clf B d w a) :
    ofsTop cmp P clf B m (w.map (growTo d m 0)) (ofsGrow clf init d m a) := by
  refine ⟨?_, ofsBest_grow hs hc hdm h.1.1 h.2⟩
  have := h.1
  rw [← ofsHeld_false] at this ⊢
  exact ofsHeld_grow init d m w a hdm hw this

theorem each1_length {β : Type} {f : α → β → Res β} (gl : List α) (l r : List β) (h : each1 f gl l = .ok r) : r.length = l.length :=
  ((each1_rel (Q := fun _ _ => True) (fun _ => trivial) (fun _ _ _ _ => trivial) _ _ _ h).length_eq).symm

/-- Forgetting the heap. -/
def Cut {A A' : Type} (own : A → A') (heldOf : A → List Nat) (s : St α A) (v : St α A') : Prop :=
  withOwn s (own s.alg) = { v with w := v.w.map (only (heldOf s.alg)) }

theorem sofs_update {c : Cfg α} (hc : 1 ≤ c.clf) {r : α} (hr : 0 < r) {B : Nat} (hB : 1 ≤ B) {s s' : St α (OfsSt α)} {x : SVec α} {l : α}
    (hs : FitW c (ofsTop more (fun a => 0 < a ∧ a ≤ 1) c.clf B) s) (hx : Proper x) (hd : Sparse.dim x ≤ s.dim)
    (h : (sofs r B c.clf).update c s x l = .ok s') :
    FitW c (ofsTop more (fun a => 0 < a ∧ a ≤ 1) c.clf B) s' ∧ Same s s' ∧
      ∃ v, (arow r).update c (withOwn s s.alg.sig) x l = .ok v ∧ Cut OfsSt.sig held s' v := by
  have hk : FitW c (ofsKept c.clf B) s := ⟨hs.dim, hs.dimMax, hs.w, hs.g, hs.alg.1⟩
  obtain ⟨s1, h1, h2, h3⟩ := (able_sofs c hc r hB).update s x l hk hx hd
  rw [h] at h1
  obtain rfl := Res.ok.inj h1
  suffices hh : OfsBest more (fun a => 0 < a ∧ a ≤ 1) c.clf B s'.dim s'.alg ∧
      ∃ v, (arow r).update c (withOwn s s.alg.sig) x l = .ok v ∧ Cut OfsSt.sig held s' v from
    ⟨⟨h2.dim, h2.dimMax, h2.w, h2.g, h2.alg, hh.1⟩, h3, hh.2⟩
  obtain ⟨hi, hin⟩ := hs.alg.1
  have hl1 : s.g.length = s.w.length := hs.g.trans hs.w.1.symm
  have hl2 : s.w.length = s.alg.sig.length := hs.w.1.trans hi.sig.1.symm
  simp only [sofs, sofsUpdate, Res.bind_eq_ok] at h
  obtain ⟨beta, e1, ws, e2, o, e3, e4⟩ := h
  have hset := gives_sofsSig hc r hs.dim hs.dimMax hs.g hi hx hd
  obtain ⟨o', q1, hset⟩ := hset
  rw [e3] at q1
  obtain rfl := Res.ok.inj q1
  have hconf : confLoop (!(c.biasEta0 =? 0)) x (withOwn s s.alg.sig).g (withOwn s s.alg.sig).alg 0 = .ok beta := e1
  cases o with
  | none =>
    have hz := hset.1 rfl
    rw [each1_idle _ _ hz] at e2
    obtain rfl := Res.ok.inj e2
    simp only [Res.ok.injEq] at e4
    subst e4
    refine ⟨hs.alg.2, ?_⟩
    simp only [arow, hconf, Res.bind_ok]
    have hidle := fun f => each1_idle (f := f) (withOwn s s.alg.sig).g ((withOwn s s.alg.sig).w.zip (withOwn s s.alg.sig).alg) hz
    rw [hidle]
    refine ⟨_, rfl, ?_⟩
    unfold Cut withOwn held
    simp only [List.map_fst_zip (show s.w.length ≤ s.alg.sig.length by omega), List.map_snd_zip (show s.alg.sig.length ≤ s.w.length by omega)]
    rw [only_self hin]
  | some a =>
    simp only [Res.bind_eq_ok] at e4
    obtain ⟨⟨w, hp⟩, e5, e6⟩ := e4
    obtain rfl := Res.ok.inj e6
    have hR := scaleOf_raised sense_more (grows_sofs hr) hc hs.g hx hs.dim hd hs.dimMax hi hs.alg.2 hset (by rw [← sofsSig_scale]; exact e3)
    have hwl : (ws.map (·.1)).length = s.w.length := by
      rw [List.length_map, each1_length _ _ _ e2, List.length_zip, ← hl2, Nat.min_self]
    have hws : Vecs c.clf s.dim (ws.map (·.1)) := by
      have hz := zip_vecs hs.w hi.sig
      obtain ⟨ws', e, hws⟩ := gives_each1 (P := fun p : List α × List α => p.1.length = s.dim ∧ p.2.length = s.dim)
        (f := fun g (p : List α × List α) => do
          let w ← sigStep (l * (1 / (beta + r)) * g) (c.biasEta0 * (l * (1 / (beta + r))) * g) x p.1 p.2
          .ok (w, p.2)) (fun g p hp => (gives_sigStep _ _ hx.1 hs.dim hp.1 hp.2).bind fun w hw => .ok ⟨hw, hp.2⟩) s.g _ hz.2
      have e2' := e2
      simp only [biasEta] at e2'
      rw [e] at e2'
      obtain rfl := Res.ok.inj e2'
      exact (unzip_vecs (hws.1.trans hz.1) hws.2).1
    obtain ⟨p1, p2⟩ := pruned Props.weak_larger hc hx hd hs.dimMax hR hws e5 h2.alg.2 h2.alg.1
    refine ⟨p1, ?_⟩
    simp only [arow, hconf, Res.bind_ok]
    have hb := each1_both (k := fun g w sig => sigStep (l * (1 / (beta + r)) * g) (c.biasEta0 * (l * (1 / (beta + r))) * g) x w sig)
      s.g s.w s.alg.sig hl1 hl2 e2 hR.plain
    have hb' : each1 (fun g (p : List α × List α) => do
      let w ← sigStep (l * (1 / (beta + r)) * g) (biasEta c { withOwn s s.alg.sig with eta := l * (1 / (beta + r)) } * g) x p.1 p.2
      let sig ← arowSig (g * g / r) x p.2
      .ok (w, sig)) (withOwn s s.alg.sig).g ((withOwn s s.alg.sig).w.zip (withOwn s s.alg.sig).alg) = .ok ((ws.map (·.1)).zip a.sig) := hb
    rw [hb']
    refine ⟨_, rfl, ?_⟩
    have hal : a.sig.length = s.w.length := by rw [hR.inv.sig.1, hs.w.1]
    unfold Cut withOwn held
    simp only [List.map_fst_zip (show (ws.map (·.1)).length ≤ a.sig.length by omega),
      List.map_snd_zip (show a.sig.length ≤ (ws.map (·.1)).length by omega)]
    rw [p2]

/-- SOFS on one example. -/
theorem able_sofs_top (c : Cfg α) (hc : 1 ≤ c.clf) {r : α} (hr : 0 < r) {B : Nat} (hB : 1 ≤ B) :
    Able c (sofs r B c.clf) Proper (FitW c (ofsTop more (fun a => 0 < a ∧ a ≤ 1) c.clf B))
      (fun _ => FitW c (ofsTop more (fun a => 0 < a ∧ a ≤ 1) c.clf B)) := by
  refine able_of (fun _ _ => rfl) (fun _ _ => rfl) (fun _ _ => rfl) (fun _ _ => rfl)
    (fun d n w a _ hdn hw h => ofsTop_grow sense_more hc d n w a hdn hw h) fun s x l h hx hd => ?_
  obtain ⟨s1, h1, -⟩ := (able_sofs c hc r hB).update s x l ⟨h.dim, h.dimMax, h.w, h.g, h.alg.1⟩ hx hd
  have := sofs_update hc hr hB h hx hd h1
  exact ⟨s1, h1, this.1, this.2.1⟩

theorem cut_count {A A' : Type} {own : A → A'} {heldOf : A → List Nat} (s : St α A) (v : St α A') (n : Nat) (h : Cut own heldOf s v) :
    Cut own heldOf { s with err := n } { v with err := n } := by
  unfold Cut withOwn at *
  cases v
  simp only [St.mk.injEq] at h ⊢
  simp [h]

theorem cut_err {A A' : Type} {own : A → A'} {heldOf : A → List Nat} (s : St α A) (v : St α A') (h : Cut own heldOf s v) : s.err = v.err := by
  unfold Cut withOwn at h
  cases v
  simp only [St.mk.injEq] at h
  exact h.2.2.2.2.2.2.2.2.2.1

theorem cut_idle {cmp : α → α → Bool} {P : α → Prop} {c : Cfg α} {B : Nat} (s : St α (OfsSt α)) (h : FitW c (ofsTop cmp P c.clf B) s) :
    Cut OfsSt.sig held s (withOwn s s.alg.sig) := by
  unfold Cut withOwn held
  simp only
  rw [only_self h.alg.1.2]

/-- SOFS beside AROW. -/
theorem sofs_beside {c : Cfg α} (hk : Matches c.kind c.clf) {r : α} (hr : 0 < r) {B : Nat} (hB : 1 ≤ B) {s s' : St α (OfsSt α)}
    (hs : FitW c (ofsTop more (fun a => 0 < a ∧ a ≤ 1) c.clf B) s) {e : Ex α} {rnd : α} (hx : Proper e.x) (hl : LabelOk c.clf e.label)
    (h : trainOne (sofs r B c.clf) c s e rnd = .ok s') :
    ∃ v, trainOne (arow r) c (withOwn s s.alg.sig) e rnd = .ok v ∧ Cut OfsSt.sig held s' v :=
  side_by_side (able_sofs_top c (Props.clf_pos hk) hr hB) hk OfsSt.sig (Cut OfsSt.sig held)
    (fun _ _ => rfl) (fun _ _ => rfl) (fun _ _ => rfl) (fun _ _ => rfl) (fun _ _ => rfl) (fun _ _ => rfl) (fun _ _ => rfl) (fun _ _ => rfl)
    (fun _ _ _ => rfl) (fun s hs => cut_idle s hs) (fun s v n => cut_count s v n) (fun s v => cut_err s v)
    (fun s x l s' hs hx hd h => (sofs_update (Props.clf_pos hk) hr hB hs hx hd h).2.2) hs hx hl h

/-! ### `BeginTrain` -/

theorem dense_length (l : List (List α)) (v v' : List α) (h : sumAll l v = .ok v') : v'.length = v.length := by
  induction l generalizing v with
  | nil => rw [← Res.ok.inj h]
  | cons w l ih =>
    simp only [sumAll, Res.bind_eq_ok] at h
    obtain ⟨v1, h1, h2⟩ := h
    unfold dense2 at h1
    split at h1
    · rw [ih _ h2, ← Res.ok.inj h1]
      simp [*]
    · simp at h1

theorem sumAll_total {d : Nat} (l : List (List α)) (v v' : List α) (hv : v.length = d) (hl : ∀ w ∈ l, w.length = d) (h : sumAll l v = .ok v')
    {i : Nat} (hi : i < d) : v'[i]? = some (v[i]?.getD 0 + total l i) := by
  induction l generalizing v with
  | nil =>
    rw [← Res.ok.inj h]
    simp [total, hv, hi]
  | cons w l ih =>
    have hwl := hl w List.mem_cons_self
    simp only [sumAll, dense2, hv, hwl, if_true, Res.bind_ok] at h
    rw [ih _ (by simp [hv, hwl]) (fun w hw => hl w (List.mem_cons_of_mem _ hw)) h]
    simp only [total, List.map_cons, List.sum_cons, List.getElem?_zipWith, hv, hwl, hi, List.getElem?_eq_getElem, Option.getD_some]
    rw [add_assoc]

theorem const_grow {init : α} {d n : Nat} {u : List (List α)} (hu : ∀ v ∈ u, v.length = d) (h : ∀ v ∈ u, ∀ a ∈ v, a = init) :
    ∀ v ∈ growSig init d n u, ∀ a ∈ v, a = init := by
  intro v hv a ha
  obtain ⟨w, hw, rfl⟩ := List.mem_map.1 hv
  obtain ⟨i, hi⟩ := List.mem_iff_getElem?.1 ha
  rw [growTo_get (hu w hw)] at hi
  split at hi
  · exact h w hw a (List.mem_of_getElem? hi)
  · split at hi
    · exact (Option.some.inj hi).symm
    · simp at hi

/-- When all values are the same. -/
theorem best_of_const {cmp : α → α → Bool} {init : α} {P : α → Prop} (hs : Sense cmp init P) {clf B d : Nat} {a : OfsSt α}
    (hi : OfsInv clf B d a) (hsum : clf ≠ 1 → ∀ i : Nat, 1 ≤ i → i < d → a.sum[i]? = some (total a.sig i))
    (hc : ∀ v ∈ a.sig, ∀ e ∈ v, e = init) : OfsBest cmp P clf B d a := by
  have hlt := pos2id_lt hi.heap
  have hK := hi.heap.wf.2.1
  have hlen := hi.heap.wf.1.lenK
  have hv : ∀ j, j + 1 < d → total a.sig (j + 1) = ((a.sig.length : Int) : α) * init := fun j hj => total_const hj a.sig hi.sig.2 hc
  refine ⟨fun v hv e he => ?_, hsum, fun k h1 h2 h3 => ?_, fun j hj hjn => ?_⟩
  · rw [hc v hv e he]
    exact hs.first
  · unfold EdgeOk
    simp only
    rw [hv _ (hlt _ (mem_of_at' (p := k) (by omega))), hv _ (hlt _ (mem_of_at' (p := (k - 1) / 2) (by omega)))]
    exact hs.weak.irr _
  · rw [hv _ hj, hv _ (hlt _ (mem_of_at' (p := 0) (by omega)))]
    exact hs.weak.irr _

theorem ofsBegin_top {cmp : α → α → Bool} {init : α} {P : α → Prop} (hS : Sense cmp init P) {c : Cfg α} (hc : 1 ≤ c.clf)
    {G : Alg α (OfsSt α)} (hG : G.grow = ofsGrow c.clf init) {B : Nat} {s : St α (OfsSt α)} (h : Ready c B s)
    (ha : Vecs c.clf s.dim s.alg.sig) (hi : ∀ v ∈ s.alg.sig, ∀ a ∈ v, a = init) (h0 : Inside s.w fun _ => False) :
    Gives (ofsBegin cmp G c B s) (fun s' => FitW c (ofsTop cmp P c.clf B) s') := by
  obtain ⟨s', e, q1, q2, q3, -⟩ := gives_ofsBegin cmp hc hG h ha h0
  refine ⟨s', e, q1.dim, q1.dimMax, q1.w, q1.g, ⟨q2, q3.mono fun _ h => h.elim⟩, ?_⟩
  have hB := h.budget.1
  unfold ofsBegin at e
  rw [if_pos (by omega)] at e
  simp only at e
  generalize hs0 : ({ s with alg := { s.alg with
      sum := if c.clf = 1 then s.alg.sum else growTo (min s.dim s.alg.sum.length) s.dim 0 s.alg.sum } } :
    St α (OfsSt α)) = s0 at e
  have e1 : s0.dim = s.dim := by rw [← hs0]
  have e5 : s0.alg.sig = s.alg.sig := by rw [← hs0]
  have hsig : ∀ v ∈ (updateDim G s0 (B + 1)).alg.sig, ∀ a ∈ v, a = init := by
    unfold updateDim
    split
    · rw [hG]
      exact const_grow (by rw [e5, e1]; exact ha.2) (by rw [e5]; exact hi)
    · rw [e5]; exact hi
  generalize updateDim G s0 (B + 1) = s1 at hsig e
  simp only [Res.bind_eq_ok] at e
  obtain ⟨sum, k1, hp, k2, k3⟩ := e
  obtain rfl := Res.ok.inj k3
  refine best_of_const hS q2 (fun hne i i1 i2 => ?_) hsig
  rw [if_neg hne] at k1
  have hsl := q2.sum.resolve_left hne
  simp only at hsl
  have hlen : s1.alg.sum.length = s1.dim := by
    have := dense_length _ _ _ k1
    simp only [List.length_replicate] at this
    omega
  have := sumAll_total (d := s1.dim) _ _ _ (by simpa using hlen) q2.sig.2 k1 (i := i) i2
  simp only at i2 ⊢
  rw [this]
  simp [hlen, i2]

end

/-! ### AdaFOBOS-OFS and AdaRDA-OFS -/

section
variable [FFun ℝ]

theorem grows_ada (delta : ℝ) : Grows (less (α := ℝ)) (fun a => delta ≤ a)
    (fun g h => FSqrt.sqrt ((h - delta) * (h - delta) + g * g) + delta) (ofsH delta) (fun g x H => adaH delta g x H) := by
  have hpos : ∀ q : ℝ, delta ≤ Real.sqrt q + delta := fun q => by have := Real.sqrt_nonneg q; linarith
  refine ⟨fun g a y ha => ⟨hpos _, less_false.2 ?_⟩, fun g a ha => hpos _, fun g x v hx hv => ?_⟩
  · refine scale_up ha ?_
    have : g * g * y * y = (g * y) * (g * y) := by ring
    rw [this]
    exact mul_self_nonneg _
  · unfold adaH
    rw [calcExp_closed (fun _ h y => FSqrt.sqrt ((h - delta) * (h - delta) + (g * y) * (g * y)) + delta) hx
      fun w' i y a _ _ h _ => by rw [lget_eq_ok.2 h]; rfl, Res.bind_ok, atBias_closed _ (by simpa using hv)]
    unfold renew ofsH
    congr 4
    funext _ a y
    have : g * g * y * y = (g * y) * (g * y) := by ring
    rw [this]

theorem map_of_forall₂ {β γ : Type} {f : β → γ} {l r : List β} (h : List.Forall₂ (fun p q => f q = f p) l r) : r.map f = l.map f := by
  induction h with
  | nil => rfl
  | cons h1 _ ih => rw [List.map_cons, List.map_cons, h1, ih]

/-- A loop that keeps the second components. -/
theorem each1_snd {α β γ : Type} [Zero α] [FCmp α] {f : α → β × γ → Res (β × γ)} (hf : ∀ g p q, f g p = .ok q → q.2 = p.2) (gl : List α)
    (l r : List (β × γ)) (h : each1 f gl l = .ok r) : r.map (·.2) = l.map (·.2) := by
  exact map_of_forall₂ (each1_rel (Q := fun p q : β × γ => q.2 = p.2) (fun _ => rfl) (fun g p q h => hf g p q h) gl l r h)

theorem adaFobosOfs_update {c : Cfg ℝ} (hc : 1 ≤ c.clf) (delta : ℝ) {B : Nat} (hB : 1 ≤ B) {s s' : St ℝ (OfsSt ℝ)} {x : SVec ℝ} {l : ℝ}
    (hs : FitW c (ofsTop less (fun a => delta ≤ a) c.clf B) s) (hx : Proper x) (hd : Sparse.dim x ≤ s.dim)
    (h : (adaFobosOfs delta B c.clf).update c s x l = .ok s') :
    FitW c (ofsTop less (fun a => delta ≤ a) c.clf B) s' ∧ Same s s' ∧
      ∃ v, (adaFobos delta).update c (withOwn s s.alg.sig) x l = .ok v ∧ Cut OfsSt.sig held s' v := by
  have hk : FitW c (ofsKept c.clf B) s := ⟨hs.dim, hs.dimMax, hs.w, hs.g, hs.alg.1⟩
  obtain ⟨s1, h1, h2, h3⟩ := (able_adaFobosOfs c hc delta hB).update s x l hk hx hd
  rw [h] at h1
  obtain rfl := Res.ok.inj h1
  suffices hh : OfsBest less (fun a => delta ≤ a) c.clf B s'.dim s'.alg ∧
      ∃ v, (adaFobos delta).update c (withOwn s s.alg.sig) x l = .ok v ∧ Cut OfsSt.sig held s' v from
    ⟨⟨h2.dim, h2.dimMax, h2.w, h2.g, h2.alg, hh.1⟩, h3, hh.2⟩
  obtain ⟨hi, hin⟩ := hs.alg.1
  have hl1 : s.g.length = s.w.length := hs.g.trans hs.w.1.symm
  have hl2 : s.w.length = s.alg.sig.length := hs.w.1.trans hi.sig.1.symm
  simp only [adaFobosOfs, adaFobosOfsUpdate, Res.bind_eq_ok] at h
  obtain ⟨o, e3, e4⟩ := h
  obtain ⟨o', q1, hset⟩ := gives_ofsScale hc delta hs.dim hs.dimMax hs.g hi hx hd
  rw [e3] at q1
  obtain rfl := Res.ok.inj q1
  cases o with
  | none =>
    have hz := hset.1 rfl
    simp only [Res.ok.injEq] at e4
    subst e4
    refine ⟨hs.alg.2, ?_⟩
    have hidle := fun f => each1_idle (f := f) (withOwn s s.alg.sig).g ((withOwn s s.alg.sig).w.zip (withOwn s s.alg.sig).alg) hz
    simp only [adaFobos, adaFobosUpdate]
    rw [hidle]
    refine ⟨_, rfl, ?_⟩
    unfold Cut withOwn held
    simp only [List.map_fst_zip (show s.w.length ≤ s.alg.sig.length by omega), List.map_snd_zip (show s.alg.sig.length ≤ s.w.length by omega)]
    rw [only_self hin]
  | some a =>
    simp only [Res.bind_eq_ok] at e4
    obtain ⟨ws, e2, ⟨w, hp⟩, e5, e6⟩ := e4
    obtain rfl := Res.ok.inj e6
    have hR := scaleOf_raised (sense_less delta) (grows_ada delta) hc hs.g hx hs.dim hd hs.dimMax hi hs.alg.2 hset
      (by rw [← ofsScale_scale]; exact e3)
    have hws : Vecs c.clf s.dim (ws.map (·.1)) := by
      have hz := zip_vecs hs.w hR.inv.sig
      obtain ⟨ws', e, hws⟩ := gives_each1 (P := fun p : List ℝ × List ℝ => p.1.length = s.dim ∧ p.2.length = s.dim)
        (f := fun g (p : List ℝ × List ℝ) => do
          let w ← adaStep (s.eta * g) (biasEta c s * g) x p.1 p.2
          .ok (w, p.2)) (fun g p hp => (gives_adaStep _ _ hx.1 hs.dim hp.1 hp.2).bind fun w hw => .ok ⟨hw, hp.2⟩) s.g _ hz.2
      rw [e] at e2
      obtain rfl := Res.ok.inj e2
      exact (unzip_vecs (hws.1.trans hz.1) hws.2).1
    obtain ⟨p1, p2⟩ := pruned Props.weak_smaller hc hx hd hs.dimMax hR hws e5 h2.alg.2 h2.alg.1
    refine ⟨p1, ?_⟩
    have hb := each1_after (F := fun g H => adaH delta g x H) (k := fun g (p : List ℝ × List ℝ) => do
        let w ← adaStep (s.eta * g) (biasEta c s * g) x p.1 p.2
        .ok (w, p.2)) (K := fun g (p : List ℝ × List ℝ) => do
        let H ← adaH delta g x p.2
        let w ← adaStep (s.eta * g) (biasEta c s * g) x p.1 H
        .ok (w, H)) Prod.mk (fun g b c c' h => by simp only [h, Res.bind_ok]) s.g s.w s.alg.sig hl1 hl2 hR.plain e2
    have hb' : adaFobosUpdate delta c (withOwn s s.alg.sig) (withOwn s s.alg.sig).alg x = .ok ws := hb
    simp only [adaFobos, hb', Res.bind_ok]
    refine ⟨_, rfl, ?_⟩
    have hal : a.sig.length = s.w.length := by rw [hR.inv.sig.1, hs.w.1]
    have hsnd : ws.map (·.2) = a.sig := by
      rw [each1_snd (fun g p q h => by
        obtain ⟨w, -, h⟩ := Res.bind_eq_ok.1 h
        rw [← Res.ok.inj h]) _ _ _ e2]
      exact List.map_snd_zip (by omega)
    unfold Cut withOwn held
    simp only [hsnd]
    rw [p2]

theorem able_adaFobosOfs_top (c : Cfg ℝ) (hc : 1 ≤ c.clf) (delta : ℝ) {B : Nat} (hB : 1 ≤ B) :
    Able c (adaFobosOfs delta B c.clf) Proper (FitW c (ofsTop less (fun a => delta ≤ a) c.clf B))
      (fun _ => FitW c (ofsTop less (fun a => delta ≤ a) c.clf B)) := by
  refine able_of (fun _ _ => rfl) (fun _ _ => rfl) (fun _ _ => rfl) (fun _ _ => rfl)
    (fun d n w a _ hdn hw h => ofsTop_grow (sense_less delta) hc d n w a hdn hw h) fun s x l h hx hd => ?_
  obtain ⟨s1, h1, -⟩ := (able_adaFobosOfs c hc delta hB).update s x l ⟨h.dim, h.dimMax, h.w, h.g, h.alg.1⟩ hx hd
  have := adaFobosOfs_update hc delta hB h hx hd h1
  exact ⟨s1, h1, this.1, this.2.1⟩

/-- AdaFOBOS-OFS beside AdaFOBOS. -/
theorem adaFobosOfs_beside {c : Cfg ℝ} (hk : Matches c.kind c.clf) (delta : ℝ) {B : Nat} (hB : 1 ≤ B) {s s' : St ℝ (OfsSt ℝ)}
    (hs : FitW c (ofsTop less (fun a => delta ≤ a) c.clf B) s) {e : Ex ℝ} {rnd : ℝ} (hx : Proper e.x) (hl : LabelOk c.clf e.label)
    (h : trainOne (adaFobosOfs delta B c.clf) c s e rnd = .ok s') :
    ∃ v, trainOne (adaFobos delta) c (withOwn s s.alg.sig) e rnd = .ok v ∧ Cut OfsSt.sig held s' v :=
  side_by_side (able_adaFobosOfs_top c (Props.clf_pos hk) delta hB) hk OfsSt.sig (Cut OfsSt.sig held)
    (fun _ _ => rfl) (fun _ _ => rfl) (fun _ _ => rfl) (fun _ _ => rfl) (fun _ _ => rfl) (fun _ _ => rfl) (fun _ _ => rfl) (fun _ _ => rfl)
    (fun _ _ _ => rfl) (fun s hs => cut_idle s hs) (fun s v n => cut_count s v n) (fun s v => cut_err s v)
    (fun s x l s' hs hx hd h => (adaFobosOfs_update (Props.clf_pos hk) delta hB hs hx hd h).2.2) hs hx hl h

/-- Budget and order of the heap of AdaRDA-OFS. -/
def rdaTop (delta : ℝ) (clf B d : Nat) (w : List (List ℝ)) (a : RdaOfsSt ℝ) : Prop :=
  ofsTop less (fun a => delta ≤ a) clf B d w a.ofs ∧ Vecs clf d a.ut

/-- Without the heap. -/
def rdaOwn (a : RdaOfsSt ℝ) : AdaRdaSt ℝ := ⟨a.ofs.sig, a.ut⟩

theorem zip_pair {α β γ : Type} (u : List α) (v : List β) (w : List γ) :
    List.zipWith (fun (p : α × γ) b => (p.1, b, p.2)) (u.zip w) v = u.zip (v.zip w) := by
  induction u generalizing v w with
  | nil => rfl
  | cons a u ih =>
    cases v with
    | nil => cases w <;> rfl
    | cons b v =>
      cases w with
      | nil => rfl
      | cons c w =>
        simp only [List.zip_cons_cons, List.zipWith_cons_cons]
        rw [← ih]

theorem adaRdaOfs_update {c : Cfg ℝ} (hc : 1 ≤ c.clf) (delta : ℝ) {B : Nat} (hB : 1 ≤ B) {s s' : St ℝ (RdaOfsSt ℝ)} {x : SVec ℝ} {l : ℝ}
    (hs : FitW c (rdaTop delta c.clf B) s) (hx : Proper x) (hd : Sparse.dim x ≤ s.dim)
    (h : (adaRdaOfs delta B c.clf).update c s x l = .ok s') :
    FitW c (rdaTop delta c.clf B) s' ∧ Same s s' ∧
      ∃ v, (adaRda delta).update c (withOwn s (rdaOwn s.alg)) x l = .ok v ∧ Cut rdaOwn (fun a => held a.ofs) s' v := by
  have hk : FitW c (rdaKept c.clf B) s := ⟨hs.dim, hs.dimMax, hs.w, hs.g, hs.alg.1.1, hs.alg.2⟩
  obtain ⟨s1, h1, h2, h3⟩ := (able_adaRdaOfs c hc delta hB).update s x l hk hx hd
  rw [h] at h1
  obtain rfl := Res.ok.inj h1
  suffices hh : OfsBest less (fun a => delta ≤ a) c.clf B s'.dim s'.alg.ofs ∧
      ∃ v, (adaRda delta).update c (withOwn s (rdaOwn s.alg)) x l = .ok v ∧ Cut rdaOwn (fun a => held a.ofs) s' v from
    ⟨⟨h2.dim, h2.dimMax, h2.w, h2.g, ⟨h2.alg.1, hh.1⟩, h2.alg.2⟩, h3, hh.2⟩
  obtain ⟨hi, hin⟩ := hs.alg.1.1
  have hut := hs.alg.2
  have hl1 : s.g.length = s.w.length := hs.g.trans hs.w.1.symm
  have hl2 : s.w.length = s.alg.ofs.sig.length := hs.w.1.trans hi.sig.1.symm
  have hl3 : s.w.length = s.alg.ut.length := hs.w.1.trans hut.1.symm
  simp only [adaRdaOfs, adaRdaOfsUpdate, Res.bind_eq_ok] at h
  obtain ⟨o, e3, e4⟩ := h
  obtain ⟨o', q1, hset⟩ := gives_ofsScale hc delta hs.dim hs.dimMax hs.g hi hx hd
  rw [e3] at q1
  obtain rfl := Res.ok.inj q1
  cases o with
  | none =>
    have hz := hset.1 rfl
    simp only [Res.ok.injEq] at e4
    subst e4
    refine ⟨hs.alg.1.2, ?_⟩
    have hidle := fun f => each1_idle (f := f) (withOwn s (rdaOwn s.alg)).g
      ((withOwn s (rdaOwn s.alg)).w.zip ((withOwn s (rdaOwn s.alg)).alg.H.zip (withOwn s (rdaOwn s.alg)).alg.ut)) hz
    simp only [adaRda, adaRdaUpdate]
    rw [hidle]
    refine ⟨_, rfl, ?_⟩
    have hzl : (s.alg.ofs.sig.zip s.alg.ut).length = s.w.length := by rw [List.length_zip]; omega
    have a1 : (s.w.zip (s.alg.ofs.sig.zip s.alg.ut)).map (·.1) = s.w := List.map_fst_zip (by omega)
    have a2 : (s.w.zip (s.alg.ofs.sig.zip s.alg.ut)).map (·.2) = s.alg.ofs.sig.zip s.alg.ut := List.map_snd_zip (by omega)
    have a3 : (s.w.zip (s.alg.ofs.sig.zip s.alg.ut)).map (fun p => p.2.1) = s.alg.ofs.sig := by
      have : (fun p : List ℝ × List ℝ × List ℝ => p.2.1) = Prod.fst ∘ (·.2) := rfl
      rw [this, ← List.map_map, a2]
      exact List.map_fst_zip (by omega)
    have a4 : (s.w.zip (s.alg.ofs.sig.zip s.alg.ut)).map (fun p => p.2.2) = s.alg.ut := by
      have : (fun p : List ℝ × List ℝ × List ℝ => p.2.2) = Prod.snd ∘ (·.2) := rfl
      rw [this, ← List.map_map, a2]
      exact List.map_snd_zip (by omega)
    unfold Cut withOwn held rdaOwn
    simp only [a1, a3, a4]
    rw [only_self hin]
  | some a =>
    simp only [Res.bind_eq_ok] at e4
    obtain ⟨ws, e2, ⟨w, hp⟩, e5, e6⟩ := e4
    obtain rfl := Res.ok.inj e6
    have hR := scaleOf_raised (sense_less delta) (grows_ada delta) hc hs.g hx hs.dim hd hs.dimMax hi hs.alg.1.2 hset
      (by rw [← ofsScale_scale]; exact e3)
    have hz : (s.w.zip (a.sig.zip s.alg.ut)).length = c.clf ∧ ∀ p ∈ s.w.zip (a.sig.zip s.alg.ut),
        p.1.length = s.dim ∧ p.2.1.length = s.dim ∧ p.2.2.length = s.dim := by
      refine ⟨by simp [hs.w.1, hR.inv.sig.1, hut.1], ?_⟩
      rintro ⟨p, q, r⟩ hp
      have h2 := (List.of_mem_zip hp).2
      exact ⟨hs.w.2 p (List.of_mem_zip hp).1, hR.inv.sig.2 q (List.of_mem_zip h2).1, hut.2 r (List.of_mem_zip h2).2⟩
    have hws : Vecs c.clf s.dim (ws.map (·.1)) := by
      obtain ⟨ws', e, hws⟩ := gives_each1
        (P := fun p : List ℝ × List ℝ × List ℝ => p.1.length = s.dim ∧ p.2.1.length = s.dim ∧ p.2.2.length = s.dim)
        (f := fun g p => rdaOfsOne s.eta c.biasEta0 g x p) (fun g p hp => gives_rdaOfsOne _ _ _ hx.1 hs.dim hp) s.g _ hz.2
      rw [e] at e2
      obtain rfl := Res.ok.inj e2
      exact ⟨by simp [hws.1, hz.1], fun v hv => by
        obtain ⟨q, hq, rfl⟩ := List.mem_map.1 hv
        exact (hws.2 q hq).1⟩
    obtain ⟨p1, p2⟩ := pruned Props.weak_smaller hc hx hd hs.dimMax hR hws e5 h2.alg.1.2 h2.alg.1.1
    refine ⟨p1, ?_⟩
    have hb := each1_after (F := fun g H => adaH delta g x H) (k := fun g p => rdaOfsOne s.eta c.biasEta0 g x p)
      (K := fun g p => adaRdaOne delta s.eta c.biasEta0 g x p) (fun (p : List ℝ × List ℝ) b => (p.1, b, p.2))
      (fun g b c c' h => by simp only [adaRdaOne, rdaOfsOne, h, Res.bind_ok]) s.g (s.w.zip s.alg.ut) s.alg.ofs.sig
      (by rw [List.length_zip]; omega) (by rw [List.length_zip]; omega) hR.plain (by rw [zip_pair]; exact e2)
    rw [zip_pair] at hb
    have hb' : adaRdaUpdate delta c (withOwn s (rdaOwn s.alg)) (withOwn s (rdaOwn s.alg)).alg x = .ok ws := hb
    simp only [adaRda, hb', Res.bind_ok]
    refine ⟨_, rfl, ?_⟩
    have hsnd : ws.map (fun p => p.2.1) = a.sig := by
      have := each1_rel (Q := fun p q : List ℝ × List ℝ × List ℝ => q.2.1 = p.2.1) (fun _ => rfl) (fun g p q h => by
        simp only [rdaOfsOne, Res.bind_eq_ok] at h
        obtain ⟨_, -, _, -, _, -, h⟩ := h
        rw [← Res.ok.inj h]) _ _ _ e2
      have e : ws.map (fun p => p.2.1) = (s.w.zip (a.sig.zip s.alg.ut)).map (fun p => p.2.1) := map_of_forall₂ this
      have : (fun p : List ℝ × List ℝ × List ℝ => p.2.1) = Prod.fst ∘ (·.2) := rfl
      have hal := hR.inv.sig.1
      have hwl := hs.w.1
      have hul := hut.1
      rw [e, this, ← List.map_map, List.map_snd_zip (by rw [List.length_zip]; omega), List.map_fst_zip (by omega)]
    unfold Cut withOwn held rdaOwn
    simp only [hsnd]
    rw [p2]

theorem able_adaRdaOfs_top (c : Cfg ℝ) (hc : 1 ≤ c.clf) (delta : ℝ) {B : Nat} (hB : 1 ≤ B) :
    Able c (adaRdaOfs delta B c.clf) Proper (FitW c (rdaTop delta c.clf B)) (fun _ => FitW c (rdaTop delta c.clf B)) := by
  refine able_of (fun _ _ => rfl) (fun _ _ => rfl) (fun _ _ => rfl) (fun _ _ => rfl)
    (fun d n w a _ hdn hw h => ⟨ofsTop_grow (sense_less delta) hc d n w a.ofs hdn hw h.1, h.2.grow 0 (by omega)⟩) fun s x l h hx hd => ?_
  obtain ⟨s1, h1, -⟩ := (able_adaRdaOfs c hc delta hB).update s x l ⟨h.dim, h.dimMax, h.w, h.g, h.alg.1.1, h.alg.2⟩ hx hd
  have := adaRdaOfs_update hc delta hB h hx hd h1
  exact ⟨s1, h1, this.1, this.2.1⟩

/-- AdaRDA-OFS beside AdaRDA. -/
theorem adaRdaOfs_beside {c : Cfg ℝ} (hk : Matches c.kind c.clf) (delta : ℝ) {B : Nat} (hB : 1 ≤ B) {s s' : St ℝ (RdaOfsSt ℝ)}
    (hs : FitW c (rdaTop delta c.clf B) s) {e : Ex ℝ} {rnd : ℝ} (hx : Proper e.x) (hl : LabelOk c.clf e.label)
    (h : trainOne (adaRdaOfs delta B c.clf) c s e rnd = .ok s') :
    ∃ v, trainOne (adaRda delta) c (withOwn s (rdaOwn s.alg)) e rnd = .ok v ∧ Cut rdaOwn (fun a => held a.ofs) s' v :=
  side_by_side (able_adaRdaOfs_top c (Props.clf_pos hk) delta hB) hk rdaOwn (Cut rdaOwn fun a => held a.ofs)
    (fun _ _ => rfl) (fun _ _ => rfl) (fun _ _ => rfl) (fun _ _ => rfl) (fun _ _ => rfl) (fun _ _ => rfl) (fun _ _ => rfl) (fun _ _ => rfl)
    (fun _ _ _ => rfl) (fun s hs => by
      unfold Cut withOwn held
      simp only
      rw [only_self hs.alg.1.1.2]) (fun s v n => cut_count s v n) (fun s v => cut_err s v)
    (fun s x l s' hs hx hd h => (adaRdaOfs_update (Props.clf_pos hk) delta hB hs hx hd h).2.2) hs hx hl h

/-- `EndTrain` of AdaRDA-OFS beside that of AdaRDA. -/
theorem adaRdaOfs_close {c : Cfg ℝ} (hc : 1 ≤ c.clf) (delta : ℝ) {B : Nat} (hB : 1 ≤ B) {s s' : St ℝ (RdaOfsSt ℝ)}
    (hs : FitW c (rdaTop delta c.clf B) s) (h : adaRdaOfsEnd B c s = .ok s') :
    FitW c (rdaTop delta c.clf B) s' ∧
      ∃ v, (adaRda delta).endTrain c (withOwn s (rdaOwn s.alg)) = .ok v ∧ Cut rdaOwn (fun a => held a.ofs) s' v := by
  obtain ⟨hi, hin⟩ := hs.alg.1.1
  have hut := hs.alg.2
  obtain ⟨s1, h1, h2⟩ := gives_adaRdaOfsEnd hc hB (s := s) ⟨hs.dim, hs.dimMax, hs.w, hs.g, hs.alg.1.1, hs.alg.2⟩
  rw [h] at h1
  obtain rfl := Res.ok.inj h1
  simp only [adaRdaOfsEnd, if_pos (show 0 < B by omega), Res.bind_eq_ok] at h
  obtain ⟨w, e1, ⟨w', h'⟩, e2, e3⟩ := h
  obtain rfl := Res.ok.inj e3
  have hN := hi.heap.N
  have htop : Topped less (val (watched c.clf s.alg.ofs.sig s.alg.ofs.sum)) (fun j => j + 1 < s.dim) s.alg.ofs.heap :=
    hs.alg.1.2.top.congr hi.heap.wf.1 hi.heap.wf.2.1
      (fun j hj => (watched_total hc hi hs.alg.1.2.sum (pos2id_lt hi.heap j hj)).symm)
      fun j hj => (watched_total hc hi hs.alg.1.2.sum hj).symm
  have hwv : Vecs c.clf s.dim w := by
    obtain ⟨w1, q1, q2⟩ := gives_eachWith2 (d := s.dim) (f := adaRdaEnd (fun a => a) s.eta c.biasEta0) (fun w u H hw hu hH => by
      refine (gives_dense2 _ hu hH).bind fun q hq => (gives_dense2 _ hw hq).bind fun w' hw' => ?_
      exact (gives_atBias _ (by have := hs.dim; omega)).mono fun _ h => by omega) c.clf s.w s.alg.ut s.alg.ofs.sig hs.w hut hi.sig
    rw [e1] at q1
    obtain rfl := Res.ok.inj q1
    exact q2
  obtain ⟨t1, t2, Z, e, hZ⟩ := prune_top Props.weak_smaller (v := watched c.clf s.alg.ofs.sig s.alg.ofs.sum) (List.range (s.dim - 1)) w
    s.alg.ofs.heap _ hwv hi.heap.wf hN hs.dimMax (watched_length hc hi) (fun i hi => by simp only [List.mem_range] at hi; omega) htop e2
  have hi' := h2.alg.1.1
  simp only at hi'
  refine ⟨⟨h2.dim, h2.dimMax, h2.w, h2.g, ⟨h2.alg.1, hs.alg.1.2.pos, hs.alg.1.2.sum, ?_⟩, h2.alg.2⟩, ?_⟩
  · have t3 : Topped less (val (watched c.clf s.alg.ofs.sig s.alg.ofs.sum)) (fun j => j + 1 < s.dim) h' := t1.mono fun j hj => .inl hj
    exact t3.congr hi'.heap.wf.1 hi'.heap.wf.2.1
      (fun j hj => watched_total hc hi hs.alg.1.2.sum (pos2id_lt hi'.heap j hj)) fun j hj => watched_total hc hi hs.alg.1.2.sum hj
  · have e1' : eachWith2 (adaRdaEnd (fun a => a) (withOwn s (rdaOwn s.alg)).eta c.biasEta0) (withOwn s (rdaOwn s.alg)).w
      (withOwn s (rdaOwn s.alg)).alg.ut (withOwn s (rdaOwn s.alg)).alg.H = .ok w := e1
    simp only [adaRda, e1', Res.bind_ok]
    refine ⟨_, rfl, ?_⟩
    subst e
    unfold Cut withOwn held rdaOwn
    simp only
    rw [only_of_zeroIn hZ h2.alg.1.2]

theorem adaRdaOfsBegin_top {c : Cfg ℝ} (hc : 1 ≤ c.clf) {delta : ℝ} {B : Nat} {s : St ℝ (RdaOfsSt ℝ)} (h : Ready c B s)
    (ha : Vecs c.clf s.dim s.alg.ofs.sig) (hi : ∀ v ∈ s.alg.ofs.sig, ∀ a ∈ v, a = delta) (hut : Vecs c.clf s.dim s.alg.ut)
    (h0 : Inside s.w fun _ => False) :
    Gives (adaRdaOfsBegin (adaRdaOfs delta B c.clf) c B s) (fun s' => FitW c (rdaTop delta c.clf B) s') := by
  obtain ⟨s', e, q1, q2, q4, q3, -⟩ := gives_adaRdaOfsBegin hc h ha hut h0
  refine ⟨s', e, q1.dim, q1.dimMax, q1.w, q1.g, ⟨⟨q2, q3.mono fun _ h => h.elim⟩, ?_⟩, q4⟩
  have hB := h.budget.1
  unfold adaRdaOfsBegin at e
  rw [if_pos (by omega)] at e
  simp only at e
  generalize hs0 : ({ s with alg := { s.alg with ofs := { s.alg.ofs with
      sum := if c.clf = 1 then s.alg.ofs.sum else growTo (min s.dim s.alg.ofs.sum.length) s.dim 0 s.alg.ofs.sum } } } :
    St ℝ (RdaOfsSt ℝ)) = s0 at e
  have e1 : s0.dim = s.dim := by rw [← hs0]
  have e5 : s0.alg.ofs.sig = s.alg.ofs.sig := by rw [← hs0]
  have hsig : ∀ v ∈ (updateDim (adaRdaOfs delta B c.clf) s0 (B + 1)).alg.ofs.sig, ∀ a ∈ v, a = delta := by
    unfold updateDim
    split
    · exact const_grow (by rw [e5, e1]; exact ha.2) (by rw [e5]; exact hi)
    · rw [e5]; exact hi
  generalize updateDim (adaRdaOfs delta B c.clf) s0 (B + 1) = s1 at hsig e
  simp only [Res.bind_eq_ok] at e
  obtain ⟨sum, k1, hp, k2, k3⟩ := e
  obtain rfl := Res.ok.inj k3
  refine best_of_const (sense_less delta) q2 (fun hne i i1 i2 => ?_) hsig
  rw [if_neg hne] at k1
  have hsl := q2.sum.resolve_left hne
  simp only at hsl
  have hlen : s1.alg.ofs.sum.length = s1.dim := by
    have := dense_length _ _ _ k1
    simp only [List.length_replicate] at this
    omega
  have := sumAll_total (d := s1.dim) _ _ _ (by simpa using hlen) q2.sig.2 k1 (i := i) i2
  simp only at i2 ⊢
  rw [this]
  simp [hlen, i2]

end

end Sol.Select
