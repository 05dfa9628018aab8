import Verif.Proofs.LeadingSettle
/-! SOFS, AdaFOBOS-OFS and AdaRDA-OFS keep the weights of the best features. -/

set_option linter.unusedSectionVars false
set_option linter.unusedVariables false

namespace Sol.Select

open Sol.Online Sol.Sparse Sol.Loss Sol.Olm Sol.Spec Sol.Heap

variable {α A : Type} [Field α] [LinearOrder α] [IsStrictOrderedRing α] [FFun α] [FSqrt α]

theorem _root_.Sol.Heap.Topped.congr {cmp : α → α → Bool} {V W : Nat → α} {S : Nat → Prop} {h : State} (ht : Topped cmp V S h) (hi : Tab h)
    (h1 : 1 ≤ h.K) (hin : ∀ j ∈ h.pos2id, V j = W j) (hS : ∀ j, S j → V j = W j) : Topped cmp W S h := by
  refine ⟨ht.heap.congr (by rw [hi.lenK]; omega) hin, fun j hj hjn => ?_⟩
  rw [← hS j hj, ← hin _ (mem_of_at' (by rw [hi.lenK]; omega))]
  exact ht.top j hj hjn

/-! ### One class -/

/-- The new own vector of one class. -/
def renew (f : α → α → α) (b : α → α) (x : SVec α) (v : List α) : List α :=
  (v.mapIdx (touch x fun _ a y => f a y)).mapIdx (atZero b)

/-- The common form of the functions that renew the own vectors and the heap. -/
def scaleOf (cmp : α → α → Bool) (b : α → α → α) (f : α → α → α → α) (F : α → SVec α → List α → Res (List α)) (B : Nat) (c : Cfg α)
    (g : List α) (a : OfsSt α) (x : SVec α) : Res (Option (OfsSt α)) :=
  if c.clf = 1 then do
    let g0 ← lget g 0
    if g0 =? 0 then .ok none
    else do
      let sig ← lget a.sig 0
      let sig ← atBias (b g0) sig
      let (sig, h) ← settleOne cmp (f g0) B x sig a.heap
      .ok (some ⟨[sig], a.sum, h⟩)
  else do
    let sigs ← each1 (fun g sig => F g x sig) g a.sig
    let (sum, h) ← settleSum cmp sigs B x a.sum a.heap
    .ok (some ⟨sigs, sum, h⟩)

theorem sofsSig_scale (r : α) (B : Nat) (c : Cfg α) (g : List α) (a : OfsSt α) (x : SVec α) :
    sofsSig r B c g a x = scaleOf more (fun g s => s / (1 + s * (g * g / r))) (fun g s y => s / (1 + s * y * y * (g * g / r)))
      (fun g x sig => arowSig (g * g / r) x sig) B c g a x := rfl

theorem ofsScale_scale (delta : α) (B : Nat) (c : Cfg α) (g : List α) (a : OfsSt α) (x : SVec α) :
    ofsScale delta B c g a x = scaleOf less (fun g h => FSqrt.sqrt ((h - delta) * (h - delta) + g * g) + delta) (ofsH delta)
      (fun g x H => adaH delta g x H) B c g a x := rfl

/-- The values only get better, and the plain algorithm computes the same. -/
structure Grows (cmp : α → α → Bool) (P : α → Prop) (b : α → α → α) (f : α → α → α → α)
    (F : α → SVec α → List α → Res (List α)) : Prop where
  val : ∀ g a y, P a → P (f g a y) ∧ cmp (f g a y) a = false
  bias : ∀ g a, P a → P (b g a)
  plain : ∀ g x v, Ascending x → 1 ≤ v.length → F g x v = .ok (renew (f g) (b g) x v)

/-- From the old to the new vector of a class. -/
structure Better (cmp : α → α → Bool) (P : α → Prop) (x : SVec α) (v v' : List α) : Prop where
  len : v'.length = v.length
  pos : ∀ a ∈ v', P a
  up : ∀ i : Nat, 1 ≤ i → cmp (v'[i]?.getD 0) (v[i]?.getD 0) = false
  same : ∀ i : Nat, 1 ≤ i → (∀ p ∈ x, p.1 ≠ i) → v'[i]? = v[i]?

theorem renew_get {f : α → α → α} {b : α → α} {x : SVec α} {v : List α} {i : Nat} :
    (renew f b x v)[i]? = v[i]?.map fun a => atZero b i (touch x (fun _ a y => f a y) i a) := by
  unfold renew
  rw [List.getElem?_mapIdx, List.getElem?_mapIdx, Option.map_map]
  rfl

theorem renew_better {cmp : α → α → Bool} (hw : Weak cmp) {P : α → Prop} {f : α → α → α} {b : α → α}
    (hf : ∀ a y, P a → P (f a y) ∧ cmp (f a y) a = false) (hb : ∀ a, P a → P (b a)) {x : SVec α} {v : List α}
    (hP : ∀ a ∈ v, P a) : Better cmp P x v (renew f b x v) := by
  have ht : ∀ i a, P a → P (touch x (fun _ a y => f a y) i a) ∧ cmp (touch x (fun _ a y => f a y) i a) a = false := by
    intro i a ha
    unfold touch
    split
    · exact hf a _ ha
    · exact ⟨ha, hw.irr a⟩
  refine ⟨by simp [renew], fun a ha => ?_, fun i hi => ?_, fun i hi hx => ?_⟩
  · obtain ⟨i, hi⟩ := List.mem_iff_getElem?.1 ha
    rw [renew_get] at hi
    obtain ⟨a0, h0, rfl⟩ := Option.map_eq_some_iff.1 hi
    have := (ht i a0 (hP a0 (List.mem_of_getElem? h0))).1
    unfold atZero
    split
    · exact hb _ this
    · exact this
  · rw [renew_get]
    cases h0 : v[i]? with
    | none => exact hw.irr _
    | some a0 =>
      simp only [Option.map_some, Option.getD_some, atZero, if_neg (show i ≠ 0 by omega)]
      exact (ht i a0 (hP a0 (List.mem_of_getElem? h0))).2
  · rw [renew_get]
    cases h0 : v[i]? with
    | none => rfl
    | some a0 =>
      simp only [Option.map_some, Option.some.injEq, atZero, if_neg (show i ≠ 0 by omega), touch]
      split
      · rename_i y hy
        exact absurd rfl (hx _ (featureAt_some hy))
      · rfl

/-- With a bias that is no feature the order of the two steps does not matter. -/
theorem renew_swap {f : α → α → α} {b : α → α} {x : SVec α} (hx : ∀ p ∈ x, 1 ≤ p.1) (v : List α) :
    (v.mapIdx (atZero b)).mapIdx (touch x fun _ a y => f a y) = renew f b x v := by
  apply List.ext_getElem?
  intro i
  rw [renew_get, List.getElem?_mapIdx, List.getElem?_mapIdx, Option.map_map]
  cases v[i]? with
  | none => rfl
  | some a =>
    simp only [Option.map_some, Function.comp_apply, Option.some.injEq]
    by_cases hi : i = 0
    · subst hi
      have : featureAt x 0 = none := by
        cases h : featureAt x 0 with
        | none => rfl
        | some y => have := hx _ (featureAt_some h); simp at this
      simp [touch, this]
    · simp [atZero, hi]

/-! ### Sums over the classes -/

theorem total_better {cmp : α → α → Bool} (hw : Weak cmp) (hadd : ∀ a b a' b', cmp b a = false → cmp b' a' = false → cmp (b + b') (a + a') = false)
    {P : α → Prop} {x : SVec α} {u v : List (List α)} (h : List.Forall₂ (Better cmp P x) u v) {i : Nat} (hi : 1 ≤ i) :
    cmp (total v i) (total u i) = false := by
  induction h with
  | nil => exact hw.irr _
  | cons h1 _ ih => exact hadd _ _ _ _ (h1.up i hi) ih

theorem total_same {cmp : α → α → Bool} {P : α → Prop} {x : SVec α} {u v : List (List α)} (h : List.Forall₂ (Better cmp P x) u v)
    {i : Nat} (hi : 1 ≤ i) (hx : ∀ p ∈ x, p.1 ≠ i) : total v i = total u i := by
  induction h with
  | nil => rfl
  | cons h1 _ ih => simp only [total, List.map_cons, List.sum_cons, h1.same i hi hx] at ih ⊢; rw [ih]

theorem total_worst {cmp : α → α → Bool} {init : α} {P : α → Prop} (hs : Sense cmp init P) {d i : Nat} (hi : i < d) (u : List (List α))
    (hu : ∀ v ∈ u, v.length = d) (hP : ∀ v ∈ u, ∀ a ∈ v, P a) : cmp (total u i) (((u.length : Int) : α) * init) = false := by
  induction u with
  | nil => simpa [total] using hs.weak.irr 0
  | cons v u ih =>
    have hl := hu v List.mem_cons_self
    have e : (((v :: u).length : Int) : α) * init = init + ((u.length : Int) : α) * init := by
      push_cast [List.length_cons]
      ring
    rw [e]
    refine hs.add _ _ _ _ (hs.worst _ ?_) (ih (fun v hv => hu v (List.mem_cons_of_mem _ hv)) fun v hv => hP v (List.mem_cons_of_mem _ hv))
    have : v[i]?.getD 0 = v[i] := by simp [hl, hi]
    show P (v[i]?.getD 0)
    rw [this]
    exact hP v List.mem_cons_self _ (List.getElem_mem _)

theorem total_const {init : α} {d i : Nat} (hi : i < d) (u : List (List α)) (hu : ∀ v ∈ u, v.length = d) (hP : ∀ v ∈ u, ∀ a ∈ v, a = init) :
    total u i = ((u.length : Int) : α) * init := by
  induction u with
  | nil => simp [total]
  | cons v u ih =>
    have hl := hu v List.mem_cons_self
    have : v[i]?.getD 0 = init := by
      have e : v[i]?.getD 0 = v[i] := by simp [hl, hi]
      rw [e]
      exact hP v List.mem_cons_self _ (List.getElem_mem _)
    have := ih (fun v hv => hu v (List.mem_cons_of_mem _ hv)) fun v hv => hP v (List.mem_cons_of_mem _ hv)
    simp only [total, List.map_cons, List.sum_cons] at *
    rw [this, ‹v[i]?.getD 0 = init›]
    push_cast [List.length_cons]
    ring

theorem growTo_get {d n : Nat} {a : α} {v : List α} (hv : v.length = d) (i : Nat) :
    (growTo d n a v)[i]? = if i < d then v[i]? else if i < n then some a else none := by
  unfold growTo
  rw [List.take_of_length_le (by omega)]
  split
  · rw [List.getElem?_append_left (by omega)]
  · rw [List.getElem?_append_right (by omega), List.getElem?_replicate]
    split
    · rw [if_pos (by omega)]
    · rw [if_neg (by omega)]

theorem total_grow {d n i : Nat} (hi : i < d) {init : α} (u : List (List α)) (hu : ∀ v ∈ u, v.length = d) :
    total (growSig init d n u) i = total u i := by
  unfold total growSig
  rw [List.map_map]
  congr 1
  apply List.map_congr_left
  intro v hv
  simp only [Function.comp_apply, growTo_get (hu v hv), if_pos hi]

theorem total_new {d n i : Nat} (hi : d ≤ i) (hn : i < n) {init : α} (u : List (List α)) (hu : ∀ v ∈ u, v.length = d) :
    total (growSig init d n u) i = ((u.length : Int) : α) * init := by
  induction u with
  | nil => simp [total, growSig]
  | cons v u ih =>
    have := ih fun v hv => hu v (List.mem_cons_of_mem _ hv)
    have e : (growTo d n init v)[i]?.getD 0 = init := by
      rw [growTo_get (hu v List.mem_cons_self), if_neg (by omega), if_pos hn]
      rfl
    simp only [total, growSig, List.map_cons, List.sum_cons] at *
    rw [this, e]
    push_cast [List.length_cons]
    ring

/-! ### The state between examples -/

/-- The sums are kept up to date, the values are in range, and the heap has the best. -/
structure OfsBest (cmp : α → α → Bool) (P : α → Prop) (clf B d : Nat) (a : OfsSt α) : Prop where
  pos : ∀ v ∈ a.sig, ∀ e ∈ v, P e
  sum : clf ≠ 1 → ∀ i : Nat, 1 ≤ i → i < d → a.sum[i]? = some (total a.sig i)
  top : Topped cmp (fun j => total a.sig (j + 1)) (fun j => j + 1 < d) a.heap

theorem watched_total {clf B d : Nat} {a : OfsSt α} (hc : 1 ≤ clf) (hi : OfsInv clf B d a)
    (hsum : clf ≠ 1 → ∀ i : Nat, 1 ≤ i → i < d → a.sum[i]? = some (total a.sig i)) {j : Nat} (hj : j + 1 < d) :
    val (watched clf a.sig a.sum) j = total a.sig (j + 1) := by
  unfold val watched
  split
  · rename_i h
    obtain ⟨v, hv⟩ := List.length_eq_one_iff.1 (hi.sig.1.trans h)
    rw [hv]
    simp [total]
  · rename_i h
    rw [hsum h (j + 1) (by omega) hj]
    rfl

theorem pos2id_lt {B d : Nat} {h : State} (hh : HeapFit B d h) : ∀ j ∈ h.pos2id, j + 1 < d := by
  intro j hj
  obtain ⟨p, hp, hpe⟩ := List.getElem_of_mem hj
  have := hh.wf.1.pos p j (by simp [hp, hpe])
  have := (List.getElem?_eq_some_iff.1 this).1
  rw [hh.wf.1.lenN] at this
  have := hh.N
  omega

theorem ofsBest_grow {cmp : α → α → Bool} {init : α} {P : α → Prop} (hs : Sense cmp init P) {clf B d n : Nat} {a : OfsSt α} (hc : 1 ≤ clf)
    (hdn : d < n) (hi : OfsInv clf B d a) (hb : OfsBest cmp P clf B d a) : OfsBest cmp P clf B n (ofsGrow clf init d n a) := by
  have hg := (ofsInv_grow init d n a hdn hi).1
  have hh := heapFit_grow hi.heap hdn
  have hK : (growHeap n a.heap).K = a.heap.K := by rw [hh.1.K, hi.heap.K]
  have hlt := pos2id_lt hi.heap
  have hold : ∀ j, j + 1 < d → total a.sig (j + 1) = total (growSig init d n a.sig) (j + 1) := fun j hj =>
    (total_grow hj a.sig hi.sig.2).symm
  refine ⟨fun v hv e he => ?_, fun hne i i1 i2 => ?_, ?_, fun j hj hjn => ?_⟩
  · obtain ⟨u, hu, rfl⟩ := List.mem_map.1 hv
    obtain ⟨i, hi'⟩ := List.mem_iff_getElem?.1 he
    rw [growTo_get (hi.sig.2 u hu)] at hi'
    split at hi'
    · exact hb.pos u hu e (List.mem_of_getElem? hi')
    · split at hi'
      · rw [← Option.some.inj hi']; exact hs.first
      · simp at hi'
  · simp only [ofsGrow, if_neg hne]
    rw [growTo_get (hi.sum.resolve_left hne)]
    split
    · rename_i hlt
      rw [hb.sum hne i i1 hlt, total_grow hlt a.sig hi.sig.2]
    · rw [total_new (by omega) i2 a.sig hi.sig.2, hi.sig.1]
  · show HeapFrom _ _ (growHeap n a.heap).pos2id 0 ((growHeap n a.heap).K - 1)
    rw [hh.2, hK]
    have h1 := hi.heap.wf.2.1
    exact hb.top.heap.congr (by rw [hi.heap.wf.1.lenK]; omega) fun j hj => hold j (hlt j hj)
  · have hjn' : j ∉ a.heap.pos2id := by rw [← hh.2]; exact hjn
    show cmp (total (growSig init d n a.sig) (at' (growHeap n a.heap).pos2id 0 + 1)) (total (growSig init d n a.sig) (j + 1)) = false
    rw [hh.2]
    have hm : at' a.heap.pos2id 0 ∈ a.heap.pos2id := mem_of_at' (by rw [hi.heap.wf.1.lenK]; have := hi.heap.wf.2.1; omega)
    rw [← hold _ (hlt _ hm)]
    by_cases hjd : j + 1 < d
    · rw [← hold j hjd]
      exact hb.top.top j hjd hjn'
    · rw [total_new (by omega) hj a.sig hi.sig.2]
      exact total_worst hs (hlt _ hm) a.sig hi.sig.2 hb.pos

/-- Between the settling of the heap and the pruning. -/
structure Raised (cmp : α → α → Bool) (P : α → Prop) (F : α → SVec α → List α → Res (List α)) (clf B d : Nat) (g : List α)
    (x : SVec α) (a a' : OfsSt α) : Prop where
  inv : OfsInv clf B d a'
  mem : ∀ j, j ∈ a'.heap.pos2id ↔ j ∈ a.heap.pos2id
  pos : ∀ v ∈ a'.sig, ∀ e ∈ v, P e
  sum : clf ≠ 1 → ∀ i : Nat, 1 ≤ i → i < d → a'.sum[i]? = some (total a'.sig i)
  top : Topped cmp (val (watched clf a'.sig a'.sum)) (fun j => j + 1 < d ∧ j ∉ ids x) a'.heap
  plain : each1 (fun g v => F g x v) g a.sig = .ok a'.sig

theorem scaleOf_raised {cmp : α → α → Bool} {init : α} {P : α → Prop} (hs : Sense cmp init P) {b : α → α → α} {f : α → α → α → α}
    {F : α → SVec α → List α → Res (List α)} (hG : Grows cmp P b f F) {B d : Nat} {c : Cfg α} (hc : 1 ≤ c.clf) {g : List α}
    (hg : g.length = c.clf) {a a' : OfsSt α} {x : SVec α} (hx : Proper x) (hd1 : 1 ≤ d) (hd : Sparse.dim x ≤ d) (hd2 : d ≤ 4294967295)
    (hi : OfsInv c.clf B d a) (hb : OfsBest cmp P c.clf B d a) (hset : Settled c.clf B d g a (some a'))
    (h : scaleOf cmp b f F B c g a x = .ok (some a')) : Raised cmp P F c.clf B d g x a a' := by
  obtain ⟨hi', hm⟩ := hset.2 a' rfl
  have hlt := proper_lt hx hd
  have htop : Topped cmp (val (watched c.clf a.sig a.sum)) (fun j => j + 1 < d) a.heap :=
    hb.top.congr hi.heap.wf.1 hi.heap.wf.2.1 (fun j hj => (watched_total hc hi hb.sum (pos2id_lt hi.heap j hj)).symm)
      fun j hj => (watched_total hc hi hb.sum hj).symm
  unfold scaleOf at h
  split at h
  · rename_i h1
    obtain ⟨g0, rfl⟩ := List.length_eq_one_iff.1 (hg.trans h1)
    obtain ⟨v, hv⟩ := List.length_eq_one_iff.1 (hi.sig.1.trans h1)
    have hvl : v.length = d := hi.sig.2 v (by rw [hv]; exact List.mem_cons_self)
    have hvP : ∀ e ∈ v, P e := hb.pos v (by rw [hv]; exact List.mem_cons_self)
    rw [lget_ok (w := [g0]) (i := 0) (by simp), Res.bind_ok] at h
    split at h
    · simp at h
    rename_i hz
    simp only [List.getElem_cons_zero] at hz h
    simp only [Res.bind_eq_ok] at h
    obtain ⟨sig, e1, sig1, e2, ⟨sig2, h'⟩, e3, e4⟩ := h
    obtain rfl : v = sig := by
      rw [lget_eq_ok, hv] at e1
      simpa using e1
    have hB1 := atBias_closed (b g0) (v := v) (by omega)
    rw [e2] at hB1
    obtain rfl := Res.ok.inj hB1
    simp only [Res.ok.injEq, Option.some.injEq] at e4
    subst e4
    have hP1 : ∀ e ∈ v.mapIdx (atZero (b g0)), P e := by
      intro e he
      obtain ⟨i, hi0⟩ := List.mem_iff_getElem?.1 he
      rw [List.getElem?_mapIdx] at hi0
      obtain ⟨e0, q1, rfl⟩ := Option.map_eq_some_iff.1 hi0
      have := hvP e0 (List.mem_of_getElem? q1)
      unfold atZero
      split
      · exact hG.bias _ _ this
      · exact this
    have hwt : watched c.clf a.sig a.sum = v := by
      unfold watched
      rw [if_pos h1, hv]
      rfl
    rw [hwt] at htop
    have htop1 := htop.at_bias (v' := v.mapIdx (atZero (b g0))) (atBias_same e2)
    obtain ⟨a1, a2, a3⟩ := settleOne_top hs.weak (fun s y hs => hG.val g0 s y hs) hd2 x hlt _ a.heap _ hi.heap (by simpa using hvl) hP1 htop1 e3
    have hsig2 : sig2 = renew (f g0) (b g0) x v := by
      have hcl := calcExp_closed (op := fun _ r => r) (f := fun w i y => do let a ← lget w i; .ok (f g0 a y)) (fun _ a y => f g0 a y)
        (w := v.mapIdx (atZero (b g0))) hx.1.1 (fun w' i y a _ _ hw' _ => by simp only [lget_eq_ok.2 hw', Res.bind_ok])
      unfold calcExp at hcl
      rw [take_trim x hx.1.1, List.filter_eq_self.2 fun p hp => by simpa [hvl] using (hlt p hp).2, a3] at hcl
      rw [Res.ok.inj hcl]
      exact renew_swap hx.2 v
    refine ⟨hi', hm, fun u hu => ?_, fun hne => absurd h1 hne, ?_, ?_⟩
    · rw [List.mem_singleton.1 hu]
      exact a1
    · have : watched c.clf [sig2] a.sum = sig2 := by
        unfold watched
        rw [if_pos h1]
        rfl
      simp only [this]
      exact a2
    · rw [hv]
      simp only [each1, hz, Bool.false_eq_true, if_false, hG.plain g0 x v hx.1.1 (by omega), Res.bind_ok, hsig2]
  · rename_i h1
    simp only [Res.bind_eq_ok] at h
    obtain ⟨sigs, e1, ⟨sum, h'⟩, e2, e3⟩ := h
    simp only [Res.ok.injEq, Option.some.injEq] at e3
    subst e3
    have hQ := each1_rel (Q := fun v v' : List α => 1 ≤ v.length → (∀ e ∈ v, P e) → Better cmp P x v v')
      (fun v _ hv => ⟨rfl, hv, fun _ _ => hs.weak.irr _, fun _ _ _ => rfl⟩) (fun g v v' hv' h1 hv => by
        rw [hG.plain g x v hx.1.1 h1] at hv'
        rw [← Res.ok.inj hv']
        exact renew_better hs.weak (fun a y => hG.val g a y) (fun a => hG.bias g a) hv) _ _ _ e1
    have hBt : List.Forall₂ (Better cmp P x) a.sig sigs := by
      have hl := hi.sig.2
      have hp := hb.pos
      generalize a.sig = u at hQ hl hp
      clear e1 e2 hset hi' hm
      induction hQ with
      | nil => exact .nil
      | cons q1 _ ih =>
        exact .cons (q1 (by rw [hl _ List.mem_cons_self]; exact hd1) (hp _ List.mem_cons_self))
          (ih (fun v hv => hl v (List.mem_cons_of_mem _ hv)) fun v hv => hp v (List.mem_cons_of_mem _ hv))
    have hwt : watched c.clf a.sig a.sum = a.sum := by
      unfold watched
      rw [if_neg h1]
    have hwt' : watched c.clf sigs sum = sum := by
      unfold watched
      rw [if_neg h1]
    rw [hwt] at htop
    have hval : ∀ j, j + 1 < d → val a.sum j = total a.sig (j + 1) := fun j hj => by
      unfold val
      rw [hb.sum h1 (j + 1) (by omega) hj]
      rfl
    obtain ⟨a1, a2, a3⟩ := settleSum_top hs.weak hd2 hi'.sig.2 x hlt a.sum a.heap _ hi.heap (hi.sum.resolve_left h1) (fun j hj => by
      rw [hval j hj]
      exact total_better hs.weak hs.add hBt (by omega)) htop e2
    refine ⟨hi', hm, fun u hu => ?_, fun _ i i1 i2 => a3 i i1 i2 ?_, ?_, e1⟩
    · simp only at hu
      obtain ⟨k, hk, rfl⟩ := List.getElem_of_mem hu
      have := hBt.get (i := k) (by rw [hBt.length_eq]; exact hk) hk
      exact this.pos
    · by_cases hp : ∃ p ∈ x, p.1 = i
      · exact .inr hp
      · push Not at hp
        exact .inl (by rw [hb.sum h1 i i1 i2, total_same hBt i1 hp])
    · simp only [hwt']
      exact a2

/-- After the pruning. -/
theorem pruned {cmp : α → α → Bool} (hw : Weak cmp) {P : α → Prop} {F : α → SVec α → List α → Res (List α)} {clf B d : Nat} (hc : 1 ≤ clf)
    {g : List α} {x : SVec α} (hx : Proper x) (hd : Sparse.dim x ≤ d) (hd2 : d ≤ 4294967295) {a a' : OfsSt α}
    (h : Raised cmp P F clf B d g x a a') {ws ws' : List (List α)} {h' : State} (hws : Vecs clf d ws)
    (hp : prune cmp ((watched clf a'.sig a'.sum).drop 1) (ids x) ws a'.heap = .ok (ws', h')) (hin : Inside ws' (· ∈ h'.pos2id))
    (hi : OfsInv clf B d { a' with heap := h' }) :
    OfsBest cmp P clf B d { a' with heap := h' } ∧ ws' = ws.map (only (h'.pos2id.map (· + 1))) := by
  have hN := h.inv.heap.N
  obtain ⟨t1, t2, Z, e, hZ⟩ := prune_top hw (v := watched clf a'.sig a'.sum) (ids x) ws a'.heap _ hws h.inv.heap.wf hN hd2
    (watched_length hc h.inv) (fun i hi => by have := ids_lt hx hd i hi; omega) h.top hp
  refine ⟨⟨h.pos, h.sum, ?_⟩, ?_⟩
  · have t3 : Topped cmp (val (watched clf a'.sig a'.sum)) (fun j => j + 1 < d) h' := t1.mono fun j hj => by
      by_cases hj' : j ∈ ids x
      · exact .inr (.inl hj')
      · exact .inl ⟨hj, hj'⟩
    exact t3.congr hi.heap.wf.1 hi.heap.wf.2.1 (fun j hj => watched_total hc h.inv h.sum (pos2id_lt hi.heap j hj))
      fun j hj => watched_total hc h.inv h.sum hj
  · subst e
    exact only_of_zeroIn hZ hin

/-- The heap has the leading features. -/
theorem leading_of {cmp : α → α → Bool} (hw : Weak cmp) {P : α → Prop} {clf B d : Nat} {a : OfsSt α} (hi : OfsInv clf B d a)
    (hb : OfsBest cmp P clf B d a) {worth : Nat → α}
    (hwo : ∀ i j, cmp (total a.sig i) (total a.sig j) = false → worth j ≤ worth i) :
    Leading d B worth (a.heap.pos2id.map (· + 1)) := by
  have hlt := pos2id_lt hi.heap
  refine ⟨?_, ?_, fun i hi' => ?_, fun i hi' j j1 j2 hj => ?_⟩
  · rw [List.length_map, hi.heap.wf.1.lenK, hi.heap.K]
  · exact (Props.Tab.nodup hi.heap.wf.1).map (fun a b h => by simpa using h)
  · obtain ⟨k, hk, rfl⟩ := List.mem_map.1 hi'
    exact ⟨by omega, hlt k hk⟩
  · obtain ⟨k, hk, rfl⟩ := List.mem_map.1 hi'
    have hj' : j - 1 ∉ a.heap.pos2id := fun hm => hj (List.mem_map.2 ⟨j - 1, hm, by omega⟩)
    have := hb.top.best hw hi.heap.wf.1 hk hj' (by omega)
    rw [Nat.sub_add_cancel j1] at this
    exact hwo _ _ this

end Sol.Select
