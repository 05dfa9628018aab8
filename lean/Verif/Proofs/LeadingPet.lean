import Verif.Proofs.LeadingAll
/-! PET beside OGD. -/

set_option linter.unusedSectionVars false
set_option linter.unusedVariables false

namespace Sol.Heap

/-- The new top is not below the old one. -/
theorem offer_up {α : Type} {cmp : α → α → Bool} (hw : Weak cmp) {vals : List α} {V : Nat → α} {S : Nat → Prop} {h : State} (hi : Tab h)
    (h1 : 1 ≤ h.K) (h2 : h.K < 4294967296) (hV : ∀ id, id < h.N → vals[id]? = some (V id)) {idx : Nat} (hidx : idx < h.N)
    (ht : Topped cmp V S h) {h' : State} {r : Nat} (hu : update cmp vals h idx = .ok (h', r)) :
    cmp (V (at' h'.pos2id 0)) (V (at' h.pos2id 0)) = false := by
  obtain ⟨h'', r', hu', hi', hN', hK, hcase⟩ := update_spec cmp hi h1 h2 hV hidx
  rw [hu] at hu'
  obtain ⟨rfl, rfl⟩ := Prod.mk.inj (Res.ok.inj hu')
  have hlen : h.pos2id.length = h.K := hi.lenK
  rcases hcase with ⟨hm, hr, he⟩ | ⟨hm, hc, hr, he⟩ | ⟨hm, hc, hr, hrm, he⟩
  · rw [he]; exact hw.irr _
  · rw [he]; exact hw.irr _
  · have hml : h.K - 1 < (h.pos2id.set 0 idx).length := by rw [List.length_set]; omega
    have hperm : h'.pos2id.Perm (h.pos2id.set 0 idx) := by
      rw [he]
      exact sift_perm cmp V _ _ 0 _ (Nat.le_refl _) hml
    have hm' := hperm.mem_iff.1 (mem_of_at' (ids := h'.pos2id) (p := 0) (by rw [hi'.lenK]; omega))
    rcases List.mem_or_eq_of_mem_set hm' with hm' | e
    · obtain ⟨p, hp, hpe⟩ := at'_of_mem hm'
      rw [← hpe]
      exact heap_top hw ht.heap p (by omega)
    · rw [e]
      exact hw.asymm _ _ hc

end Sol.Heap

namespace Sol.Select

open Sol.Online Sol.Sparse Sol.Loss Sol.Olm Sol.Spec Sol.Heap

variable {α A : Type} [Field α] [LinearOrder α] [IsStrictOrderedRing α] [FFun α] [FSqrt α]

theorem absOp_eq (a : α) : absOp a = |a| := by
  unfold absOp
  split
  · rename_i h
    rw [abs_of_pos ((flt_iff _ _).1 h)]
  · rename_i h
    have : ¬ 0 < a := fun h' => h ((flt_iff _ _).2 h')
    rw [abs_of_nonpos (not_lt.1 this)]

theorem absTotal_nonneg (ws : List (List α)) (i : Nat) : 0 ≤ absTotal ws i := by
  induction ws with
  | nil => exact le_refl _
  | cons w ws ih => exact add_nonneg (abs_nonneg _) ih

/-! ### The scan -/

theorem petScan_top {v : List α} {n d : Nat} (V0 : Nat → α) (h0 : ∀ j, 0 ≤ V0 j) (l : List Nat) (ws : List (List α)) (h : State)
    (S : Nat → Prop) (hws : Vecs n d ws) (hh : Props.Wf h) (hd : h.N + 1 = d) (hd2 : d ≤ 4294967295) (hv : v.length = d)
    (hl : ∀ i ∈ l, i < h.N) (hv0 : ∀ j, j + 1 < d → val v j = V0 j ∨ (val v j = 0 ∧ j ∉ h.pos2id ∧ S j)) (hS : ∀ j, S j → j + 1 < d)
    (ht : Topped less V0 S h) {ws' : List (List α)} {v' : List α} {h' : State} (he : petScan l ws v h = .ok (ws', v', h')) :
    Topped less V0 (fun j => S j ∨ j ∈ l ∨ j ∈ h.pos2id) h' ∧ (∀ j, S j → j ∉ h.pos2id → j ∉ h'.pos2id) ∧
      ∃ Z, ws' = ws.map (zeroIn Z) ∧ v' = zeroIn Z v ∧ ∀ z ∈ Z, z ∉ h'.pos2id := by
  induction l generalizing ws v h S with
  | nil =>
    simp only [petScan, Res.ok.injEq, Prod.mk.injEq] at he
    obtain ⟨rfl, rfl, rfl⟩ := he
    refine ⟨⟨ht.heap, fun j hj hjn => ?_⟩, fun j _ hjn => hjn, [], ?_, (zeroIn_nil _).symm, by simp⟩
    · rcases hj with hj | hj | hj
      · exact ht.top j hj hjn
      · simp at hj
      · exact absurd hj hjn
    · have : zeroIn (α := α) [] = id := funext zeroIn_nil
      rw [this, List.map_id]
  | cons i l ih =>
    obtain ⟨hi, k1, k2, k3⟩ := hh
    have hil := hl i List.mem_cons_self
    have hpl : ∀ j ∈ h.pos2id, j + 1 < d := fun j hj => by
      obtain ⟨p, hp, hpe⟩ := List.getElem_of_mem hj
      have := hi.pos p j (by simp [hp, hpe])
      have := (List.getElem?_eq_some_iff.1 this).1
      rw [hi.lenN] at this
      omega
    have hm0 : at' h.pos2id 0 ∈ h.pos2id := mem_of_at' (by rw [hi.lenK]; omega)
    have hin : ∀ j ∈ h.pos2id, val v j = V0 j := fun j hj => (hv0 j (hpl j hj)).resolve_right fun hc => hc.2.1 hj
    -- the same heap with the current values
    have htv : Topped less (val v) S h := by
      refine ⟨ht.heap.congr (by rw [hi.lenK]; omega) fun j hj => (hin j hj).symm, fun j hj hjn => ?_⟩
      rw [hin _ hm0]
      rcases hv0 j (hS j hj) with e | ⟨e, -⟩
      · rw [e]; exact ht.top j hj hjn
      · rw [e, less_false]; exact h0 _
    obtain ⟨h1, r, hu, hi1, hN1, hK1, t1, t2, t3, t4, t5⟩ :=
      offer_top Props.weak_smaller hi k1 k3 (by omega) (val_drop (v := v) (by omega)) hil htv
    have hup := offer_up Props.weak_smaller hi k1 k3 (val_drop (v := v) (by omega)) hil htv hu
    simp only [petScan] at he
    have hu' : Heap.update less (v.drop 1) h i = .ok (h1, r) := hu
    rw [hu', Res.bind_ok] at he
    simp only at he
    have hh1 : Props.Wf h1 := ⟨hi1, by omega, by omega, by omega⟩
    have hl1 : ∀ j ∈ l, j < h1.N := fun j hj => by rw [hN1]; exact hl j (List.mem_cons_of_mem _ hj)
    have hpl1 : ∀ j ∈ h1.pos2id, j + 1 < d := fun j hj => by
      rcases t3 j hj with h | h
      · exact hpl j h
      · omega
    have hin1 : ∀ j ∈ h1.pos2id, val v j = V0 j := fun j hj =>
      (hv0 j (hpl1 j hj)).resolve_right fun hc => t2 j hc.2.2 hc.2.1 hj
    have hm1 : at' h1.pos2id 0 ∈ h1.pos2id := mem_of_at' (by rw [hi1.lenK]; omega)
    have hS1 : ∀ j, (S j ∨ j = i ∨ j ∈ h.pos2id) → j + 1 < d := fun j hj => by
      rcases hj with hj | hj | hj
      · exact hS j hj
      · omega
      · exact hpl j hj
    have ht1 : Topped less V0 (fun j => S j ∨ j = i ∨ j ∈ h.pos2id) h1 := by
      refine ⟨t1.heap.congr (by rw [hi1.lenK]; omega) hin1, fun j hj hjn => ?_⟩
      rcases hv0 j (hS1 j hj) with e | ⟨e, e2, e3⟩
      · have := t1.top j hj hjn
        rwa [hin1 _ hm1, e] at this
      · have a1 := ht.top j e3 e2
        rw [hin1 _ hm1, hin _ hm0] at hup
        exact (Props.weak_smaller (α := α)).negTrans _ _ _ hup a1
    have hstep : ∀ v1 : List α, (∀ j, j + 1 < d → val v1 j = V0 j ∨ (val v1 j = 0 ∧ j ∉ h1.pos2id ∧ (S j ∨ j = i ∨ j ∈ h.pos2id))) →
        v1.length = d → ∀ ws1, Vecs n d ws1 → petScan l ws1 v1 h1 = .ok (ws', v', h') →
        Topped less V0 (fun j => S j ∨ j ∈ i :: l ∨ j ∈ h.pos2id) h' ∧ (∀ j, S j → j ∉ h.pos2id → j ∉ h'.pos2id) ∧
          (∀ j, (S j ∨ j = i ∨ j ∈ h.pos2id) → j ∉ h1.pos2id → j ∉ h'.pos2id) ∧
          ∃ Z, ws' = ws1.map (zeroIn Z) ∧ v' = zeroIn Z v1 ∧ ∀ z ∈ Z, z ∉ h'.pos2id := by
      intro v1 hv1 hvl ws1 hws1 he1
      obtain ⟨a1, a2, a3⟩ := ih ws1 h1 _ hws1 hh1 (by omega) hvl hl1 hv1 hS1 ht1 he1
      refine ⟨a1.mono fun j hj => ?_, fun j hj hjn => a2 j (.inl hj) (t2 j hj hjn), a2, a3⟩
      rcases hj with hj | hj | hj
      · exact .inl (.inl hj)
      · rcases List.mem_cons.1 hj with hj | hj
        · exact .inl (.inr (.inl hj))
        · exact .inr (.inl hj)
      · exact .inl (.inr (.inr hj))
    split at he
    · obtain ⟨a1, a2, -, a3⟩ := hstep v (fun j hj => (hv0 j hj).imp id fun hc => ⟨hc.1, t2 j hc.2.2 hc.2.1, .inl hc.2.2⟩) hv ws hws he
      exact ⟨a1, a2, a3⟩
    · rename_i hr
      obtain ⟨hrN, hrn, hro⟩ := t4.resolve_left hr
      rw [zeroAt_spec hws (by omega), Res.bind_ok, lset_ok _ (by omega), Res.bind_ok] at he
      have hro' : S r ∨ r = i ∨ r ∈ h.pos2id := by
        rcases hro with h | h
        · exact .inr (.inr h)
        · exact .inr (.inl h)
      obtain ⟨a1, a2, a4, Z, a5, a6, a7⟩ := hstep (v.set (r + 1) 0) (fun j hj => by
        by_cases hjr : j = r
        · subst hjr
          right
          have := val_set_self (v := v) (i := j + 1) (a := 0) (by omega) (by omega)
          exact ⟨this, hrn, hro'⟩
        · rw [val_set_ne (by omega)]
          exact (hv0 j hj).imp id fun hc => ⟨hc.1, t2 j hc.2.2 hc.2.1, .inl hc.2.2⟩) (by simpa using hv) _ (vecs_set hws) he
      refine ⟨a1, a2, r :: Z, ?_, ?_, ?_⟩
      · rw [a5, List.map_map]
        congr 1
        funext w
        exact zeroIn_cons r Z w
      · rw [a6, zeroIn_cons]
      · intro z hz
        rcases List.mem_cons.1 hz with rfl | hz
        · exact a4 z hro' hrn
        · exact a7 z hz

/-! ### The sums of absolute weights -/

/-- The sums fit the weights. -/
def Sums (d : Nat) (w : List (List α)) (v : List α) : Prop := ∀ i : Nat, 1 ≤ i → i < d → v[i]? = some (absTotal w i)

theorem sums_zero {d : Nat} {ws : List (List α)} {v : List α} (Z : List Nat) (h : Sums d ws v) : Sums d (ws.map (zeroIn Z)) (zeroIn Z v) := by
  intro i i1 i2
  unfold zeroIn
  rw [List.getElem?_mapIdx, h i i1 i2]
  simp only [Option.map_some, Option.some.injEq]
  unfold absTotal
  rw [List.map_map]
  split
  · rename_i hz
    clear h
    induction ws with
    | nil => rfl
    | cons w ws ih =>
      simp only [List.map_cons, List.sum_cons, ← ih, Function.comp_apply, List.getElem?_mapIdx, add_zero]
      cases w[i]? with
      | none => simp
      | some a => simp [hz]
  · rename_i hz
    congr 1
    apply List.map_congr_left
    intro w _
    simp only [Function.comp_apply, List.getElem?_mapIdx]
    cases w[i]? with
    | none => rfl
    | some a => simp only [Option.map_some, Option.getD_some]; rw [if_neg hz]

theorem sums_grow {d n m : Nat} {ws : List (List α)} {v : List α} (hdn : d < n) (hw : Vecs m d ws) (hv : v.length = d) (h : Sums d ws v) :
    Sums n (ws.map (growTo d n 0)) (growTo d n 0 v) := by
  intro i i1 i2
  rw [growTo_get hv]
  have e : absTotal (ws.map (growTo d n 0)) i = if i < d then absTotal ws i else 0 := by
    have hw2 := hw.2
    clear h hw hv
    induction ws with
    | nil => simp [absTotal]
    | cons w ws ih =>
      have := ih fun w hw => hw2 w (List.mem_cons_of_mem _ hw)
      simp only [absTotal, List.map_cons, List.sum_cons] at *
      rw [this, growTo_get (hw2 w List.mem_cons_self)]
      split <;> simp
  split
  · rename_i hlt
    rw [h i i1 hlt, e, if_pos hlt]
  · rename_i hlt
    rw [e, if_neg hlt]

theorem absMore_at {d : Nat} {x : SVec α} (hx : Ascending x) (l : List (List α)) (v v' : List α) (hv : v.length = d) (hl : ∀ w ∈ l, w.length = d)
    (h : absMore x l v = .ok v') : v'.length = d ∧ ∀ i : Nat, i < d → v'[i]? = some (match featureAt x i with
      | some _ => v[i]?.getD 0 + absTotal l i
      | none => v[i]?.getD 0) := by
  induction l generalizing v with
  | nil =>
    obtain rfl := Res.ok.inj h
    refine ⟨hv, fun i hi => ?_⟩
    have : v[i]? = some (v[i]?.getD 0) := by simp [hv, hi]
    rw [this]
    cases featureAt x i <;> simp [absTotal]
  | cons w l ih =>
    have hwl := hl w List.mem_cons_self
    simp only [absMore] at h
    rw [calcExp_closed (fun i _ _ => absOp (w[i]?.getD 0)) hx fun w' i y a _ h1 h2 _ => by
      rw [lget_ok (by omega)]
      simp [show i < w.length by omega], Res.bind_ok] at h
    obtain ⟨q1, q2⟩ := ih _ (by simpa using hv) (fun w hw => hl w (List.mem_cons_of_mem _ hw)) h
    refine ⟨q1, fun i hi => ?_⟩
    rw [q2 i hi, List.getElem?_mapIdx]
    have : v[i]? = some (v[i]?.getD 0) := by simp [hv, hi]
    rw [this]
    simp only [Option.map_some, touch, Option.getD_some, absTotal, List.map_cons, List.sum_cons, absOp_eq]
    cases featureAt x i with
    | none => rfl
    | some y => simp only [add_assoc]

theorem absAt_at {n d : Nat} {x : SVec α} (hx : Ascending x) (hn : 1 ≤ n) (l : List (List α)) (v v' : List α) (hv : v.length = d)
    (hl : Vecs n d l) (h : absAt x l v = .ok v') : v'.length = d ∧ ∀ i : Nat, i < d → v'[i]? = some (match featureAt x i with
      | some _ => absTotal l i
      | none => v[i]?.getD 0) := by
  cases l with
  | nil => simp [Vecs] at hl; omega
  | cons w l =>
    have hwl := hl.2 w List.mem_cons_self
    simp only [absAt] at h
    rw [calcExp_closed (fun i _ _ => absOp (w[i]?.getD 0)) hx fun w' i y a _ h1 h2 _ => by
      rw [lget_ok (by omega)]
      simp [show i < w.length by omega], Res.bind_ok] at h
    obtain ⟨q1, q2⟩ := absMore_at hx _ _ _ (by simpa using hv) (fun w hw => hl.2 w (List.mem_cons_of_mem _ hw)) h
    refine ⟨q1, fun i hi => ?_⟩
    rw [q2 i hi, List.getElem?_mapIdx]
    have : v[i]? = some (v[i]?.getD 0) := by simp [hv, hi]
    rw [this]
    simp only [Option.map_some, touch, Option.getD_some, absTotal, List.map_cons, List.sum_cons, absOp_eq]
    cases featureAt x i <;> rfl

theorem absAll_at {d : Nat} (l : List (List α)) (v v' : List α) (hv : v.length = d) (hl : ∀ w ∈ l, w.length = d) (h : absAll l v = .ok v')
    {i : Nat} (hi : i < d) : v'[i]? = some (v[i]?.getD 0 + absTotal l i) := by
  induction l generalizing v with
  | nil =>
    rw [← Res.ok.inj h]
    simp [absTotal, hv, hi]
  | cons w l ih =>
    have hwl := hl w List.mem_cons_self
    simp only [absAll, dense2, hv, hwl, if_true, Res.bind_ok] at h
    rw [ih _ (by simp [hv, hwl]) (fun w hw => hl w (List.mem_cons_of_mem _ hw)) h]
    simp only [absTotal, List.map_cons, List.sum_cons, List.getElem?_zipWith, hv, hwl, hi, List.getElem?_eq_getElem, Option.getD_some, absOp_eq]
    rw [add_assoc]

/-! ### The state between examples -/

/-- Budget and up-to-date sums. -/
def petTop (B d : Nat) (w : List (List α)) (a : PetSt α) : Prop := petKept B d w a ∧ Sums d w a.absW

/-- The features in the heap. -/
def petHeld (a : PetSt α) : List Nat := a.heap.pos2id.map (· + 1)

/-- The weights of the others are deleted, and none of them was larger than one that is kept. -/
def PetCut (B : Nat) (s : St α (PetSt α)) (v : St α Unit) : Prop :=
  Cut (fun _ => ()) petHeld s v ∧ Leading s.dim B (absTotal v.w) (petHeld s.alg)

theorem held_leading {B d : Nat} {h : State} (hh : HeapFit B d h) {worth : Nat → α}
    (hb : ∀ i ∈ h.pos2id, ∀ j, j + 1 < d → j ∉ h.pos2id → worth (j + 1) ≤ worth (i + 1)) :
    Leading d B worth (h.pos2id.map (· + 1)) := by
  have hlt := pos2id_lt hh
  refine ⟨?_, ?_, fun i hi' => ?_, fun i hi' j j1 j2 hj => ?_⟩
  · rw [List.length_map, hh.wf.1.lenK, hh.K]
  · exact (Props.Tab.nodup hh.wf.1).map (fun a b h => by simpa using h)
  · obtain ⟨k, hk, rfl⟩ := List.mem_map.1 hi'
    exact ⟨by omega, hlt k hk⟩
  · obtain ⟨k, hk, rfl⟩ := List.mem_map.1 hi'
    have hj' : j - 1 ∉ h.pos2id := fun hm => hj (List.mem_map.2 ⟨j - 1, hm, by omega⟩)
    have := hb k hk (j - 1) (by omega) hj'
    rwa [Nat.sub_add_cancel j1] at this

theorem absTotal_zero {ws : List (List α)} {i : Nat} (h : ∀ w ∈ ws, ∀ a, w[i]? = some a → a = 0) : absTotal ws i = 0 := by
  induction ws with
  | nil => rfl
  | cons w ws ih =>
    have : w[i]?.getD 0 = 0 := by
      cases e : w[i]? with
      | none => rfl
      | some a => exact h w List.mem_cons_self a e
    simp only [absTotal, List.map_cons, List.sum_cons, this, abs_zero, zero_add]
    exact ih fun w hw => h w (List.mem_cons_of_mem _ hw)

/-- Weights of the heap only. -/
theorem pet_idle {c : Cfg α} {B : Nat} (s : St α (PetSt α)) (hs : FitW c (petTop B) s) : PetCut B s (withOwn s ()) := by
  refine ⟨?_, held_leading hs.alg.1.1.2 fun i hi j hj hjn => ?_⟩
  · unfold Cut withOwn petHeld
    simp only
    rw [only_self hs.alg.1.2]
  · refine le_trans (le_of_eq (absTotal_zero fun w hw a ha => ?_)) (absTotal_nonneg _ _)
    by_contra hne
    exact hjn (hs.alg.1.2 w hw j a ha hne)

theorem step_same {k b : α} {x : SVec α} {w w' : List α} (h : step k b x w = .ok w') : SameOff x w w' := by
  unfold step at h
  simp only [Res.bind_eq_ok] at h
  obtain ⟨w1, h1, h2⟩ := h
  exact fun i hi => (atBias_same h2 i).trans (calcExp_same h1 i hi)

theorem absTotal_same {x : SVec α} {u v : List (List α)} (h : List.Forall₂ (SameOff x) u v) {i : Nat} (hi : ∀ p ∈ x, p.1 ≠ i + 1) :
    absTotal v (i + 1) = absTotal u (i + 1) := by
  induction h with
  | nil => rfl
  | cons h1 _ ih => simp only [absTotal, List.map_cons, List.sum_cons, h1 i hi] at ih ⊢; rw [ih]

theorem pet_update {c : Cfg α} (hc : 1 ≤ c.clf) {eta0 : α} {pow : Int → α} {B : Nat} (hB : 1 ≤ B) {s s' : St α (PetSt α)} {x : SVec α} {l : α}
    (hs : FitW c (petTop B) s) (hx : Proper x) (hd : Sparse.dim x ≤ s.dim) (h : (pet eta0 pow B).update c s x l = .ok s') :
    FitW c (petTop B) s' ∧ Same s s' ∧ ∃ v, (ogd eta0 pow).update c (withOwn s ()) x l = .ok v ∧ PetCut B s' v := by
  have hk : FitW c (petKept B) s := ⟨hs.dim, hs.dimMax, hs.w, hs.g, hs.alg.1⟩
  obtain ⟨s1, h1, h2, h3⟩ := (able_pet c hc eta0 pow hB).update s x l hk hx hd
  rw [h] at h1
  obtain rfl := Res.ok.inj h1
  suffices hh : Sums s'.dim s'.w s'.alg.absW ∧ ∃ v, (ogd eta0 pow).update c (withOwn s ()) x l = .ok v ∧ PetCut B s' v from
    ⟨⟨h2.dim, h2.dimMax, h2.w, h2.g, h2.alg, hh.1⟩, h3, hh.2⟩
  simp only [pet, etaStep, petSelect, if_pos (show 0 < B by omega), Res.bind_eq_ok] at h
  obtain ⟨s2, ⟨w, e1, e2⟩, v, e3, hb, e4, ⟨w', v', h'⟩, e5, e6⟩ := h
  obtain rfl := Res.ok.inj e2
  obtain rfl := Res.ok.inj e6
  simp only at e3 e4 e5 h2
  obtain ⟨⟨ha1, ha2⟩, ha3⟩ := hs.alg.1
  have hwv : Vecs c.clf s.dim w := by
    obtain ⟨w1, q1, q2⟩ := gives_each1 (P := fun v : List α => v.length = s.dim)
      (fun g v hv => gives_step (eta0 / pow s.t * g) (c.biasEta0 * (eta0 / pow s.t) * g) hx.1 hs.dim hv) s.g s.w hs.w.2
    have e1' : each1 (fun g w => step (eta0 / pow s.t * g) (c.biasEta0 * (eta0 / pow s.t) * g) x w) s.g s.w = .ok w := e1
    rw [e1'] at q1
    obtain rfl := Res.ok.inj q1
    exact ⟨q2.1.trans hs.w.1, q2.2⟩
  have hoff : List.Forall₂ (SameOff x) s.w w := each1_rel (Q := SameOff x) (fun _ _ _ => rfl) (fun g u u' h => step_same h) _ _ _ e1
  obtain ⟨hvl, hva⟩ := absAt_at hx.1.1 hc w s.alg.absW v ha1 hwv e3
  have hsum : Sums s.dim w v := by
    intro i i1 i2
    rw [hva i i2]
    cases hf : featureAt x i with
    | some y => rfl
    | none =>
      obtain ⟨j, rfl⟩ : ∃ j, i = j + 1 := ⟨i - 1, by omega⟩
      simp only [hs.alg.2 (j + 1) i1 i2, Option.getD_some, Option.some.injEq]
      exact (absTotal_same hoff (featureAt_none hf)).symm
  obtain ⟨hi, k1, k2, k3⟩ := ha2.wf
  have hN := ha2.N
  have hK := ha2.K
  obtain ⟨hb', q1, q2, q3, q4, q5, q6⟩ := build_spec less hi k1 k3 (val_drop (v := v) (by omega))
  rw [e4] at q1
  obtain rfl := Res.ok.inj q1
  have hval : ∀ j, j + 1 < s.dim → val v j = absTotal w (j + 1) := fun j hj => by
    unfold val
    rw [hsum (j + 1) (by omega) hj]
    rfl
  have hbf : HeapFit B s.dim hb := ⟨⟨q2, by omega, by omega, by omega⟩, by omega, by omega⟩
  have htop : Topped less (fun j => absTotal w (j + 1)) (fun _ => False) hb := by
    refine ⟨?_, fun _ h => h.elim⟩
    have := q6 Props.weak_smaller
    rw [q4]
    exact this.congr (by rw [q2.lenK]; omega) fun j hj => hval j (pos2id_lt hbf j hj)
  obtain ⟨t1, t2, Z, z1, z2, z3⟩ := petScan_top (fun j => absTotal w (j + 1)) (fun j => absTotal_nonneg _ _) (List.range (s.dim - 1)) w hb
    (fun _ => False) hwv hbf.wf (by omega) hs.dimMax hvl (fun i hi => by simp only [List.mem_range] at hi; omega)
    (fun j hj => .inl (hval j hj)) (fun _ h => h.elim) htop e5
  refine ⟨?_, ?_⟩
  · show Sums s.dim w' v'
    rw [z1, z2]
    exact sums_zero Z hsum
  · have e1' : each1 (fun g w => step (eta0 / pow s.t * g) (biasEta c { withOwn s () with eta := eta0 / pow s.t } * g) x w)
      (withOwn s ()).g (withOwn s ()).w = .ok w := e1
    refine ⟨{ withOwn s () with eta := eta0 / pow s.t, w := w }, ?_, ?_, ?_⟩
    · show etaStep c { withOwn s () with eta := eta0 / pow s.t } x = _
      unfold etaStep
      simp only
      have e1'' : each1 (fun g w => step (eta0 / pow s.t * g) (biasEta c { withOwn s () with eta := eta0 / pow s.t } * g) x w)
        (withOwn s ()).g (withOwn s ()).w = .ok w := e1
      rw [e1'']
      rfl
    · have hin := h2.alg.2
      simp only at hin
      subst z1
      unfold Cut withOwn petHeld
      simp only
      rw [only_of_zeroIn z3 hin]
    · have hhf := h2.alg.1.2
      simp only at hhf
      refine held_leading hhf fun i hi j hj hjn => ?_
      have := t1.best Props.weak_smaller hhf.wf.1 hi hjn (.inr (.inl (by simp only [List.mem_range]; omega)))
      exact less_false.1 this

theorem able_pet_top (c : Cfg α) (hc : 1 ≤ c.clf) (eta0 : α) (pow : Int → α) {B : Nat} (hB : 1 ≤ B) :
    Able c (pet eta0 pow B) Proper (FitW c (petTop B)) (fun _ => FitW c (petTop B)) := by
  refine able_of (fun _ _ => rfl) (fun _ _ => rfl) (fun _ _ => rfl) (fun _ _ => rfl)
    (fun d n w a _ hdn hw h => ⟨petKept_grow d n w a hdn hw h.1, sums_grow hdn hw h.1.1.1 h.2⟩) fun s x l h hx hd => ?_
  obtain ⟨s1, h1, -⟩ := (able_pet c hc eta0 pow hB).update s x l ⟨h.dim, h.dimMax, h.w, h.g, h.alg.1⟩ hx hd
  have := pet_update hc hB h hx hd h1
  exact ⟨s1, h1, this.1, this.2.1⟩

/-- PET beside OGD. -/
theorem pet_beside {c : Cfg α} (hk : Matches c.kind c.clf) {eta0 : α} {pow : Int → α} {B : Nat} (hB : 1 ≤ B) {s s' : St α (PetSt α)}
    (hs : FitW c (petTop B) s) {e : Ex α} {rnd : α} (hx : Proper e.x) (hl : LabelOk c.clf e.label)
    (h : trainOne (pet eta0 pow B) c s e rnd = .ok s') :
    ∃ v, trainOne (ogd eta0 pow) c (withOwn s ()) e rnd = .ok v ∧ PetCut B s' v :=
  side_by_side (able_pet_top c (Props.clf_pos hk) eta0 pow hB) hk (fun _ => ()) (PetCut B)
    (fun _ _ => rfl) (fun _ _ => rfl) (fun _ _ => rfl) (fun _ _ => rfl) (fun _ _ => rfl) (fun _ _ => rfl) (fun _ _ => rfl) (fun _ _ => rfl)
    (fun _ _ _ => rfl) (fun s hs => pet_idle s hs) (fun s v n h => ⟨cut_count s v n h.1, h.2⟩) (fun s v h => cut_err s v h.1)
    (fun s x l s' hs hx hd h => (pet_update (Props.clf_pos hk) hB hs hx hd h).2.2) hs hx hl h

theorem petBegin_top {c : Cfg α} {G : Alg α (PetSt α)} (hG : G.grow = petGrow) {B : Nat} {s : St α (PetSt α)}
    (h : Ready c B s) (h0 : Inside s.w fun _ => False) : Gives (petBegin G B s) (fun s' => FitW c (petTop B) s') := by
  obtain ⟨s', e, q1, q2, q3, -⟩ := gives_petBegin hG h h0
  refine ⟨s', e, q1.dim, q1.dimMax, q1.w, q1.g, ⟨q2, q3.mono fun _ h => h.elim⟩, ?_⟩
  have hB := h.budget.1
  unfold petBegin at e
  rw [if_pos (by omega)] at e
  simp only at e
  generalize updateDim G _ ((B + 1) % 4294967296) = s1 at e
  simp only [Res.bind_eq_ok] at e
  obtain ⟨v, k1, hp, k2, k3⟩ := e
  obtain rfl := Res.ok.inj k3
  intro i i1 i2
  have hvl := q2.1
  simp only at hvl i2 ⊢
  have hlen : s1.alg.absW.length = s1.dim := by
    have : ∀ (l : List (List α)) (v v' : List α), absAll l v = .ok v' → v'.length = v.length := by
      intro l
      induction l with
      | nil => intro v v' h; rw [← Res.ok.inj h]
      | cons w l ih =>
        intro v v' h
        simp only [absAll, Res.bind_eq_ok] at h
        obtain ⟨v1, h1, h2⟩ := h
        unfold dense2 at h1
        split at h1
        · rw [ih _ _ h2, ← Res.ok.inj h1]
          simp [*]
        · simp at h1
    have := this _ _ _ k1
    simp only [List.length_replicate] at this
    omega
  rw [absAll_at (d := s1.dim) _ _ _ (by simpa using hlen) q1.w.2 k1 i2]
  simp [hlen, i2]

end Sol.Select
