import Verif.Proofs.Leading
/-! The loops that change the values, move them in the heap and delete what the heap returns. -/

set_option linter.unusedSectionVars false
set_option linter.unusedVariables false

namespace Sol.Select

open Sol.Online Sol.Sparse Sol.Loss Sol.Olm Sol.Spec Sol.Heap

variable {α A : Type} [Field α] [LinearOrder α] [IsStrictOrderedRing α] [FFun α] [FSqrt α]

/-- The value of a heap id in a dense vector. -/
def val (v : List α) (id : Nat) : α := v[id + 1]?.getD 0

theorem val_drop {v : List α} {N : Nat} (h : v.length = N + 1) : ∀ id, id < N → (v.drop 1)[id]? = some (val v id) := by
  intro id hid
  have hlt : id + 1 < v.length := by omega
  rw [List.getElem?_drop, Nat.add_comm 1 id, List.getElem?_eq_getElem hlt]
  simp [val, hlt]

theorem val_set_ne {v : List α} {i j : Nat} {a : α} (h : j + 1 ≠ i) : val (v.set i a) j = val v j := by
  unfold val
  rw [List.getElem?_set_ne (fun e => h e.symm)]

theorem val_set_self {v : List α} {i : Nat} {a : α} (h1 : 1 ≤ i) (h : i < v.length) : val (v.set i a) (i - 1) = a := by
  unfold val
  rw [Nat.sub_add_cancel h1, List.getElem?_set_self h]
  rfl

/-- What the comparison, the first value and the values have to do with each other. -/
structure Sense (cmp : α → α → Bool) (init : α) (P : α → Prop) : Prop where
  weak : Weak cmp
  add : ∀ a b a' b', cmp b a = false → cmp b' a' = false → cmp (b + b') (a + a') = false
  worst : ∀ a, P a → cmp a init = false
  first : P init

theorem _root_.Sol.Heap.Topped.at_bias {cmp : α → α → Bool} {v v' : List α} {S : Nat → Prop} {h : State} (ht : Topped cmp (val v) S h)
    (hv : ∀ i : Nat, v'[i + 1]? = v[i + 1]?) : Topped cmp (val v') S h := by
  have : val v' = val v := by
    funext i
    unfold val
    rw [hv i]
  rw [this]
  exact ht

/-- A better value at feature `i`. -/
theorem resettle_top {cmp : α → α → Bool} (hw : Weak cmp) {v v' : List α} {B d : Nat} {h h' : State} {S : Nat → Prop}
    (hh : HeapFit B d h) (hv : v.length = d) {i : Nat} (hi1 : 1 ≤ i) (hi : i < d) (hd2 : d ≤ 4294967295) {b : α}
    (hv' : v' = v.set i b) (hb : cmp b (val v (i - 1)) = false) (ht : Topped cmp (val v) S h)
    (he : resettle cmp (v'.drop 1) B h i = .ok h') :
    Topped cmp (val v') (fun j => S j ∧ j ≠ i - 1) h' := by
  obtain ⟨hi0, k1, k2, k3⟩ := hh.wf
  have hN := hh.N
  have hK := hh.K
  have hl := hi0.lenN
  have hlen : v'.length = d := by rw [hv', List.length_set]; exact hv
  have hne : ∀ j, j ≠ i - 1 → val v' j = val v j := fun j hj => by rw [hv']; exact val_set_ne (by omega)
  have hself : val v' (i - 1) = b := by rw [hv']; exact val_set_self hi1 (by omega)
  unfold resettle at he
  rw [prev_eq hi1 (by omega)] at he
  obtain ⟨pos, e1, e2⟩ := Res.bind_eq_ok.1 he
  rw [lget_eq_ok] at e1
  split at e2
  · rename_i hp
    have hlast : last B = B - 1 := last_eq (by omega) (by omega)
    rw [hlast, ← hK] at e2
    obtain ⟨h'', ea, -, -, -, -, et⟩ := adjust_top hw hi0 k1 (val_drop (v := v') (by omega)) e1 (by omega) hne
      (by rw [hself]; exact hb) ht
    rw [e2] at ea
    obtain rfl := Res.ok.inj ea
    exact et
  · rename_i hp
    obtain rfl := Res.ok.inj e2
    have hout : i - 1 ∉ h.pos2id := by
      intro hm
      obtain ⟨p, hp1, hp2⟩ := List.getElem_of_mem hm
      have h2 := hi0.pos p (i - 1) (by simp [hp1, hp2])
      rw [e1] at h2
      obtain rfl := Option.some.inj h2
      rw [hi0.lenK] at hp1
      omega
    have hin : ∀ j ∈ h.pos2id, val v j = val v' j := fun j hj => (hne j fun e => hout (e ▸ hj)).symm
    refine ⟨ht.heap.congr (by rw [hi0.lenK]; omega) hin, fun j hj hjn => ?_⟩
    rw [hne j hj.2, ← hin _ (mem_of_at' (by rw [hi0.lenK]; omega))]
    exact ht.top j hj.1 hjn

/-- The loop of the case of one class. -/
theorem settleOne_top {cmp : α → α → Bool} (hw : Weak cmp) {P : α → Prop} {f : α → α → α}
    (hf : ∀ a y, P a → P (f a y) ∧ cmp (f a y) a = false) {B d : Nat} (hd2 : d ≤ 4294967295) (x : SVec α)
    (hx : ∀ p ∈ x, 1 ≤ p.1 ∧ p.1 < d) (sig : List α) (h : State) (S : Nat → Prop) (hh : HeapFit B d h) (hs : sig.length = d)
    (hP : ∀ a ∈ sig, P a) (ht : Topped cmp (val sig) S h) {sig' : List α} {h' : State}
    (he : settleOne cmp f B x sig h = .ok (sig', h')) :
    (∀ a ∈ sig', P a) ∧ Topped cmp (val sig') (fun j => S j ∧ j ∉ ids x) h' ∧
      calcLoop (fun _ r => r) (fun w i y => do let a ← lget w i; .ok (f a y)) x sig = .ok sig' := by
  induction x generalizing sig h S with
  | nil =>
    obtain ⟨rfl, rfl⟩ := Prod.mk.inj (Res.ok.inj he)
    exact ⟨hP, ht.mono fun j hj => hj.1, rfl⟩
  | cons p x ih =>
    obtain ⟨i, y⟩ := p
    obtain ⟨h1, h2⟩ := hx (i, y) List.mem_cons_self
    simp only at h1 h2
    simp only [settleOne, Res.bind_eq_ok] at he
    obtain ⟨a, e1, sig1, e2, h1', e3, e4⟩ := he
    have e1' := lget_eq_ok.1 e1
    obtain ⟨-, rfl⟩ := lset_eq_ok.1 e2
    have ha : val sig (i - 1) = a := by
      unfold val
      rw [Nat.sub_add_cancel h1, e1']
      rfl
    have hPa := hP a (List.mem_of_getElem? e1')
    obtain ⟨h'', e5, hh1, -⟩ := resettle_spec cmp hh (vals := (sig.set i (f a y)).drop 1) (by simp; omega) h1 h2 hd2
    rw [e3] at e5
    obtain rfl := Res.ok.inj e5
    have ht1 := resettle_top hw hh hs h1 h2 hd2 rfl (by rw [ha]; exact (hf a y hPa).2) ht e3
    obtain ⟨a1, a2, a3⟩ := ih (fun p hp => hx p (List.mem_cons_of_mem _ hp)) _ h1' _ hh1 (by simpa using hs) (fun b hb => by
      rcases List.mem_or_eq_of_mem_set hb with hb | rfl
      · exact hP b hb
      · exact (hf a y hPa).1) ht1 e4
    refine ⟨a1, a2.mono fun j hj => ⟨⟨hj.1, fun e => hj.2 ?_⟩, fun hm => hj.2 (List.mem_cons_of_mem _ hm)⟩, ?_⟩
    · rw [e]
      have : prev i = i - 1 := prev_eq h1 (by omega)
      rw [← this]
      exact List.mem_cons_self
    · simp only [calcLoop, e1, Res.bind_ok, lset_ok (w := sig) (i := i) (f a y) (by omega), a3]

/-- The sum over the classes at a feature. -/
theorem sumAt_total {i d : Nat} (hi : i < d) (l : List (List α)) (v : α) (hl : ∀ w ∈ l, w.length = d) :
    sumAt i l v = .ok (v + total l i) := by
  induction l generalizing v with
  | nil => simp [sumAt, total]
  | cons w l ih =>
    have hw := hl w List.mem_cons_self
    simp only [sumAt, lget_ok (w := w) (i := i) (by omega), Res.bind_ok]
    rw [ih _ fun w hw => hl w (List.mem_cons_of_mem _ hw)]
    congr 1
    have : w[i]?.getD 0 = w[i] := by simp [hw, hi]
    simp only [total, List.map_cons, List.sum_cons, this]
    ring

/-- The loop of the case of several classes. -/
theorem settleSum_top {cmp : α → α → Bool} (hw : Weak cmp) {sigs : List (List α)} {B d : Nat} (hd2 : d ≤ 4294967295)
    (hsig : ∀ w ∈ sigs, w.length = d) (x : SVec α) (hx : ∀ p ∈ x, 1 ≤ p.1 ∧ p.1 < d) (sum : List α) (h : State) (S : Nat → Prop)
    (hh : HeapFit B d h) (hs : sum.length = d) (hb : ∀ j, j + 1 < d → cmp (total sigs (j + 1)) (val sum j) = false)
    (ht : Topped cmp (val sum) S h) {sum' : List α} {h' : State} (he : settleSum cmp sigs B x sum h = .ok (sum', h')) :
    sum'.length = d ∧ Topped cmp (val sum') (fun j => S j ∧ j ∉ ids x) h' ∧
      ∀ i : Nat, 1 ≤ i → i < d → (sum[i]? = some (total sigs i) ∨ ∃ p ∈ x, p.1 = i) → sum'[i]? = some (total sigs i) := by
  induction x generalizing sum h S with
  | nil =>
    obtain ⟨rfl, rfl⟩ := Prod.mk.inj (Res.ok.inj he)
    exact ⟨hs, ht.mono fun j hj => hj.1, fun i _ _ h => h.elim id fun ⟨p, hp, _⟩ => by simp at hp⟩
  | cons p x ih =>
    obtain ⟨i, y⟩ := p
    obtain ⟨h1, h2⟩ := hx (i, y) List.mem_cons_self
    simp only at h1 h2
    simp only [settleSum, sumAt_total h2 sigs 0 hsig, Res.bind_ok, zero_add, lset_ok (w := sum) (i := i) (total sigs i) (by omega)] at he
    obtain ⟨h1', e3, e4⟩ := Res.bind_eq_ok.1 he
    obtain ⟨h'', e5, hh1, -⟩ := resettle_spec cmp hh (vals := (sum.set i (total sigs i)).drop 1) (by simp; omega) h1 h2 hd2
    rw [e3] at e5
    obtain rfl := Res.ok.inj e5
    have ht1 := resettle_top hw hh hs h1 h2 hd2 rfl (by have := hb (i - 1) (by omega); rwa [Nat.sub_add_cancel h1] at this) ht e3
    obtain ⟨a1, a2, a3⟩ := ih (fun p hp => hx p (List.mem_cons_of_mem _ hp)) _ h1' _ hh1 (by simpa using hs) (fun j hj => by
      by_cases hji : j + 1 = i
      · have : j = i - 1 := by omega
        rw [hji, this, val_set_self h1 (by omega)]
        exact hw.irr _
      · rw [val_set_ne hji]
        exact hb j hj) ht1 e4
    refine ⟨a1, a2.mono fun j hj => ⟨⟨hj.1, fun e => hj.2 ?_⟩, fun hm => hj.2 (List.mem_cons_of_mem _ hm)⟩, fun k k1 k2 hk => a3 k k1 k2 ?_⟩
    · rw [e]
      have : prev i = i - 1 := prev_eq h1 (by omega)
      rw [← this]
      exact List.mem_cons_self
    · by_cases hki : k = i
      · subst hki
        exact .inl (List.getElem?_set_self (by omega))
      · rcases hk with hk | ⟨p, hp, hpk⟩
        · exact .inl (by rw [List.getElem?_set_ne (fun e => hki e.symm)]; exact hk)
        · rcases List.mem_cons.1 hp with rfl | hp
          · exact absurd hpk.symm hki
          · exact .inr ⟨p, hp, hpk⟩

/-- A vector with zeros at the ids `Z`. -/
def zeroIn (Z : List Nat) (w : List α) : List α := w.mapIdx fun i a => if 1 ≤ i ∧ i - 1 ∈ Z then 0 else a

theorem zeroIn_nil (w : List α) : zeroIn [] w = w := by
  unfold zeroIn
  apply List.ext_getElem?
  intro i
  rw [List.getElem?_mapIdx]
  cases w[i]? <;> simp

theorem zeroIn_cons (r : Nat) (Z : List Nat) (w : List α) : zeroIn Z (w.set (r + 1) 0) = zeroIn (r :: Z) w := by
  unfold zeroIn
  apply List.ext_getElem?
  intro i
  rw [List.getElem?_mapIdx, List.getElem?_mapIdx, List.getElem?_set]
  by_cases h : r + 1 = i
  · subst h
    rw [if_pos rfl]
    by_cases hl : r + 1 < w.length
    · simp [hl]
    · simp [hl]
  · rw [if_neg h]
    cases w[i]? with
    | none => rfl
    | some a =>
      simp only [Option.map_some, List.mem_cons]
      have : i - 1 = r → ¬ 1 ≤ i := fun e h1 => h (by omega)
      by_cases h1 : 1 ≤ i
      · have hne : i - 1 ≠ r := fun e => this e h1
        simp [hne]
      · simp [h1]

/-- The loop that offers ids and deletes what comes back. -/
theorem prune_top {cmp : α → α → Bool} (hw : Weak cmp) {v : List α} {n d : Nat} (l : List Nat) (ws : List (List α)) (h : State)
    (S : Nat → Prop) (hws : Vecs n d ws) (hh : Props.Wf h) (hd : h.N + 1 = d) (hd2 : d ≤ 4294967295) (hv : v.length = d)
    (hl : ∀ i ∈ l, i < h.N) (ht : Topped cmp (val v) S h) {ws' : List (List α)} {h' : State}
    (he : prune cmp (v.drop 1) l ws h = .ok (ws', h')) :
    Topped cmp (val v) (fun j => S j ∨ j ∈ l ∨ j ∈ h.pos2id) h' ∧ (∀ j, S j → j ∉ h.pos2id → j ∉ h'.pos2id) ∧
      ∃ Z, ws' = ws.map (zeroIn Z) ∧ ∀ z ∈ Z, z ∉ h'.pos2id := by
  induction l generalizing ws h S with
  | nil =>
    obtain ⟨rfl, rfl⟩ := Prod.mk.inj (Res.ok.inj he)
    refine ⟨⟨ht.heap, fun j hj hjn => ?_⟩, fun j _ hjn => hjn, [], ?_, by simp⟩
    · rcases hj with hj | hj | hj
      · exact ht.top j hj hjn
      · simp at hj
      · exact absurd hj hjn
    · have : zeroIn (α := α) [] = id := funext zeroIn_nil
      rw [this, List.map_id]
  | cons i l ih =>
    obtain ⟨hi, k1, k2, k3⟩ := hh
    have hil := hl i List.mem_cons_self
    obtain ⟨h1, r, hu, hi1, hN1, hK1, t1, t2, t3, t4, t5⟩ := offer_top hw hi k1 k3 (by omega) (val_drop (v := v) (by omega)) hil ht
    simp only [prune, hu, Res.bind_ok] at he
    have hh1 : Props.Wf h1 := ⟨hi1, by omega, by omega, by omega⟩
    have hl1 : ∀ j ∈ l, j < h1.N := fun j hj => by rw [hN1]; exact hl j (List.mem_cons_of_mem _ hj)
    split at he
    · obtain ⟨a1, a2, Z, a3, a4⟩ := ih ws h1 _ hws hh1 (by omega) hl1 t1 he
      refine ⟨a1.mono fun j hj => ?_, fun j hj hjn => a2 j (.inl hj) (t2 j hj hjn), Z, a3, a4⟩
      rcases hj with hj | hj | hj
      · exact .inl (.inl hj)
      · rcases List.mem_cons.1 hj with hj | hj
        · exact .inl (.inr (.inl hj))
        · exact .inr (.inl hj)
      · exact .inl (.inr (.inr hj))
    · rename_i hr
      obtain ⟨hrN, hrn, hro⟩ := t4.resolve_left hr
      rw [zeroAt_spec hws (by omega), Res.bind_ok] at he
      obtain ⟨a1, a2, Z, a3, a4⟩ := ih _ h1 _ (vecs_set hws) hh1 (by omega) hl1 t1 he
      refine ⟨a1.mono fun j hj => ?_, fun j hj hjn => a2 j (.inl hj) (t2 j hj hjn), r :: Z, ?_, ?_⟩
      · rcases hj with hj | hj | hj
        · exact .inl (.inl hj)
        · rcases List.mem_cons.1 hj with hj | hj
          · exact .inl (.inr (.inl hj))
          · exact .inr (.inl hj)
        · exact .inl (.inr (.inr hj))
      · rw [a3, List.map_map]
        congr 1
        funext w
        exact zeroIn_cons r Z w
      · intro z hz
        rcases List.mem_cons.1 hz with rfl | hz
        · refine a2 z ?_ hrn
          rcases hro with h | h
          · exact .inr (.inr h)
          · exact .inr (.inl h)
        · exact a4 z hz

/-- Zeros outside the heap and nothing else: the weights of the heap. -/
theorem only_of_zeroIn {ws : List (List α)} {Z : List Nat} {h : State} (hZ : ∀ z ∈ Z, z ∉ h.pos2id)
    (hin : Inside (ws.map (zeroIn Z)) (· ∈ h.pos2id)) : ws.map (zeroIn Z) = ws.map (only (h.pos2id.map (· + 1))) := by
  apply List.map_congr_left
  intro w hw
  have hin' := hin (zeroIn Z w) (List.mem_map.2 ⟨w, hw, rfl⟩)
  apply List.ext_getElem?
  intro i
  unfold zeroIn only at *
  rw [List.getElem?_mapIdx, List.getElem?_mapIdx]
  cases hwi : w[i]? with
  | none => rfl
  | some a =>
    simp only [Option.map_some, Option.some.injEq]
    cases i with
    | zero => simp
    | succ i =>
      have hm : i + 1 ∈ h.pos2id.map (· + 1) ↔ i ∈ h.pos2id := by simp
      by_cases hi : i ∈ h.pos2id
      · rw [if_neg (fun hc => hZ i (by simpa using hc.2) hi), if_pos (.inr (hm.2 hi))]
      · rw [if_neg (c := i + 1 = 0 ∨ i + 1 ∈ h.pos2id.map (· + 1)) (by rw [hm]; simp [hi])]
        by_contra hne
        exact hi (hin' i _ (by rw [List.getElem?_mapIdx, hwi]; rfl) hne)

/-- The same for weights that are inside the heap already. -/
theorem only_self {ws : List (List α)} {h : State} (hin : Inside ws (· ∈ h.pos2id)) : ws.map (only (h.pos2id.map (· + 1))) = ws := by
  have := only_of_zeroIn (Z := []) (h := h) (by simp) (by
    have e : zeroIn (α := α) [] = id := funext zeroIn_nil
    rw [e, List.map_id]
    exact hin)
  rw [← this]
  have e : zeroIn (α := α) [] = id := funext zeroIn_nil
  rw [e, List.map_id]

end Sol.Select
