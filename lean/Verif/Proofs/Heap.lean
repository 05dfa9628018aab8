import Verif.Model.Heap
/-! Facts about the heap model. -/

namespace Sol.Heap

variable {α : Type}

/-- The two tables are inverse to each other: position `p < K` holds the id whose recorded position is `p`. -/
structure Tab (h : State) : Prop where
  lenK : h.pos2id.length = h.K
  lenN : h.id2pos.length = h.N
  pos : ∀ p id : Nat, h.pos2id[p]? = some id → h.id2pos[id]? = some p
  id : ∀ id p : Nat, h.id2pos[id]? = some p → p < h.K → h.pos2id[p]? = some id

theorem Tab.get {h : State} (hi : Tab h) {p : Nat} (hp : p < h.K) :
    ∃ id, h.pos2id[p]? = some id ∧ id < h.N ∧ h.id2pos[id]? = some p := by
  have hp' : p < h.pos2id.length := by rw [hi.lenK]; exact hp
  refine ⟨h.pos2id[p], by simp [hp'], ?_, ?_⟩
  · have := hi.pos p h.pos2id[p] (by simp [hp'])
    have := (List.getElem?_eq_some_iff.1 this).1
    rw [hi.lenN] at this
    exact this
  · exact hi.pos p _ (by simp [hp'])

/-- Exchange of the ids at two positions. -/
theorem Tab.swap {h : State} (hi : Tab h) {a b x y : Nat} (hab : a ≠ b) (hx : h.pos2id[a]? = some x)
    (hy : h.pos2id[b]? = some y) :
    Tab ⟨h.N, h.K, (h.id2pos.set y a).set x b, (h.pos2id.set a y).set b x⟩ := by
  have ha := (List.getElem?_eq_some_iff.1 hx).1
  have hb := (List.getElem?_eq_some_iff.1 hy).1
  have hpx := hi.pos _ _ hx
  have hpy := hi.pos _ _ hy
  have hxl := (List.getElem?_eq_some_iff.1 hpx).1
  have hyl := (List.getElem?_eq_some_iff.1 hpy).1
  have hxy : x ≠ y := by
    intro e
    rw [e, hpy] at hpx
    simp only [Option.some.injEq] at hpx
    exact hab hpx.symm
  have hK := hi.lenK
  refine ⟨by simp [hi.lenK], by simp [hi.lenN], ?_, ?_⟩
  · intro p id hp
    simp only [List.getElem?_set, List.length_set, ha, hb, hxl, hyl, if_true] at hp ⊢
    split at hp
    · simp only [Option.some.injEq] at hp
      subst hp
      simp_all
    · split at hp
      · simp only [Option.some.injEq] at hp
        subst hp
        simp_all
      · have := hi.pos _ _ hp
        split
        · rename_i e
          rw [← e, hpx] at this
          simp_all
        · split
          · rename_i e
            rw [← e, hpy] at this
            simp_all
          · exact this
  · intro id p hp hpk
    simp only [List.getElem?_set, List.length_set, ha, hb, hxl, hyl, if_true] at hp ⊢
    split at hp
    · simp_all
    · split at hp
      · rename_i e
        simp only [Option.some.injEq] at hp
        subst hp
        rw [if_neg (fun e => hab e.symm), if_pos rfl, e]
      · have := hi.id _ _ hp hpk
        split
        · rename_i e
          rw [← e, hy] at this
          simp_all
        · split
          · rename_i e
            rw [← e, hx] at this
            simp_all
          · exact this

/-- Element `i` of a list of ids. -/
def at' (l : List Nat) (i : Nat) : Nat := l[i]?.getD 0

theorem at'_eq {l : List Nat} {i x : Nat} (h : l[i]? = some x) : at' l i = x := by simp [at', h]

theorem get?_at' {l : List Nat} {i : Nat} (h : i < l.length) : l[i]? = some (at' l i) := by
  simp [at', h]

/-- The smaller child, on values by position. -/
def pick (cmp : α → α → Bool) (V : Nat → α) (m : Nat) (ids : List Nat) (c : Nat) : Nat :=
  if c < m ∧ cmp (V (at' ids (c + 1))) (V (at' ids c)) = true then c + 1 else c

theorem pick_bounds (cmp : α → α → Bool) (V : Nat → α) {m : Nat} (ids : List Nat) {c : Nat} (h : c ≤ m) :
    c ≤ pick cmp V m ids c ∧ pick cmp V m ids c ≤ m ∧ pick cmp V m ids c ≤ c + 1 := by
  unfold pick
  split <;> omega

/-- Exchange of two positions. -/
def swap (ids : List Nat) (a b : Nat) : List Nat := (ids.set a (at' ids b)).set b (at' ids a)

@[simp] theorem length_swap (ids : List Nat) (a b : Nat) : (swap ids a b).length = ids.length := by simp [swap]

theorem at'_swap {ids : List Nat} {a b : Nat} (ha : a < ids.length) (hb : b < ids.length) (i : Nat) :
    at' (swap ids a b) i = if b = i then at' ids a else if a = i then at' ids b else at' ids i := by
  unfold swap
  rw [at', List.getElem?_set, List.getElem?_set]
  simp only [List.length_set, ha, hb, if_true]
  split
  · rfl
  · split
    · rfl
    · rfl

/-- Sift down by exchanges. -/
def sift (cmp : α → α → Bool) (V : Nat → α) (m : Nat) (ids : List Nat) (h : Nat) : List Nat :=
  if hm : 2 * h + 1 ≤ m then
    have := pick_bounds cmp V ids hm
    if cmp (V (at' ids (pick cmp V m ids (2 * h + 1)))) (V (at' ids h)) = true then
      sift cmp V m (swap ids h (pick cmp V m ids (2 * h + 1))) (pick cmp V m ids (2 * h + 1))
    else ids
  else ids
termination_by m - h

theorem pick_congr (cmp : α → α → Bool) (V : Nat → α) {m : Nat} {ids ids' : List Nat} {c : Nat}
    (h1 : at' ids c = at' ids' c) (h2 : at' ids (c + 1) = at' ids' (c + 1)) :
    pick cmp V m ids c = pick cmp V m ids' c := by
  simp only [pick, h1, h2]

theorem valueByPos_ok {vals : List α} {V : Nat → α} {N : Nat} (hV : ∀ id, id < N → vals[id]? = some (V id))
    {p2i : List Nat} {p : Nat} {id : Nat} (h : p2i[p]? = some id) (hid : id < N) :
    valueByPos vals p2i p = .ok (V id) := by
  unfold valueByPos
  rw [lget_eq_ok.2 h]
  simp only [Res.bind_ok, lget_eq_ok]
  exact hV _ hid

theorem siftLoop_spec (cmp : α → α → Bool) {vals : List α} {V : Nat → α} {N K : Nat}
    (hV : ∀ id, id < N → vals[id]? = some (V id)) {m : Nat} (hm : m < K) {tgt : Nat} :
    ∀ (n h : Nat) (p2i i2p : List Nat), m - h ≤ n → h < K →
      Tab ⟨N, K, i2p.set tgt h, p2i.set h tgt⟩ →
      ∃ p2i' i2p' h', siftLoop cmp vals m (V tgt) p2i i2p h = .ok (p2i', i2p', h') ∧ h' < K ∧
        p2i'.set h' tgt = sift cmp V m (p2i.set h tgt) h ∧
        Tab ⟨N, K, i2p'.set tgt h', p2i'.set h' tgt⟩ := by
  intro n
  induction n with
  | zero =>
    intro h p2i i2p hn hh hi
    have hnot : ¬ (2 * h + 1 ≤ m) := by omega
    rw [siftLoop.eq_def, sift.eq_def]
    simp only [hnot, dif_neg, not_false_eq_true]
    exact ⟨_, _, _, rfl, hh, rfl, hi⟩
  | succ n ih =>
    intro h p2i i2p hn hh hi
    rw [siftLoop.eq_def, sift.eq_def]
    by_cases hc : 2 * h + 1 ≤ m
    · simp only [hc, dif_pos]
      have hlen : p2i.length = K := by simpa using hi.lenK
      have hlenN : i2p.length = N := by simpa using hi.lenN
      -- reading other positions
      have hrd : ∀ p, p ≠ h → p < K → ∃ id, p2i[p]? = some id ∧ at' (p2i.set h tgt) p = id ∧ id < N ∧ (i2p.set tgt h)[id]? = some p := by
        intro p hp hpk
        obtain ⟨id, h1, h2, h3⟩ := hi.get hpk
        refine ⟨id, ?_, at'_eq h1, h2, h3⟩
        simp only [List.getElem?_set] at h1
        rw [if_neg (fun e => hp e.symm)] at h1
        exact h1
      have htgt : (p2i.set h tgt)[h]? = some tgt := by simp [hlen, hh]
      have htgtN : tgt < N := by
        have := hi.pos _ _ htgt
        have := (List.getElem?_eq_some_iff.1 this).1
        simpa [hlenN] using this
      have hpick : pickChild cmp vals p2i (2 * h + 1) m = .ok (pick cmp V m (p2i.set h tgt) (2 * h + 1)) := by
        unfold pickChild pick
        by_cases hlt : 2 * h + 1 < m
        · obtain ⟨a, ha, hae, haN, _⟩ := hrd (2 * h + 1 + 1) (by omega) (by omega)
          obtain ⟨b, hb, hbe, hbN, _⟩ := hrd (2 * h + 1) (by omega) (by omega)
          simp only [hlt, if_true, valueByPos_ok hV ha haN, valueByPos_ok hV hb hbN, Res.bind_ok, hae, hbe, true_and]
        · simp only [hlt, if_false, false_and]
      have hb := pick_bounds cmp V (p2i.set h tgt) hc
      generalize hce : pick cmp V m (p2i.set h tgt) (2 * h + 1) = c at *
      obtain ⟨id, hid, hide, hidN, hidp⟩ := hrd c (by omega) (by omega)
      split
      · rename_i k hk
        rw [hpick] at hk
        exact absurd hk (by simp)
      rename_i c' hc'
      rw [hpick] at hc'
      simp only [Res.ok.injEq] at hc'
      subst hc'
      simp only [valueByPos_ok hV hid hidN, at'_eq htgt, hide]
      by_cases hcmp : cmp (V id) (V tgt) = true
      · have hidl : id < i2p.length := by rw [hlenN]; exact hidN
        have hhl : h < p2i.length := by rw [hlen]; exact hh
        have hcl : c < p2i.length := by rw [hlen]; omega
        simp only [hcmp, Bool.true_eq_false, if_false, if_true, lget_eq_ok.2 hid, lset_ok _ hhl, lset_ok _ hidl]
        have hidc : (p2i.set h tgt)[c]? = some id := by
          rw [← hide]
          exact get?_at' (by simpa using hcl)
        have hne : tgt ≠ id := by
          intro e
          have h1 := hi.pos _ _ hidc
          have h2 := hi.pos _ _ htgt
          rw [← e] at h1
          simp only at h1 h2
          rw [h2] at h1
          simp only [Option.some.injEq] at h1
          omega
        have hsw := hi.swap (by omega) htgt hidc
        have he1 : ((i2p.set tgt h).set id h).set tgt c = (i2p.set id h).set tgt c := by
          rw [List.set_comm _ _ hne, List.set_set]
        have he2 : ((p2i.set h tgt).set h id).set c tgt = (p2i.set h id).set c tgt := by
          rw [List.set_set]
        have he3 : swap (p2i.set h tgt) h c = (p2i.set h id).set c tgt := by
          unfold swap
          rw [at'_eq hidc, at'_eq htgt, List.set_set]
        simp only [he1, he2] at hsw
        obtain ⟨p', i', h', hr, hh', hs, hinv⟩ := ih c (p2i.set h id) (i2p.set id h) (by omega) (by omega) hsw
        refine ⟨p', i', h', hr, hh', ?_, hinv⟩
        rw [hs, he3]
      · simp only [Bool.not_eq_true] at hcmp
        simp only [hcmp, if_true, Bool.false_eq_true, if_false]
        exact ⟨_, _, _, rfl, hh, rfl, hi⟩
    · simp only [hc, dif_neg, not_false_eq_true]
      exact ⟨_, _, _, rfl, hh, rfl, hi⟩

/-- `AdjustHeap` succeeds, keeps the tables inverse and acts as the exchange version of sift-down. -/
theorem adjust_spec (cmp : α → α → Bool) {vals : List α} {V : Nat → α} {h : State} (hi : Tab h)
    (hV : ∀ id, id < h.N → vals[id]? = some (V id)) {s m : Nat} (hs : s < h.K) (hm : m < h.K) :
    ∃ h', adjust cmp vals h s m = .ok h' ∧ Tab h' ∧ h'.N = h.N ∧ h'.K = h.K ∧
      h'.pos2id = sift cmp V m h.pos2id s := by
  obtain ⟨tgt, h1, h2, h3⟩ := hi.get hs
  have e1 : h.pos2id.set s tgt = h.pos2id := by
    apply List.ext_getElem?
    intro i
    rw [List.getElem?_set]
    split
    · rename_i e
      subst e
      rw [if_pos (List.getElem?_eq_some_iff.1 h1).1]
      exact h1.symm
    · rfl
  have e2 : h.id2pos.set tgt s = h.id2pos := by
    apply List.ext_getElem?
    intro i
    rw [List.getElem?_set]
    split
    · rename_i e
      subst e
      rw [if_pos (List.getElem?_eq_some_iff.1 h3).1]
      exact h3.symm
    · rfl
  obtain ⟨p', i', q, hr, hq, hsft, hinv⟩ := siftLoop_spec cmp hV hm (m - s) s h.pos2id h.id2pos (by omega) hs
    (by rw [e1, e2]; exact hi)
  have hpl : q < p'.length := by
    have := hinv.lenK
    simp only [List.length_set] at this
    omega
  have hil : tgt < i'.length := by
    have := hinv.lenN
    simp only [List.length_set] at this
    omega
  refine ⟨⟨h.N, h.K, i'.set tgt q, p'.set q tgt⟩, ?_, hinv, rfl, rfl, ?_⟩
  · unfold adjust
    simp only [lget_eq_ok.2 h1, Res.bind_ok, lget_eq_ok.2 (hV _ h2), hr, lset_ok _ hpl, lset_ok _ hil]
  · rw [← e1]
    exact hsft

theorem swap_perm {ids : List Nat} {a b : Nat} (ha : a < ids.length) (hb : b < ids.length) :
    (swap ids a b).Perm ids := by
  unfold swap
  rw [at', at', List.getElem?_eq_getElem ha, List.getElem?_eq_getElem hb]
  simp only [Option.getD_some]
  exact List.set_set_perm ha hb

theorem sift_perm (cmp : α → α → Bool) (V : Nat → α) (m : Nat) :
    ∀ (n h : Nat) (ids : List Nat), m - h ≤ n → m < ids.length → (sift cmp V m ids h).Perm ids := by
  intro n
  induction n with
  | zero =>
    intro h ids hn hm
    rw [sift.eq_def]
    simp only [show ¬ (2 * h + 1 ≤ m) by omega, dif_neg, not_false_eq_true]
    exact List.Perm.refl _
  | succ n ih =>
    intro h ids hn hm
    rw [sift.eq_def]
    split
    · rename_i hc
      have hb := pick_bounds cmp V ids hc
      split
      · exact (ih _ _ (by omega) (by simpa using hm)).trans (swap_perm (by omega) (by omega))
      · exact List.Perm.refl _
    · exact List.Perm.refl _

/-- Laws of the comparison needed for the order facts. -/
structure Weak (cmp : α → α → Bool) : Prop where
  asymm : ∀ a b, cmp a b = true → cmp b a = false
  negTrans : ∀ a b c, cmp a b = false → cmp b c = false → cmp a c = false

/-- Position `c` is in order with its parent. -/
def EdgeOk (cmp : α → α → Bool) (V : Nat → α) (ids : List Nat) (c : Nat) : Prop :=
  cmp (V (at' ids c)) (V (at' ids ((c - 1) / 2))) = false

/-- All positions whose parent is at or after `s` are in order. -/
def HeapFrom (cmp : α → α → Bool) (V : Nat → α) (ids : List Nat) (s m : Nat) : Prop :=
  ∀ c, 1 ≤ c → c ≤ m → s ≤ (c - 1) / 2 → EdgeOk cmp V ids c

theorem sift_heap {cmp : α → α → Bool} (hw : Weak cmp) (V : Nat → α) (s m : Nat) :
    ∀ (n h : Nat) (ids : List Nat), m - h ≤ n → m < ids.length → s ≤ h → h ≤ m →
      (∀ c, 1 ≤ c → c ≤ m → s ≤ (c - 1) / 2 → (c - 1) / 2 ≠ h → EdgeOk cmp V ids c) →
      (∀ c, 1 ≤ c → c ≤ m → (c - 1) / 2 = h → 1 ≤ h → s ≤ (h - 1) / 2 →
        cmp (V (at' ids c)) (V (at' ids ((h - 1) / 2))) = false) →
      HeapFrom cmp V (sift cmp V m ids h) s m := by
  intro n
  induction n with
  | zero =>
    intro h ids hn hm hs hhm he hg
    rw [sift.eq_def]
    simp only [show ¬ (2 * h + 1 ≤ m) by omega, dif_neg, not_false_eq_true]
    intro c h1 h2 h3
    exact he c h1 h2 h3 (by omega)
  | succ n ih =>
    intro h ids hn hm hs hhm he hg
    rw [sift.eq_def]
    split
    · rename_i hc
      have hb := pick_bounds cmp V ids hc
      -- the chosen child is below no child
      have hsel : ∀ c, 1 ≤ c → c ≤ m → (c - 1) / 2 = h →
          cmp (V (at' ids c)) (V (at' ids (pick cmp V m ids (2 * h + 1)))) = false := by
        intro c h1 h2 h3
        have hirr : ∀ a, cmp a a = false := by
          intro a
          cases hcc : cmp a a
          · rfl
          · exact absurd (hw.asymm a a hcc) (by simp [hcc])
        have : c = 2 * h + 1 ∨ c = 2 * h + 2 := by omega
        unfold pick
        split
        · rename_i hp
          rcases this with e | e
          · subst e
            exact hw.asymm _ _ hp.2
          · subst e
            exact hirr _
        · rename_i hp
          rcases this with e | e
          · subst e
            exact hirr _
          · subst e
            have : 2 * h + 1 < m := by omega
            simp only [this, true_and, Bool.not_eq_true] at hp
            exact hp
      dsimp only
      generalize hce : pick cmp V m ids (2 * h + 1) = k at *
      split
      · rename_i hcmp
        have hal : h < ids.length := by omega
        have hkl : k < ids.length := by omega
        apply ih k (swap ids h k) (by omega) (by simpa using hm) (by omega) (by omega)
        · intro c h1 h2 h3 h4
          unfold EdgeOk
          rw [at'_swap hal hkl, at'_swap hal hkl]
          by_cases hk : k = c
          · subst hk
            have hph : (k - 1) / 2 = h := by omega
            simp only [if_true, hph, show k ≠ h by omega, if_false]
            exact hw.asymm _ _ hcmp
          · simp only [hk, if_false]
            by_cases hh : h = c
            · subst hh
              simp only [if_true, show ¬ (k = (h - 1) / 2) by omega, show ¬ (h = (h - 1) / 2) by omega, if_false]
              exact hg k (by omega) (by omega) (by omega) (by omega) h3
            · simp only [hh, if_false]
              have h4' : ¬ (k = (c - 1) / 2) := fun e => h4 e.symm
              simp only [h4', if_false]
              by_cases hp : h = (c - 1) / 2
              · simp only [← hp, if_true]
                exact hsel c h1 h2 hp.symm
              · simp only [hp, if_false]
                exact he c h1 h2 h3 (fun e => hp e.symm)
        · intro c h1 h2 h3 h4 h5
          have hph : (k - 1) / 2 = h := by omega
          rw [hph, at'_swap hal hkl, at'_swap hal hkl]
          simp only [show ¬ (k = c) by omega, show ¬ (h = c) by omega, show ¬ (k = h) by omega, if_false, if_true]
          have := he c h1 h2 (by omega) (by omega)
          unfold EdgeOk at this
          rw [h3] at this
          exact this
      · rename_i hcmp
        simp only [Bool.not_eq_true] at hcmp
        intro c h1 h2 h3
        by_cases hp : (c - 1) / 2 = h
        · unfold EdgeOk
          rw [hp]
          exact hw.negTrans _ _ _ (hsel c h1 h2 hp) hcmp
        · exact he c h1 h2 h3 hp
    · intro c h1 h2 h3
      exact he c h1 h2 h3 (by omega)

/-- In a heap nothing is below the top. -/
theorem heap_top {cmp : α → α → Bool} (hw : Weak cmp) {V : Nat → α} {ids : List Nat} {m : Nat}
    (h : HeapFrom cmp V ids 0 m) : ∀ p, p ≤ m → cmp (V (at' ids p)) (V (at' ids 0)) = false := by
  intro p
  induction p using Nat.strongRecOn with
  | _ p ih =>
    intro hp
    by_cases h0 : p = 0
    · subst h0
      cases hcc : cmp (V (at' ids 0)) (V (at' ids 0))
      · rfl
      · exact absurd (hw.asymm _ _ hcc) (by simp [hcc])
    · exact hw.negTrans _ _ _ (h p (by omega) hp (by omega)) (ih _ (by omega) (by omega))

theorem last_eq {K : Nat} (h1 : 1 ≤ K) (h2 : K < 4294967296) : last K = K - 1 := by
  unfold last
  omega

theorem sift_length (cmp : α → α → Bool) (V : Nat → α) (m : Nat) (ids : List Nat) (h : Nat) (hm : m < ids.length) :
    (sift cmp V m ids h).length = ids.length :=
  (sift_perm cmp V m _ h ids (Nat.le_refl _) hm).length_eq

/-- The tables stay inverse in `BuildHeap`, whatever the comparison does. -/
theorem buildLoop_inv (cmp : α → α → Bool) {vals : List α} {V : Nat → α} :
    ∀ (i : Nat) (h : State), Tab h → 1 ≤ h.K → h.K < 4294967296 → (∀ id, id < h.N → vals[id]? = some (V id)) → i ≤ h.K →
      ∃ h', buildLoop cmp vals i h = .ok h' ∧ Tab h' ∧ h'.N = h.N ∧ h'.K = h.K ∧ h'.pos2id.Perm h.pos2id ∧
        (Weak cmp → HeapFrom cmp V h.pos2id i (h.K - 1) → HeapFrom cmp V h'.pos2id 0 (h.K - 1)) := by
  intro i
  induction i with
  | zero =>
    intro h hi _ _ _ _
    exact ⟨h, rfl, hi, rfl, rfl, List.Perm.refl _, fun _ h => h⟩
  | succ i ih =>
    intro h hi h1 h2 hV hik
    have hl : h.K - 1 < h.pos2id.length := by rw [hi.lenK]; omega
    obtain ⟨h', ha, hi', hN, hK, hs⟩ := adjust_spec cmp hi hV (s := i) (m := h.K - 1) (by omega) (by omega)
    obtain ⟨h'', hb, hi'', hN', hK', hp, ho⟩ := ih h' hi' (by omega) (by omega) (by rw [hN]; exact hV) (by omega)
    refine ⟨h'', ?_, hi'', hN'.trans hN, hK'.trans hK, ?_, ?_⟩
    · unfold buildLoop
      rw [last_eq h1 h2, ha]
      exact hb
    · rw [hs] at hp
      exact hp.trans (sift_perm cmp V _ _ i _ (Nat.le_refl _) hl)
    · intro hw hf
      rw [hK] at ho
      apply ho hw
      rw [hs]
      apply sift_heap hw V i (h.K - 1) _ i _ (Nat.le_refl _) hl (Nat.le_refl _) (by omega)
      · intro c h1 h2 h3 h4
        exact hf c h1 h2 (by omega)
      · intro c h1 h2 h3 h4 h5
        omega

/-- `BuildHeap`. -/
theorem build_spec (cmp : α → α → Bool) {vals : List α} {V : Nat → α} {h : State} (hi : Tab h) (h1 : 1 ≤ h.K)
    (h2 : h.K < 4294967296) (hV : ∀ id, id < h.N → vals[id]? = some (V id)) :
    ∃ h', build cmp vals h = .ok h' ∧ Tab h' ∧ h'.N = h.N ∧ h'.K = h.K ∧ h'.pos2id.Perm h.pos2id ∧
      (Weak cmp → HeapFrom cmp V h'.pos2id 0 (h.K - 1)) := by
  unfold build
  rw [last_eq h1 h2]
  obtain ⟨h', hb, hi', hN, hK, hp, ho⟩ := buildLoop_inv cmp ((h.K - 1) / 2 + 1) h hi h1 h2 hV (by omega)
  refine ⟨h', hb, hi', hN, hK, hp, fun hw => ho hw ?_⟩
  intro c h1 h2 h3
  omega

theorem init_inv {N K : Nat} (hKN : K ≤ N) : Tab ⟨N, K, List.range N, List.range K⟩ := by
  refine ⟨by simp, by simp, ?_, ?_⟩
  · intro p id h
    simp only at h ⊢
    grind
  · intro id p h hp
    simp only at hp
    have := List.getElem?_eq_some_iff.1 h
    simp only [List.getElem_range, List.length_range] at this
    simp only [List.getElem?_eq_some_iff, List.length_range, List.getElem_range]
    obtain ⟨_, h2⟩ := this
    subst h2
    exact ⟨hp, rfl⟩

/-- Replacing the id at the top. -/
theorem Tab.replaceTop {h : State} (hi : Tab h) (h1 : 1 ≤ h.K) {old idx p : Nat} (ho : h.pos2id[0]? = some old)
    (hidx : h.id2pos[idx]? = some p) (hp : h.K ≤ p) :
    Tab ⟨h.N, h.K, (h.id2pos.set old h.K).set idx 0, h.pos2id.set 0 idx⟩ := by
  have hop := hi.pos _ _ ho
  have hol := (List.getElem?_eq_some_iff.1 hop).1
  have hil := (List.getElem?_eq_some_iff.1 hidx).1
  have h0l := (List.getElem?_eq_some_iff.1 ho).1
  have hne : idx ≠ old := by
    intro e
    rw [e, hop] at hidx
    simp only [Option.some.injEq] at hidx
    omega
  refine ⟨by simp [hi.lenK], by simp [hi.lenN], ?_, ?_⟩
  · intro q id hq
    simp only [List.getElem?_set, List.length_set, hol, hil, h0l, if_true] at hq ⊢
    split at hq
    · simp only [Option.some.injEq] at hq
      subst hq
      simp_all
    · have := hi.pos _ _ hq
      split
      · rename_i e
        rw [← e, hidx] at this
        simp only [Option.some.injEq] at this
        have := (List.getElem?_eq_some_iff.1 hq).1
        rw [hi.lenK] at this
        omega
      · split
        · rename_i e
          rw [← e, hop] at this
          simp only [Option.some.injEq] at this
          omega
        · exact this
  · intro id q hq hqk
    simp only [List.getElem?_set, List.length_set, hol, hil, h0l, if_true] at hq ⊢
    split at hq
    · simp_all
    · split at hq
      · simp only [Option.some.injEq] at hq
        simp only at hqk
        omega
      · have := hi.id _ _ hq hqk
        split
        · rename_i e
          rw [← e, ho] at this
          simp_all
        · exact this

/-- `UpdateHeap`, whatever the comparison does. -/
theorem update_spec (cmp : α → α → Bool) {vals : List α} {V : Nat → α} {h : State} (hi : Tab h) (h1 : 1 ≤ h.K)
    (h2 : h.K < 4294967296) (hV : ∀ id, id < h.N → vals[id]? = some (V id)) {idx : Nat} (hidx : idx < h.N) :
    ∃ h' r, update cmp vals h idx = .ok (h', r) ∧ Tab h' ∧ h'.N = h.N ∧ h'.K = h.K ∧
      ((idx ∈ h.pos2id ∧ r = invalidIndex ∧ h' = h) ∨
       (idx ∉ h.pos2id ∧ cmp (V (at' h.pos2id 0)) (V idx) = false ∧ r = idx ∧ h' = h) ∨
       (idx ∉ h.pos2id ∧ cmp (V (at' h.pos2id 0)) (V idx) = true ∧ r = at' h.pos2id 0 ∧ r ∈ h.pos2id ∧
          h'.pos2id = sift cmp V (h.K - 1) (h.pos2id.set 0 idx) 0)) := by
  have hil : idx < h.id2pos.length := by rw [hi.lenN]; exact hidx
  have hg : h.id2pos[idx]? = some h.id2pos[idx] := by simp [hil]
  generalize h.id2pos[idx] = p at hg
  unfold update
  simp only [lget_eq_ok.2 hg, Res.bind_ok]
  by_cases hp : p < h.K
  · simp only [hp, if_true]
    exact ⟨h, _, rfl, hi, rfl, rfl, Or.inl ⟨List.mem_of_getElem? (hi.id _ _ hg hp), rfl, rfl⟩⟩
  · have hnot : idx ∉ h.pos2id := by
      intro hm
      obtain ⟨q, hq, he⟩ := List.getElem_of_mem hm
      have := hi.pos q idx (by simp [hq, he])
      rw [hg] at this
      simp only [Option.some.injEq] at this
      rw [hi.lenK] at hq
      omega
    obtain ⟨old, ho, hoN, hop⟩ := hi.get (show 0 < h.K by omega)
    simp only [hp, if_false, lget_eq_ok.2 (hV _ hidx), valueByPos_ok hV ho hoN, Res.bind_ok, at'_eq ho]
    by_cases hc : cmp (V old) (V idx) = true
    · have hinv := hi.replaceTop h1 ho hg (by omega)
      obtain ⟨h', ha, hi', hN, hK, hs⟩ := adjust_spec cmp hinv hV (s := 0) (m := h.K - 1)
        (show 0 < h.K by omega) (show h.K - 1 < h.K by omega)
      have hol : old < h.id2pos.length := by rw [hi.lenN]; exact hoN
      have h0l : 0 < h.pos2id.length := by rw [hi.lenK]; omega
      simp only [hc, if_true, lget_eq_ok.2 ho, lset_ok _ hol, Res.bind_ok, lset_ok (w := h.id2pos.set old h.K) _ (by simpa using hil),
        lset_ok _ h0l, last_eq h1 h2]
      rw [ha]
      exact ⟨h', old, rfl, hi', hN, hK, Or.inr (Or.inr ⟨hnot, trivial, rfl, List.mem_of_getElem? ho, hs⟩)⟩
    · simp only [hc, Bool.false_eq_true, if_false]
      simp only [Bool.not_eq_true] at hc
      exact ⟨h, idx, rfl, hi, rfl, rfl, Or.inr (Or.inl ⟨hnot, by simp, rfl, rfl⟩)⟩

end Sol.Heap
