import Verif.Proofs.Heap
import Mathlib.Logic.Relation
import Mathlib.Data.Int.Order.Basic
/-!
# C19: the top-K heap keeps the K best features
-/

namespace Sol.Props

open Sol.Heap

variable {α : Type}

/-- What the heap promises about the ids it keeps: there are `K` of them, they are distinct indexes of the array, and
no value outside is better than a value inside. -/
structure Best (better : α → α → Prop) (vals : List α) (K : Nat) (kept : List Nat) : Prop where
  count : kept.length = K
  distinct : kept.Nodup
  inside : ∀ id ∈ kept, id < vals.length
  best : ∀ i j a b, i ∈ kept → j ∉ kept → vals[i]? = some a → vals[j]? = some b → ¬ better b a

/-- The position of every kept id is recorded, and every id whose recorded position is in the heap is kept there. -/
def Inverse (h : State) : Prop :=
  (∀ p, p < h.K → ∃ id, id < h.N ∧ h.pos2id[p]? = some id ∧ h.id2pos[id]? = some p) ∧
  (∀ id p, h.id2pos[id]? = some p → p < h.K → h.pos2id[p]? = some id)

theorem Tab.inverse {h : State} (hi : Tab h) : Inverse h :=
  ⟨fun p hp => by obtain ⟨id, h1, h2, h3⟩ := hi.get hp; exact ⟨id, h2, h1, h3⟩, hi.id⟩

theorem Tab.nodup {h : State} (hi : Tab h) : h.pos2id.Nodup := by
  unfold List.Nodup
  rw [List.pairwise_iff_getElem]
  intro i j hil hj hij he
  have h1 : h.pos2id[j]? = some h.pos2id[j] := by simp [hj]
  have h2 := hi.pos _ _ h1
  have h3 := hi.pos i h.pos2id[j] (by rw [← he]; simp [hil])
  rw [h2] at h3
  simp only [Option.some.injEq] at h3
  omega

theorem exists_values {vals : List α} (h : 0 < vals.length) :
    ∃ V : Nat → α, ∀ id, id < vals.length → vals[id]? = some (V id) :=
  ⟨fun id => vals[id]?.getD vals[0], fun id hid => by simp [hid]⟩

/-- Offering: everything seen so far is either kept or not better than the top. -/
theorem offerAll_spec (cmp : α → α → Bool) {vals : List α} {V : Nat → α} :
    ∀ (l : List Nat) (seen : List Nat) (h : State), Tab h → 1 ≤ h.K → h.K < 4294967296 →
      (∀ id, id < h.N → vals[id]? = some (V id)) → (∀ i ∈ l, i < h.N) →
      ∃ h', offerAll cmp vals l h = .ok h' ∧ Tab h' ∧ h'.N = h.N ∧ h'.K = h.K ∧
        (Weak cmp → HeapFrom cmp V h.pos2id 0 (h.K - 1) →
          (∀ j ∈ seen, j ∉ h.pos2id → cmp (V (at' h.pos2id 0)) (V j) = false) →
          HeapFrom cmp V h'.pos2id 0 (h.K - 1) ∧
          ∀ j ∈ seen ++ l, j ∉ h'.pos2id → cmp (V (at' h'.pos2id 0)) (V j) = false) := by
  intro l
  induction l with
  | nil =>
    intro seen h hi _ _ _ _
    exact ⟨h, rfl, hi, rfl, rfl, fun _ h1 h2 => ⟨h1, by simpa using h2⟩⟩
  | cons i l ih =>
    intro seen h hi h1 h2 hV hl
    obtain ⟨h', r, hu, hi', hN, hK, hcase⟩ := update_spec cmp hi h1 h2 hV (hl i (by simp))
    obtain ⟨h'', ho, hi'', hN', hK', hs⟩ := ih (seen ++ [i]) h' hi' (by omega) (by omega) (by rw [hN]; exact hV)
      (by rw [hN]; exact fun j hj => hl j (by simp [hj]))
    refine ⟨h'', ?_, hi'', hN'.trans hN, hK'.trans hK, ?_⟩
    · unfold offerAll
      rw [hu]
      exact ho
    intro hw hf hseen
    have hstep : HeapFrom cmp V h'.pos2id 0 (h.K - 1) ∧
        ∀ j ∈ seen ++ [i], j ∉ h'.pos2id → cmp (V (at' h'.pos2id 0)) (V j) = false := by
      rcases hcase with ⟨hm, _, he⟩ | ⟨hm, hc, _, he⟩ | ⟨hm, hc, _, _, he⟩
      · subst he
        refine ⟨hf, fun j hj hjn => ?_⟩
        simp only [List.mem_append, List.mem_singleton] at hj
        rcases hj with hj | hj
        · exact hseen j hj hjn
        · subst hj
          exact absurd hm hjn
      · subst he
        refine ⟨hf, fun j hj hjn => ?_⟩
        simp only [List.mem_append, List.mem_singleton] at hj
        rcases hj with hj | hj
        · exact hseen j hj hjn
        · subst hj
          exact hc
      · have hlen : h.pos2id.length = h.K := hi.lenK
        have hml : h.K - 1 < (h.pos2id.set 0 i).length := by rw [List.length_set]; omega
        have hheap : HeapFrom cmp V h'.pos2id 0 (h.K - 1) := by
          rw [he]
          apply sift_heap hw V 0 (h.K - 1) _ 0 _ (Nat.le_refl _) hml (Nat.le_refl _) (by omega)
          · intro c c1 c2 c3 c4
            have := hf c c1 c2 (by omega)
            unfold EdgeOk at this ⊢
            unfold at' at this ⊢
            rw [List.getElem?_set_ne (by omega), List.getElem?_set_ne (by omega)]
            exact this
          · intro c c1 c2 c3 c4 c5
            omega
        have hperm : h'.pos2id.Perm (h.pos2id.set 0 i) := by
          rw [he]
          exact sift_perm cmp V _ _ 0 _ (Nat.le_refl _) hml
        -- the new top is not below the old one
        have htop : cmp (V (at' h'.pos2id 0)) (V (at' h.pos2id 0)) = false := by
          have hmem : at' h'.pos2id 0 ∈ h.pos2id.set 0 i := by
            apply hperm.mem_iff.1
            exact List.mem_of_getElem? (get?_at' (by rw [hi'.lenK]; omega))
          rcases List.mem_or_eq_of_mem_set hmem with hmem | hmem
          · obtain ⟨p, hp, hpe⟩ := List.getElem_of_mem hmem
            have := heap_top hw hf p (by omega)
            rw [show at' h.pos2id p = at' h'.pos2id 0 by rw [← hpe]; simp [at', hp]] at this
            exact this
          · rw [hmem]
            exact hw.asymm _ _ hc
        refine ⟨hheap, fun j hj hjn => ?_⟩
        have hjn' : j ∉ h.pos2id.set 0 i := fun hm => hjn (hperm.mem_iff.2 hm)
        by_cases hjo : j ∈ h.pos2id
        · obtain ⟨p, hp, hpe⟩ := List.getElem_of_mem hjo
          by_cases hp0 : p = 0
          · subst hp0
            rw [show j = at' h.pos2id 0 by rw [← hpe]; simp [at', hp]]
            exact htop
          · exfalso
            apply hjn'
            apply List.mem_of_getElem? (i := p)
            rw [List.getElem?_set_ne (by omega)]
            simp [hp, hpe]
        · simp only [List.mem_append, List.mem_singleton] at hj
          rcases hj with hj | hj
          · exact hw.negTrans _ _ _ htop (hseen j hj hjo)
          · subst hj
            exfalso
            apply hjn'
            apply List.mem_of_getElem? (i := 0)
            rw [List.getElem?_set_self (by omega)]
    have := hs hw (by rw [hK]; exact hstep.1) hstep.2
    rw [hK] at this
    simpa using this

/-- The whole run (`Init`, then `UpdateHeap` on every index) for a comparison obeying the two laws. -/
theorem keeps_best (cmp : α → α → Bool) (hw : Weak cmp) {vals : List α} {K : Nat} (h1 : 1 ≤ K) (h2 : K ≤ vals.length)
    (h3 : vals.length < 4294967296) :
    ∃ h0 h, init cmp vals vals.length K = .ok h0 ∧ offerAll cmp vals (List.range vals.length) h0 = .ok h ∧
      h.K = K ∧ h.N = vals.length ∧ Inverse h ∧
      Best (fun b a => cmp a b = true) vals K h.pos2id := by
  obtain ⟨V, hV⟩ := exists_values (vals := vals) (by omega)
  obtain ⟨h0, hb, hi0, hN0, hK0, _, hh0⟩ := build_spec cmp (init_inv h2) h1 (by simp only; omega) hV
  simp only at hN0 hK0 hh0
  obtain ⟨h, ho, hi, hN, hK, hs⟩ := offerAll_spec cmp (List.range vals.length) [] h0 hi0 (by omega) (by omega)
    (by rw [hN0]; exact hV) (by rw [hN0]; simp)
  refine ⟨h0, h, hb, ho, hK.trans hK0, hN.trans hN0, Tab.inverse hi, ?_⟩
  rw [hK0] at hs
  obtain ⟨hheap, hout⟩ := hs hw (hh0 hw) (by simp)
  have hlen : h.pos2id.length = K := by rw [hi.lenK, hK, hK0]
  refine ⟨hlen, Tab.nodup hi, ?_, ?_⟩
  · intro id hid
    obtain ⟨p, hp, he⟩ := List.getElem_of_mem hid
    obtain ⟨id', e1, e2, _⟩ := hi.get (show p < h.K by rw [← hi.lenK]; exact hp)
    rw [List.getElem?_eq_getElem hp, he] at e1
    simp only [Option.some.injEq] at e1
    omega
  · intro i j a b hik hjk ha hb
    have hil := (List.getElem?_eq_some_iff.1 ha).1
    have hjl := (List.getElem?_eq_some_iff.1 hb).1
    rw [hV i hil, Option.some.injEq] at ha
    rw [hV j hjl, Option.some.injEq] at hb
    subst ha hb
    obtain ⟨p, hp, he⟩ := List.getElem_of_mem hik
    have e1 := heap_top hw hheap p (by omega)
    rw [show at' h.pos2id p = i by rw [← he]; simp [at', hp]] at e1
    have e2 := hout j (by simp [hjl]) hjk
    have := hw.negTrans _ _ _ e1 e2
    simp [this]

/-- `op::smaller` and `op::larger` (operator.h). -/
def smaller [FCmp α] (a b : α) : Bool := a <? b
def larger [FCmp α] (a b : α) : Bool := b <? a

theorem weak_smaller [LinearOrder α] : Weak (smaller (α := α)) :=
  ⟨fun a b h => by simp only [smaller, flt_iff, flt_false_iff] at *; exact le_of_lt h,
   fun a b c h1 h2 => by simp only [smaller, flt_false_iff] at *; exact le_trans h2 h1⟩

theorem weak_larger [LinearOrder α] : Weak (larger (α := α)) :=
  ⟨fun a b h => by simp only [larger, flt_iff, flt_false_iff] at *; exact le_of_lt h,
   fun a b c h1 h2 => by simp only [larger, flt_false_iff] at *; exact le_trans h1 h2⟩

/-- C19, `MinHeap`: no value outside the heap is greater than a value inside. -/
theorem C19_min_heap_keeps_the_largest [LinearOrder α] (vals : List α) (K : Nat) (h1 : 1 ≤ K) (h2 : K ≤ vals.length)
    (h3 : vals.length < 4294967296) :
    ∃ h0 h, init smaller vals vals.length K = .ok h0 ∧ offerAll smaller vals (List.range vals.length) h0 = .ok h ∧
      Inverse h ∧ Best (· > ·) vals K h.pos2id := by
  obtain ⟨h0, h, e1, e2, _, _, e3, e4⟩ := keeps_best smaller weak_smaller h1 h2 h3
  refine ⟨h0, h, e1, e2, e3, e4.count, e4.distinct, e4.inside, ?_⟩
  intro i j a b hi hj ha hb hgt
  exact e4.best i j a b hi hj ha hb (by simpa [smaller] using hgt)

/-- C19, `MaxHeap`: no value outside the heap is less than a value inside. -/
theorem C19_max_heap_keeps_the_smallest [LinearOrder α] (vals : List α) (K : Nat) (h1 : 1 ≤ K) (h2 : K ≤ vals.length)
    (h3 : vals.length < 4294967296) :
    ∃ h0 h, init larger vals vals.length K = .ok h0 ∧ offerAll larger vals (List.range vals.length) h0 = .ok h ∧
      Inverse h ∧ Best (· < ·) vals K h.pos2id := by
  obtain ⟨h0, h, e1, e2, _, _, e3, e4⟩ := keeps_best larger weak_larger h1 h2 h3
  refine ⟨h0, h, e1, e2, e3, e4.count, e4.distinct, e4.inside, ?_⟩
  intro i j a b hi hj ha hb hgt
  exact e4.best i j a b hi hj ha hb (by simpa [larger] using hgt)

/-- An instance: the three largest of five values. -/
example : ∃ h0 h, init smaller [(3 : Int), 1, 4, 1, 5] 5 3 = .ok h0 ∧
    offerAll smaller [(3 : Int), 1, 4, 1, 5] (List.range 5) h0 = .ok h ∧ h.pos2id = [0, 4, 2] :=
  ⟨⟨5, 3, [1, 0, 2, 3, 4], [1, 0, 2]⟩, ⟨5, 3, [0, 3, 2, 3, 1], [0, 4, 2]⟩, by decide +kernel, by decide +kernel, rfl⟩

/-- The operations the models perform on the heap in between, with any values and any comparison (also a comparison
that is false on NaN): rebuild, offer an index, adjust one position, enlarge. -/
inductive HeapStep (cmp : α → α → Bool) : State → State → Prop where
  | build (vals : List α) {h h' : State} : h.N ≤ vals.length → Heap.build cmp vals h = .ok h' → HeapStep cmp h h'
  | update (vals : List α) (i : Nat) {h h' : State} {r : Nat} : h.N ≤ vals.length → i < h.N →
      Heap.update cmp vals h i = .ok (h', r) → HeapStep cmp h h'
  | adjust (vals : List α) (p : Nat) {h h' : State} : h.N ≤ vals.length → p < h.K →
      Heap.adjust cmp vals h p (last h.K) = .ok h' → HeapStep cmp h h'
  | setN (N : Nat) {h h' : State} : Heap.setN h N = some h' → HeapStep cmp h h'

theorem values_of_le {vals : List α} {N : Nat} (hN : 1 ≤ N) (h : N ≤ vals.length) :
    ∃ V : Nat → α, ∀ id, id < N → vals[id]? = some (V id) := by
  obtain ⟨V, hV⟩ := exists_values (vals := vals) (by omega)
  exact ⟨V, fun id hid => hV id (by omega)⟩

theorem tab_le {h : State} (hi : Tab h) (h1 : 1 ≤ h.K) : 1 ≤ h.N := by
  obtain ⟨_, _, h2, _⟩ := hi.get (show 0 < h.K by omega)
  omega

/-- The tables are inverse, sized as promised. -/
def Wf (h : State) : Prop := Tab h ∧ 1 ≤ h.K ∧ h.K ≤ h.N ∧ h.K < 4294967296

theorem heapStep_wf (cmp : α → α → Bool) {h h' : State} (hs : HeapStep cmp h h') (hw : Wf h) :
    Wf h' ∧ h'.K = h.K ∧ h.N ≤ h'.N := by
  obtain ⟨hi, h1, h2, h3⟩ := hw
  have hN1 := tab_le hi h1
  cases hs with
  | build vals hv hb =>
    obtain ⟨V, hV⟩ := values_of_le hN1 hv
    obtain ⟨h'', hb', hi', hN, hK, _⟩ := build_spec cmp hi h1 h3 hV
    rw [hb] at hb'
    simp only [Res.ok.injEq] at hb'
    subst hb'
    exact ⟨⟨hi', by omega, by omega, by omega⟩, hK, by omega⟩
  | update vals i hv hii hb =>
    obtain ⟨V, hV⟩ := values_of_le hN1 hv
    obtain ⟨h'', r, hb', hi', hN, hK, _⟩ := update_spec cmp hi h1 h3 hV hii
    rw [hb] at hb'
    simp only [Res.ok.injEq, Prod.mk.injEq] at hb'
    obtain ⟨e, _⟩ := hb'
    subst e
    exact ⟨⟨hi', by omega, by omega, by omega⟩, hK, by omega⟩
  | adjust vals p hv hp hb =>
    obtain ⟨V, hV⟩ := values_of_le hN1 hv
    obtain ⟨h'', hb', hi', hN, hK, _⟩ := adjust_spec cmp hi hV hp (show h.K - 1 < h.K by omega)
    rw [last_eq h1 h3] at hb
    rw [hb] at hb'
    simp only [Res.ok.injEq] at hb'
    subst hb'
    exact ⟨⟨hi', by omega, by omega, by omega⟩, hK, by omega⟩
  | setN N hb =>
    unfold Heap.setN at hb
    rw [if_neg (by omega)] at hb
    split at hb
    · simp at hb
    · simp only [Option.some.injEq] at hb
      subst hb
      refine ⟨⟨⟨hi.lenK, ?_, ?_, ?_⟩, h1, by simp only; omega, h3⟩, rfl, by simp only; omega⟩
      · simp [hi.lenN]
        omega
      · intro p id hp
        have := hi.pos p id hp
        have hl := (List.getElem?_eq_some_iff.1 this).1
        rw [List.getElem?_append_left hl]
        exact this
      · intro id p hp hpk
        simp only at hp hpk
        by_cases hl : id < h.id2pos.length
        · rw [List.getElem?_append_left hl] at hp
          exact hi.id id p hp hpk
        · exfalso
          rw [List.getElem?_append_right (by omega)] at hp
          have := (List.getElem?_eq_some_iff.1 hp)
          simp only [List.getElem_map, List.getElem_range] at this
          obtain ⟨_, he⟩ := this
          omega

/-- C19 for every run: from `Init` on, after any sequence of heap operations, with values that may change arbitrarily
between the operations and any comparison, the tables are inverse to each other and exactly `K` distinct ids are kept. -/
theorem C19_tables_stay_inverse (cmp : α → α → Bool) (vals : List α) (K : Nat) (h1 : 1 ≤ K) (h2 : K ≤ vals.length)
    (h3 : K < 4294967296) :
    ∃ h0, init cmp vals vals.length K = .ok h0 ∧
      ∀ h, Relation.ReflTransGen (HeapStep cmp) h0 h → Inverse h ∧ h.pos2id.length = K ∧ h.pos2id.Nodup := by
  obtain ⟨V, hV⟩ := exists_values (vals := vals) (by omega)
  obtain ⟨h0, hb, hi0, hN0, hK0, _, _⟩ := build_spec cmp (init_inv h2) h1 h3 hV
  simp only at hN0 hK0
  refine ⟨h0, hb, ?_⟩
  have key : ∀ h, Relation.ReflTransGen (HeapStep cmp) h0 h → Wf h ∧ h.K = K := by
    intro h hr
    induction hr with
    | refl => exact ⟨⟨hi0, by omega, by omega, by omega⟩, hK0⟩
    | tail _ hs ih =>
      have := heapStep_wf cmp hs ih.1
      exact ⟨this.1, this.2.1.trans ih.2⟩
  intro h hr
  obtain ⟨hw, hK⟩ := key h hr
  exact ⟨Tab.inverse hw.1, by rw [hw.1.lenK, hK], Tab.nodup hw.1⟩

/-- The operations also never leave the tables: on a well-formed heap each of them succeeds. -/
theorem C19_operations_succeed (cmp : α → α → Bool) (vals : List α) (K : Nat) (h1 : 1 ≤ K) (h2 : K ≤ vals.length)
    (h3 : K < 4294967296) :
    ∃ h0, init cmp vals vals.length K = .ok h0 ∧
      ∀ h, Relation.ReflTransGen (HeapStep cmp) h0 h → ∀ vals' : List α, h.N ≤ vals'.length →
        (∃ h', Heap.build cmp vals' h = .ok h') ∧
        (∀ i, i < h.N → ∃ h' r, Heap.update cmp vals' h i = .ok (h', r)) ∧
        (∀ p, p < h.K → ∃ h', Heap.adjust cmp vals' h p (last h.K) = .ok h') := by
  obtain ⟨V, hV⟩ := exists_values (vals := vals) (by omega)
  obtain ⟨h0, hb, hi0, hN0, hK0, _, _⟩ := build_spec cmp (init_inv h2) h1 h3 hV
  simp only at hN0 hK0
  refine ⟨h0, hb, ?_⟩
  have key : ∀ h, Relation.ReflTransGen (HeapStep cmp) h0 h → Wf h := by
    intro h hr
    induction hr with
    | refl => exact ⟨hi0, by omega, by omega, by omega⟩
    | tail _ hs ih => exact (heapStep_wf cmp hs ih).1
  intro h hr vals' hv
  obtain ⟨hi, k1, k2, k3⟩ := key h hr
  obtain ⟨V', hV'⟩ := values_of_le (tab_le hi k1) hv
  refine ⟨?_, ?_, ?_⟩
  · obtain ⟨h', e, _⟩ := build_spec cmp hi k1 k3 hV'
    exact ⟨h', e⟩
  · intro i hii
    obtain ⟨h', r, e, _⟩ := update_spec cmp hi k1 k3 hV' hii
    exact ⟨h', r, e⟩
  · intro p hp
    obtain ⟨h', e, _⟩ := adjust_spec cmp hi hV' hp (show h.K - 1 < h.K by omega)
    rw [last_eq k1 k3]
    exact ⟨h', e⟩

/-- Why `1 ≤ K` is needed: building a heap of zero elements leaves the table (`K_ - 1` wraps around). -/
theorem C19_zero_capacity_reads_outside (cmp : α → α → Bool) (vals : List α) (N : Nat) :
    init cmp vals N 0 = .ub .outOfBounds := by
  unfold init build
  rw [show last 0 / 2 + 1 = 2147483647 + 1 by simp [last]]
  unfold buildLoop adjust
  simp [lget, Res.bind_ub]

/-- Why `K ≤ N` is needed: with more places than values the build reads outside the values. -/
theorem C19_too_many_places_reads_outside : init smaller [(3 : Int), 1] 2 4 = .ub .outOfBounds := by
  decide +kernel

end Sol.Props
