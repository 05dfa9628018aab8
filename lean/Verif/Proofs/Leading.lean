import Verif.Proofs.Variance
import Verif.Proofs.Sim
import Verif.Spec.Leading
/-! The heaps of the feature-selection algorithms hold the best features. -/

set_option linter.unusedSectionVars false
set_option linter.unusedVariables false

namespace Sol.Heap

section
variable {α : Type}

theorem Weak.irr {cmp : α → α → Bool} (hw : Weak cmp) (a : α) : cmp a a = false := by
  cases h : cmp a a
  · rfl
  · exact absurd (hw.asymm a a h) (by simp [h])

theorem mem_of_at' {ids : List Nat} {p : Nat} (h : p < ids.length) : at' ids p ∈ ids := List.mem_of_getElem? (get?_at' h)

theorem at'_of_mem {ids : List Nat} {j : Nat} (h : j ∈ ids) : ∃ p, p < ids.length ∧ at' ids p = j := by
  obtain ⟨p, hp, he⟩ := List.getElem_of_mem h
  exact ⟨p, hp, by rw [← he]; simp [at', hp]⟩

theorem HeapFrom.congr {cmp : α → α → Bool} {V W : Nat → α} {ids : List Nat} {m : Nat} (h : HeapFrom cmp V ids 0 m)
    (hm : m < ids.length) (hVW : ∀ j ∈ ids, V j = W j) : HeapFrom cmp W ids 0 m := by
  intro c h1 h2 h3
  have := h c h1 h2 h3
  unfold EdgeOk at this ⊢
  rw [← hVW _ (mem_of_at' (by omega)), ← hVW _ (mem_of_at' (by omega))]
  exact this

/-- The heap is in order, and no value outside it with `S` is better than its top. -/
structure Topped (cmp : α → α → Bool) (V : Nat → α) (S : Nat → Prop) (h : State) : Prop where
  heap : HeapFrom cmp V h.pos2id 0 (h.K - 1)
  top : ∀ j, S j → j ∉ h.pos2id → cmp (V (at' h.pos2id 0)) (V j) = false

theorem Topped.mono {cmp : α → α → Bool} {V : Nat → α} {S T : Nat → Prop} {h : State} (ht : Topped cmp V S h)
    (hST : ∀ j, T j → S j) : Topped cmp V T h := ⟨ht.heap, fun j hj => ht.top j (hST j hj)⟩

/-- In such a heap no value outside is better than one inside. -/
theorem Topped.best {cmp : α → α → Bool} (hw : Weak cmp) {V : Nat → α} {S : Nat → Prop} {h : State} (ht : Topped cmp V S h)
    (hi : Tab h) {i j : Nat} (hi' : i ∈ h.pos2id) (hj : j ∉ h.pos2id) (hS : S j) : cmp (V i) (V j) = false := by
  obtain ⟨p, hp, rfl⟩ := at'_of_mem hi'
  rw [hi.lenK] at hp
  exact hw.negTrans _ _ _ (heap_top hw ht.heap p (by omega)) (ht.top j hS hj)

/-- One offer. -/
theorem offer_top {cmp : α → α → Bool} (hw : Weak cmp) {vals : List α} {V : Nat → α} {S : Nat → Prop} {h : State} (hi : Tab h)
    (h1 : 1 ≤ h.K) (h2 : h.K < 4294967296) (hN : h.N < 4294967295) (hV : ∀ id, id < h.N → vals[id]? = some (V id)) {idx : Nat} (hidx : idx < h.N)
    (ht : Topped cmp V S h) :
    ∃ h' r, update cmp vals h idx = .ok (h', r) ∧ Tab h' ∧ h'.N = h.N ∧ h'.K = h.K ∧
      Topped cmp V (fun j => S j ∨ j = idx ∨ j ∈ h.pos2id) h' ∧ (∀ j, S j → j ∉ h.pos2id → j ∉ h'.pos2id) ∧
      (∀ j, j ∈ h'.pos2id → j ∈ h.pos2id ∨ j = idx) ∧
      (r = invalidIndex ∨ r < h.N ∧ r ∉ h'.pos2id ∧ (r ∈ h.pos2id ∨ r = idx)) ∧
      ∀ j, (j ∈ h.pos2id ∨ j = idx) → (r = invalidIndex ∨ j ≠ r) → j ∈ h'.pos2id := by
  obtain ⟨h', r, hu, hi', hN', hK, hcase⟩ := update_spec cmp hi h1 h2 hV hidx
  have hlen : h.pos2id.length = h.K := hi.lenK
  refine ⟨h', r, hu, hi', hN', hK, ?_⟩
  rcases hcase with ⟨hm, hr, he⟩ | ⟨hm, hc, hr, he⟩ | ⟨hm, hc, hr, hrm, he⟩
  · subst he
    refine ⟨⟨ht.heap, fun j hj hjn => ?_⟩, fun j _ h => h, fun j h => .inl h, .inl hr, fun j hj _ => ?_⟩
    · rcases hj with hj | hj | hj
      · exact ht.top j hj hjn
      · exact absurd (hj ▸ hm) hjn
      · exact absurd hj hjn
    · rcases hj with hj | hj
      · exact hj
      · exact hj ▸ hm
  · subst he
    refine ⟨⟨ht.heap, fun j hj hjn => ?_⟩, fun j _ h => h, fun j h => .inl h, .inr ⟨by omega, by rw [hr]; exact hm, .inr hr⟩,
      fun j hj hjr => ?_⟩
    · rcases hj with hj | hj | hj
      · exact ht.top j hj hjn
      · rw [hj]; exact hc
      · exact absurd hj hjn
    · rcases hj with hj | hj
      · exact hj
      · rcases hjr with hjr | hjr
        · unfold invalidIndex at hjr; omega
        · omega
  · have hml : h.K - 1 < (h.pos2id.set 0 idx).length := by rw [List.length_set]; omega
    have hnd := Props.Tab.nodup hi
    have hperm : h'.pos2id.Perm (h.pos2id.set 0 idx) := by
      rw [he]
      exact sift_perm cmp V _ _ 0 _ (Nat.le_refl _) hml
    have hmem : ∀ j, j ∈ h'.pos2id ↔ j = idx ∨ (j ∈ h.pos2id ∧ j ≠ r) := by
      intro j
      rw [hperm.mem_iff]
      have h0 : h.pos2id[0]? = some r := by rw [hr]; exact get?_at' (by omega)
      cases hp : h.pos2id with
      | nil => rw [hp] at hlen; simp at hlen; omega
      | cons a l =>
        rw [hp] at h0 hnd
        obtain rfl : a = r := by simpa using h0
        simp only [List.set_cons_zero, List.mem_cons]
        have hna := (List.nodup_cons.1 hnd).1
        constructor
        · rintro (h | h)
          · exact .inl h
          · exact .inr ⟨.inr h, fun e => hna (e ▸ h)⟩
        · rintro (h | ⟨h | h, h'⟩)
          · exact .inl h
          · exact absurd h h'
          · exact .inr h
    have hheap : HeapFrom cmp V h'.pos2id 0 (h.K - 1) := by
      rw [he]
      apply sift_heap hw V 0 (h.K - 1) _ 0 _ (Nat.le_refl _) hml (Nat.le_refl _) (by omega)
      · intro c c1 c2 c3 c4
        have := ht.heap c c1 c2 (by omega)
        unfold EdgeOk at this ⊢
        unfold at' at this ⊢
        rw [List.getElem?_set_ne (by omega), List.getElem?_set_ne (by omega)]
        exact this
      · intro c c1 c2 c3 c4 c5
        omega
    -- the new top is not below the old one
    have htop : cmp (V (at' h'.pos2id 0)) (V (at' h.pos2id 0)) = false := by
      have := (hmem _).1 (mem_of_at' (ids := h'.pos2id) (p := 0) (by rw [hi'.lenK]; omega))
      rcases this with e | ⟨hm', -⟩
      · rw [e]
        exact hw.asymm _ _ hc
      · obtain ⟨p, hp, hpe⟩ := at'_of_mem hm'
        rw [← hpe]
        exact heap_top hw ht.heap p (by omega)
    have hrN : r < h.N := by
      obtain ⟨p, hp, hpe⟩ := List.getElem_of_mem hrm
      have := hi.pos p r (by simp [hp, hpe])
      have := (List.getElem?_eq_some_iff.1 this).1
      rw [hi.lenN] at this
      exact this
    refine ⟨⟨by rw [hK]; exact hheap, fun j hj hjn => ?_⟩, fun j hj hjn hjm => ?_, fun j hj => ?_, .inr ⟨hrN, ?_, .inl hrm⟩, fun j hj hjr => ?_⟩
    · have hjn' := fun h => hjn ((hmem j).2 h)
      by_cases hjo : j ∈ h.pos2id
      · have : j = r := by
          by_contra hne
          exact hjn' (.inr ⟨hjo, hne⟩)
        rw [this, hr]
        exact htop
      · rcases hj with hj | hj | hj
        · exact hw.negTrans _ _ _ htop (ht.top j hj hjo)
        · exact absurd (.inl hj) hjn'
        · exact absurd hj hjo
    · rcases (hmem j).1 hjm with e | ⟨e, -⟩
      · have := ht.top j hj hjn
        rw [e, hc] at this
        simp at this
      · exact hjn e
    · rcases (hmem j).1 hj with e | ⟨e, -⟩
      · exact .inr e
      · exact .inl e
    · rw [hmem]
      rintro (e | ⟨-, e⟩)
      · exact hm (e ▸ hrm)
      · exact e rfl
    · have hjr' : j ≠ r := by
        rcases hjr with h | h
        · unfold invalidIndex at h; omega
        · exact h
      rw [hmem]
      rcases hj with hj | hj
      · exact .inr ⟨hj, hjr'⟩
      · exact .inl hj

/-- The value of one id gets better, and the id is moved to its new place. -/
theorem adjust_top {cmp : α → α → Bool} (hw : Weak cmp) {vals : List α} {V W : Nat → α} {S : Nat → Prop} {h : State} (hi : Tab h)
    (h1 : 1 ≤ h.K) (hV : ∀ id, id < h.N → vals[id]? = some (W id)) {k pos : Nat} (hp : h.id2pos[k]? = some pos) (hpK : pos < h.K)
    (hne : ∀ j, j ≠ k → W j = V j) (hb : cmp (W k) (V k) = false) (ht : Topped cmp V S h) :
    ∃ h', adjust cmp vals h pos (h.K - 1) = .ok h' ∧ Tab h' ∧ h'.N = h.N ∧ h'.K = h.K ∧ (∀ j, j ∈ h'.pos2id ↔ j ∈ h.pos2id) ∧
      Topped cmp W (fun j => S j ∧ j ≠ k) h' := by
  obtain ⟨h', ha, ht', hN', hK', hs⟩ := adjust_spec cmp hi hV (s := pos) (m := h.K - 1) hpK (by omega)
  have hlen := hi.lenK
  have hperm : h'.pos2id.Perm h.pos2id := by
    rw [hs]
    exact sift_perm cmp W _ _ _ _ (Nat.le_refl _) (by omega)
  have hk : at' h.pos2id pos = k := at'_eq (hi.id k pos hp hpK)
  have hother : ∀ q, q < h.K → q ≠ pos → at' h.pos2id q ≠ k := by
    intro q hq hqp e
    have h3 := hi.pos q _ (get?_at' (by omega))
    rw [e, hp] at h3
    exact hqp (Option.some.inj h3).symm
  have hpar : 1 ≤ pos → cmp (W k) (V (at' h.pos2id ((pos - 1) / 2))) = false := by
    intro h1p
    have := ht.heap pos h1p (by omega) (by omega)
    unfold EdgeOk at this
    rw [hk] at this
    exact hw.negTrans _ _ _ hb this
  have hheap : HeapFrom cmp W h'.pos2id 0 (h.K - 1) := by
    rw [hs]
    apply sift_heap hw W 0 (h.K - 1) _ pos _ (Nat.le_refl _) (by omega) (by omega) (by omega)
    · intro c c1 c2 c3 c4
      unfold EdgeOk
      rw [hne _ (hother ((c - 1) / 2) (by omega) c4)]
      by_cases hc : c = pos
      · subst hc
        rw [hk]
        exact hpar c1
      · rw [hne _ (hother c (by omega) hc)]
        exact ht.heap c c1 c2 c3
    · intro c c1 c2 c3 c4 c5
      rw [hne _ (hother c (by omega) (by omega)), hne _ (hother ((pos - 1) / 2) (by omega) (by omega))]
      have e1 := ht.heap c c1 c2 (by omega)
      have e2 := ht.heap pos c4 (by omega) (by omega)
      unfold EdgeOk at e1 e2
      rw [c3] at e1
      exact hw.negTrans _ _ _ e1 e2
  refine ⟨h', ha, ht', hN', hK', fun j => hperm.mem_iff, by rw [hK']; exact hheap, fun j hj hjn => ?_⟩
  rw [hne j hj.2]
  have hjn' : j ∉ h.pos2id := fun hm => hjn (hperm.mem_iff.2 hm)
  refine hw.negTrans _ _ _ ?_ (ht.top j hj.1 hjn')
  have hm : at' h'.pos2id 0 ∈ h.pos2id := hperm.mem_iff.1 (mem_of_at' (by rw [ht'.lenK]; omega))
  obtain ⟨p, hp', hpe⟩ := at'_of_mem hm
  have hle := heap_top hw ht.heap p (by omega)
  rw [hpe] at hle
  by_cases he : at' h'.pos2id 0 = k
  · rw [he] at hle ⊢
    exact hw.negTrans _ _ _ hb hle
  · rw [hne _ he]
    exact hle

end
end Sol.Heap
