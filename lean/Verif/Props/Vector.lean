import Verif.Spec.Tape
/-!
# Property C13: growing a vector keeps its contents
-/

namespace Sol.Props
open Sol.Vector Sol.Spec

variable {α : Type}

theorem growTo_ge (alloc need : Nat) : need ≤ growTo alloc need ∧ alloc < growTo alloc need := by
  generalize hn : need - alloc = n
  induction n using Nat.strongRecOn generalizing alloc with
  | ind n ih =>
    rw [growTo]
    generalize (if alloc < 1073741824 then alloc else 1073741824) = d
    split
    · obtain ⟨h1, h2⟩ := ih (need - (alloc + d + 3)) (by omega) (alloc + d + 3) rfl
      exact ⟨h1, by omega⟩
    · omega

theorem storageResize_spec [Zero α] (s : List α) (n : Nat) :
    s.length ≤ (storageResize s n).length ∧ n ≤ (storageResize s n).length ∧
      ∀ i, (storageResize s n)[i]? = if i < s.length then s[i]? else if i < n then some 0 else none := by
  unfold storageResize
  split
  · refine ⟨by simp, by simp; omega, fun i => ?_⟩
    rw [List.getElem?_append]
    split
    · rfl
    · rw [List.getElem?_replicate]
      split <;> split <;> first | rfl | omega
  · refine ⟨Nat.le_refl _, by omega, fun i => ?_⟩
    split
    · rfl
    · rw [if_neg (by omega), List.getElem?_eq_none_iff]; omega

theorem resize_spec [Zero α] (v : Vec α) (n : Nat) :
    (resize v n).size = n ∧ n ≤ (resize v n).store.length ∧ v.store.length ≤ (resize v n).store.length ∧
      ∀ i, i < (resize v n).store.length →
        (resize v n).store[i]? = if i < v.store.length then v.store[i]? else some 0 := by
  unfold resize
  by_cases h : v.store.length < n
  · simp only [if_pos h]
    obtain ⟨h1, h2, h3⟩ := storageResize_spec v.store (growTo v.store.length n)
    refine ⟨trivial, by have := growTo_ge v.store.length n; omega, h1, fun i hi => ?_⟩
    rw [h3]
    split
    · rfl
    · rw [if_pos]
      apply Decidable.byContradiction
      intro hc
      have := h3 i
      rw [if_neg ‹_›, if_neg hc, List.getElem?_eq_none_iff] at this
      omega
  · simp only [if_neg h]
    exact ⟨trivial, by omega, Nat.le_refl _, fun i hi => by rw [if_pos hi]⟩

/-- The vector's storage shows the tape, and the tape is blank beyond it. -/
structure Shows [Zero α] (v : Vec α) (t : Tape α) : Prop where
  size : v.size = t.size
  fits : v.size ≤ v.store.length
  cells : ∀ i, i < v.store.length → v.store[i]? = some (t.cell i)
  blank : ∀ i, v.store.length ≤ i → t.cell i = 0

theorem Shows.resize [Zero α] {v : Vec α} {t : Tape α} (h : Shows v t) (n : Nat) :
    Shows (Vector.resize v n) ⟨t.cell, n⟩ := by
  obtain ⟨h1, h2, h3, h4⟩ := resize_spec v n
  refine ⟨h1, by omega, fun i hi => ?_, fun i hi => h.blank i (by omega)⟩
  rw [h4 i hi]
  split
  · rename_i hlt; exact h.cells i hlt
  · rename_i hlt; rw [h.blank i (by omega)]

theorem Shows.put [Zero α] {v : Vec α} {t : Tape α} (h : Shows v t) (i : Nat) (x : α) (hi : i < v.size) :
    ∃ v', Vector.put v i x = .ok v' ∧ v'.store.length = v.store.length ∧ Shows v' ⟨t.write i x, t.size⟩ := by
  have hf := h.fits
  refine ⟨⟨v.store.set i x, v.size⟩, ?_, by simp, h.size, by simpa using hf, fun j hj => ?_, fun j hj => ?_⟩
  · unfold Vector.put; rw [if_pos (by omega)]
  · simp only [List.length_set] at hj
    simp only [Tape.write]
    rw [List.getElem?_set]
    by_cases hij : i = j
    · rw [if_pos hij, if_pos (by omega), if_pos hij.symm]
    · rw [if_neg hij, if_neg (Ne.symm hij), h.cells j hj]
  · simp only [List.length_set] at hj
    simp only [Tape.write]
    rw [if_neg (by omega), h.blank j hj]

theorem Shows.step [Zero α] {v : Vec α} {t t' : Tape α} (h : Shows v t) (op : Op α) (ht : t.step op = some t') :
    ∃ v', Vector.step v op = .ok v' ∧ v.store.length ≤ v'.store.length ∧ Shows v' t' := by
  have hs := h.size
  cases op with
  | resize n =>
    simp only [Tape.step, Option.some.injEq] at ht; subst ht
    exact ⟨_, rfl, (resize_spec v n).2.2.1, h.resize n⟩
  | reserve n =>
    simp only [Tape.step, Option.some.injEq] at ht; subst ht
    obtain ⟨h1, h2, h3⟩ := storageResize_spec v.store n
    refine ⟨_, rfl, h1, hs, by have := h.fits; show v.size ≤ (storageResize v.store n).length; omega, ?_, ?_⟩
    · intro i hi
      change i < (storageResize v.store n).length at hi
      show (storageResize v.store n)[i]? = _
      have hne := h3 i
      rw [h3 i]
      split
      · rename_i hlt; exact h.cells i hlt
      · rename_i hlt
        rw [h.blank i (by omega), if_pos]
        apply Decidable.byContradiction
        intro hc
        rw [if_neg hlt, if_neg hc, List.getElem?_eq_none_iff] at hne
        omega
    · intro i hi
      change (storageResize v.store n).length ≤ i at hi
      exact h.blank i (by omega)
  | push x =>
    simp only [Tape.step, Option.some.injEq] at ht; subst ht
    obtain ⟨h1, h2, h3, _⟩ := resize_spec v (v.size + 1)
    obtain ⟨v', e1, e2, e3⟩ := (h.resize (v.size + 1)).put ((Vector.resize v (v.size + 1)).size - 1) x (by omega)
    refine ⟨v', e1, by omega, ?_⟩
    rw [h1] at e3
    simp only [hs, Nat.add_sub_cancel] at e3
    exact e3
  | pop =>
    simp only [Tape.step, Option.some.injEq] at ht; subst ht
    simp only [Vector.step, popBack]
    split
    · rename_i h0
      refine ⟨v, rfl, Nat.le_refl _, ?_⟩
      have : t.size - 1 = t.size := by omega
      rw [this]; exact h
    · refine ⟨_, rfl, (resize_spec v _).2.2.1, ?_⟩
      rw [← hs]; exact h.resize _
  | clear =>
    simp only [Tape.step, Option.some.injEq] at ht; subst ht
    exact ⟨_, rfl, (resize_spec v 0).2.2.1, h.resize 0⟩
  | put i x =>
    simp only [Tape.step] at ht
    split at ht
    · simp only [Option.some.injEq] at ht; subst ht
      obtain ⟨v', e1, e2, e3⟩ := h.put i x (by omega)
      exact ⟨v', e1, by omega, e3⟩
    · simp at ht

/-- **C13.** Every sequence of operations, started on a fresh vector, runs without undefined behaviour and leaves the
    window and the cells that the same operations leave on the tape: sizes agree, elements that were not removed keep
    their value, storage never used is zero, and the capacity is at least the size. -/
theorem C13_vector_is_a_tape [Zero α] (ops : List (Op α)) (t : Tape α) (h : Tape.blank.run ops = some t) :
    ∃ v, run ⟨[], 0⟩ ops = .ok v ∧ v.size = t.size ∧ v.size ≤ v.store.length ∧
      contents v = (List.range t.size).map t.cell ∧ ∀ i, v.store.length ≤ i → t.cell i = 0 := by
  have gen : ∀ (ops : List (Op α)) (v : Vec α) (t0 t : Tape α), Shows v t0 → t0.run ops = some t →
      ∃ v', run v ops = .ok v' ∧ Shows v' t := by
    intro ops
    induction ops with
    | nil => intro v t0 t hv ht; cases ht; exact ⟨v, rfl, hv⟩
    | cons op ops ih =>
      intro v t0 t hv ht
      rw [Tape.run, Option.bind_eq_some_iff] at ht
      obtain ⟨t1, h1, h2⟩ := ht
      obtain ⟨v1, e1, _, e2⟩ := hv.step op h1
      obtain ⟨v2, e3, e4⟩ := ih v1 t1 t e2 h2
      exact ⟨v2, by rw [run, e1]; exact e3, e4⟩
  obtain ⟨v, h1, h2⟩ := gen ops ⟨[], 0⟩ Tape.blank t ⟨rfl, by simp, by simp, fun _ _ => rfl⟩ h
  refine ⟨v, h1, h2.size, h2.fits, ?_, h2.blank⟩
  apply List.ext_getElem?
  intro i
  unfold contents
  have hs := h2.size
  have hf := h2.fits
  by_cases hi : i < v.size
  · rw [List.getElem?_take_of_lt hi, h2.cells i (by omega), List.getElem?_map, List.getElem?_range (by omega)]
    rfl
  · rw [List.getElem?_eq_none_iff.2 (by simp; omega), List.getElem?_eq_none_iff.2 (by simp; omega)]

/-- **C13 (capacity).** No operation gives storage back. -/
theorem C13_capacity_never_shrinks [Zero α] (v v' : Vec α) (op : Op α) (h : step v op = .ok v') :
    v.store.length ≤ v'.store.length := by
  cases op with
  | resize n => simp only [step, Res.ok.injEq] at h; subst h; exact (resize_spec v n).2.2.1
  | reserve n => simp only [step, Res.ok.injEq] at h; subst h; exact (storageResize_spec v.store n).1
  | clear => simp only [step, Res.ok.injEq] at h; subst h; exact (resize_spec v 0).2.2.1
  | pop =>
    simp only [step, Res.ok.injEq] at h; subst h
    unfold popBack
    split
    · exact Nat.le_refl _
    · exact (resize_spec v _).2.2.1
  | push x =>
    simp only [step, pushBack, put] at h
    split at h
    · simp only [Res.ok.injEq] at h; subst h
      simpa using (resize_spec v (v.size + 1)).2.2.1
    · simp at h
  | put i x =>
    simp only [step, put] at h
    split at h
    · simp only [Res.ok.injEq] at h; subst h; simp
    · simp at h

/-- **C13 (as a sequence).** On a vector whose storage holds its elements, `push_back` appends, `pop_back` removes the
    last element, `clear` removes all, `reserve` changes nothing, and `resize` keeps the elements that fit. -/
theorem C13_sequence_operations [Zero α] (v : Vec α) (hv : v.size ≤ v.store.length) :
    (∀ x, ∃ v', pushBack v x = .ok v' ∧ contents v' = contents v ++ [x]) ∧
    (v.size ≠ 0 → ∃ v', popBack v = some v' ∧ contents v' = (contents v).dropLast) ∧
    (v.size = 0 → popBack v = none) ∧
    contents (clear v) = [] ∧ (∀ n, contents (reserve v n) = contents v) ∧
    (∀ n, (contents (resize v n)).length = n ∧
      (contents (resize v n)).take (min n v.size) = (contents v).take (min n v.size)) := by
  have store : ∀ n i, i < v.store.length → (resize v n).store[i]? = v.store[i]? := by
    intro n i hi
    obtain ⟨_, _, h3, h4⟩ := resize_spec v n
    rw [h4 i (by omega), if_pos hi]
  refine ⟨fun x => ?_, fun h0 => ?_, fun h0 => ?_, by simp [contents, clear, resize], fun n => ?_, fun n => ?_⟩
  · obtain ⟨h1, h2, h3, h4⟩ := resize_spec v (v.size + 1)
    refine ⟨⟨(resize v (v.size + 1)).store.set v.size x, v.size + 1⟩, ?_, ?_⟩
    · unfold pushBack put
      dsimp only
      rw [h1, if_pos (by omega)]
      rfl
    · unfold contents
      dsimp only
      apply List.ext_getElem?
      intro i
      by_cases hi : i < v.size
      · rw [List.getElem?_take_of_lt (by omega), List.getElem?_set_ne (by omega), store _ i (by omega),
          List.getElem?_append_left (by simp; omega), List.getElem?_take_of_lt hi]
      · by_cases hi2 : i = v.size
        · subst hi2
          rw [List.getElem?_take_of_lt (by omega), List.getElem?_set_self (by omega),
            List.getElem?_append_right (by simp; omega)]
          simp [Nat.min_eq_left hv]
        · rw [List.getElem?_eq_none_iff.2 (by simp; omega), List.getElem?_eq_none_iff.2 (by simp; omega)]
  · unfold popBack
    rw [if_neg h0]
    refine ⟨_, rfl, ?_⟩
    unfold contents
    apply List.ext_getElem?
    intro i
    rw [(resize_spec v (v.size - 1)).1, List.dropLast_eq_take]
    by_cases hi : i < v.size - 1
    · rw [List.getElem?_take_of_lt hi, store _ i (by omega), List.getElem?_take_of_lt (by simp; omega),
        List.getElem?_take_of_lt (by omega)]
    · rw [List.getElem?_eq_none_iff.2 (by simp; omega), List.getElem?_eq_none_iff.2 (by simp; omega)]
  · unfold popBack; rw [if_pos h0]
  · unfold contents reserve
    apply List.ext_getElem?
    intro i
    dsimp only
    by_cases hi : i < v.size
    · rw [List.getElem?_take_of_lt hi, List.getElem?_take_of_lt hi, (storageResize_spec v.store n).2.2,
        if_pos (by omega)]
    · have := (storageResize_spec v.store n).1
      rw [List.getElem?_eq_none_iff.2 (by simp; omega), List.getElem?_eq_none_iff.2 (by simp; omega)]
  · obtain ⟨h1, h2, _, _⟩ := resize_spec v n
    unfold contents
    refine ⟨by rw [h1]; simp; omega, ?_⟩
    apply List.ext_getElem?
    intro i
    rw [h1]
    by_cases hi : i < min n v.size
    · rw [List.getElem?_take_of_lt hi, List.getElem?_take_of_lt hi, List.getElem?_take_of_lt (by omega),
        List.getElem?_take_of_lt (by omega), store _ i (by omega)]
    · rw [List.getElem?_eq_none_iff.2 (by simp; omega), List.getElem?_eq_none_iff.2 (by simp; omega)]

/-- An instance with growth, removal, overwriting and regrowth: the regrown element is the old one, not zero. -/
example : ∃ v, run (⟨[], 0⟩ : Vec Nat) [.push 5, .push 6, .reserve 9, .put 0 7, .pop, .resize 3] = .ok v ∧
    contents v = [7, 6, 0] := ⟨⟨[7, 6, 0, 0, 0, 0, 0, 0, 0], 3⟩, by decide +kernel, by decide⟩

example : ∃ t, (Tape.blank : Tape Nat).run [.push 5, .push 6, .reserve 9, .put 0 7, .pop, .resize 3] = some t :=
  ⟨_, rfl⟩

/-- **C13, stale elements.** Elements that come back when a vector grows again inside its capacity are the
    old ones: shrinking and growing does not zero them. -/
theorem C13_regrown_elements_are_old [Zero α] (v : Vec α) (m n : Nat) (h : n ≤ v.store.length) (hm : m ≤ n) :
    contents (resize (resize v m) n) = v.store.take n := by
  unfold contents resize
  dsimp only
  rw [if_neg (by rw [if_neg (by omega)]; omega), if_neg (by omega)]

/-- **C13, an element of the vector itself.** `push_back` of a reference to an own element reads released storage
    whenever the vector is full. -/
theorem C13_push_own_element_when_full [Zero α] (v : Vec α) (i : Nat) (h : v.size = v.store.length) :
    pushBackOwn v i = .ub .useAfterFree := by
  unfold pushBackOwn
  dsimp only
  have := (resize_spec v (v.size + 1)).2.1
  rw [if_pos (by omega)]

/-- Full vectors exist: three pushed elements fill the first allocation. -/
example : ∃ v, run (⟨[], 0⟩ : Vec Nat) [.push 5, .push 6, .push 7] = .ok v ∧ v.size = v.store.length :=
  ⟨⟨[5, 6, 7], 3⟩, by decide +kernel, by decide⟩

end Sol.Props
