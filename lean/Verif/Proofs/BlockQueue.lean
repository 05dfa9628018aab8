import Verif.Model.BlockQueue
/-! Facts about the queue model. -/

namespace Sol.BlockQueue

variable {T : Type}

/-! ### The ring buffer -/

/-- The stored elements, from the head on. -/
def stored (q : Queue T) : List (Option T) :=
  (List.range q.num.toNat).map fun k => q.elems[(q.head + k) % q.cap]?.join

/-- Ring buffer and history fit together. -/
structure Ring (q : Queue T) (ins : List T) (outs : List (Option T)) : Prop where
  len : q.elems.length = q.cap
  lower : 0 ≤ q.num
  upper : q.num ≤ q.cap
  head : 0 < q.cap → q.head < q.cap
  tail : q.tail = (q.head + q.num.toNat) % q.cap
  hist : ins.map some = outs ++ stored q

theorem ring_new (T : Type) (cap : Nat) : Ring (new T cap) [] [] := by
  refine ⟨by simp [new], by simp [new], by simp [new], fun h => h, ?_, ?_⟩
  · simp [new]
  · simp [stored, new]

theorem mod_two {a c : Nat} (h : a < 2 * c) : a % c = if a < c then a else a - c := by
  split
  · exact Nat.mod_eq_of_lt ‹_›
  · rw [Nat.mod_eq_sub_mod (by omega)]
    exact Nat.mod_eq_of_lt (by omega)

theorem ring_push {q : Queue T} {ins : List T} {outs : List (Option T)} (h : Ring q ins outs) (hn : q.num ≠ q.cap) (x : T) :
    Ring (push q x) (ins ++ [x]) outs := by
  have hl := h.lower
  have hu := h.upper
  have hc : 0 < q.cap := by omega
  have hh := h.head hc
  have htl : q.tail < q.cap := by rw [h.tail]; exact Nat.mod_lt _ hc
  have hnum : (q.num + 1).toNat = q.num.toNat + 1 := by omega
  refine ⟨by simp [push, h.len], by simp only [push]; omega, by simp only [push]; omega, fun _ => hh, ?_, ?_⟩
  · simp only [push]
    rw [h.tail, hnum, Nat.mod_add_mod]
    congr 1
  · have hst : stored (push q x) = stored q ++ [some x] := by
      unfold stored
      simp only [push, hnum, List.range_succ, List.map_append, List.map_cons, List.map_nil]
      congr 1
      · apply List.map_congr_left
        intro k hk
        simp only [List.mem_range] at hk
        rw [List.getElem?_set_ne]
        rw [h.tail, mod_two (by omega), mod_two (by omega)]
        split <;> split <;> omega
      · rw [← h.tail, List.getElem?_set_self (by rw [h.len]; exact htl)]
        simp
    rw [hst, ← List.append_assoc, ← h.hist]
    simp

theorem ring_pop {q : Queue T} {ins : List T} {outs : List (Option T)} (h : Ring q ins outs) (hn : q.num ≠ 0) :
    Ring (pop q) ins (outs ++ [front q]) := by
  have hl := h.lower
  have hu := h.upper
  have hc : 0 < q.cap := by omega
  have hh := h.head hc
  have hnum : q.num.toNat = (q.num - 1).toNat + 1 := by omega
  refine ⟨by simp [pop, h.len], by simp only [pop]; omega, by simp only [pop]; omega, ?_, ?_, ?_⟩
  · intro _
    exact Nat.mod_lt _ hc
  · simp only [pop]
    rw [h.tail, hnum, Nat.mod_add_mod]
    congr 1
    omega
  · have hst : stored q = front q :: stored (pop q) := by
      unfold stored
      simp only [pop]
      rw [hnum, List.range_succ_eq_map, List.map_cons, List.map_map]
      congr 1
      · simp only [front, Nat.add_zero, Nat.mod_eq_of_lt hh]
      · apply List.map_congr_left
        intro k hk
        simp only [Function.comp_apply, Nat.mod_add_mod]
        congr 3
        omega
    rw [h.hist, hst]
    simp

/-! ### Threads -/

/-- A forced bulk `Dequeue` is not under way. -/
def calm : Thread T → Prop
  | .deq _ f p _ _ => f = false ∧ p ≠ .take
  | _ => True

theorem calm_wakeDeq (t : Thread T) (h : calm t) : calm (wakeDeq t) := by
  unfold wakeDeq
  split <;> simp_all [calm]

theorem calm_wakeEnq (t : Thread T) (h : calm t) : calm (wakeEnq t) := by
  unfold wakeEnq
  split <;> simp_all [calm]

/-- All threads. -/
def All (P : Thread T → Prop) (l : List (Thread T)) : Prop := ∀ t ∈ l, P t

theorem All.set {P : Thread T → Prop} {l : List (Thread T)} (h : All P l) (i : Nat) {t : Thread T} (ht : P t) :
    All P (l.set i t) := by
  intro u hu
  rcases List.mem_or_eq_of_mem_set hu with hu | hu
  · exact h u hu
  · rw [hu]
    exact ht

theorem All.map {P : Thread T → Prop} {l : List (Thread T)} (h : All P l) {f : Thread T → Thread T}
    (hf : ∀ t, P t → P (f t)) : All P (l.map f) := by
  intro u hu
  obtain ⟨t, ht, rfl⟩ := List.mem_map.1 hu
  exact hf t (h t ht)

theorem All.get {P : Thread T → Prop} {l : List (Thread T)} (h : All P l) {i : Nat} {t : Thread T}
    (ht : l[i]? = some t) : P t := h t (List.mem_of_getElem? ht)

theorem calm_of_force {ph : Phase} {f : Bool} {p : At} {k : Nat} {g : List (Option T)}
    (h : calm (.deq ph f p k g)) : f = false := h.1

theorem calm_same {ph ph' : Phase} {f : Bool} {p : At} {k k' : Nat} {g g' : List (Option T)}
    (h : calm (.deq ph f p k g)) : calm (.deq ph' f p k' g') := h

theorem run_calm {isNull : Option T → Bool} {s s' : State T} {i : Nat} (h : Run isNull s i s') (hc : All calm s.thr) :
    All calm s'.thr := by
  cases h with
  | acquireEnq b r hl ht => exact hc.set _ trivial
  | acquireDeq f p k g hl ht => exact hc.set _ (calm_same (hc.get ht))
  | full b x r hl ht hn =>
    simp only
    split
    · exact (hc.map calm_wakeDeq).set _ trivial
    · exact hc.set _ trivial
  | put b x r hl ht hn => exact hc.set _ trivial
  | stored b hl ht => exact hc.set _ trivial
  | notifyOne j t hl ht hj hw => exact (hc.set _ (calm_wakeDeq t (hc.get hj))).set _ trivial
  | notifyNone hl ht hw => exact hc.set _ trivial
  | notifyAllDeq hl ht => exact (hc.map calm_wakeDeq).set _ trivial
  | unlockEnq b r hl ht => exact hc.set _ trivial
  | empty f k g hl ht hn => exact hc.set _ (calm_same (hc.get ht))
  | nonempty f k g hl ht hn => exact hc.set _ ⟨(hc.get ht).1, by simp⟩
  | gotAll f g hl ht => exact hc.set _ (calm_same (hc.get ht))
  | fill f k g hl ht hn hm =>
    exfalso
    have := (hc.get ht).1
    subst this
    unfold mustFill at hm
    split at hm <;> simp at hm
  | giveUp f k g hl ht hn hm => exact hc.set _ (calm_same (hc.get ht))
  | takeNext f k g hl ht hn => exact hc.set _ (calm_same (hc.get ht))
  | takeBlind f k g hl ht => exact absurd rfl (hc.get ht).2
  | notifyAllEnq f p k g hl ht => exact (hc.map calm_wakeEnq).set _ (calm_same (hc.get ht))
  | unlockDeq f p k g hl ht => exact hc.set _ trivial

theorem run_ring {isNull : Option T → Bool} {s s' : State T} {i : Nat} (h : Run isNull s i s') (hc : All calm s.thr)
    (hr : Ring s.q s.ins s.outs) : Ring s'.q s'.ins s'.outs ∧ s'.q.cap = s.q.cap := by
  cases h with
  | put b x r hl ht hn => exact ⟨ring_push hr hn x, rfl⟩
  | takeNext f k g hl ht hn => exact ⟨ring_pop hr hn, rfl⟩
  | takeBlind f k g hl ht => exact absurd rfl (hc.get ht).2
  | _ => exact ⟨hr, rfl⟩

theorem calm_enter {c : Call T} (h : unforced c) : calm (enter c) := by
  cases c with
  | enqueue x => trivial
  | enqueueBulk l => trivial
  | dequeue => exact ⟨rfl, by simp⟩
  | dequeueBulk k f =>
    cases f
    · exact ⟨rfl, by simp⟩
    · exact absurd h (by simp [unforced])

/-- The invariant of all runs without forced bulk `Dequeue`. -/
theorem reach_ring {isNull : Option T → Bool} {ops : Call T → Prop} (ho : ∀ c, ops c → unforced c) {cap n : Nat}
    {s : State T} (h : Reach isNull ops cap n s) : All calm s.thr ∧ Ring s.q s.ins s.outs ∧ s.q.cap = cap := by
  induction h with
  | start =>
    refine ⟨?_, ring_new T cap, rfl⟩
    intro t ht
    simp only [start, List.mem_replicate] at ht
    rw [ht.2]
    trivial
  | step _ hs ih =>
    obtain ⟨hc, hr, hk⟩ := ih
    cases hs with
    | call i c hop ht => exact ⟨hc.set _ (calm_enter (ho c hop)), hr, hk⟩
    | run _ i hrun =>
      have := run_ring hrun hc hr
      exact ⟨run_calm hrun hc, this.1, this.2.trans hk⟩
    | spurious i t ht => exact ⟨hc.set _ (calm_wakeEnq _ (calm_wakeDeq _ (hc.get ht))), hr, hk⟩

/-! ### The lock -/

/-- The thread is in a phase with the lock held. -/
def holds : Thread T → Bool
  | .idle => false
  | .enq ph _ _ => ph == .inside || ph == .notify || ph == .unlock
  | .deq ph _ _ _ _ => ph == .inside || ph == .notify || ph == .unlock

@[simp] theorem holds_wakeDeq (t : Thread T) : holds (wakeDeq t) = holds t := by
  unfold wakeDeq
  split <;> rfl

@[simp] theorem holds_wakeEnq (t : Thread T) : holds (wakeEnq t) = holds t := by
  unfold wakeEnq
  split <;> rfl

/-- Exactly the owner of the lock is in such a phase. -/
structure Locked (s : State T) : Prop where
  only : ∀ j t, s.thr[j]? = some t → (holds t = true ↔ s.lock = some j)
  live : ∀ i, s.lock = some i → ∃ t, s.thr[i]? = some t

theorem get_set {l : List (Thread T)} {i j : Nat} {a t : Thread T} (h : (l.set i a)[j]? = some t) :
    (j = i ∧ t = a) ∨ (j ≠ i ∧ l[j]? = some t) := by
  rw [List.getElem?_set] at h
  split at h
  · split at h
    · simp only [Option.some.injEq] at h
      exact Or.inl ⟨by omega, h.symm⟩
    · simp at h
  · exact Or.inr ⟨by omega, h⟩

theorem get_map {l : List (Thread T)} {j : Nat} {f : Thread T → Thread T} {t : Thread T} (h : (l.map f)[j]? = some t) :
    ∃ u, l[j]? = some u ∧ t = f u := by
  rw [List.getElem?_map] at h
  cases hl : l[j]? with
  | none => simp [hl] at h
  | some u =>
    simp only [hl, Option.map_some, Option.some.injEq] at h
    exact ⟨u, rfl, h.symm⟩

/-- Replacing one thread by one with the same relation to the (possibly changed) lock. -/
theorem Locked.upd {s s' : State T} (h : Locked s) {i : Nat} {t a : Thread T} (ht : s.thr[i]? = some t)
    (hthr : s'.thr = s.thr.set i a) (hlock : ∀ j, j ≠ i → (s'.lock = some j ↔ s.lock = some j))
    (ha : holds a = true ↔ s'.lock = some i) : Locked s' := by
  constructor
  · intro j u hu
    rw [hthr] at hu
    rcases get_set hu with ⟨rfl, rfl⟩ | ⟨hji, hu⟩
    · exact ha
    · rw [h.only j u hu, hlock j hji]
  · intro j hj
    by_cases hji : j = i
    · subst hji
      refine ⟨a, ?_⟩
      rw [hthr, List.getElem?_set_self (List.getElem?_eq_some_iff.1 ht).1]
    · obtain ⟨u, hu⟩ := h.live j ((hlock j hji).1 hj)
      refine ⟨u, ?_⟩
      rw [hthr, List.getElem?_set_ne (fun e => hji e.symm)]
      exact hu

theorem Locked.map {s : State T} (h : Locked s) {f : Thread T → Thread T} (hf : ∀ t, holds (f t) = holds t) :
    Locked { s with thr := s.thr.map f } := by
  constructor
  · intro j t ht
    obtain ⟨u, hu, rfl⟩ := get_map ht
    rw [hf]
    exact h.only j u hu
  · intro i hi
    obtain ⟨t, ht⟩ := h.live i hi
    exact ⟨f t, by simp [ht]⟩

theorem run_locked {isNull : Option T → Bool} {s s' : State T} {i : Nat} (h : Run isNull s i s') (hl : Locked s) :
    Locked s' := by
  cases h with
  | acquireEnq b r h0 ht => exact hl.upd ht rfl (fun j hj => by simp [h0, Ne.symm hj]) (by simp [holds])
  | acquireDeq f p k g h0 ht => exact hl.upd ht rfl (fun j hj => by simp [h0, Ne.symm hj]) (by simp [holds])
  | full b x r h0 ht hn =>
    cases b
    · exact hl.upd ht rfl (fun j hj => by simp [h0, Ne.symm hj]) (by simp [holds])
    · exact (hl.map holds_wakeDeq).upd (i := i) (t := .enq .inside true (x :: r)) (by simp [ht, wakeDeq]) rfl
        (fun j hj => by simp [h0, Ne.symm hj]) (by simp [holds])
  | put b x r h0 ht hn => exact hl.upd ht rfl (fun j hj => Iff.rfl) (by simp [holds, h0])
  | stored b h0 ht => exact hl.upd ht rfl (fun j hj => Iff.rfl) (by simp [holds, h0])
  | notifyOne j t h0 ht hj hw =>
    have hij : j ≠ i := by
      intro e
      subst e
      rw [ht] at hj
      simp only [Option.some.injEq] at hj
      subst hj
      simp [waitsDeq] at hw
    have h1 : Locked { s with thr := s.thr.set j (wakeDeq t) } :=
      hl.upd hj rfl (fun _ _ => Iff.rfl) (by rw [holds_wakeDeq]; exact hl.only j t hj)
    exact h1.upd (t := .enq .notify false []) (by simp only; rw [List.getElem?_set_ne hij]; exact ht) rfl (fun _ _ => Iff.rfl)
      (by simp [holds, h0])
  | notifyNone h0 ht hw => exact hl.upd ht rfl (fun j hj => Iff.rfl) (by simp [holds, h0])
  | notifyAllDeq h0 ht =>
    exact (hl.map holds_wakeDeq).upd (i := i) (t := .enq .notify true []) (by simp [ht, wakeDeq]) rfl (fun _ _ => Iff.rfl)
      (by simp [holds, h0])
  | unlockEnq b r h0 ht => exact hl.upd ht rfl (fun j hj => by simp [h0, Ne.symm hj]) (by simp [holds])
  | empty f k g h0 ht hn => exact hl.upd ht rfl (fun j hj => by simp [h0, Ne.symm hj]) (by simp [holds])
  | nonempty f k g h0 ht hn => exact hl.upd ht rfl (fun j hj => Iff.rfl) (by simp [holds, h0])
  | gotAll f g h0 ht => exact hl.upd ht rfl (fun j hj => Iff.rfl) (by simp [holds, h0])
  | fill f k g h0 ht hn hm =>
    exact (hl.map holds_wakeEnq).upd (i := i) (t := .deq .inside f .loop (k + 1) g) (by simp [ht, wakeEnq]) rfl
        (fun j hj => by simp [h0, Ne.symm hj]) (by simp [holds])
  | giveUp f k g h0 ht hn hm => exact hl.upd ht rfl (fun j hj => Iff.rfl) (by simp [holds, h0])
  | takeNext f k g h0 ht hn => exact hl.upd ht rfl (fun j hj => Iff.rfl) (by simp [holds, h0])
  | takeBlind f k g h0 ht => exact hl.upd ht rfl (fun j hj => Iff.rfl) (by simp [holds, h0])
  | notifyAllEnq f p k g h0 ht =>
    exact (hl.map holds_wakeEnq).upd (i := i) (t := .deq .notify f p k g) (by simp [ht, wakeEnq]) rfl (fun _ _ => Iff.rfl)
      (by simp [holds, h0])
  | unlockDeq f p k g h0 ht => exact hl.upd ht rfl (fun j hj => by simp [h0, Ne.symm hj]) (by simp [holds])

theorem holds_enter (c : Call T) : holds (enter c) = false := by
  cases c <;> rfl

theorem reach_locked {isNull : Option T → Bool} {ops : Call T → Prop} {cap n : Nat} {s : State T}
    (h : Reach isNull ops cap n s) : Locked s := by
  induction h with
  | start =>
    constructor
    · intro j t ht
      simp only [start, List.getElem?_replicate] at ht
      split at ht
      · simp only [Option.some.injEq] at ht
        subst ht
        simp [holds, start]
      · simp at ht
    · intro i hi
      simp [start] at hi
  | step _ hs ih =>
    cases hs with
    | call i c hop ht =>
      exact ih.upd ht rfl (fun _ _ => Iff.rfl) (by rw [holds_enter]; exact ih.only i .idle ht)
    | run _ i hrun => exact run_locked hrun ih
    | spurious i t ht =>
      exact ih.upd ht rfl (fun _ _ => Iff.rfl) (by rw [holds_wakeEnq, holds_wakeDeq]; exact ih.only i t ht)

end Sol.BlockQueue
