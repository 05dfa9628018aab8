import Verif.Proofs.BlockQueueLive
/-!
# C20, C21, C22: the blocking queue

The theorems are about every state reachable by any interleaving of any number of threads, spurious wake-ups included.
`unforced` admits every call but the bulk `Dequeue` with `force` set, for which C20 and C21 fail (`C20_is_violated`,
`C21_is_violated`); no code in the repository uses it.
-/

namespace Sol.Props

open Sol.BlockQueue

variable {T : Type}

/-- C20: in order, the elements removed so far are a prefix of the elements stored so far, and the rest are exactly the
elements in the queue, as the next calls of `Dequeue` would remove them. -/
theorem C20_first_in_first_out_partial (isNull : Option T → Bool) (cap n : Nat) (s : State T) (h : Reach isNull unforced cap n s) :
    ∃ rest : List T, s.ins.map some = s.outs ++ rest.map some ∧ (rest.length : Int) = s.q.num ∧
      ∀ k (hk : k < rest.length), s.q.elems[(s.q.head + k) % cap]? = some (some rest[k]) := by
  obtain ⟨_, hr, hc⟩ := reach_ring (fun _ h => h) h
  have hl := hr.lower
  have hu := hr.upper
  have hh := hr.hist
  -- the stored elements are a suffix of the inserted ones
  have hlen : (stored s.q).length = s.q.num.toNat := by simp [stored]
  have hsuf : stored s.q = (s.ins.drop s.outs.length).map some := by
    rw [List.map_drop, hh]
    simp
  refine ⟨s.ins.drop s.outs.length, ?_, ?_, ?_⟩
  · rw [← hsuf]
    exact hh
  · have : (s.ins.drop s.outs.length).length = (stored s.q).length := by rw [hsuf]; simp
    rw [this, hlen]
    omega
  · intro k hk
    have hk' : k < s.q.num.toNat := by
      rw [← hlen, hsuf]
      simpa using hk
    have e1 : (stored s.q)[k]? = some ((s.q.elems[(s.q.head + k) % s.q.cap]?).join) := by
      simp [stored, hk']
    have e2 : (stored s.q)[k]? = some (some (s.ins.drop s.outs.length)[k]) := by
      rw [hsuf]
      simp
    rw [e1] at e2
    simp only [Option.some.injEq] at e2
    rw [hc] at e2
    cases he : s.q.elems[(s.q.head + k) % cap]? with
    | none => rw [he] at e2; simp at e2
    | some o =>
      rw [he] at e2
      simp only [Option.join_some] at e2
      rw [e2]

/-- C20, in other words: nothing is removed that was not stored, and in the same order. -/
theorem C20_removed_is_prefix_partial (isNull : Option T → Bool) (cap n : Nat) (s : State T) (h : Reach isNull unforced cap n s) :
    ∃ l : List T, s.outs = l.map some ∧ l <+: s.ins := by
  obtain ⟨rest, h1, h2, _⟩ := C20_first_in_first_out_partial isNull cap n s h
  refine ⟨s.ins.take s.outs.length, ?_, List.take_prefix _ _⟩
  rw [List.map_take, h1]
  simp

/-- C21: the number of stored elements stays within bounds, as do the indexes, and at most one thread is in the
critical section. -/
theorem C21_bounds_and_exclusion_partial (isNull : Option T → Bool) (cap n : Nat) (s : State T)
    (h : Reach isNull unforced cap n s) :
    0 ≤ s.q.num ∧ s.q.num ≤ cap ∧ (0 < cap → s.q.head < cap ∧ s.q.tail < cap) ∧ s.q.elems.length = cap ∧
      (∀ (i j : Nat) t u, s.thr[i]? = some t → s.thr[j]? = some u → holds t = true → holds u = true → i = j) := by
  obtain ⟨_, hr, hc⟩ := reach_ring (fun _ h => h) h
  have hl := reach_locked h
  subst hc
  refine ⟨hr.lower, hr.upper, fun h0 => ⟨hr.head h0, ?_⟩, hr.len, ?_⟩
  · rw [hr.tail]
    exact Nat.mod_lt _ h0
  · intro i j t u ht hu htt huu
    have h1 := (hl.only i t ht).1 htt
    have h2 := (hl.only j u hu).1 huu
    rw [h1] at h2
    simpa using h2

/-- C21: an element is stored only into a slot that holds no waiting element, and removed only from a slot that does
(the slots in use are the `num` slots from `head` on). -/
theorem C21_slots_partial (isNull : Option T → Bool) (cap n : Nat) (s s' : State T) (i : Nat)
    (h : Reach isNull unforced cap n s) (hr : Run isNull s i s') :
    (s'.ins = s.ins ∨ (s.q.num < cap ∧ ∀ k : Nat, (k : Int) < s.q.num → (s.q.head + k) % cap ≠ s.q.tail)) ∧
    (s'.outs = s.outs ∨ (0 < s.q.num ∧ ∃ x, front s.q = some x)) := by
  obtain ⟨hcalm, hring, hc⟩ := reach_ring (fun _ h => h) h
  have hl := hring.lower
  have hu := hring.upper
  constructor
  · cases hr with
    | put b x r h0 ht hn =>
      right
      have hlt : s.q.num < cap := by rw [← hc]; omega
      refine ⟨hlt, ?_⟩
      intro k hk
      have hh := hring.head (by omega)
      rw [hring.tail, hc, mod_two (by omega), mod_two (by omega)]
      split <;> split <;> omega
    | _ => exact Or.inl rfl
  · have key : s.q.num ≠ 0 → 0 < s.q.num ∧ ∃ x, front s.q = some x := by
      intro hn
      refine ⟨by omega, ?_⟩
      obtain ⟨rest, _, h2, h3⟩ := C20_first_in_first_out_partial isNull cap n s h
      have hk : 0 < rest.length := by omega
      refine ⟨rest[0], ?_⟩
      have := h3 0 hk
      have hh := hring.head (by omega)
      rw [Nat.add_zero, Nat.mod_eq_of_lt (by omega)] at this
      simp [front, this]
    cases hr with
    | takeNext f k g h0 ht hn => exact Or.inr (key hn)
    | takeBlind f k g h0 ht => exact absurd rfl (hcalm.get ht).2
    | _ => exact Or.inl rfl

/-- C21 fails for the forced bulk `Dequeue`: its inner `wait` is not in a loop, so after a spurious wake-up it takes a
slot that was never filled, and the number of elements becomes -1. -/
theorem C21_is_violated : ∃ s : State Nat, Reach (fun _ => false) (fun _ => True) 2 2 s ∧ s.q.num = -1 ∧
    s.ins = [7] ∧ s.outs = [some 7, none] := by
  have r0 : Reach (fun _ => false) (fun _ => True) 2 2 (start Nat 2 2) := .start
  have r1 := r0.step (.call _ 0 (.enqueue 7) trivial rfl)
  have r2 := r1.step (.run _ _ 0 (.acquireEnq _ 0 false [7] rfl rfl))
  have r3 := r2.step (.run _ _ 0 (.put _ 0 false 7 [] rfl rfl (by decide)))
  have r4 := r3.step (.run _ _ 0 (.stored _ 0 false rfl rfl))
  have r5 := r4.step (.run _ _ 0 (.notifyNone _ 0 rfl rfl (by
    intro t ht
    simp only [start, List.mem_cons, List.replicate, List.set, List.not_mem_nil, or_false] at ht
    rcases ht with rfl | rfl <;> rfl)))
  have r6 := r5.step (.run _ _ 0 (.unlockEnq _ 0 false [] rfl rfl))
  have r7 := r6.step (.call _ 1 (.dequeueBulk 2 true) trivial rfl)
  have r8 := r7.step (.run _ _ 1 (.acquireDeq _ 1 true .first 2 [] rfl rfl))
  have r9 := r8.step (.run _ _ 1 (.nonempty _ 1 true 2 [] rfl rfl (by decide)))
  have r10 := r9.step (.run _ _ 1 (.takeNext _ 1 true 1 [] rfl rfl (by decide)))
  have r11 := r10.step (.run _ _ 1 (.fill _ 1 true 0 [some 7] rfl rfl (by decide) rfl))
  have r12 := r11.step (.spurious _ 1 _ rfl)
  have r13 := r12.step (.run _ _ 1 (.acquireDeq _ 1 true .take 1 [some 7] rfl rfl))
  have r14 := r13.step (.run _ _ 1 (.takeBlind _ 1 true 0 [some 7] rfl rfl))
  exact ⟨_, r14, rfl, rfl, rfl⟩

/-- C20 fails with it as well: something is removed that was never stored. -/
theorem C20_is_violated : ∃ s : State Nat, Reach (fun _ => false) (fun _ => True) 2 2 s ∧
    ¬ ∃ l : List Nat, s.outs = l.map some ∧ l <+: s.ins := by
  obtain ⟨s, h, _, _, ho⟩ := C21_is_violated
  refine ⟨s, h, ?_⟩
  rintro ⟨l, hl, _⟩
  rw [ho] at hl
  have : none ∈ l.map some := by rw [← hl]; simp
  simp at this

/-- A thread inside a call that is not waiting for a notification. -/
def Awake : Thread T → Prop
  | .idle => False
  | .enq ph _ _ => ph ≠ .waiting
  | .deq ph _ _ _ _ => ph ≠ .waiting

/-- A consumer waits though an element is stored, or a producer waits though a slot is free. -/
def Forgotten (s : State T) : Prop :=
  ((∃ t ∈ s.thr, waitsDeq t = true) ∧ 0 < s.q.num) ∨ ((∃ t ∈ s.thr, waitsEnq t = true) ∧ s.q.num < s.q.cap)

theorem awake_of_credit {t : Thread T} (h : 0 < credit t) : Awake t := by
  unfold credit at h
  split at h <;> simp_all [Awake]

theorem awake_of_holds {t : Thread T} (h : holds t = true) : Awake t := by
  unfold holds at h
  split at h
  · simp at h
  · intro e
    subst e
    simp at h
  · intro e
    subst e
    simp at h

/-- Steps of threads inside calls (no new calls, no spurious wake-ups). -/
def Moves (isNull : Option T → Bool) (s s' : State T) : Prop := ∃ i, Run isNull s i s'

/-- C22: whenever a thread waits for something that is already there, another thread is awake, -/
theorem C22_someone_is_awake (isNull : Option T → Bool) (cap n : Nat) (s : State T) (h : Reach isNull plain cap n s)
    (hf : Forgotten s) : ∃ t ∈ s.thr, Awake t := by
  have ha := reach_alive h
  rcases hf with ⟨hw, hn⟩ | ⟨hw, hn⟩
  · rcases ha.cons hw with hc | ⟨t, ht, hb⟩
    · obtain ⟨t, ht, hp⟩ := tot_pos credit (l := s.thr) (by omega)
      exact ⟨t, ht, awake_of_credit hp⟩
    · exact ⟨t, ht, awake_of_holds (holds_bulk hb)⟩
  · rcases ha.prod hw with hc | ⟨t, ht, hb⟩
    · omega
    · exact ⟨t, ht, awake_of_holds (holds_took hb)⟩

/-- and whenever a thread is awake, some thread can make a step. -/
theorem C22_awake_threads_move (isNull : Option T → Bool) (cap n : Nat) (s : State T) (h : Reach isNull plain cap n s)
    (hw : ∃ t ∈ s.thr, Awake t) : ∃ s', Moves isNull s s' := by
  have ha := reach_alive h
  have hl := reach_locked h
  cases hlk : s.lock with
  | some i =>
    obtain ⟨s', hs'⟩ := owner_runs isNull hl ha hlk
    exact ⟨s', i, hs'⟩
  | none =>
    obtain ⟨t, ht, hta⟩ := hw
    have hh := hl.nobody hlk ht
    obtain ⟨i, hi, he⟩ := List.getElem_of_mem ht
    have hi' : s.thr[i]? = some t := by simp [hi, he]
    rcases t with _ | ⟨ph, b, r⟩ | ⟨ph, f, p, k, g⟩
    · exact absurd hta (by simp [Awake])
    · cases ph <;> simp [holds, Awake] at hh hta
      exact ⟨_, i, .acquireEnq s i b r hlk hi'⟩
    · cases ph <;> simp [holds, Awake] at hh hta
      exact ⟨_, i, .acquireDeq s i f p k g hlk hi'⟩

/-- C22: the steps of the threads inside calls always come to an end, -/
theorem C22_steps_end (isNull : Option T → Bool) (cap n : Nat) (s : State T) (h : Reach isNull plain cap n s) :
    Acc (fun s' s => Moves isNull s s') s := by
  have key : ∀ l : List (Thread T), ∀ s : State T, s.thr = l → Reach isNull plain cap n s →
      Acc (fun s' s => Moves isNull s s') s := by
    intro l
    induction l using smaller_wf.induction with
    | _ l ih =>
      intro s hs hr
      constructor
      rintro s' ⟨i, hi⟩
      have hc := (reach_ring plain_unforced hr).1
      exact ih s'.thr (by rw [← hs]; exact run_smaller hi hc) s' rfl (hr.step (.run _ _ i hi))
  exact key s.thr s rfl h

/-- and where they end, nobody waits for something that is there: no wake-up was lost. -/
theorem C22_no_lost_wakeup (isNull : Option T → Bool) (cap n : Nat) (s : State T) (h : Reach isNull plain cap n s)
    (hend : ¬ ∃ s', Moves isNull s s') :
    s.lock = none ∧ (∀ t ∈ s.thr, ¬ Awake t) ∧ ¬ Forgotten s := by
  have hna : ∀ t ∈ s.thr, ¬ Awake t := fun t ht hta => hend (C22_awake_threads_move isNull cap n s h ⟨t, ht, hta⟩)
  refine ⟨?_, hna, ?_⟩
  · cases hlk : s.lock with
    | none => rfl
    | some i =>
      exfalso
      obtain ⟨s', hs'⟩ := owner_runs isNull (reach_locked h) (reach_alive h) hlk
      exact hend ⟨s', i, hs'⟩
  · intro hf
    obtain ⟨t, ht, hta⟩ := C22_someone_is_awake isNull cap n s h hf
    exact hna t ht hta

/-- Instance: a consumer waits, a producer stores an element; the consumer is forgotten for no longer than the producer
needs to notify. -/
example : ∃ s : State Nat, Reach (fun _ => false) plain 2 2 s ∧ Forgotten s := by
  have r0 : Reach (fun _ => false) plain 2 2 (start Nat 2 2) := .start
  have r1 := r0.step (.call _ 0 .dequeue trivial rfl)
  have r2 := r1.step (.run _ _ 0 (.acquireDeq _ 0 false .first 1 [] rfl rfl))
  have r3 := r2.step (.run _ _ 0 (.empty _ 0 false 1 [] rfl rfl rfl))
  have r4 := r3.step (.call _ 1 (.enqueue 7) trivial rfl)
  have r5 := r4.step (.run _ _ 1 (.acquireEnq _ 1 false [7] rfl rfl))
  have r6 := r5.step (.run _ _ 1 (.put _ 1 false 7 [] rfl rfl (by decide)))
  exact ⟨_, r6, Or.inl ⟨⟨.deq .waiting false .first 1 [], by simp [start], rfl⟩, by decide⟩⟩

/-- The restriction in `plain` is needed: a bulk `Dequeue` of zero elements uses up a notification, and a waiting
consumer is forgotten. -/
theorem C22_bulk_of_zero_loses_wakeup : ∃ s : State Nat, Reach (fun _ => false) unforced 2 3 s ∧ Forgotten s ∧
    ∀ t ∈ s.thr, ¬ Awake t := by
  have r0 : Reach (fun _ => false) unforced 2 3 (start Nat 2 3) := .start
  have r1 := r0.step (.call _ 0 .dequeue trivial rfl)
  have r2 := r1.step (.run _ _ 0 (.acquireDeq _ 0 false .first 1 [] rfl rfl))
  have r3 := r2.step (.run _ _ 0 (.empty _ 0 false 1 [] rfl rfl rfl))
  have r4 := r3.step (.call _ 1 (.dequeueBulk 0 false) trivial rfl)
  have r5 := r4.step (.run _ _ 1 (.acquireDeq _ 1 false .first 0 [] rfl rfl))
  have r6 := r5.step (.run _ _ 1 (.empty _ 1 false 0 [] rfl rfl rfl))
  have r7 := r6.step (.call _ 2 (.enqueue 7) trivial rfl)
  have r8 := r7.step (.run _ _ 2 (.acquireEnq _ 2 false [7] rfl rfl))
  have r9 := r8.step (.run _ _ 2 (.put _ 2 false 7 [] rfl rfl (by decide)))
  have r10 := r9.step (.run _ _ 2 (.stored _ 2 false rfl rfl))
  have r11 := r10.step (.run _ _ 2 (.notifyOne _ 2 1 _ rfl rfl rfl rfl))
  have r12 := r11.step (.run _ _ 2 (.unlockEnq _ 2 false [] rfl rfl))
  have r13 := r12.step (.run _ _ 1 (.acquireDeq _ 1 false .first 0 [] rfl rfl))
  have r14 := r13.step (.run _ _ 1 (.nonempty _ 1 false 0 [] rfl rfl (by decide)))
  have r15 := r14.step (.run _ _ 1 (.gotAll _ 1 false [] rfl rfl))
  have r16 := r15.step (.run _ _ 1 (.notifyAllEnq _ 1 false .loop 0 [] rfl rfl))
  have r17 := r16.step (.run _ _ 1 (.unlockDeq _ 1 false .loop 0 [] rfl rfl))
  refine ⟨_, r17, Or.inl ⟨⟨.deq .waiting false .first 1 [], ?_, rfl⟩, by decide⟩, ?_⟩
  · simp [start, wakeDeq, wakeEnq]
  · intro t ht
    simp [start, wakeDeq, wakeEnq] at ht
    rcases ht with rfl | rfl <;> simp [Awake]

end Sol.Props
