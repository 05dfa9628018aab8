import Verif.Proofs.DataIterLive
/-!
# C23, C24, C25: the data iterator

The theorems hold for every interleaving of the caller with the reading threads.
-/

namespace Sol.Props

open Sol.DataIter Sol.Spec

variable {P : Type}

theorem iterReach_inv {size num : Nat} (hs : 1 ≤ size) (hn : 1 ≤ num) {fs : List (List P × Bool × Nat)} {s : State P}
    (h : IterReach size num fs s) : Inv s (allPoints fs) := by
  induction h with
  | init fs =>
    refine ⟨hs, hn, by simp [start], by simp [start], ?_⟩
    refine .buf [] (fs.map newReader) rfl ⟨[], rfl, rfl, by simp, ?_⟩ (Or.inl rfl) (by simp [start, heldN]) ?_
      (by simp) (by simp [start])
    · intro r hr
      obtain ⟨f, _, rfl⟩ := List.mem_map.1 hr
      rfl
    · simp only [start, List.flatten_nil, List.nil_append, List.flatMap_map, allPoints]
      congr 1
      funext f
      exact more_new f
  | step _ hs ih => exact step_inv ih hs
  | @add fs s f _ hi ih =>
    obtain ⟨hsz, hnum, hfac, hdel, htok⟩ := ih
    refine ⟨hsz, hnum, hfac, hdel, ?_⟩
    have hgoal : allPoints (fs ++ [f]) = allPoints fs ++ left (newReader f) := by
      simp [allPoints, left, ← more_new f]
      rfl
    rw [hgoal]
    cases htok with
    | buf bs post hb hq hc hcount hcons hlen hend =>
      refine .buf bs (post ++ [newReader f]) hb ?_ hc hcount ?_ hlen (by simp)
      · obtain ⟨pre, e1, est, h3, h4⟩ := hq
        refine ⟨pre, by simp [e1], est, h3, ?_⟩
        intro r hr
        rw [List.mem_append, List.mem_singleton] at hr
        rcases hr with hr | rfl
        · exact h4 r hr
        · rfl
      · rw [← hcons]; simp
    | reader bs r post hb hbusy hact hput hc hcount hcons hlen hend =>
      refine .reader bs r (post ++ [newReader f]) hb ?_ hact hput hc hcount ?_ hlen rfl
      · obtain ⟨pre, e1, est, h3, h4⟩ := hbusy
        refine ⟨pre, by simp [e1], est, h3, ?_⟩
        intro r hr
        rw [List.mem_append, List.mem_singleton] at hr
        rcases hr with hr | rfl
        · exact h4 r hr
        · rfl
      · rw [← hcons]; simp
    | caller post _ _ hc => simp [hi] at hc

/-- C23: at any time, the points handed out are the first points of the files, in order; no point is handed out twice
or skipped. -/
theorem C23_delivered_in_order (size num : Nat) (hs : 1 ≤ size) (hn : 1 ≤ num) (fs : List (List P × Bool × Nat))
    (s : State P) (h : IterReach size num fs s) : s.delivered.flatten <+: allPoints fs := by
  cases (iterReach_inv hs hn h).tok with
  | buf bs post hb hq hc hcount hcons => exact ⟨_, by rw [← hcons, List.append_assoc]⟩
  | reader bs r post hb hbusy hact hput hc hcount hcons => exact ⟨_, by rw [← hcons, List.append_assoc]⟩
  | caller post hb hq hc hh hcount hcons => exact ⟨_, hcons⟩

/-- C23, C24: when the last result of `Next` is null, all points have been handed out. -/
theorem C23_null_after_everything (size num : Nat) (hs : 1 ≤ size) (hn : 1 ≤ num) (fs : List (List P × Bool × Nat))
    (s : State P) (h : IterReach size num fs s) (he : s.ended = true) : s.delivered.flatten = allPoints fs := by
  cases (iterReach_inv hs hn h).tok with
  | buf bs post hb hq hc hcount hcons hlen hend =>
    obtain ⟨rfl, rfl, _⟩ := hend he
    simpa using hcons
  | reader bs r post hb hbusy hact hput hc hcount hcons hlen hend => simp [he] at hend
  | caller post hb hq hc hh hcount hcons hend =>
    have := hend he
    subst this
    simpa using hcons

/-- C24: in every reachable state some step is possible; the caller is never blocked for ever. -/
theorem C24_never_blocked (size num : Nat) (hs : 1 ≤ size) (hn : 1 ≤ num) (fs : List (List P × Bool × Nat))
    (s : State P) (h : IterReach size num fs s) : ∃ s', Step s s' :=
  (iterReach_inv hs hn h).progress

/-- C24: some schedule ends with a null pointer. -/
theorem C24_null_comes (size num : Nat) (hs : 1 ≤ size) (hn : 1 ≤ num) (fs : List (List P × Bool × Nat)) :
    ∃ s, IterReach size num fs s ∧ s.ended = true := by
  refine Classical.byContradiction fun hno => ?_
  have hno : ∀ s : State P, IterReach size num fs s → s.ended = true → False := fun s h1 h2 => hno ⟨s, h1, h2⟩
  have hgo : ∀ s : State P, IterReach size num fs s → False := by
    intro s
    refine (going_wf (allPoints fs)).induction (C := fun s => IterReach size num fs s → False) s fun s ih h => ?_
    obtain ⟨s', hst⟩ := C24_never_blocked size num hs hn fs s h
    have h' := h.step hst
    refine ih s' ⟨iterReach_inv hs hn h, ?_, hst⟩ h'
    rintro ⟨h1, h2⟩
    rcases hst with ⟨i, hst⟩ | hst
    · cases hst <;> simp_all
    · cases hst <;> first
        | exact hno _ h' rfl
        | simp_all
  exact hgo _ (.init fs)

/-- C24: there is no infinite run in which `Next` does not return null (before the first null as well as between two of
them). -/
theorem C24_schedules_end (size num : Nat) (hs : 1 ≤ size) (hn : 1 ≤ num) (fs : List (List P × Bool × Nat)) :
    ¬ ∃ f : Nat → State P, IterReach size num fs (f 0) ∧
      ∀ n, Step (f n) (f (n + 1)) ∧ ¬ ((f n).cpc = .putNull ∧ (f (n + 1)).cpc = .idle) := by
  rintro ⟨f, h0, hf⟩
  have hr : ∀ n, IterReach size num fs (f n) := by
    intro n
    induction n with
    | zero => exact h0
    | succ n ih => exact ih.step (hf n).1
  have hwf := going_wf (allPoints fs)
  have key : ∀ s : State P, ∀ n, f n = s → False := by
    intro s
    induction s using hwf.induction with
    | _ s ih =>
      intro n hn'
      refine ih (f (n + 1)) ?_ (n + 1) rfl
      subst hn'
      exact ⟨iterReach_inv hs hn (hr n), (hf n).2, (hf n).1⟩
  exact key _ 0 rfl

/-- C24: after null, further calls of `Next` return null and nothing else. -/
theorem C24_null_again (size num : Nat) (hs : 1 ≤ size) (hn : 1 ≤ num) (fs : List (List P × Bool × Nat))
    (s s' : State P) (h : IterReach size num fs s) (he : s.ended = true) (hstep : Step s s') :
    s'.ended = true ∧ s'.delivered = s.delivered := by
  rcases hstep with ⟨i, hr⟩ | hc
  · cases hr <;> exact ⟨he, rfl⟩
  · cases hc with
    | batch b l hi hbuf =>
      cases (iterReach_inv hs hn h).tok with
      | buf bs post hb hq hc hcount hcons hlen hend =>
        obtain ⟨rfl, _, _⟩ := hend he
        simp [hb] at hbuf
      | reader bs r post hb hbusy hact hput hc hcount hcons hlen hend => simp [he] at hend
      | caller post hb hq hc => simp [hi] at hc
    | putNull => exact ⟨rfl, rfl⟩
    | _ => exact ⟨he, rfl⟩

/-- C24: no batch is larger than the batch size. -/
theorem C24_batch_size (size num : Nat) (hs : 1 ≤ size) (hn : 1 ≤ num) (fs : List (List P × Bool × Nat))
    (s : State P) (h : IterReach size num fs s) : ∀ b ∈ s.delivered, b.length ≤ size := by
  have hsz : s.size = size := by
    induction h with
    | init => rfl
    | step _ hst ih =>
      rcases hst with ⟨i, hst⟩ | hst
      · cases hst <;> exact ih
      · cases hst <;> exact ih
    | add _ _ _ ih => exact ih
  rw [← hsz]
  exact (iterReach_inv hs hn h).del

/-- What can be reached after the destructor was called in state `s`. -/
def DReach (s t : State P) : Prop := Relation.ReflTransGen DS { s with cpc := .dTest } t

theorem dreach_inv {size num : Nat} (hs : 1 ≤ size) (hn : 1 ≤ num) {fs : List (List P × Bool × Nat)} {s t : State P}
    (h : IterReach size num fs s) (hi : s.cpc = .idle) (ht : DReach s t) : DInv t := by
  induction ht with
  | refl => exact (iterReach_inv hs hn h).destroy hi
  | tail _ hstep ih => exact ds_dinv ih hstep

/-- C25, the part that holds at every moment of destruction: every schedule of the destructor is finite, and the only
way not to finish is to wait for a batch that a reading thread took between the test of the factory queue's size and
`Dequeue` (data_iter.cc:31-32). -/
theorem C25_one_way_to_block_partial (size num : Nat) (hs : 1 ≤ size) (hn : 1 ≤ num) (fs : List (List P × Bool × Nat))
    (s : State P) (h : IterReach size num fs s) (hi : s.cpc = .idle) :
    (¬ ∃ f : Nat → State P, DReach s (f 0) ∧ ∀ n, DS (f n) (f (n + 1))) ∧
    ∀ t, DReach s t → t.cpc = .gone ∨ (t.cpc = .dTake ∧ t.factory = []) ∨ ∃ t', DS t t' := by
  refine ⟨?_, fun t ht => ?_⟩
  · rintro ⟨f, h0, hf⟩
    have hr : ∀ n, DReach s (f n) := by
      intro n
      induction n with
      | zero => exact h0
      | succ n ih => exact ih.tail (hf n)
    have key : ∀ m n, W 2 dW (f n) = m → False := by
      intro m
      induction m using Nat.strongRecOn with
      | _ m ih =>
        intro n hm
        have := ds_less (dreach_inv hs hn h hi (hr n)) (hf n)
        exact ih _ (by omega) (n + 1) rfl
    exact key _ 0 rfl
  · by_cases hg : t.cpc = .gone
    · exact Or.inl hg
    · by_cases hrace : t.cpc = .dTake ∧ t.factory = []
      · exact Or.inr (Or.inl hrace)
      · exact Or.inr (Or.inr ((dreach_inv hs hn h hi ht).progress hg hrace))

/-- C25 for an iterator that is destroyed while no reading thread is running: before the first call of `Next`, or after
`Next` returned null. -/
theorem C25_no_reader_running_partial (size num : Nat) (hs : 1 ≤ size) (hn : 1 ≤ num) (fs : List (List P × Bool × Nat))
    (s : State P) (h : IterReach size num fs s) (hi : s.cpc = .idle) (hq : s.started = 0 ∨ s.ended = true) (t : State P)
    (ht : DReach s t) : t.cpc = .gone ∨ ∃ t', DS t t' := by
  have hcalm : Calm { s with cpc := .dTest } := by
    refine ⟨fun _ => ?_, by simp⟩
    cases (iterReach_inv hs hn h).tok with
    | buf bs post _ hquiet => exact ⟨post, hquiet⟩
    | reader bs r post _ hbusy hact hput hc hcount hcons hlen hend =>
      obtain ⟨pre, _, est, _, _⟩ := hbusy
      rcases hq with hq | hq
      · omega
      · simp [hq] at hend
    | caller post _ _ hc => simp [hi] at hc
  have hc : Calm t := by
    induction ht with
    | refl => exact hcalm
    | @tail b c hb hstep ih => exact ds_calm (dreach_inv hs hn h hi hb) ih hstep
  by_cases hg : t.cpc = .gone
  · exact Or.inl hg
  · exact Or.inr ((dreach_inv hs hn h hi ht).progress hg fun hr => hc.2 hr.1 hr.2)

/-- C25 fails: one file with one point and several passes, batch size 1, two batches.  The caller has taken the first
batch and destroys the iterator; the reading thread takes the second batch between the test and `Dequeue`, and then both
threads wait for the other one for ever. -/
theorem C25_is_violated : ∃ s t : State Nat, IterReach 1 2 [([7], false, 3)] s ∧ s.cpc = .idle ∧ DReach s t ∧
    t.cpc ≠ .gone ∧ ¬ ∃ t', DS t t' := by
  have r0 := IterReach.init (P := Nat) (size := 1) (num := 2) [([7], false, 3)]
  have r1 := r0.step (Or.inr (.call _ rfl))
  have r2 := r1.step (Or.inr (.null _ [] rfl rfl))
  have r3 := r2.step (Or.inr (.next _ _ rfl rfl))
  have r4 := r3.step (Or.inl ⟨0, .take _ 0 _ [true] rfl rfl (by decide) rfl⟩)
  have r5 := r4.step (Or.inl ⟨0, .fill _ 0 _ rfl rfl⟩)
  have r6 := r5.step (Or.inl ⟨0, .put _ 0 _ [7] true rfl rfl (by decide)⟩)
  have r7 := r6.step (Or.inr (.batch _ [7] [] rfl rfl))
  have r8 : IterReach 1 2 [([7], false, 3)]
      (⟨1, 2, [true], [], [⟨[7], false, 3, [], .loop⟩], 1, .idle, some [7], [[7]], false⟩ : State Nat) := r7
  have d0 : DReach (⟨1, 2, [true], [], [⟨[7], false, 3, [], .loop⟩], 1, .idle, some [7], [[7]], false⟩ : State Nat) _ :=
    .refl
  have d1 := d0.tail (Or.inr (.more _ rfl (by decide)))
  have d2 := d1.tail (Or.inl ⟨0, .take _ 0 _ [] rfl rfl (by decide) rfl⟩)
  have d3 := d2.tail (Or.inl ⟨0, .fill _ 0 _ rfl rfl⟩)
  have d4 := d3.tail (Or.inl ⟨0, .put _ 0 _ [] true rfl rfl (by decide)⟩)
  refine ⟨_, ⟨1, 2, [], [some []], [⟨[7], false, 2, [7], .loop⟩], 1, .dTake, some [7], [[7]], false⟩, r8, rfl, d4,
    by simp, ?_⟩
  · rintro ⟨t', ⟨i, hs⟩ | hs⟩
    · have key : ∀ r : Reader Nat, ([⟨[7], false, 2, [7], .loop⟩] : List (Reader Nat))[i]? = some r →
          r = ⟨[7], false, 2, [7], .loop⟩ := by
        intro r hr
        simpa using List.mem_of_getElem? hr
      cases hs with
      | take r l hr hp hpass hf => simp at hf
      | exit r l hr hp hpass hf => simp at hf
      | exit2 r hr hp => have := key r hr; subst this; simp at hp
      | leave r hr hp hpass => have := key r hr; subst this; simp at hpass
      | fill r hr hp => have := key r hr; subst this; simp at hp
      | put r b ok hr hp => have := key r hr; subst this; simp at hp
      | last r hr hp => have := key r hr; subst this; simp at hp
    · cases hs <;> simp_all

/-! Instances: the theorems' hypotheses are met by a run over two files that reaches the end. -/

example : allPoints [([1, 2], false, 2), ([3], true, 5)] = [1, 2, 1, 2, 3] := by decide

/-- One file of three points, batches of two: the caller gets two batches and then null. -/
theorem iter_run {P : Type} (a b c : P) : ∃ s : State P, IterReach 2 1 [([a, b, c], false, 1)] s ∧ s.cpc = .idle ∧
    s.ended = true ∧ s.delivered = [[a, b], [c]] := by
  have r0 := IterReach.init (size := 2) (num := 1) [([a, b, c], false, 1)]
  have r1 := r0.step (Or.inr (.call _ rfl))
  have r2 := r1.step (Or.inr (.null _ [] rfl rfl))
  have r3 := r2.step (Or.inr (.next _ _ rfl rfl))
  have r4 := r3.step (Or.inl ⟨0, .take _ 0 _ [] rfl rfl Nat.zero_lt_one rfl⟩)
  have r5 := r4.step (Or.inl ⟨0, .fill _ 0 _ rfl rfl⟩)
  have r6 := r5.step (Or.inl ⟨0, .put _ 0 _ [a, b] true rfl rfl Nat.zero_lt_one⟩)
  have r7 := r6.step (Or.inr (.batch _ [a, b] [] rfl rfl))
  have r8 := r7.step (Or.inr (.call _ rfl))
  have r9 := r8.step (Or.inr (.giveBack _ [a, b] rfl rfl Nat.zero_lt_one))
  have r10 := r9.step (Or.inl ⟨0, .take _ 0 _ [] rfl rfl Nat.zero_lt_one rfl⟩)
  have r11 := r10.step (Or.inl ⟨0, .fill _ 0 _ rfl rfl⟩)
  have r12 := r11.step (Or.inl ⟨0, .put _ 0 _ [c] true rfl rfl Nat.zero_lt_one⟩)
  have r13 := r12.step (Or.inl ⟨0, .leave _ 0 _ rfl rfl rfl⟩)
  have r14 := r13.step (Or.inr (.batch _ [c] [] rfl rfl))
  have r15 := r14.step (Or.inr (.call _ rfl))
  have r16 := r15.step (Or.inr (.giveBack _ [c] rfl rfl Nat.zero_lt_one))
  have r17 := r16.step (Or.inl ⟨0, .last _ 0 _ rfl rfl Nat.zero_lt_one⟩)
  have r18 := r17.step (Or.inr (.null _ [] rfl rfl))
  have r19 := r18.step (Or.inr (.noMore _ rfl (Nat.le_refl 1)))
  have r20 := r19.step (Or.inr (.putNull _ rfl Nat.zero_lt_one))
  exact ⟨_, r20, rfl, rfl, rfl⟩

example : ∃ s : State Nat, s.delivered.flatten = allPoints [([7, 8, 9], false, 1)] ∧
    ∀ t, DReach s t → t.cpc = .gone ∨ ∃ t', DS t t' := by
  obtain ⟨s, h, hi, he, _⟩ := iter_run 7 8 9
  exact ⟨s, C23_null_after_everything 2 1 (by decide) (by decide) _ s h he,
    C25_no_reader_running_partial 2 1 (by decide) (by decide) _ s h hi (Or.inr he)⟩

end Sol.Props
