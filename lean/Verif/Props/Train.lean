import Verif.Spec.Train
import Verif.Props.DataIter
import Verif.Props.Eval
/-! C61, C62: the loops of `Train` and `Test` over the batches of an iterator, and the reports of progress. -/

set_option linter.unusedSectionVars false

namespace Sol.Props

open Sol.Online Sol.Loss Sol.Spec Sol.PreProcess Sol.Train Sol.Olm Sol.DataIter

variable {α A : Type} [Zero α] [One α] [Add α] [Sub α] [Mul α] [Div α] [Neg α] [FCmp α] [IntCast α] [FFun α] [FSqrt α]

/-! ### C61: batches do not matter -/

theorem batch_append (G : Alg α A) (c : Cfg α) (p : Pre) (ρ : Nat → α) (l : Loop α A) (a b : List (Ex α)) :
    batch G c p ρ l (a ++ b) = batch G c p ρ l a >>= fun l => batch G c p ρ l b := by
  induction a generalizing l with
  | nil => rfl
  | cons e a ih =>
    simp only [List.cons_append, batch, bind_bind]
    cases point G c p ρ l e with
    | ub k => rfl
    | ok l' => exact ih l'

theorem batches_flat (G : Alg α A) (c : Cfg α) (p : Pre) (ρ : Nat → α) (l : Loop α A) (bs : List (List (Ex α))) :
    batches G c p ρ l bs = batch G c p ρ l bs.flatten := by
  induction bs generalizing l with
  | nil => rfl
  | cons b bs ih =>
    simp only [batches, List.flatten_cons, batch_append]
    cases batch G c p ρ l b with
    | ub k => rfl
    | ok l' => exact ih l'

theorem testBatch_append (c : Cfg α) (p : Pre) (s : St α A) (r : Nat × Nat × List (Row α)) (a b : List (Ex α)) :
    testBatch c p s r (a ++ b) = testBatch c p s r a >>= fun r => testBatch c p s r b := by
  induction a generalizing r with
  | nil => rfl
  | cons e a ih =>
    simp only [List.cons_append, testBatch, bind_bind]
    cases testPoint c p s r e with
    | ub k => rfl
    | ok l' => exact ih l'

theorem testBatches_flat (c : Cfg α) (p : Pre) (s : St α A) (r : Nat × Nat × List (Row α)) (bs : List (List (Ex α))) :
    testBatches c p s r bs = testBatch c p s r bs.flatten := by
  induction bs generalizing r with
  | nil => rfl
  | cons b bs ih =>
    simp only [testBatches, List.flatten_cons, testBatch_append]
    cases testBatch c p s r b with
    | ub k => rfl
    | ok l' => exact ih l'

/-- C61: however the examples of the files reach the loop of `Train` - with whatever batch size, number of batches in flight
    and schedule of the threads -, the model, the reports and the error rate are those of one batch with all examples. -/
theorem C61_train (G : Alg α A) (c : Cfg α) (p : Pre) (ρ : Nat → α) (s : St α A) (d : Disp) (size num : Nat) (hs : 1 ≤ size)
    (hn : 1 ≤ num) (fs : List (List (Ex α) × Bool × Nat)) (i : State (Ex α)) (hi : IterReach size num fs i)
    (he : i.ended = true) : Train.train G c p ρ s d i.delivered = Train.train G c p ρ s d [allPoints fs] := by
  simp only [Train.train, batches_flat, C23_null_after_everything size num hs hn fs i hi he, List.flatten_cons, List.flatten_nil,
    List.append_nil]

/-- C61: the same for `Test`. -/
theorem C61_test (G : Alg α A) (c : Cfg α) (p : Pre) (s : St α A) (size num : Nat) (hs : 1 ≤ size)
    (hn : 1 ≤ num) (fs : List (List (Ex α) × Bool × Nat)) (i : State (Ex α)) (hi : IterReach size num fs i)
    (he : i.ended = true) : Train.test G c p s i.delivered = Train.test G c p s [allPoints fs] := by
  simp only [Train.test, testBatches_flat, C23_null_after_everything size num hs hn fs i hi he, List.flatten_cons,
    List.flatten_nil, List.append_nil]

/-- The examples with their random numbers from number `u` on. -/
def armed (ρ : Nat → α) (u : Nat) : List (Ex α) → List (Ex α × α)
  | [] => []
  | x :: xs => (x, ρ u) :: armed ρ (u + 1) xs

theorem armed_append (ρ : Nat → α) (u : Nat) (a b : List (Ex α)) :
    armed ρ u (a ++ b) = armed ρ u a ++ armed ρ (u + a.length) b := by
  induction a generalizing u with
  | nil => rfl
  | cons x a ih => simp [armed, ih, Nat.add_assoc, Nat.add_comm 1]

theorem armed_length (ρ : Nat → α) (u : Nat) (a : List (Ex α)) : (armed ρ u a).length = a.length := by
  induction a generalizing u with
  | nil => rfl
  | cons x a ih => simp [armed, ih]

theorem batch_loop (G : Alg α A) (c : Cfg α) (p : Pre) (ρ : Nat → α) (es xs : List (Ex α))
    (h : List.Forall₂ (fun e x => preProcess c.clf p.sel p.norm e = .ok x) es xs) (l : Loop α A) :
    (batch G c p ρ l es >>= fun l => .ok l.s) = trainLoop G c l.s (armed ρ l.used xs) := by
  induction h generalizing l with
  | nil => rfl
  | @cons e x es xs h1 _ ih =>
    simp only [batch, point, h1, Res.bind_ok, armed, trainLoop, bind_bind]
    cases trainOne G c l.s x (ρ l.used) with
    | ub k => rfl
    | ok s =>
      simp only [Res.bind_ok]
      split
      · exact ih _
      · exact ih _

/-- C61: the model and the error rate are those of the plain loop over the pre-processed examples (C29-C42 are about that loop). -/
theorem C61_plain (G : Alg α A) (c : Cfg α) (p : Pre) (ρ : Nat → α) (s : St α A) (d : Disp) (bs : List (List (Ex α)))
    (xs : List (Ex α)) (h : List.Forall₂ (fun e x => preProcess c.clf p.sel p.norm e = .ok x) bs.flatten xs) :
    (Train.train G c p ρ s d bs >>= fun r => .ok (r.1, r.2.2.2)) = Online.train G c s (armed ρ 0 xs) := by
  have := batch_loop G c p ρ _ _ h ⟨s, d, [], 0⟩
  simp only [Online.train, ← this, Train.train, batches_flat, bind_bind, Res.bind_ok]
  rfl

theorem batch_used (G : Alg α A) (c : Cfg α) (p : Pre) (ρ : Nat → α) (es : List (Ex α)) (l l' : Loop α A)
    (h : batch G c p ρ l es = .ok l') : l'.used = l.used + es.length := by
  induction es generalizing l with
  | nil => rw [← Res.ok.inj h]; rfl
  | cons e es ih =>
    simp only [batch, point, Res.bind_eq_ok] at h
    obtain ⟨l1, ⟨x, -, s, -, h1⟩, h2⟩ := h
    have := ih l1 h2
    rw [this, List.length_cons]
    split at h1 <;> rw [← Res.ok.inj h1] <;> simp only <;> omega

theorem batch_later {G : Alg α A} (hb : Blind G) (c : Cfg α) (p : Pre) (ρ : Nat → α) (k : Nat) (b : Bool)
    (pre : List (Report α)) (es : List (Ex α)) (l : Loop α A) :
    batch G c p ρ ⟨{ l.s with fresh := b }, l.disp, pre ++ l.reports, k + l.used⟩ es =
      batch G c p (fun i => ρ (k + i)) l es >>= fun l => .ok ⟨{ l.s with fresh := b }, l.disp, pre ++ l.reports, k + l.used⟩ := by
  induction es generalizing l with
  | nil => rfl
  | cons e es ih =>
    simp only [batch, point, bind_bind]
    cases preProcess c.clf p.sel p.norm e with
    | ub => rfl
    | ok x =>
      simp only [Res.bind_ok, hb.one b c l.s x (ρ (k + l.used)), flag, bind_bind]
      cases trainOne G c l.s x (ρ (k + l.used)) with
      | ub => rfl
      | ok s =>
        simp only [Res.bind_ok]
        split
        · have := ih ⟨s, l.disp.advance, l.reports ++ [report s], l.used + 1⟩
          simp only [Res.bind_ok]
          rw [← this, List.append_assoc]
          rfl
        · exact ih ⟨s, l.disp, l.reports, l.used + 1⟩

/-- C61: for the algorithms whose `EndTrain` only notes the end of training, two calls of `Train` one after the other are
    like one call on all the examples: same model, displayer and error rate; the reports lack the one at the end of the first call. -/
theorem C61_two_calls {G : Alg α A} (hG : Idle G) (c : Cfg α) (p : Pre) (ρ : Nat → α) (s s1 s2 : St α A) (d d1 d2 : Disp)
    (bs1 bs2 : List (List (Ex α))) (rs1 rs2 : List (Report α)) (r1 r2 : α)
    (h1 : Train.train G c p ρ s d bs1 = .ok (s1, d1, rs1, r1))
    (h2 : Train.train G c p (fun i => ρ (bs1.flatten.length + i)) s1 d1 bs2 = .ok (s2, d2, rs2, r2)) :
    Train.train G c p ρ s d (bs1 ++ bs2) = .ok (s2, d2, rs1.dropLast ++ rs2, r2) := by
  obtain ⟨hb, -⟩ := idle_blind hG
  simp only [Train.train, batches_flat, Res.bind_eq_ok, List.flatten_append, batch_append] at h1 h2 ⊢
  obtain ⟨l1, a1, b1⟩ := h1
  obtain ⟨l2, a2, b2⟩ := h2
  simp only [Res.ok.injEq, Prod.mk.injEq] at b1 b2
  obtain ⟨rfl, rfl, rfl, rfl⟩ := b1
  obtain ⟨rfl, rfl, rfl, rfl⟩ := b2
  have hu : l1.used = bs1.flatten.length := by rw [batch_used G c p ρ _ _ _ a1]; simp
  have := batch_later hb c p ρ bs1.flatten.length l1.s.fresh l1.reports bs2.flatten ⟨{ l1.s with fresh := true }, l1.disp, [], 0⟩
  rw [a2] at this
  simp only [Res.bind_ok, List.append_nil, Nat.add_zero] at this
  rw [← hu] at this
  refine ⟨_, ⟨l1, a1, this⟩, ?_⟩
  simp [report]

/-! ### C62: reports -/

theorem due_advance (d : Disp) (m : Nat) : Due d.advance m ↔ Due d m := by cases d <;> rfl

theorem waits_next {d : Disp} {n : Nat} (h : Waits d n) (hd : d.next ≤ n + 1) : Due d (n + 1) ∧ Waits d.advance (n + 1) := by
  have ha := h.above
  have he : d.next = n + 1 := by omega
  have hs := h.sane
  cases d with
  | exp k b j =>
    obtain ⟨h2, h1, hk⟩ := hs
    simp only [Disp.next] at he
    have hlt : b ^ j < b ^ (j + 1) := Nat.pow_lt_pow_right h2 (Nat.lt_succ_self j)
    refine ⟨⟨j, h1, by omega⟩, ⟨⟨h2, by omega, rfl⟩, by simp only [Disp.advance, Disp.next]; omega, ?_⟩⟩
    rintro m hm hm' ⟨i, hi, rfl⟩
    simp only [Disp.advance, Disp.next] at hm'
    have a : j < i := (Nat.pow_lt_pow_iff_right h2).1 (by omega)
    have b' : i < j + 1 := (Nat.pow_lt_pow_iff_right h2).1 hm'
    omega
  | step k t =>
    obtain ⟨ht, h1, hk⟩ := hs
    simp only [Disp.next] at he
    refine ⟨⟨by omega, he ▸ hk⟩, ⟨⟨ht, by omega, (Nat.dvd_add_right hk).2 dvd_rfl⟩, by simp only [Disp.advance, Disp.next]; omega, ?_⟩⟩
    rintro m hm hm' ⟨-, hm2⟩
    simp only [Disp.advance, Disp.next] at hm'
    have h3 : t ∣ m - k := Nat.dvd_sub hm2 hk
    have := Nat.le_of_dvd (by omega) h3
    omega

theorem waits_on {d : Disp} {n : Nat} (h : Waits d n) (hd : ¬ d.next ≤ n + 1) : ¬ Due d (n + 1) ∧ Waits d (n + 1) :=
  ⟨h.first _ (Nat.lt_succ_self n) (by omega), h.sane, by omega, fun m a b => h.first m (by omega) b⟩

theorem trace_snoc {G : Alg α A} {c : Cfg α} {s s1 s2 : St α A} {l : List (Ex α × α)} {evs : List Event} {e : Ex α} {r : α}
    {ev : Event} (h : Trace G c s l evs s1) (hh : Happens G c s1 e r ev s2) : Trace G c s (l ++ [(e, r)]) (evs ++ [ev]) s2 := by
  induction h with
  | nil s => exact .cons hh (.nil _)
  | cons h1 _ ih => exact .cons h1 (ih hh)

theorem wrong_snoc (l : List (Ex α × α)) (evs : List Event) (h : evs.length = l.length) (e : Ex α) (r : α) (ev : Event) :
    wrong (l ++ [(e, r)]) (evs ++ [ev]) = wrong l evs + if ev.pred = e.label then 0 else 1 := by
  induction l generalizing evs with
  | nil => rw [List.length_eq_zero_iff.1 h]; simp [wrong]
  | cons q l ih =>
    cases evs with
    | nil => simp at h
    | cons v evs => simp [wrong, ih evs (by simpa using h), Nat.add_assoc]

/-- C62: what `Train` reports.  The displayer waits for the next power of its base or multiple of its step.  Then `Train` calls
    back exactly at those numbers of examples, in order, and once at the end; each report has the counters of the examples
    so far, the result is the error rate of all, and the displayer then waits for the next number. -/
theorem C62_reports {c : Cfg α} {G : Alg α A} {inv : Nat → A → Prop} (hG : Known c G inv)
    (hk : Matches c.kind c.clf) (s : St α A) (hs : Fit c inv s) (p : Pre) (ρ : Nat → α) (d : Disp) (hd : Waits d s.data)
    (bs : List (List (Ex α))) (xs : List (Ex α))
    (hp : List.Forall₂ (fun e x => preProcess c.clf p.sel p.norm e = .ok x) bs.flatten xs)
    (hx : Usable c (armed ρ 0 xs)) :
    ∃ s' d' ns rs r, Train.train G c p ρ s d bs = .ok (s', d', rs, r) ∧
      ns.Pairwise (· < ·) ∧ (∀ m, m ∈ ns ↔ 1 ≤ m ∧ m ≤ xs.length ∧ Due d (s.data + m)) ∧
      List.Forall₂ (Snapshot G c s (armed ρ 0 xs)) (ns ++ [xs.length]) rs ∧
      (∃ last, rs.getLast? = some last ∧ last.rate = r) ∧
      Waits d' (s.data + xs.length) ∧ ∀ m, Due d' m ↔ Due d m := by
  suffices H : ∀ es xs : List (Ex α), List.Forall₂ (fun e x => preProcess c.clf p.sel p.norm e = .ok x) es xs →
      Usable c (armed ρ 0 xs) → ∃ evs s' d' ns rs, Trace G c s (armed ρ 0 xs) evs s' ∧ Fit c inv s' ∧ evs.length = xs.length ∧
        batch G c p ρ ⟨s, d, [], 0⟩ es = .ok ⟨s', d', rs, xs.length⟩ ∧
        s'.data = s.data + xs.length ∧ s'.t = s.t + (evs.countP fun ev => !ev.skip) ∧
        s'.upd = s.upd + (evs.countP fun ev => ev.fired) ∧ s'.err = s.err + wrong (armed ρ 0 xs) evs ∧
        ns.Pairwise (· < ·) ∧ (∀ m, m ∈ ns ↔ 1 ≤ m ∧ m ≤ xs.length ∧ Due d (s.data + m)) ∧
        List.Forall₂ (Snapshot G c s (armed ρ 0 xs)) ns rs ∧ Waits d' (s.data + xs.length) ∧ ∀ m, Due d' m ↔ Due d m by
    obtain ⟨evs, s', d', ns, rs, h1, -, h3, h4, h5, h6, h7, h8, h9, h10, h11, h12, h13⟩ := H _ _ hp hx
    refine ⟨{ s' with fresh := true }, d', ns, rs ++ [report s'], (report s').rate, ?_, h9, h10, ?_, ⟨report s', by simp, rfl⟩, h12, h13⟩
    · simp only [Train.train, batches_flat, h4, Res.bind_ok]
    · refine List.rel_append h11 (.cons ⟨evs, s', ?_, h3, h5, h6, h7, ?_⟩ .nil)
      · rw [List.take_of_length_le (by rw [armed_length])]; exact h1
      · rw [List.take_of_length_le (by rw [armed_length])]
        simp only [report, h8, h5]
  intro es xs h
  induction xs using List.reverseRecOn generalizing es with
  | nil =>
    intro _
    cases h
    exact ⟨[], s, d, [], [], .nil s, hs, rfl, rfl, by simp, by simp, by simp, by simp [armed, wrong], .nil,
      fun m => by simp; omega, .nil, by simpa using hd, fun _ => Iff.rfl⟩
  | append_singleton xs x ih =>
    intro hu
    obtain ⟨es1, es2, he1, he2, rfl⟩ : ∃ es1 es2, List.Forall₂ (fun e x => preProcess c.clf p.sel p.norm e = .ok x) es1 xs ∧
        List.Forall₂ (fun e x => preProcess c.clf p.sel p.norm e = .ok x) es2 [x] ∧ es = es1 ++ es2 := by
      refine ⟨es.take xs.length, es.drop xs.length, ?_, ?_, by simp⟩
      · have := List.forall₂_take xs.length h; simpa using this
      · have := List.forall₂_drop xs.length h; simpa using this
    rw [armed_append] at hu ⊢
    obtain ⟨evs, s1, d1, ns, rs, h1, h2, h3, h4, h5, h6, h7, h8, h9, h10, h11, h12, h13⟩ :=
      ih es1 he1 (fun q hq => hu q (List.mem_append_left _ hq))
    cases he2 with
    | @cons e _ _ _ hpre hnil =>
    cases hnil
    have hx := hu (x, ρ (0 + xs.length)) (List.mem_append_right _ (by simp [armed]))
    obtain ⟨ev, s2, hh, hf, hb⟩ := happens (known_safe hG) hk s1 h2 x (ρ (0 + xs.length)) hx.1 hx.2
    have hone : trainOne G c s1 x (ρ (0 + xs.length)) = .ok s2 := by obtain ⟨_, _, _, _, _, _, _, _, h⟩ := hh; exact h
    have hT : Trace G c s (armed ρ 0 xs ++ armed ρ (0 + xs.length) [x]) (evs ++ [ev]) s2 := trace_snoc h1 hh
    have hlen : (evs ++ [ev]).length = (xs ++ [x]).length := by simp [h3]
    have hdata : s2.data = s.data + (xs ++ [x]).length := by rw [hb.data, h5]; simp; omega
    have ht : s2.t = s.t + ((evs ++ [ev]).countP fun ev => !ev.skip) := by
      rw [hb.t, h6]
      cases hsk : ev.skip <;> simp [hsk] <;> omega
    have hupd : s2.upd = s.upd + ((evs ++ [ev]).countP fun ev => ev.fired) := by
      rw [hb.upd, h7]
      cases hsk : ev.fired <;> simp [hsk] <;> omega
    have herr : s2.err = s.err + wrong (armed ρ 0 xs ++ armed ρ (0 + xs.length) [x]) (evs ++ [ev]) := by
      rw [hb.err, h8]
      simp only [armed]
      rw [wrong_snoc _ _ (by rw [armed_length, h3])]
      omega
    have hfit : ∀ m, m ≤ xs.length → (armed ρ 0 xs ++ armed ρ (0 + xs.length) [x]).take m = (armed ρ 0 xs).take m := by
      intro m hm
      rw [List.take_append_of_le_length (by rw [armed_length]; exact hm)]
    have hold : List.Forall₂ (Snapshot G c s (armed ρ 0 xs ++ armed ρ (0 + xs.length) [x])) ns rs := by
      have key : ∀ ns' rs', (∀ m ∈ ns', m ≤ xs.length) → List.Forall₂ (Snapshot G c s (armed ρ 0 xs)) ns' rs' →
          List.Forall₂ (Snapshot G c s (armed ρ 0 xs ++ armed ρ (0 + xs.length) [x])) ns' rs' := by
        intro ns' rs' hm hf
        induction hf with
        | nil => exact .nil
        | @cons m r ns' rs' h1 _ ih =>
          refine .cons ?_ (ih fun m hm' => hm m (List.mem_cons_of_mem _ hm'))
          unfold Snapshot at h1 ⊢
          rw [hfit m (hm m List.mem_cons_self)]
          exact h1
      exact key ns rs (fun m hm => ((h10 m).1 hm).2.1) h11
    have hbatch : batch G c p ρ ⟨s, d, [], 0⟩ (es1 ++ [e]) = if d1.next ≤ s2.data then
        .ok ⟨s2, d1.advance, rs ++ [report s2], xs.length + 1⟩ else .ok ⟨s2, d1, rs, xs.length + 1⟩ := by
      rw [Nat.zero_add] at hone
      simp only [batch_append, h4, Res.bind_ok, batch, point, hpre, hone]
      split <;> rfl
    by_cases hn : d1.next ≤ s2.data
    · have hn' : d1.next ≤ s.data + xs.length + 1 := by rw [hb.data, h5] at hn; exact hn
      obtain ⟨hdue, hw⟩ := waits_next h12 hn'
      refine ⟨evs ++ [ev], s2, d1.advance, ns ++ [xs.length + 1], rs ++ [report s2], hT, hf, hlen, ?_, hdata, ht, hupd, herr, ?_,
        ?_, ?_, ?_, ?_⟩
      · rw [hbatch, if_pos hn]; simp
      · rw [List.pairwise_append]
        refine ⟨h9, by simp, fun a ha b hb => ?_⟩
        have := ((h10 a).1 ha).2.1
        rw [List.mem_singleton.1 hb]; omega
      · intro m
        rw [List.mem_append, h10, List.mem_singleton, List.length_append, List.length_singleton]
        constructor
        · rintro (⟨a, b, h⟩ | rfl)
          · exact ⟨a, by omega, h⟩
          · exact ⟨by omega, le_refl _, (h13 _).1 hdue⟩
        · rintro ⟨a, b, h⟩
          rcases Nat.lt_or_ge m (xs.length + 1) with hlt | hge
          · exact .inl ⟨a, by omega, h⟩
          · exact .inr (by omega)
      · refine List.rel_append hold (.cons ⟨evs ++ [ev], s2, ?_, by simp [h3], hdata.trans (by simp), ht, hupd, ?_⟩ .nil)
        · rw [List.take_of_length_le (by simp [armed_length, armed])]; exact hT
        · rw [List.take_of_length_le (by simp [armed_length, armed])]
          simp only [report, herr, hdata, List.length_append, List.length_singleton]
      · simpa [Nat.add_assoc] using hw
      · intro m; rw [due_advance, h13]
    · have hn' : ¬ d1.next ≤ s.data + xs.length + 1 := by rw [hb.data, h5] at hn; exact hn
      obtain ⟨hdue, hw⟩ := waits_on h12 hn'
      refine ⟨evs ++ [ev], s2, d1, ns, rs, hT, hf, hlen, ?_, hdata, ht, hupd, herr, h9,
        ?_, hold, ?_, h13⟩
      · rw [hbatch, if_neg hn]; simp
      · intro m
        rw [h10, List.length_append, List.length_singleton]
        constructor
        · rintro ⟨a, b, h⟩
          exact ⟨a, by omega, h⟩
        · rintro ⟨a, b, h⟩
          rcases Nat.lt_or_ge m (xs.length + 1) with hlt | hge
          · exact ⟨a, by omega, h⟩
          · obtain rfl : m = xs.length + 1 := by omega
            exact absurd ((h13 _).2 h) hdue
      · simpa [Nat.add_assoc] using hw

/-- C62: new displayers wait for the first power or multiple. -/
theorem C62_new (b k : Nat) (hb : 2 ≤ b) (hk : 1 ≤ k) : Waits (Disp.newExp b) 0 ∧ Waits (Disp.newStep k) 0 := by
  refine ⟨⟨⟨hb, le_refl _, by simp⟩, by simp [Disp.newExp, Disp.next]; omega, ?_⟩,
    ⟨⟨hk, hk, dvd_rfl⟩, by simp only [Disp.newStep, Disp.next]; omega, ?_⟩⟩
  · rintro m h1 h2 ⟨j, hj, rfl⟩
    simp only [Disp.newExp, Disp.next] at h2
    have := Nat.pow_le_pow_right (show 0 < b by omega) hj
    simp only [pow_one] at this
    omega
  · rintro m h1 h2 ⟨-, h⟩
    simp only [Disp.newStep, Disp.next] at h2
    have := Nat.le_of_dvd h1 h
    omega

theorem testBatch_rows (c : Cfg α) (p : Pre) (s : St α A) (es xs : List (Ex α))
    (h : List.Forall₂ (fun e x => preProcess c.clf p.sel p.norm e = .ok x) es xs) (r r' : Nat × Nat × List (Row α))
    (ht : testBatch c p s r es = .ok r') : ∃ rows, r'.2.2 = r.2.2 ++ rows ∧ r'.2.1 = r.2.1 + xs.length ∧
      List.Forall₂ (RowOf c s) xs rows ∧ r'.1 = r.1 + rows.countP fun row => row.pred ≠ row.label := by
  induction h generalizing r with
  | nil => rw [← Res.ok.inj ht]; exact ⟨[], by simp, by simp, .nil, by simp⟩
  | @cons e x es xs h1 _ ih =>
    simp only [testBatch, testPoint, h1, Res.bind_ok, Res.bind_eq_ok] at ht
    obtain ⟨r1, ⟨⟨v, lab⟩, h2, h3⟩, h4⟩ := ht
    obtain ⟨rows, a, b, hf, hc⟩ := ih r1 h4
    rw [← Res.ok.inj h3] at a b hc
    refine ⟨⟨x.label, lab, v⟩ :: rows, by simpa using a, by rw [b, List.length_cons]; simp only; omega, .cons ⟨rfl, h2⟩ hf, ?_⟩
    rw [hc, List.countP_cons]
    simp only
    by_cases hl : lab = x.label <;> simp [hl] <;> omega

/-- C62: `Test` writes one line per example, in order: its label, the predicted label and the scores of `Predict`; the result
    is the number of lines with different labels, divided by the number of lines. -/
theorem C62_test (G : Alg α A) (c : Cfg α) (p : Pre) (s s' : St α A) (bs : List (List (Ex α))) (xs : List (Ex α))
    (h : List.Forall₂ (fun e x => preProcess c.clf p.sel p.norm e = .ok x) bs.flatten xs) (rows : List (Row α)) (rate : α)
    (ht : Train.test G c p s bs = .ok (s', rows, rate)) :
    List.Forall₂ (RowOf c s') xs rows ∧
      rate = (((rows.countP fun row => row.pred ≠ row.label : Nat) : Int) : α) / ((rows.length : Int) : α) := by
  simp only [Train.test, testBatches_flat, Res.bind_eq_ok] at ht
  obtain ⟨s1, h1, ⟨e, n, rows'⟩, h2, h3⟩ := ht
  simp only [Res.ok.injEq, Prod.mk.injEq] at h3
  obtain ⟨rfl, rfl, rfl⟩ := h3
  obtain ⟨rows, a, b, hf, hc⟩ := testBatch_rows c p _ _ _ h _ _ h2
  simp only [List.nil_append, Nat.zero_add] at a b hc
  subst a b hc
  exact ⟨hf, by rw [hf.length_eq]⟩

/-- C61, C62: three examples in batches of two and one; the perceptron with L1-normalised features, reports after every second
    example.  The last report and the result are those of all three. -/
theorem C62_instance :
    letI : FFun Rat := unusedFun
    letI : FSqrt Rat := ⟨fun a => a⟩
    let es : List (Ex Rat) := [⟨-1, [(1, 2)]⟩, ⟨2, [(1, 1), (2, 3)]⟩, ⟨-1, [(2, 5)]⟩]
    ∃ i : State (Ex Rat), IterReach 2 1 [(es, false, 1)] i ∧ i.ended = true ∧ i.delivered = [es.take 2, es.drop 2] ∧
      Yields (Train.train (perceptron (α := Rat)) { cfg1 with kind := .bool } ⟨Sel.none, .l1⟩ (fun _ => 0) (model1 ())
          (Disp.newStep 2) i.delivered)
        fun r => r.1.w = [[0, -1, -1]] ∧ r.2.1 = .step 4 2 ∧ r.2.2.1 = [⟨2, 2, 1, 1 / 2⟩, ⟨3, 3, 2, 2 / 3⟩] ∧ r.2.2.2 = 2 / 3 := by
  intro es
  obtain ⟨i, h1, -, h2, h3⟩ := iter_run (P := Ex Rat) ⟨-1, [(1, 2)]⟩ ⟨2, [(1, 1), (2, 3)]⟩ ⟨-1, [(2, 5)]⟩
  refine ⟨i, h1, h2, h3, ?_⟩
  rw [h3]
  decide +kernel

/-- C62: three lines in the order of the examples, one of them wrong. -/
theorem C62_instance_test :
    letI : FFun Rat := unusedFun
    letI : FSqrt Rat := ⟨fun a => a⟩
    Yields (Train.test (perceptron (α := Rat)) { cfg1 with kind := .bool } ⟨Sel.none, .none⟩
        { model1 () with dim := 3, w := [[1, -2, 1]] } [[⟨1, [(1, 2)]⟩, ⟨1, [(2, 3), (7, 1)]⟩], [], [⟨-1, [(1, 1)]⟩]])
      fun r => r.2.1.map (fun x => (x.label, x.pred, x.scores)) = [(1, -1, [-3]), (1, 1, [4]), (-1, -1, [-1])] ∧ r.2.2 = 1 / 3 := by
  decide +kernel

/-- C62: powers of two; the rate is that of the examples so far. -/
theorem C62_instance_powers :
    letI : FFun Rat := unusedFun
    letI : FSqrt Rat := ⟨fun a => a⟩
    let e : Ex Rat := ⟨1, [(1, 1)]⟩
    Yields (Train.train (perceptron (α := Rat)) { cfg1 with kind := .bool } ⟨Sel.none, .none⟩ (fun _ => 0) (model1 ())
        (Disp.newExp 2) [[e], [], [⟨-1, [(1, 1)]⟩, e, e, e, e, e], [e, e]])
      fun r => r.2.1 = .exp 16 2 4 ∧ r.2.2.1.map (·.data) = [2, 4, 8, 9] := by
  decide +kernel

theorem yields_ex {r : Res (Ex Rat)} {b : Ex Rat} (h : Yields r fun a => a.label = b.label ∧ a.x = b.x) : r = .ok b := by
  cases r with
  | ok a => obtain ⟨l, x⟩ := a; obtain ⟨l', x'⟩ := b; obtain ⟨h1, h2⟩ := h; simp only at h1 h2; rw [h1, h2]
  | ub k => exact h.elim

/-- C62: the hypotheses are met. -/
theorem C62_hypotheses :
    letI : FFun Rat := unusedFun
    letI : FSqrt Rat := ⟨fun a => a⟩
    Waits (Disp.newExp 2) (model1 (α := Rat) ()).data ∧
    List.Forall₂ (fun e x => preProcess 1 Sel.none .l1 e = .ok x) [(⟨2, [(1, 1), (2, 3)]⟩ : Ex Rat)] [⟨-1, [(1, 1 / 4), (2, 3 / 4)]⟩] ∧
    Usable (cfg1 (α := Rat)) (armed (fun _ => 0) 0 [⟨-1, [(1, 1 / 4), (2, 3 / 4)]⟩]) := by
  refine ⟨(C62_new 2 1 (le_refl _) (le_refl _)).1, .cons ?_ .nil, ?_⟩
  · exact yields_ex (by decide +kernel)
  · intro q hq
    obtain rfl := List.mem_singleton.1 hq
    exact ⟨⟨by simp [Sparse.Ascending], by simp⟩, .inl (by decide)⟩

/-- A displayer that is set on a model that has been trained already does not wait for the next multiple: it reports after
    every example until it has caught up (SetParameter with `step_show` after training). -/
theorem C62_set_late :
    letI : FFun Rat := unusedFun
    letI : FSqrt Rat := ⟨fun a => a⟩
    let e : Ex Rat := ⟨1, [(1, 1)]⟩
    ¬ Waits (Disp.newStep 10) 30 ∧
    Yields (Train.train (perceptron (α := Rat)) { cfg1 with kind := .bool } ⟨Sel.none, .none⟩ (fun _ => 0)
        { model1 () with data := 30 } (Disp.newStep 10) [[e, e, e, e]])
      fun r => r.2.2.1.map (·.data) = [31, 32, 33, 34] := by
  refine ⟨fun h => ?_, by decide +kernel⟩
  have := h.above
  simp [Disp.newStep, Disp.next] at this

end Sol.Props
