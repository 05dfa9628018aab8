import Verif.Proofs.BlockQueue
import Mathlib.Tactic.SplitIfs
/-! No lost wake-ups, and termination of the steps of threads inside calls. -/

namespace Sol.BlockQueue

variable {T : Type}

/-- Sum of a weight over the threads. -/
def tot (μ : Thread T → Nat) : List (Thread T) → Nat
  | [] => 0
  | t :: l => μ t + tot μ l

theorem tot_set (μ : Thread T → Nat) {l : List (Thread T)} {i : Nat} {t a : Thread T} (h : l[i]? = some t) :
    tot μ (l.set i a) + μ t = tot μ l + μ a := by
  induction l generalizing i with
  | nil => simp at h
  | cons b l ih =>
    cases i with
    | zero =>
      simp only [List.getElem?_cons_zero, Option.some.injEq] at h
      subst h
      simp only [List.set_cons_zero, tot]
      omega
    | succ i =>
      simp only [List.getElem?_cons_succ] at h
      have := ih h
      simp only [List.set_cons_succ, tot]
      omega

theorem tot_map (μ : Thread T → Nat) {f : Thread T → Thread T} (hf : ∀ t, μ (f t) = μ t) (l : List (Thread T)) :
    tot μ (l.map f) = tot μ l := by
  induction l with
  | nil => rfl
  | cons b l ih => simp only [List.map_cons, tot, ih, hf]

theorem tot_pos (μ : Thread T → Nat) {l : List (Thread T)} (h : 0 < tot μ l) : ∃ t ∈ l, 0 < μ t := by
  induction l with
  | nil => simp [tot] at h
  | cons b l ih =>
    simp only [tot] at h
    by_cases hb : 0 < μ b
    · exact ⟨b, by simp, hb⟩
    · obtain ⟨t, ht, h1⟩ := ih (by omega)
      exact ⟨t, by simp [ht], h1⟩

/-- A consumer that will still test the number of elements, or a single-item producer that will still notify. -/
def credit : Thread T → Nat
  | .deq .want _ _ _ [] => 1
  | .deq .inside _ _ _ [] => 1
  | .enq .inside false [] => 1
  | .enq .notify false [] => 1
  | _ => 0

/-- A bulk producer that will still notify all. -/
def bulkPending : Thread T → Bool
  | .enq .inside true _ => true
  | .enq .notify true _ => true
  | _ => false

/-- A consumer that has taken something and will still notify all producers. -/
def tookPending : Thread T → Bool
  | .deq .inside _ _ _ (_ :: _) => true
  | .deq .notify _ _ _ (_ :: _) => true
  | _ => false

/-- The calls whose wake-ups are not lost: no forced bulk `Dequeue` and no bulk `Dequeue` of zero elements. -/
def plain : Call T → Prop
  | .dequeueBulk k f => k ≠ 0 ∧ f = false
  | _ => True

theorem plain_unforced (c : Call T) (h : plain c) : unforced c := by
  cases c with
  | dequeueBulk k f =>
    obtain ⟨_, rfl⟩ := h
    trivial
  | _ => trivial

/-- Facts about single threads. -/
def shape : Thread T → Prop
  | .idle => True
  | .enq ph b r => (b = false → r.length ≤ 1) ∧ (ph = .notify ∨ ph = .unlock → r = [])
  | .deq ph f p k g => f = false ∧ p ≠ .take ∧ (k = 0 → g ≠ []) ∧ (p = .first → g = []) ∧
      (ph = .want ∨ ph = .waiting → p = .first) ∧ (ph = .notify → p = .loop ∧ g ≠ [])

theorem shape_wakeDeq (t : Thread T) (h : shape t) : shape (wakeDeq t) := by
  unfold wakeDeq
  split
  · exact ⟨h.1, h.2.1, h.2.2.1, h.2.2.2.1, fun _ => h.2.2.2.2.1 (Or.inr rfl), by simp⟩
  · exact h

theorem shape_wakeEnq (t : Thread T) (h : shape t) : shape (wakeEnq t) := by
  unfold wakeEnq
  split
  · simp_all [shape]
  · exact h

theorem shape_enter {c : Call T} (h : plain c) : shape (enter c) := by
  cases c with
  | dequeueBulk k f =>
    obtain ⟨h1, rfl⟩ := h
    simp [enter, shape, h1]
  | _ => simp [enter, shape]

/-- The invariant behind C22. -/
structure Alive (s : State T) : Prop where
  shapes : All shape s.thr
  tested : ∀ (i : Nat) f k, s.thr[i]? = some (Thread.deq .inside f .loop k []) → s.q.num ≠ 0
  cons : (∃ t ∈ s.thr, waitsDeq t = true) → s.q.num ≤ tot credit s.thr ∨ ∃ t ∈ s.thr, bulkPending t = true
  prod : (∃ t ∈ s.thr, waitsEnq t = true) → s.q.num = s.q.cap ∨ ∃ t ∈ s.thr, tookPending t = true

theorem waitsDeq_wakeDeq (t : Thread T) : waitsDeq (wakeDeq t) = false := by
  unfold wakeDeq
  split
  · rfl
  · rename_i hne
    unfold waitsDeq
    split
    · exact absurd rfl (hne _ _ _ _)
    · rfl

theorem waitsEnq_wakeEnq (t : Thread T) : waitsEnq (wakeEnq t) = false := by
  unfold wakeEnq
  split
  · rfl
  · rename_i hne
    unfold waitsEnq
    split
    · exact absurd rfl (hne _ _)
    · rfl

theorem waitsEnq_wakeDeq (t : Thread T) : waitsEnq (wakeDeq t) = waitsEnq t := by
  unfold wakeDeq
  split <;> rfl

theorem waitsDeq_wakeEnq (t : Thread T) : waitsDeq (wakeEnq t) = waitsDeq t := by
  unfold wakeEnq
  split <;> rfl

theorem credit_wakeEnq (t : Thread T) : credit (wakeEnq t) = credit t := by
  unfold wakeEnq
  split <;> rfl

theorem bulk_wakeEnq (t : Thread T) : bulkPending (wakeEnq t) = bulkPending t := by
  unfold wakeEnq
  split <;> rfl

theorem took_wakeDeq (t : Thread T) : tookPending (wakeDeq t) = tookPending t := by
  unfold wakeDeq
  split <;> rfl

theorem holds_bulk {t : Thread T} (h : bulkPending t = true) : holds t = true := by
  unfold bulkPending at h
  split at h <;> simp_all [holds]

theorem holds_took {t : Thread T} (h : tookPending t = true) : holds t = true := by
  unfold tookPending at h
  split at h <;> simp_all [holds]

/-- The only thread holding the lock. -/
theorem Locked.holder {s : State T} (hl : Locked s) {i : Nat} {t u : Thread T} (h : s.lock = some i)
    (ht : s.thr[i]? = some t) (hu : u ∈ s.thr) (hh : holds u = true) : u = t := by
  obtain ⟨j, hj, he⟩ := List.getElem_of_mem hu
  have h1 : s.thr[j]? = some u := by simp [hj, he]
  have h2 := (hl.only j u h1).1 hh
  rw [h] at h2
  simp only [Option.some.injEq] at h2
  subst h2
  rw [ht] at h1
  simpa using h1.symm

theorem Locked.nobody {s : State T} (hl : Locked s) {u : Thread T} (h : s.lock = none) (hu : u ∈ s.thr) :
    holds u = false := by
  obtain ⟨j, hj, he⟩ := List.getElem_of_mem hu
  have h1 : s.thr[j]? = some u := by simp [hj, he]
  cases hh : holds u
  · rfl
  · have h2 := (hl.only j u h1).1 hh
    rw [h] at h2
    simp at h2

theorem mem_set_self {l : List (Thread T)} {i : Nat} {t a : Thread T} (h : l[i]? = some t) : a ∈ l.set i a := by
  apply List.mem_of_getElem? (i := i)
  rw [List.getElem?_set_self (List.getElem?_eq_some_iff.1 h).1]

theorem mem_set_other {l : List (Thread T)} {i : Nat} {t a u : Thread T} (h : l[i]? = some t) (hu : u ∈ l) (hne : u ≠ t) :
    u ∈ l.set i a := by
  obtain ⟨j, hj, he⟩ := List.getElem_of_mem hu
  apply List.mem_of_getElem? (i := j)
  rw [List.getElem?_set_ne]
  · simp [hj, he]
  · intro e
    subst e
    rw [List.getElem?_eq_getElem hj, he] at h
    exact hne (by simpa using h)

/-- Change of the lock holder's own state only: what is left to check. -/
theorem Alive.own {s : State T} (h : Alive s) (hl : Locked s) {i : Nat} {t a : Thread T} (hi : s.lock = some i)
    (ht : s.thr[i]? = some t) {q : Queue T} {lock : Option Nat} {ins : List T} {outs : List (Option T)}
    (hcap : q.cap = s.q.cap) (hsh : shape a)
    (htest : ∀ f k, a = .deq .inside f .loop k [] → q.num ≠ 0)
    (hcons : waitsDeq a = true ∨ ((∃ u ∈ s.thr, waitsDeq u = true) ∧ (bulkPending t = false → s.q.num ≤ tot credit s.thr)) →
      q.num + credit t ≤ tot credit s.thr + credit a ∨ bulkPending a = true)
    (hprod : waitsEnq a = true ∨ ((∃ u ∈ s.thr, waitsEnq u = true) ∧ (tookPending t = false → s.q.num = s.q.cap)) →
      q.num = s.q.cap ∨ tookPending a = true) :
    Alive ⟨q, lock, s.thr.set i a, ins, outs⟩ := by
  refine ⟨h.shapes.set _ hsh, ?_, ?_, ?_⟩
  · intro j f k hj
    rcases get_set hj with ⟨_, e⟩ | ⟨hji, hj⟩
    · exact htest f k e.symm
    · exfalso
      have := (hl.only j _ hj).1 (by simp [holds])
      rw [hi] at this
      simp only [Option.some.injEq] at this
      omega
  · rintro ⟨u, hu, hw⟩
    have := tot_set credit (a := a) ht
    have hc : waitsDeq a = true ∨ ((∃ u ∈ s.thr, waitsDeq u = true) ∧ (bulkPending t = false → s.q.num ≤ tot credit s.thr)) := by
      rcases List.mem_or_eq_of_mem_set hu with hu | hu
      · refine Or.inr ⟨⟨u, hu, hw⟩, fun hb => ?_⟩
        rcases h.cons ⟨u, hu, hw⟩ with hc | ⟨v, hv, hvb⟩
        · exact hc
        · have := hl.holder hi ht hv (holds_bulk hvb)
          rw [this, hb] at hvb
          simp at hvb
      · rw [← hu]
        exact Or.inl hw
    rcases hcons hc with hc | hc
    · left
      simp only
      omega
    · exact Or.inr ⟨a, mem_set_self ht, hc⟩
  · rintro ⟨u, hu, hw⟩
    have hc : waitsEnq a = true ∨ ((∃ u ∈ s.thr, waitsEnq u = true) ∧ (tookPending t = false → s.q.num = s.q.cap)) := by
      rcases List.mem_or_eq_of_mem_set hu with hu | hu
      · refine Or.inr ⟨⟨u, hu, hw⟩, fun hb => ?_⟩
        rcases h.prod ⟨u, hu, hw⟩ with hc | ⟨v, hv, hvb⟩
        · exact hc
        · have := hl.holder hi ht hv (holds_took hvb)
          rw [this, hb] at hvb
          simp at hvb
      · rw [← hu]
        exact Or.inl hw
    rcases hprod hc with hc | hc
    · left
      simp only [hcap]
      exact hc
    · exact Or.inr ⟨a, mem_set_self ht, hc⟩

/-- Change of a thread that does not hold the lock before, nor takes or leaves a waiting position as a holder:
calls, wake-ups and acquisition. -/
theorem Alive.side {s : State T} (h : Alive s) {i : Nat} {t a : Thread T} (ht : s.thr[i]? = some t) {lock : Option Nat}
    (hsh : shape a) (htest : ∀ f k, a ≠ .deq .inside f .loop k [])
    (hcred : credit t ≤ credit a) (hwd : waitsDeq a = true → waitsDeq t = true) (hwe : waitsEnq a = true → waitsEnq t = true)
    (hb : bulkPending t = false) (htk : tookPending t = false) :
    Alive ⟨s.q, lock, s.thr.set i a, s.ins, s.outs⟩ := by
  refine ⟨h.shapes.set _ hsh, ?_, ?_, ?_⟩
  · intro j f k hj
    rcases get_set hj with ⟨_, e⟩ | ⟨hji, hj⟩
    · exact absurd e.symm (htest f k)
    · exact h.tested j f k hj
  · rintro ⟨u, hu, hw⟩
    have := tot_set credit (a := a) ht
    have hex : ∃ u ∈ s.thr, waitsDeq u = true := by
      rcases List.mem_or_eq_of_mem_set hu with hu | hu
      · exact ⟨u, hu, hw⟩
      · exact ⟨t, List.mem_of_getElem? ht, hwd (by rw [← hu]; exact hw)⟩
    rcases h.cons hex with hc | ⟨v, hv, hvb⟩
    · left
      simp only
      omega
    · exact Or.inr ⟨v, mem_set_other ht hv (by intro e; rw [e, hb] at hvb; simp at hvb), hvb⟩
  · rintro ⟨u, hu, hw⟩
    have hex : ∃ u ∈ s.thr, waitsEnq u = true := by
      rcases List.mem_or_eq_of_mem_set hu with hu | hu
      · exact ⟨u, hu, hw⟩
      · exact ⟨t, List.mem_of_getElem? ht, hwe (by rw [← hu]; exact hw)⟩
    rcases h.prod hex with hc | ⟨v, hv, hvb⟩
    · exact Or.inl hc
    · exact Or.inr ⟨v, mem_set_other ht hv (by intro e; rw [e, htk] at hvb; simp at hvb), hvb⟩

theorem mustFill_false (isNull : Option T → Bool) (g : List (Option T)) : mustFill isNull false g = false := by
  unfold mustFill
  split <;> simp

/-- Waking all consumers: `cons` becomes vacuous. -/
theorem Alive.wakeAllDeq {s : State T} (h : Alive s) : Alive { s with thr := s.thr.map wakeDeq } := by
  refine ⟨h.shapes.map shape_wakeDeq, ?_, ?_, ?_⟩
  · intro j f k hj
    obtain ⟨u, hu, e⟩ := get_map hj
    unfold wakeDeq at e
    split at e
    · simp at e
    · subst e
      exact h.tested j f k hu
  · rintro ⟨u, hu, hw⟩
    obtain ⟨v, _, rfl⟩ := List.mem_map.1 hu
    rw [waitsDeq_wakeDeq] at hw
    simp at hw
  · rintro ⟨u, hu, hw⟩
    obtain ⟨v, hv, rfl⟩ := List.mem_map.1 hu
    rw [waitsEnq_wakeDeq] at hw
    rcases h.prod ⟨v, hv, hw⟩ with hc | ⟨x, hx, hxt⟩
    · exact Or.inl hc
    · exact Or.inr ⟨wakeDeq x, List.mem_map_of_mem hx, by rw [took_wakeDeq]; exact hxt⟩

/-- Waking all producers: `prod` becomes vacuous. -/
theorem Alive.wakeAllEnq {s : State T} (h : Alive s) : Alive { s with thr := s.thr.map wakeEnq } := by
  refine ⟨h.shapes.map shape_wakeEnq, ?_, ?_, ?_⟩
  · intro j f k hj
    obtain ⟨u, hu, e⟩ := get_map hj
    unfold wakeEnq at e
    split at e
    · simp at e
    · subst e
      exact h.tested j f k hu
  · rintro ⟨u, hu, hw⟩
    obtain ⟨v, hv, rfl⟩ := List.mem_map.1 hu
    rw [waitsDeq_wakeEnq] at hw
    rcases h.cons ⟨v, hv, hw⟩ with hc | ⟨x, hx, hxt⟩
    · left
      simp only [tot_map credit credit_wakeEnq]
      exact hc
    · exact Or.inr ⟨wakeEnq x, List.mem_map_of_mem hx, by rw [bulk_wakeEnq]; exact hxt⟩
  · rintro ⟨u, hu, hw⟩
    obtain ⟨v, _, rfl⟩ := List.mem_map.1 hu
    rw [waitsEnq_wakeEnq] at hw
    simp at hw

theorem noneWaitsDeq_map (l : List (Thread T)) : ¬ ∃ u ∈ l.map wakeDeq, waitsDeq u = true := by
  rintro ⟨u, hu, hw⟩
  obtain ⟨v, _, rfl⟩ := List.mem_map.1 hu
  rw [waitsDeq_wakeDeq] at hw
  simp at hw

theorem noneWaitsEnq_map (l : List (Thread T)) : ¬ ∃ u ∈ l.map wakeEnq, waitsEnq u = true := by
  rintro ⟨u, hu, hw⟩
  obtain ⟨v, _, rfl⟩ := List.mem_map.1 hu
  rw [waitsEnq_wakeEnq] at hw
  simp at hw

theorem run_alive {isNull : Option T → Bool} {s s' : State T} {i : Nat} (h : Run isNull s i s') (hl : Locked s)
    (ha : Alive s) : Alive s' := by
  cases h with
  | acquireEnq b r h0 ht =>
    have hs := ha.shapes.get ht
    refine ha.side ht ?_ (by simp) ?_ (by simp [waitsDeq]) (by simp [waitsEnq]) rfl rfl
    · simp only [shape] at hs ⊢
      simp_all
    · simp [credit]
  | acquireDeq f p k g h0 ht =>
    have hs := ha.shapes.get ht
    refine ha.side ht ?_ ?_ ?_ (by simp [waitsDeq]) (by simp [waitsEnq]) rfl rfl
    · exact ⟨hs.1, hs.2.1, hs.2.2.1, hs.2.2.2.1, by simp, by simp⟩
    · intro f' k' e
      have := hs.2.2.2.2.1 (Or.inl rfl)
      simp_all
    · cases g <;> simp [credit]
  | full b x r h0 ht hn =>
    have hs := ha.shapes.get ht
    cases b
    · refine ha.own hl h0 ht rfl ?_ (by simp) ?_ ?_
      · simp only [shape] at hs ⊢
        simp_all
      · intro hc
        simp only [waitsDeq, bulkPending, Bool.false_eq_true, false_or, true_implies] at hc
        simp only [credit]
        exact Or.inl (by omega)
      · intro _
        exact Or.inl hn
    · have hl' := hl.map (s := s) holds_wakeDeq
      refine ha.wakeAllDeq.own hl' h0 (t := .enq .inside true (x :: r)) (by simp [ht, wakeDeq]) rfl ?_ (by simp) ?_ ?_
      · simp only [shape] at hs ⊢
        simp_all
      · intro hc
        rcases hc with hc | ⟨hc, _⟩
        · simp [waitsDeq] at hc
        · exact absurd hc (noneWaitsDeq_map _)
      · intro _
        exact Or.inl hn
  | put b x r h0 ht hn =>
    have hs := ha.shapes.get ht
    refine ha.own hl h0 ht rfl ?_ (by simp) ?_ ?_
    · simp only [shape, List.length_cons] at hs ⊢
      refine ⟨fun hb => ?_, by simp⟩
      have := hs.1 hb
      omega
    · intro hc
      cases b
      · have hr : r = [] := by
          have := hs.1 rfl
          simp only [List.length_cons] at this
          exact List.eq_nil_of_length_eq_zero (by omega)
        subst hr
        simp only [waitsDeq, bulkPending, Bool.false_eq_true, false_or, true_implies] at hc
        left
        simp only [push, credit]
        omega
      · exact Or.inr rfl
    · intro hc
      simp only [waitsEnq, tookPending, Bool.false_eq_true, false_or, true_implies] at hc
      exact absurd hc.2 hn
  | stored b h0 ht =>
    refine ha.own hl h0 ht rfl (by simp [shape]) (by simp) ?_ ?_
    · intro hc
      cases b
      · simp only [waitsDeq, bulkPending, Bool.false_eq_true, false_or, true_implies] at hc
        left
        simp only [credit]
        omega
      · exact Or.inr rfl
    · intro hc
      simp only [waitsEnq, tookPending, Bool.false_eq_true, false_or, true_implies] at hc
      exact Or.inl hc.2
  | notifyOne j t h0 ht hj hw =>
    have hij : j ≠ i := by
      intro e
      subst e
      rw [ht] at hj
      simp only [Option.some.injEq] at hj
      subst hj
      simp [waitsDeq] at hw
    obtain ⟨f, p, k, g, rfl⟩ : ∃ f p k g, t = .deq .waiting f p k g := by
      unfold waitsDeq at hw
      split at hw
      · exact ⟨_, _, _, _, rfl⟩
      · simp at hw
    have hs := ha.shapes.get hj
    have hp : p = .first := hs.2.2.2.2.1 (Or.inr rfl)
    subst hp
    have hg : g = [] := hs.2.2.2.1 rfl
    subst hg
    have h1 : Locked { s with thr := s.thr.set j (wakeDeq (.deq .waiting f .first k [])) } :=
      hl.upd hj rfl (fun _ _ => Iff.rfl) (by rw [holds_wakeDeq]; exact hl.only j _ hj)
    have h2 : Alive { s with thr := s.thr.set j (wakeDeq (.deq .waiting f .first k [])) } :=
      ha.side hj (shape_wakeDeq _ hs) (by simp [wakeDeq]) (by simp [wakeDeq, credit]) (by simp [wakeDeq, waitsDeq])
        (by simp [wakeDeq, waitsEnq]) rfl rfl
    have ht' : (s.thr.set j (wakeDeq (.deq .waiting f .first k [])))[i]? = some (.enq .notify false []) := by
      rw [List.getElem?_set_ne hij]
      exact ht
    refine h2.own h1 h0 ht' rfl (by simp [shape]) (by simp) ?_ ?_
    · intro hc
      left
      -- the woken thread supplies the credit
      have e1 := tot_set credit (a := wakeDeq (.deq .waiting f .first k [])) hj
      simp only [wakeDeq, credit] at e1 ⊢
      rcases ha.cons ⟨_, List.mem_of_getElem? hj, rfl⟩ with hh | ⟨v, hv, hvb⟩
      · omega
      · have := hl.holder h0 ht hv (holds_bulk hvb)
        rw [this] at hvb
        simp [bulkPending] at hvb
    · intro hc
      simp only [waitsEnq, tookPending, Bool.false_eq_true, false_or, true_implies] at hc
      exact Or.inl hc.2
  | notifyNone h0 ht hw =>
    refine ha.own hl h0 ht rfl (by simp [shape]) (by simp) ?_ ?_
    · rintro (hc | ⟨⟨u, hu, huw⟩, _⟩)
      · simp [waitsDeq] at hc
      · rw [hw u hu] at huw
        simp at huw
    · intro hc
      simp only [waitsEnq, tookPending, Bool.false_eq_true, false_or, true_implies] at hc
      exact Or.inl hc.2
  | notifyAllDeq h0 ht =>
    have hl' := hl.map (s := s) holds_wakeDeq
    refine ha.wakeAllDeq.own hl' h0 (t := .enq .notify true []) (by simp [ht, wakeDeq]) rfl (by simp [shape]) (by simp) ?_ ?_
    · rintro (hc | ⟨hc, _⟩)
      · simp [waitsDeq] at hc
      · exact absurd hc (noneWaitsDeq_map _)
    · intro hc
      simp only [waitsEnq, tookPending, Bool.false_eq_true, false_or, true_implies] at hc
      exact Or.inl hc.2
  | unlockEnq b r h0 ht =>
    refine ha.own hl h0 ht rfl (by simp [shape]) (by simp) ?_ ?_
    · intro hc
      simp only [waitsDeq, bulkPending, Bool.false_eq_true, false_or, true_implies] at hc
      left
      simp only [credit]
      omega
    · intro hc
      simp only [waitsEnq, tookPending, Bool.false_eq_true, false_or, true_implies] at hc
      exact Or.inl hc.2
  | empty f k g h0 ht hn =>
    have hs := ha.shapes.get ht
    refine ha.own hl h0 ht rfl ?_ (by simp) ?_ ?_
    · exact ⟨hs.1, hs.2.1, hs.2.2.1, hs.2.2.2.1, fun _ => rfl, by simp⟩
    · intro _
      left
      have hg : g = [] := hs.2.2.2.1 rfl
      subst hg
      have := tot_set credit (a := (.idle : Thread T)) ht
      simp only [credit] at this ⊢
      omega
    · intro hc
      have hg : g = [] := hs.2.2.2.1 rfl
      subst hg
      simp only [waitsEnq, tookPending, Bool.false_eq_true, false_or, true_implies] at hc
      exact Or.inl hc.2
  | nonempty f k g h0 ht hn =>
    have hs := ha.shapes.get ht
    have hg : g = [] := hs.2.2.2.1 rfl
    subst hg
    refine ha.own hl h0 ht rfl ?_ ?_ ?_ ?_
    · simp only [shape] at hs ⊢
      simp_all
    · intro _ _ _
      exact hn
    · intro hc
      simp only [waitsDeq, bulkPending, Bool.false_eq_true, false_or, true_implies] at hc
      left
      simp only [credit]
      omega
    · intro hc
      simp only [waitsEnq, tookPending, Bool.false_eq_true, false_or, true_implies] at hc
      exact Or.inl hc.2
  | gotAll f g h0 ht =>
    have hs := ha.shapes.get ht
    have hg : g ≠ [] := hs.2.2.1 rfl
    obtain ⟨x, g, rfl⟩ := List.exists_cons_of_ne_nil hg
    refine ha.own hl h0 ht rfl ?_ (by simp) ?_ ?_
    · simp only [shape] at hs ⊢
      simp_all
    · intro hc
      simp only [waitsDeq, bulkPending, Bool.false_eq_true, false_or, true_implies] at hc
      left
      simp only [credit]
      omega
    · intro _
      exact Or.inr rfl
  | fill f k g h0 ht hn hm =>
    have hs := ha.shapes.get ht
    have hf := hs.1
    subst hf
    rw [mustFill_false] at hm
    simp at hm
  | giveUp f k g h0 ht hn hm =>
    have hs := ha.shapes.get ht
    have hg : g ≠ [] := by
      intro e
      subst e
      exact ha.tested i f (k + 1) ht hn
    obtain ⟨x, g, rfl⟩ := List.exists_cons_of_ne_nil hg
    refine ha.own hl h0 ht rfl ?_ (by simp) ?_ ?_
    · simp only [shape] at hs ⊢
      simp_all
    · intro hc
      simp only [waitsDeq, bulkPending, Bool.false_eq_true, false_or, true_implies] at hc
      left
      simp only [credit]
      omega
    · intro _
      exact Or.inr rfl
  | takeNext f k g h0 ht hn =>
    have hs := ha.shapes.get ht
    obtain ⟨x, g', hg'⟩ := List.exists_cons_of_ne_nil (show g ++ [front s.q] ≠ [] by simp)
    rw [hg']
    refine ha.own hl h0 ht rfl ?_ (by simp) ?_ ?_
    · simp only [shape] at hs ⊢
      simp_all
    · intro hc
      simp only [waitsDeq, bulkPending, Bool.false_eq_true, false_or, true_implies] at hc
      left
      simp only [pop]
      cases g <;> simp only [credit] <;> omega
    · intro _
      exact Or.inr rfl
  | takeBlind f k g h0 ht => exact absurd rfl (ha.shapes.get ht).2.1
  | notifyAllEnq f p k g h0 ht =>
    have hs := ha.shapes.get ht
    have hl' := hl.map (s := s) holds_wakeEnq
    refine ha.wakeAllEnq.own hl' h0 (t := .deq .notify f p k g) (by simp [ht, wakeEnq]) rfl ?_ (by simp) ?_ ?_
    · simp only [shape] at hs ⊢
      simp_all
    · intro hc
      simp only [waitsDeq, bulkPending, Bool.false_eq_true, false_or, true_implies] at hc
      left
      simp only [credit]
      omega
    · rintro (hc | ⟨hc, _⟩)
      · simp [waitsEnq] at hc
      · exact absurd hc (noneWaitsEnq_map _)
  | unlockDeq f p k g h0 ht =>
    refine ha.own hl h0 ht rfl (by simp [shape]) (by simp) ?_ ?_
    · intro hc
      simp only [waitsDeq, bulkPending, Bool.false_eq_true, false_or, true_implies] at hc
      left
      simp only [credit]
      omega
    · intro hc
      simp only [waitsEnq, tookPending, Bool.false_eq_true, false_or, true_implies] at hc
      exact Or.inl hc.2

theorem set_same {l : List (Thread T)} {i : Nat} {t : Thread T} (h : l[i]? = some t) : l.set i t = l := by
  apply List.ext_getElem?
  intro j
  rw [List.getElem?_set]
  split
  · rename_i e
    subst e
    rw [if_pos (List.getElem?_eq_some_iff.1 h).1]
    exact h.symm
  · rfl

theorem reach_alive {isNull : Option T → Bool} {cap n : Nat} {s : State T} (h : Reach isNull plain cap n s) : Alive s := by
  induction h with
  | start =>
    have hi : ∀ t ∈ (start T cap n).thr, t = .idle := by
      intro t ht
      simp only [start, List.mem_replicate] at ht
      exact ht.2
    refine ⟨?_, ?_, ?_, ?_⟩
    · intro t ht
      rw [hi t ht]
      trivial
    · intro i f k ht
      have := hi _ (List.mem_of_getElem? ht)
      simp at this
    · rintro ⟨t, ht, hw⟩
      rw [hi t ht] at hw
      simp [waitsDeq] at hw
    · rintro ⟨t, ht, hw⟩
      rw [hi t ht] at hw
      simp [waitsEnq] at hw
  | @step s s' hr hs ih =>
    have hl := reach_locked hr
    cases hs with
    | call i c hop ht =>
      refine ih.side ht (shape_enter hop) ?_ (by simp [credit]) ?_ ?_ rfl rfl
      · intro f k
        cases c <;> simp [enter]
      · cases c <;> simp [enter, waitsDeq]
      · cases c <;> simp [enter, waitsEnq]
    | run _ i hrun => exact run_alive hrun hl ih
    | spurious i t ht =>
      have hs := ih.shapes.get ht
      have same : wakeEnq (wakeDeq t) = t → Alive { s with thr := s.thr.set i (wakeEnq (wakeDeq t)) } := by
        intro e
        rw [e, set_same ht]
        exact ih
      rcases t with _ | ⟨ph, b, r⟩ | ⟨ph, f, p, k, g⟩
      · exact same rfl
      · cases ph
        case waiting =>
          exact ih.side ht (shape_wakeEnq _ (shape_wakeDeq _ hs)) (by simp [wakeDeq, wakeEnq]) (by simp [credit])
            (by simp [wakeDeq, wakeEnq, waitsDeq]) (by simp [wakeDeq, wakeEnq, waitsEnq]) rfl rfl
        all_goals exact same rfl
      · cases ph
        case waiting =>
          exact ih.side ht (shape_wakeEnq _ (shape_wakeDeq _ hs)) (by simp [wakeDeq, wakeEnq]) (by simp [credit])
            (by simp [wakeDeq, wakeEnq, waitsDeq]) (by simp [wakeDeq, wakeEnq, waitsEnq]) rfl rfl
        all_goals exact same rfl

/-! ### Steps inside calls come to an end -/

/-- Work left: elements to move and phases to pass. -/
def work : Thread T → Nat
  | .idle => 0
  | .enq .unlock _ _ => 1
  | .enq _ _ r => 2 + r.length
  | .deq .unlock _ _ k _ => 1 + k
  | .deq _ _ _ k _ => 2 + k

/-- Attempts of producers. -/
def tryEnq : Thread T → Nat
  | .enq .want _ _ => 2
  | .enq .inside _ _ => 1
  | _ => 0

/-- Attempts of consumers. -/
def tryDeq : Thread T → Nat
  | .deq .want _ _ _ _ => 3
  | .deq .inside _ .first _ _ => 2
  | .deq .inside _ _ _ _ => 1
  | _ => 0

theorem work_wakeDeq (t : Thread T) : work (wakeDeq t) = work t := by
  unfold wakeDeq
  split <;> rfl

theorem work_wakeEnq (t : Thread T) : work (wakeEnq t) = work t := by
  unfold wakeEnq
  split <;> rfl

theorem tryEnq_wakeDeq (t : Thread T) : tryEnq (wakeDeq t) = tryEnq t := by
  unfold wakeDeq
  split <;> rfl

/-- Lexicographic order of the three sums. -/
def Smaller (l' l : List (Thread T)) : Prop :=
  tot work l' < tot work l ∨ (tot work l' = tot work l ∧
    (tot tryEnq l' < tot tryEnq l ∨ (tot tryEnq l' = tot tryEnq l ∧ tot tryDeq l' < tot tryDeq l)))

theorem smaller_set {l : List (Thread T)} {i : Nat} {t a : Thread T} (ht : l[i]? = some t)
    (h : work a < work t ∨ (work a = work t ∧ (tryEnq a < tryEnq t ∨ (tryEnq a = tryEnq t ∧ tryDeq a < tryDeq t)))) :
    Smaller (l.set i a) l := by
  have h1 := tot_set work (a := a) ht
  have h2 := tot_set tryEnq (a := a) ht
  have h3 := tot_set tryDeq (a := a) ht
  unfold Smaller
  omega

theorem run_smaller {isNull : Option T → Bool} {s s' : State T} {i : Nat} (h : Run isNull s i s') (hc : All calm s.thr) :
    Smaller s'.thr s.thr := by
  cases h with
  | acquireEnq b r h0 ht => exact smaller_set ht (by simp [work, tryEnq])
  | acquireDeq f p k g h0 ht => exact smaller_set ht (by cases p <;> simp [work, tryEnq, tryDeq])
  | full b x r h0 ht hn =>
    cases b
    · exact smaller_set ht (by simp [work, tryEnq])
    · have ht' : (s.thr.map wakeDeq)[i]? = some (.enq .inside true (x :: r)) := by simp [ht, wakeDeq]
      have h1 := tot_set work (a := .enq .waiting true (x :: r)) ht'
      have h2 := tot_set tryEnq (a := .enq .waiting true (x :: r)) ht'
      rw [tot_map work work_wakeDeq] at h1
      rw [tot_map tryEnq tryEnq_wakeDeq] at h2
      simp only [work, tryEnq, if_true] at h1 h2 ⊢
      unfold Smaller
      omega
  | put b x r h0 ht hn => exact smaller_set ht (by simp [work])
  | stored b h0 ht => exact smaller_set ht (by simp [work, tryEnq])
  | notifyOne j t h0 ht hj hw =>
    have hij : j ≠ i := by
      intro e
      subst e
      rw [ht] at hj
      simp only [Option.some.injEq] at hj
      subst hj
      simp [waitsDeq] at hw
    have h1 := tot_set work (a := wakeDeq t) hj
    have h2 := tot_set work (l := s.thr.set j (wakeDeq t)) (i := i) (t := .enq .notify false []) (a := .enq .unlock false [])
      (by rw [List.getElem?_set_ne hij]; exact ht)
    rw [work_wakeDeq] at h1
    simp only [work, List.length_nil] at h2
    unfold Smaller
    simp only
    omega
  | notifyNone h0 ht hw => exact smaller_set ht (by simp [work])
  | notifyAllDeq h0 ht =>
    have h1 := tot_set work (l := s.thr.map wakeDeq) (i := i) (t := .enq .notify true []) (a := .enq .unlock true [])
      (by simp [ht, wakeDeq])
    rw [tot_map work work_wakeDeq] at h1
    simp only [work, List.length_nil] at h1
    unfold Smaller
    simp only
    omega
  | unlockEnq b r h0 ht => exact smaller_set ht (by simp [work])
  | empty f k g h0 ht hn => exact smaller_set ht (by simp [work, tryEnq, tryDeq])
  | nonempty f k g h0 ht hn => exact smaller_set ht (by simp [work, tryEnq, tryDeq])
  | gotAll f g h0 ht => exact smaller_set ht (by simp [work, tryEnq, tryDeq])
  | fill f k g h0 ht hn hm =>
    have hf := (hc.get ht).1
    subst hf
    rw [mustFill_false] at hm
    simp at hm
  | giveUp f k g h0 ht hn hm => exact smaller_set ht (by simp [work, tryEnq, tryDeq])
  | takeNext f k g h0 ht hn => exact smaller_set ht (by simp [work])
  | takeBlind f k g h0 ht => exact absurd rfl (hc.get ht).2
  | notifyAllEnq f p k g h0 ht =>
    have h1 := tot_set work (l := s.thr.map wakeEnq) (i := i) (t := .deq .notify f p k g) (a := .deq .unlock f p k g)
      (by simp [ht, wakeEnq])
    rw [tot_map work work_wakeEnq] at h1
    simp only [work] at h1
    unfold Smaller
    simp only
    omega
  | unlockDeq f p k g h0 ht => exact smaller_set ht (by simp only [work]; omega)

theorem smaller_wf : WellFounded (Smaller (T := T)) := by
  have h : ∀ a b c, ∀ l : List (Thread T), tot work l = a → tot tryEnq l = b → tot tryDeq l = c → Acc Smaller l := by
    intro a
    induction a using Nat.strongRecOn with
    | _ a iha =>
      intro b
      induction b using Nat.strongRecOn with
      | _ b ihb =>
        intro c
        induction c using Nat.strongRecOn with
        | _ c ihc =>
          intro l h1 h2 h3
          constructor
          intro l' hl
          unfold Smaller at hl
          rcases hl with hl | ⟨e1, hl | ⟨e2, hl⟩⟩
          · exact iha _ (by omega) _ _ l' rfl rfl rfl
          · exact ihb _ (by omega) _ l' (by omega) rfl rfl
          · exact ihc _ (by omega) l' (by omega) (by omega) rfl
  exact ⟨fun l => h _ _ _ l rfl rfl rfl⟩

/-- The owner of the lock can always go on. -/
theorem owner_runs (isNull : Option T → Bool) {s : State T} (hl : Locked s) (ha : Alive s) {i : Nat} (hi : s.lock = some i) :
    ∃ s', Run isNull s i s' := by
  obtain ⟨t, ht⟩ := hl.live i hi
  have hh := (hl.only i t ht).2 hi
  have hs := ha.shapes.get ht
  rcases t with _ | ⟨ph, b, r⟩ | ⟨ph, f, p, k, g⟩
  · simp [holds] at hh
  · cases ph
    case want => simp [holds] at hh
    case waiting => simp [holds] at hh
    case inside =>
      cases r with
      | nil => exact ⟨_, .stored s i b hi ht⟩
      | cons x r =>
        by_cases hn : s.q.num = s.q.cap
        · exact ⟨_, .full s i b x r hi ht hn⟩
        · exact ⟨_, .put s i b x r hi ht hn⟩
    case notify =>
      have hr : r = [] := hs.2 (Or.inl rfl)
      subst hr
      cases b
      · by_cases hw : ∃ u ∈ s.thr, waitsDeq u = true
        · obtain ⟨u, hu, huw⟩ := hw
          obtain ⟨j, hj, he⟩ := List.getElem_of_mem hu
          exact ⟨_, .notifyOne s i j u hi ht (by simp [hj, he]) huw⟩
        · refine ⟨_, .notifyNone s i hi ht ?_⟩
          intro u hu
          cases hcc : waitsDeq u
          · rfl
          · exact absurd ⟨u, hu, hcc⟩ hw
      · exact ⟨_, .notifyAllDeq s i hi ht⟩
    case unlock => exact ⟨_, .unlockEnq s i b r hi ht⟩
  · cases ph
    case want => simp [holds] at hh
    case waiting => simp [holds] at hh
    case inside =>
      cases p
      case take => exact absurd rfl hs.2.1
      case first =>
        by_cases hn : s.q.num = 0
        · exact ⟨_, .empty s i f k g hi ht hn⟩
        · exact ⟨_, .nonempty s i f k g hi ht hn⟩
      case loop =>
        cases k with
        | zero => exact ⟨_, .gotAll s i f g hi ht⟩
        | succ k =>
          by_cases hn : s.q.num = 0
          · cases hm : mustFill isNull f g
            · exact ⟨_, .giveUp s i f k g hi ht hn hm⟩
            · exact ⟨_, .fill s i f k g hi ht hn hm⟩
          · exact ⟨_, .takeNext s i f k g hi ht hn⟩
    case notify => exact ⟨_, .notifyAllEnq s i f p k g hi ht⟩
    case unlock => exact ⟨_, .unlockDeq s i f p k g hi ht⟩

end Sol.BlockQueue
