import Verif.Model.DataIter
import Verif.Spec.DataIter
/-! Invariants of the data iterator. -/

namespace Sol.DataIter

open Sol.Spec

variable {P : Type}

theorem split_at {X : Type} {l : List X} {i : Nat} {r : X} (h : l[i]? = some r) :
    ∃ pre post, l = pre ++ r :: post ∧ pre.length = i ∧ ∀ r', l.set i r' = pre ++ r' :: post := by
  induction l generalizing i with
  | nil => simp at h
  | cons a l ih =>
    cases i with
    | zero =>
      simp only [List.getElem?_cons_zero, Option.some.injEq] at h
      subst h
      exact ⟨[], l, by simp⟩
    | succ i =>
      simp only [List.getElem?_cons_succ] at h
      obtain ⟨pre, post, h1, h2, h3⟩ := ih h
      exact ⟨a :: pre, post, by simp [h1], by simp [h2], fun r' => by simp [h3]⟩

theorem at_length {X : Type} {pre post : List X} {r r' : X} (h : (pre ++ r :: post)[pre.length]? = some r') : r' = r := by
  rw [List.getElem?_append_right (by omega)] at h
  simpa using h.symm

theorem set_length {X : Type} {pre post : List X} {r r' : X} :
    (pre ++ r :: post).set pre.length r' = pre ++ r' :: post := by
  induction pre with
  | nil => rfl
  | cons a l ih => simp [ih]

/-! ### The inner loop -/

theorem fillLoop_spec (bad : Bool) (n : Nat) (rest acc : List P) :
    (n ≤ rest.length ∧ fillLoop bad n rest acc = (acc ++ rest.take n, .full (rest.drop n))) ∨
    (rest.length < n ∧ fillLoop bad n rest acc = (acc ++ rest, if bad then .err else .eof)) := by
  induction n generalizing rest acc with
  | zero => left; simp [fillLoop]
  | succ n ih =>
    cases rest with
    | nil => right; simp [fillLoop]
    | cons x rest =>
      rcases ih rest (acc ++ [x]) with ⟨h, e⟩ | ⟨h, e⟩
      · left; exact ⟨by simp; omega, by simp [fillLoop, e]⟩
      · right; exact ⟨by simp; omega, by simp [fillLoop, e]⟩

/-- What a reader has still to hand over. -/
def more (r : Reader P) : List P :=
  if r.passes = 0 then [] else r.rest ++ (if r.bad then [] else (List.replicate (r.passes - 1) r.pts).flatten)

def left (r : Reader P) : List P :=
  match r.pc with
  | .new => more r
  | .loop => more r
  | .fill => more r
  | .put b ok => b ++ (if ok then more r else [])
  | _ => []

theorem more_new (f : List P × Bool × Nat) : more (newReader f) = filePoints f.1 f.2.1 f.2.2 := by
  obtain ⟨pts, bad, n⟩ := f
  cases n with
  | zero => simp [more, newReader, filePoints]
  | succ n => cases bad <;> simp [more, newReader, filePoints, List.replicate_succ]

/-- A batch being handed over fits. -/
def putOk (size : Nat) (r : Reader P) : Prop := ∀ b ok, r.pc = .put b ok → b.length ≤ size

/-- Upper bound of the number of batches to come. -/
def work (r : Reader P) : Nat := r.passes * (r.pts.length + 1) + r.rest.length

theorem filled_spec (size : Nat) (hs : 1 ≤ size) (r : Reader P) (hp : r.passes > 0) (hpc : r.pc = .fill) :
    left (filled size r) = left r ∧ putOk size (filled size r) ∧
    ∃ b ok, (filled size r).pc = .put b ok ∧ (ok = true → work (filled size r) < work r) := by
  obtain ⟨n, hn⟩ : ∃ n, r.passes = n + 1 := ⟨r.passes - 1, by omega⟩
  rcases fillLoop_spec r.bad size r.rest [] with ⟨h, e⟩ | ⟨h, e⟩
  · simp only [List.nil_append] at e
    refine ⟨?_, ?_, r.rest.take size, true, by simp [filled, e], fun _ => ?_⟩
    · simp only [filled, e, left, hpc, more]
      simp only [hn]
      simp only [Nat.add_eq_zero_iff, Nat.one_ne_zero, and_false, if_false, if_true]
      rw [← List.append_assoc, List.take_append_drop]
    · intro b ok hb
      simp only [filled, e, RPc.put.injEq] at hb
      rw [← hb.1]
      simp
      omega
    · simp only [filled, e, work, List.length_drop]
      omega
  · simp only [List.nil_append] at e
    cases hb : r.bad with
    | true =>
      simp only [hb, if_true] at e
      refine ⟨?_, ?_, r.rest, false, by simp [filled, hb, e], fun h => by simp at h⟩
      · simp only [filled, hb, e, left, hpc, more]
        simp [hn]
      · intro b ok hb'
        simp only [filled, hb, e, RPc.put.injEq] at hb'
        rw [← hb'.1]
        omega
    | false =>
      simp only [hb] at e
      refine ⟨?_, ?_, r.rest, true, by simp [filled, hb, e], fun _ => ?_⟩
      · simp only [filled, hb, e, left, hpc, more, hn]
        cases n with
        | zero => simp
        | succ m => simp [List.replicate_succ]
      · intro b ok hb'
        simp [filled, hb, e] at hb'
        rw [← hb'.1]
        omega
      · simp [filled, hb, e, work, hn, Nat.succ_mul]
        omega

/-! ### The invariant -/

/-- A reader that has not been started. -/
def Fresh (r : Reader P) : Prop := r.pc = .new

def Quiet (s : State P) (post : List (Reader P)) : Prop :=
  ∃ pre, s.rd = pre ++ post ∧ s.started = pre.length ∧ (∀ r ∈ pre, r.pc = .done) ∧ (∀ r ∈ post, Fresh r)

def Busy (s : State P) (r : Reader P) (post : List (Reader P)) : Prop :=
  ∃ pre, s.rd = pre ++ r :: post ∧ s.started = pre.length + 1 ∧ (∀ r ∈ pre, r.pc = .done) ∧ (∀ r ∈ post, Fresh r)

/-- Number of batches a reader has. -/
def hold (r : Reader P) : Nat :=
  match r.pc with
  | .fill => 1
  | .put _ _ => 1
  | _ => 0

def Active (r : Reader P) : Prop :=
  r.pc = .loop ∨ (r.pc = .fill ∧ r.passes > 0) ∨ (∃ b ok, r.pc = .put b ok) ∨ r.pc = .last

def heldN (s : State P) : Nat := if s.held.isSome then 1 else 0

/-- Where the null pointer ("start the next reader") is: in the buffer, with the running reader, or with the caller. -/
inductive Tok (s : State P) (goal : List P) : Prop where
  | buf (bs : List (List P)) (post : List (Reader P)) : s.buf = bs.map some ++ [none] → Quiet s post →
      (s.cpc = .idle ∨ (s.cpc = .giveBack ∧ s.held.isSome) ∨ (s.cpc = .deq ∧ s.held = none)) →
      s.factory.length + bs.length + heldN s = s.num →
      s.delivered.flatten ++ bs.flatten ++ post.flatMap left = goal →
      (∀ b ∈ bs, b.length ≤ s.size) → (s.ended = true → bs = [] ∧ post = [] ∧ s.held = none) → Tok s goal
  | reader (bs : List (List P)) (r : Reader P) (post : List (Reader P)) : s.buf = bs.map some → Busy s r post →
      Active r → putOk s.size r →
      (s.cpc = .idle ∨ (s.cpc = .giveBack ∧ s.held.isSome) ∨ (s.cpc = .deq ∧ s.held = none)) →
      s.factory.length + bs.length + heldN s + hold r = s.num →
      s.delivered.flatten ++ bs.flatten ++ (left r ++ post.flatMap left) = goal →
      (∀ b ∈ bs, b.length ≤ s.size) → s.ended = false → Tok s goal
  | caller (post : List (Reader P)) : s.buf = [] → Quiet s post →
      (s.cpc = .gotNull ∨ (s.cpc = .putNull ∧ post = [])) → s.held = none →
      s.factory.length = s.num → s.delivered.flatten ++ post.flatMap left = goal →
      (s.ended = true → post = []) → Tok s goal

structure Inv (s : State P) (goal : List P) : Prop where
  size : 1 ≤ s.size
  num : 1 ≤ s.num
  fac : ∀ x ∈ s.factory, x = true
  del : ∀ b ∈ s.delivered, b.length ≤ s.size
  tok : Tok s goal

theorem Quiet.no_step {s s' : State P} {post : List (Reader P)} (h : Quiet s post) {i : Nat} (hs : RStep s i s') : False := by
  obtain ⟨pre, h1, _, h3, h4⟩ := h
  have key : ∀ r : Reader P, s.rd[i]? = some r → r.pc = .done ∨ r.pc = .new := by
    intro r hr
    have hm := List.mem_of_getElem? hr
    rw [h1, List.mem_append] at hm
    rcases hm with hm | hm
    · exact Or.inl (h3 r hm)
    · exact Or.inr (h4 r hm)
  cases hs with
  | take r l hr hp _ _ => rcases key r hr with h | h <;> simp [hp] at h
  | exit r l hr hp _ _ => rcases key r hr with h | h <;> simp [hp] at h
  | exit2 r hr hp _ => rcases key r hr with h | h <;> simp [hp] at h
  | leave r hr hp _ => rcases key r hr with h | h <;> simp [hp] at h
  | fill r hr hp => rcases key r hr with h | h <;> simp [hp] at h
  | put r b ok hr hp _ => rcases key r hr with h | h <;> simp [hp] at h
  | last r hr hp _ => rcases key r hr with h | h <;> simp [hp] at h

theorem Busy.at {s : State P} {r r' : Reader P} {post : List (Reader P)} (h : Busy s r post) {i : Nat}
    (hr : s.rd[i]? = some r') (h1 : r'.pc ≠ .done) (h2 : r'.pc ≠ .new) : r' = r ∧ i + 1 = s.started := by
  obtain ⟨pre, e, est, h3, h4⟩ := h
  rw [e] at hr
  rcases Nat.lt_trichotomy i pre.length with hlt | heq | hgt
  · rw [List.getElem?_append_left hlt] at hr
    exact absurd (h3 _ (List.mem_of_getElem? hr)) h1
  · subst heq
    exact ⟨at_length hr, by omega⟩
  · rw [List.getElem?_append_right (by omega)] at hr
    obtain ⟨k, hk⟩ : ∃ k, i - pre.length = k + 1 := ⟨i - pre.length - 1, by omega⟩
    rw [hk, List.getElem?_cons_succ] at hr
    exact absurd (h4 _ (List.mem_of_getElem? hr)) h2

theorem Busy.set {s : State P} {r : Reader P} {post : List (Reader P)} (h : Busy s r post) {i : Nat}
    (hi : i + 1 = s.started) (r' : Reader P) {s' : State P} (e : s'.rd = s.rd.set i r') (e2 : s'.started = s.started) :
    Busy s' r' post := by
  obtain ⟨pre, e1, est, h3, h4⟩ := h
  have : i = pre.length := by omega
  subst this
  exact ⟨pre, by rw [e, e1, set_length], by rw [e2, est], h3, h4⟩

/-- The running reader finishes. -/
theorem Busy.finish {s : State P} {r : Reader P} {post : List (Reader P)} (h : Busy s r post) {i : Nat}
    (hi : i + 1 = s.started) (r' : Reader P) (hr' : r'.pc = .done) {s' : State P} (e : s'.rd = s.rd.set i r')
    (e2 : s'.started = s.started) : Quiet s' post := by
  obtain ⟨pre, e1, est, h3, h4⟩ := h
  have : i = pre.length := by omega
  subst this
  refine ⟨pre ++ [r'], by rw [e, e1, set_length]; simp, by rw [e2, est]; simp, ?_, h4⟩
  intro x hx
  rw [List.mem_append, List.mem_singleton] at hx
  rcases hx with hx | rfl
  · exact h3 x hx
  · exact hr'

/-- The next reader starts. -/
theorem Quiet.next {s : State P} {post : List (Reader P)} (h : Quiet s post) {r : Reader P}
    (hr : s.rd[s.started]? = some r) {s' : State P} (e : s'.rd = s.rd.set s.started (startReader r))
    (e2 : s'.started = s.started + 1) :
    ∃ post', post = r :: post' ∧ Busy s' { r with pc := .loop } post' ∧ r.pc = .new := by
  obtain ⟨pre, e1, est, h3, h4⟩ := h
  rw [e1, est, List.getElem?_append_right (by omega), Nat.sub_self] at hr
  cases post with
  | nil => simp at hr
  | cons a post' =>
    simp only [List.getElem?_cons_zero, Option.some.injEq] at hr
    subst hr
    have hn := h4 a (by simp)
    refine ⟨post', rfl, ⟨pre, ?_, by rw [e2, est], h3, fun x hx => h4 x (by simp [hx])⟩, hn⟩
    rw [e, e1, est, set_length]
    simp only [startReader]
    rw [hn]

theorem Quiet.rd_length {s : State P} {post : List (Reader P)} (h : Quiet s post) :
    s.rd.length = s.started + post.length := by
  obtain ⟨pre, e1, est, _, _⟩ := h
  rw [e1, est]
  simp

theorem Quiet.congr {s s' : State P} {post : List (Reader P)} (h : Quiet s post) (e : s'.rd = s.rd)
    (e2 : s'.started = s.started) : Quiet s' post := by
  obtain ⟨pre, e1, est, h3, h4⟩ := h
  exact ⟨pre, by rw [e, e1], by rw [e2, est], h3, h4⟩

theorem Busy.congr {s s' : State P} {r : Reader P} {post : List (Reader P)} (h : Busy s r post) (e : s'.rd = s.rd)
    (e2 : s'.started = s.started) : Busy s' r post := by
  obtain ⟨pre, e1, est, h3, h4⟩ := h
  exact ⟨pre, by rw [e, e1], by rw [e2, est], h3, h4⟩

theorem rstep_inv {s s' : State P} {goal : List P} {i : Nat} (h : Inv s goal) (hs : RStep s i s') : Inv s' goal := by
  obtain ⟨hsz, hnum, hfac, hdel, htok⟩ := h
  cases htok with
  | buf bs post _ hq => exact (hq.no_step hs).elim
  | caller post _ hq => exact (hq.no_step hs).elim
  | reader bs r post hb hbusy hact hput hc hcount hcons hlen hend =>
    cases hs with
    | take r' l hr hp hpass hf =>
      obtain ⟨rfl, hi⟩ := hbusy.at hr (by simp [hp]) (by simp [hp])
      refine ⟨hsz, hnum, fun x hx => hfac x (by rw [hf]; simp at hx ⊢; exact Or.inr hx), hdel, ?_⟩
      refine .reader bs { r' with pc := .fill } post hb (hbusy.set hi _ rfl rfl) (Or.inr (Or.inl ⟨rfl, hpass⟩)) ?_ hc
        ?_ ?_ hlen hend
      · intro b ok hbk; simp at hbk
      · simp only [hold, heldN, hf, hp, List.length_cons] at hcount ⊢
        omega
      · simp only [left, hp, more] at hcons ⊢
        exact hcons
    | exit r' l hr hp hpass hf =>
      have := hfac false (by rw [hf]; simp)
      simp at this
    | exit2 r' hr hp _ =>
      obtain ⟨rfl, hi⟩ := hbusy.at hr (by simp [hp]) (by simp [hp])
      simp [Active, hp] at hact
    | leave r' hr hp hpass =>
      obtain ⟨rfl, hi⟩ := hbusy.at hr (by simp [hp]) (by simp [hp])
      refine ⟨hsz, hnum, hfac, hdel, ?_⟩
      refine .reader bs { r' with pc := .last } post hb (hbusy.set hi _ rfl rfl) (Or.inr (Or.inr (Or.inr rfl))) ?_ hc
        ?_ ?_ hlen hend
      · intro b ok hbk; simp at hbk
      · simp only [hold, heldN, hp] at hcount ⊢
        exact hcount
      · simp only [left, hp, more, hpass, if_true] at hcons ⊢
        exact hcons
    | fill r' hr hp =>
      obtain ⟨rfl, hi⟩ := hbusy.at hr (by simp [hp]) (by simp [hp])
      have hpass : r'.passes > 0 := by
        rcases hact with h | ⟨_, h⟩ | ⟨b, ok, h⟩ | h
        · simp [hp] at h
        · exact h
        · simp [hp] at h
        · simp [hp] at h
      obtain ⟨h1, h2, b, ok, h3, _⟩ := filled_spec s.size hsz r' hpass hp
      refine ⟨hsz, hnum, hfac, hdel, ?_⟩
      refine .reader bs (filled s.size r') post hb (hbusy.set hi _ rfl rfl) (Or.inr (Or.inr (Or.inl ⟨b, ok, h3⟩))) h2 hc
        ?_ ?_ hlen hend
      · simp only [hold, heldN, hp, h3] at hcount ⊢
        exact hcount
      · rw [h1]; exact hcons
    | put r' b ok hr hp hroom =>
      obtain ⟨rfl, hi⟩ := hbusy.at hr (by simp [hp]) (by simp [hp])
      refine ⟨hsz, hnum, hfac, hdel, ?_⟩
      refine .reader (bs ++ [b]) _ post (by simp [hb]) (hbusy.set hi _ rfl rfl) ?_ ?_ hc ?_ ?_ ?_ hend
      · cases ok
        · exact Or.inr (Or.inr (Or.inr rfl))
        · exact Or.inl rfl
      · intro b' ok' hb'
        cases ok <;> simp at hb'
      · cases ok <;> simp only [hold, heldN, hp, List.length_append, List.length_singleton] at hcount ⊢ <;> simp <;> omega
      · rw [← hcons]
        cases ok <;> simp [left, hp, more]
      · intro x hx
        rw [List.mem_append, List.mem_singleton] at hx
        rcases hx with hx | rfl
        · exact hlen x hx
        · exact hput _ _ hp
    | last r' hr hp hroom =>
      obtain ⟨rfl, hi⟩ := hbusy.at hr (by simp [hp]) (by simp [hp])
      refine ⟨hsz, hnum, hfac, hdel, ?_⟩
      refine .buf bs post (by simp [hb]) (hbusy.finish hi _ rfl rfl rfl) hc ?_ ?_ hlen (by simp [hend])
      · simp only [hold, heldN, hp] at hcount ⊢
        exact hcount
      · simp only [left, hp, List.nil_append] at hcons
        exact hcons

theorem cstep_inv {s s' : State P} {goal : List P} (h : Inv s goal) (hs : CStep s s') : Inv s' goal := by
  obtain ⟨hsz, hnum, hfac, hdel, htok⟩ := h
  cases hs with
  | call hi =>
    refine ⟨hsz, hnum, hfac, hdel, ?_⟩
    have hcc : (if s.held.isSome then CPc.giveBack else .deq) = .idle ∨
        ((if s.held.isSome then CPc.giveBack else .deq) = .giveBack ∧ s.held.isSome) ∨
        ((if s.held.isSome then CPc.giveBack else .deq) = .deq ∧ s.held = none) := by
      cases s.held <;> simp
    cases htok with
    | buf bs post hb hq hc hcount hcons hlen hend => exact .buf bs post hb hq hcc hcount hcons hlen hend
    | reader bs r post hb hbusy hact hput hc hcount hcons hlen hend =>
      exact .reader bs r post hb hbusy hact hput hcc hcount hcons hlen hend
    | caller post hb hq hc => simp [hi] at hc
  | giveBack b hi hh hroom =>
    refine ⟨hsz, hnum, ?_, hdel, ?_⟩
    · intro x hx
      rw [List.mem_append, List.mem_singleton] at hx
      exact hx.elim (hfac x) id
    · cases htok with
      | buf bs post hb hq hc hcount hcons hlen hend =>
        refine .buf bs post hb hq (Or.inr (Or.inr ⟨rfl, rfl⟩)) ?_ hcons hlen ?_
        · simp only [heldN, hh, List.length_append, List.length_singleton] at hcount ⊢
          simp at hcount ⊢
          omega
        · intro he
          simp [hh] at hend
          exact absurd he (by simp [hend])
      | reader bs r post hb hbusy hact hput hc hcount hcons hlen hend =>
        refine .reader bs r post hb hbusy hact hput (Or.inr (Or.inr ⟨rfl, rfl⟩)) ?_ hcons hlen hend
        simp only [heldN, hh, List.length_append, List.length_singleton] at hcount ⊢
        simp at hcount ⊢
        omega
      | caller post hb hq hc => simp [hi] at hc
  | batch b l hi hbuf =>
    cases htok with
    | buf bs post hb hq hc hcount hcons hlen hend =>
      have hh : s.held = none := by simpa [hi] using hc
      cases bs with
      | nil => simp [hb] at hbuf
      | cons b' bs =>
        simp only [hb, List.map_cons, List.cons_append, List.cons.injEq, Option.some.injEq] at hbuf
        obtain ⟨rfl, rfl⟩ := hbuf
        refine ⟨hsz, hnum, hfac, ?_, ?_⟩
        · intro x hx
          rw [List.mem_append, List.mem_singleton] at hx
          rcases hx with hx | rfl
          · exact hdel x hx
          · exact hlen x (by simp)
        · refine .buf bs post rfl hq (Or.inl rfl) ?_ ?_ (fun x hx => hlen x (by simp [hx])) (by simp)
          · simp [heldN, hh] at hcount ⊢
            omega
          · rw [← hcons]; simp
    | reader bs r post hb hbusy hact hput hc hcount hcons hlen hend =>
      have hh : s.held = none := by simpa [hi] using hc
      cases bs with
      | nil => simp [hb] at hbuf
      | cons b' bs =>
        simp only [hb, List.map_cons, List.cons.injEq, Option.some.injEq] at hbuf
        obtain ⟨rfl, rfl⟩ := hbuf
        refine ⟨hsz, hnum, hfac, ?_, ?_⟩
        · intro x hx
          rw [List.mem_append, List.mem_singleton] at hx
          rcases hx with hx | rfl
          · exact hdel x hx
          · exact hlen x (by simp)
        · refine .reader bs r post rfl hbusy hact hput (Or.inl rfl) ?_ ?_ (fun x hx => hlen x (by simp [hx])) rfl
          · simp [heldN, hh] at hcount ⊢
            omega
          · rw [← hcons]; simp
    | caller post hb hq hc => simp [hi] at hc
  | null l hi hbuf =>
    refine ⟨hsz, hnum, hfac, hdel, ?_⟩
    cases htok with
    | buf bs post hb hq hc hcount hcons hlen hend =>
      have hh : s.held = none := by simpa [hi] using hc
      cases bs with
      | nil =>
        simp [hb] at hbuf
        refine .caller post hbuf hq (Or.inl rfl) hh ?_ ?_ (fun he => (hend he).2.1)
        · simpa [heldN, hh] using hcount
        · simpa using hcons
      | cons b' bs => simp [hb] at hbuf
    | reader bs r post hb hbusy hact hput hc hcount hcons hlen hend =>
      cases bs with
      | nil => simp [hb] at hbuf
      | cons b' bs => simp [hb] at hbuf
    | caller post hb hq hc => simp [hi] at hc
  | next r hi hr =>
    refine ⟨hsz, hnum, hfac, hdel, ?_⟩
    cases htok with
    | buf bs post hb hq hc => simp [hi] at hc
    | reader bs r post hb hbusy hact hput hc => simp [hi] at hc
    | caller post hb hq hc hh hcount hcons hend =>
      obtain ⟨post', rfl, hbusy, hnew⟩ := hq.next hr (s' := { s with rd := s.rd.set s.started (startReader r), started := s.started + 1, cpc := .deq }) rfl rfl
      refine .reader [] _ post' hb hbusy (Or.inl rfl) ?_ (Or.inr (Or.inr ⟨rfl, hh⟩)) ?_ ?_ (by simp) ?_
      · intro b ok hbk; simp at hbk
      · simp [heldN, hh, hold, hcount]
      · rw [← hcons]
        simp [left, hnew, more]
      · cases he : s.ended with
        | false => rfl
        | true => simp at hend; exact absurd he (by simp [hend])
  | noMore hi hle =>
    refine ⟨hsz, hnum, hfac, hdel, ?_⟩
    cases htok with
    | buf bs post hb hq hc => simp [hi] at hc
    | reader bs r post hb hbusy hact hput hc => simp [hi] at hc
    | caller post hb hq hc hh hcount hcons hend =>
      have hp : post = [] := by
        have := hq.rd_length
        exact List.length_eq_zero_iff.1 (by omega)
      exact .caller post hb hq (Or.inr ⟨rfl, hp⟩) hh hcount hcons hend
  | putNull hi hroom =>
    refine ⟨hsz, hnum, hfac, hdel, ?_⟩
    cases htok with
    | buf bs post hb hq hc => simp [hi] at hc
    | reader bs r post hb hbusy hact hput hc => simp [hi] at hc
    | caller post hb hq hc hh hcount hcons hend =>
      have hp : post = [] := by simpa [hi] using hc
      refine .buf [] post (by simp [hb]) hq (Or.inl rfl) ?_ ?_ (by simp) (fun _ => ⟨rfl, hp, hh⟩)
      · simp [heldN, hh, hcount]
      · simpa using hcons

theorem step_inv {s s' : State P} {goal : List P} (h : Inv s goal) (hs : Step s s') : Inv s' goal := by
  rcases hs with ⟨i, hs⟩ | hs
  · exact rstep_inv h hs
  · exact cstep_inv h hs

end Sol.DataIter
