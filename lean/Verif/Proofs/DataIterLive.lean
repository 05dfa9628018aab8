import Verif.Proofs.DataIter
import Mathlib.Logic.Relation
/-! Progress and termination of the data iterator, and its destructor. -/

namespace Sol.DataIter

open Sol.Spec

variable {P : Type}

/-- Remaining steps of a reader. -/
def rW (r : Reader P) : Nat :=
  match r.pc with
  | .new => 16 * work r + 11
  | .loop => 16 * work r + 10
  | .fill => 16 * work r + 9
  | .put _ true => 16 * work r + 15
  | .put _ false => 9
  | .signal => 7
  | .last => 4
  | .done => 0

def bW : Option (List P) → Nat
  | some _ => 4
  | none => 3

/-- Weight of a state: `fw` per element of the factory queue, `cw` for the caller. -/
def W (fw : Nat) (cw : CPc → Nat) (s : State P) : Nat :=
  fw * s.factory.length + (s.buf.map bW).sum + (s.rd.map rW).sum + cw s.cpc

theorem sum_set {l : List (Reader P)} {i : Nat} {r : Reader P} (h : l[i]? = some r) (r' : Reader P) :
    ((l.set i r').map rW).sum + rW r = (l.map rW).sum + rW r' := by
  obtain ⟨pre, post, e, _, hs⟩ := split_at h
  rw [hs r', e]
  simp only [List.map_append, List.map_cons, List.sum_append, List.sum_cons]
  omega

/-- Every step of a reader loses weight. -/
theorem rstep_less {s s' : State P} {i : Nat} (hs : RStep s i s') (hsz : 1 ≤ s.size)
    (hfill : ∀ r : Reader P, s.rd[i]? = some r → r.pc = .fill → r.passes > 0) (fw : Nat) (hfw : fw ≤ 2)
    (cw : CPc → Nat) : W fw cw s' < W fw cw s := by
  cases hs with
  | take r l hr hp hpass hf =>
    have h1 := sum_set hr { r with pc := .fill }
    have e1 : rW r = 16 * work r + 10 := by simp [rW, hp]
    have e2 : rW { r with pc := RPc.fill } = 16 * work r + 9 := rfl
    simp only [W, hf, List.length_cons, Nat.mul_add]
    omega
  | exit r l hr hp hpass hf =>
    have h1 := sum_set hr { r with pc := .signal }
    have e1 : rW r = 16 * work r + 10 := by simp [rW, hp]
    have e2 : rW { r with pc := RPc.signal } = 7 := rfl
    simp only [W, hf, List.length_cons, Nat.mul_add]
    omega
  | exit2 r hr hp hroom =>
    have h1 := sum_set hr { r with pc := .last }
    have e1 : rW r = 7 := by simp [rW, hp]
    have e2 : rW { r with pc := RPc.last } = 4 := rfl
    simp only [W, List.length_append, List.length_singleton, Nat.mul_add]
    omega
  | leave r hr hp hpass =>
    have h1 := sum_set hr { r with pc := .last }
    have e1 : rW r = 16 * work r + 10 := by simp [rW, hp]
    have e2 : rW { r with pc := RPc.last } = 4 := rfl
    simp only [W]
    omega
  | fill r hr hp =>
    have h1 := sum_set hr (filled s.size r)
    have e1 : rW r = 16 * work r + 9 := by simp [rW, hp]
    obtain ⟨_, _, b, ok, h3, h4⟩ := filled_spec s.size hsz r (hfill r hr hp) hp
    have e2 : rW (filled s.size r) < 16 * work r + 9 := by
      cases ok with
      | true =>
        have := h4 rfl
        simp only [rW, h3]
        omega
      | false =>
        have : 1 ≤ work r := by
          have := hfill r hr hp
          simp only [work]
          have : 1 * (r.pts.length + 1) ≤ r.passes * (r.pts.length + 1) := Nat.mul_le_mul_right _ this
          omega
        simp only [rW, h3]
        omega
    simp only [W]
    omega
  | put r b ok hr hp hroom =>
    have h1 := sum_set hr { r with pc := if ok then .loop else .last }
    have e2 : rW { r with pc := if ok then RPc.loop else .last } + 4 < rW r := by
      cases ok
      · simp [rW, hp]
      · simp only [rW, hp, if_true, work]; omega
    simp only [W, List.map_append, List.sum_append, List.map_cons, List.map_nil, List.sum_cons, List.sum_nil, bW]
    omega
  | last r hr hp hroom =>
    have h1 := sum_set hr { r with pc := .done }
    have e1 : rW r = 4 := by simp [rW, hp]
    have e2 : rW { r with pc := RPc.done } = 0 := rfl
    simp only [W, List.map_append, List.sum_append, List.map_cons, List.map_nil, List.sum_cons, List.sum_nil, bW]
    omega

/-! ### Next -/

def cW : CPc → Nat
  | .idle => 3
  | .giveBack => 2
  | .deq => 1
  | .gotNull => 2
  | .putNull => 1
  | _ => 0

theorem rW_start (r : Reader P) : rW (startReader r) ≤ rW r := by
  rcases r with ⟨pts, bad, passes, rest, pc⟩
  cases pc <;> simp [startReader, rW, work]

/-- Every step of the caller loses weight, or returns null. -/
theorem cstep_less {s s' : State P} (hs : CStep s s') : W 0 cW s' < W 0 cW s ∨ (s.cpc = .putNull ∧ s'.cpc = .idle) := by
  cases hs with
  | call hi =>
    left
    simp only [W, hi]
    cases s.held <;> simp [cW]
  | giveBack b hi hh hroom => left; simp [W, hi, cW]
  | batch b l hi hbuf => left; simp [W, hi, hbuf, cW, bW]; omega
  | null l hi hbuf => left; simp [W, hi, hbuf, cW, bW]; omega
  | next r hi hr =>
    left
    have h1 := sum_set hr (startReader r)
    have := rW_start r
    simp only [W, hi, cW]
    omega
  | noMore hi hle => left; simp [W, hi, cW]
  | putNull hi hroom => right; exact ⟨hi, rfl⟩

theorem Inv.fill_passes {s : State P} {goal : List P} (h : Inv s goal) (i : Nat) (r : Reader P)
    (hr : s.rd[i]? = some r) (hp : r.pc = .fill) : r.passes > 0 := by
  cases h.tok with
  | buf bs post _ hq =>
    obtain ⟨pre, e, _, h3, h4⟩ := hq
    have hm := List.mem_of_getElem? hr
    rw [e, List.mem_append] at hm
    rcases hm with hm | hm
    · have := h3 r hm; simp [hp] at this
    · have := h4 r hm; simp [Fresh, hp] at this
  | caller post _ hq =>
    obtain ⟨pre, e, _, h3, h4⟩ := hq
    have hm := List.mem_of_getElem? hr
    rw [e, List.mem_append] at hm
    rcases hm with hm | hm
    · have := h3 r hm; simp [hp] at this
    · have := h4 r hm; simp [Fresh, hp] at this
  | reader bs r' post _ hbusy hact =>
    obtain ⟨rfl, _⟩ := hbusy.at hr (by simp [hp]) (by simp [hp])
    rcases hact with h | ⟨_, h⟩ | ⟨b, ok, h⟩ | h
    · simp [hp] at h
    · exact h
    · simp [hp] at h
    · simp [hp] at h

/-- A running reader can move, unless the buffer is full or no batch is free. -/
theorem Busy.moves {s : State P} {r : Reader P} {post : List (Reader P)} (h : Busy s r post) (ha : Active r)
    (hbuf : s.buf.length < s.num) (hfac : s.factory ≠ []) : ∃ i s', RStep s i s' := by
  obtain ⟨pre, e, est, _, _⟩ := h
  have hr : s.rd[pre.length]? = some r := by
    rw [e, List.getElem?_append_right (by omega), Nat.sub_self]; rfl
  refine ⟨pre.length, ?_⟩
  rcases ha with hp | ⟨hp, _⟩ | ⟨b, ok, hp⟩ | hp
  · rcases Nat.eq_zero_or_pos r.passes with h0 | h0
    · exact ⟨_, .leave s _ r hr hp h0⟩
    · cases hf : s.factory with
      | nil => exact absurd hf hfac
      | cons x l =>
        cases x
        · exact ⟨_, .exit s _ r l hr hp h0 hf⟩
        · exact ⟨_, .take s _ r l hr hp h0 hf⟩
  · exact ⟨_, .fill s _ r hr hp⟩
  · exact ⟨_, .put s _ r b ok hr hp hbuf⟩
  · exact ⟨_, .last s _ r hr hp hbuf⟩

theorem Inv.progress {s : State P} {goal : List P} (h : Inv s goal) : ∃ s', Step s s' := by
  obtain ⟨hsz, hnum, hfac, hdel, htok⟩ := h
  cases htok with
  | buf bs post hb hq hc hcount hcons hlen hend =>
    rcases hc with hc | ⟨hc, hh⟩ | ⟨hc, hh⟩
    · exact ⟨_, Or.inr (.call s hc)⟩
    · obtain ⟨b, hb'⟩ := Option.isSome_iff_exists.1 hh
      refine ⟨_, Or.inr (.giveBack s b hc hb' ?_)⟩
      simp [heldN, hb'] at hcount
      omega
    · cases bs with
      | nil => exact ⟨_, Or.inr (.null s [] hc (by simpa using hb))⟩
      | cons b bs => exact ⟨_, Or.inr (.batch s b _ hc (by rw [hb]; rfl))⟩
  | reader bs r post hb hbusy hact hput hc hcount hcons hlen hend =>
    rcases hc with hc | ⟨hc, hh⟩ | ⟨hc, hh⟩
    · exact ⟨_, Or.inr (.call s hc)⟩
    · obtain ⟨b, hb'⟩ := Option.isSome_iff_exists.1 hh
      refine ⟨_, Or.inr (.giveBack s b hc hb' ?_)⟩
      simp [heldN, hb'] at hcount
      omega
    · cases bs with
      | nil =>
        by_cases hf : s.factory = []
        · -- the reader has the only batch
          obtain ⟨pre, e, est, _, _⟩ := hbusy
          have hr : s.rd[pre.length]? = some r := by
            rw [e, List.getElem?_append_right (by omega), Nat.sub_self]; rfl
          have hroom : s.buf.length < s.num := by rw [hb]; simp; omega
          rcases hact with hp | ⟨hp, _⟩ | ⟨b, ok, hp⟩ | hp
          · simp [hf, heldN, hh, hold, hp] at hcount
            omega
          · exact ⟨_, Or.inl ⟨_, .fill s _ r hr hp⟩⟩
          · exact ⟨_, Or.inl ⟨_, .put s _ r b ok hr hp hroom⟩⟩
          · exact ⟨_, Or.inl ⟨_, .last s _ r hr hp hroom⟩⟩
        · obtain ⟨i, s', hs⟩ := hbusy.moves hact (by rw [hb]; simp; omega) hf
          exact ⟨s', Or.inl ⟨i, hs⟩⟩
      | cons b bs => exact ⟨_, Or.inr (.batch s b _ hc (by rw [hb]; rfl))⟩
  | caller post hb hq hc hh hcount hcons hend =>
    rcases hc with hc | ⟨hc, hp⟩
    · cases hr : s.rd[s.started]? with
      | none => exact ⟨_, Or.inr (.noMore s hc (List.getElem?_eq_none_iff.1 hr))⟩
      | some r => exact ⟨_, Or.inr (.next s r hc hr)⟩
    · exact ⟨_, Or.inr (.putNull s hc (by rw [hb]; simp; omega))⟩

/-- One more step, not one that returns null. -/
def Going (goal : List P) (s' s : State P) : Prop := Inv s goal ∧ ¬ (s.cpc = .putNull ∧ s'.cpc = .idle) ∧ Step s s'

theorem going_wf (goal : List P) : WellFounded (Going (P := P) goal) := by
  refine Subrelation.wf (r := InvImage (· < ·) fun s : State P => W 0 cW s) ?_ (InvImage.wf _ Nat.lt_wfRel.wf)
  intro s' s ⟨hi, he, hs⟩
  rcases hs with ⟨i, hs⟩ | hs
  · exact rstep_less hs hi.size (hi.fill_passes i) 0 (by omega) cW
  · rcases cstep_less hs with h | h
    · exact h
    · exact absurd h he

/-! ### The destructor -/

/-- One step of anyone while the iterator is being destroyed. -/
def DS (s s' : State P) : Prop := (∃ i, RStep s i s') ∨ DStep s s'

inductive DTok (s : State P) : Prop where
  | drainQuiet (bs : List (List P)) (post : List (Reader P)) : s.buf = bs.map some ++ [none] → Quiet s post →
      (∀ x ∈ s.factory, x = true) →
      (s.cpc = .dTest ∨ s.cpc = .dTake ∨ (s.cpc = .dSignal ∧ s.factory = [])) → DTok s
  | drainBusy (bs : List (List P)) (r : Reader P) (post : List (Reader P)) : s.buf = bs.map some → Busy s r post →
      Active r → (∀ x ∈ s.factory, x = true) →
      (s.cpc = .dTest ∨ s.cpc = .dTake ∨ (s.cpc = .dSignal ∧ s.factory = [])) → DTok s
  | mainQuiet (bs : List (List P)) (post : List (Reader P)) : s.buf = bs.map some ++ [none] → Quiet s post →
      s.factory = [false] → (s.cpc = .dLoop ∨ s.cpc = .dDeq) → DTok s
  | mainBusy (bs : List (List P)) (r : Reader P) (post : List (Reader P)) : s.buf = bs.map some → Busy s r post →
      (Active r ∧ s.factory = [false] ∨ r.pc = .signal ∧ s.factory = []) → (s.cpc = .dLoop ∨ s.cpc = .dDeq) → DTok s
  | caller (post : List (Reader P)) : s.buf = [] → Quiet s post → s.factory = [false] → s.cpc = .dNull → DTok s
  | over : s.buf = [] → (∀ r ∈ s.rd, r.pc = .done) → s.started = s.rd.length + 1 →
      ((s.cpc = .dLoop ∧ s.factory = [false]) ∨ (s.cpc = .dJoin ∧ s.factory = [false]) ∨
        (s.cpc = .dTest2 ∧ (s.factory = [false] ∨ s.factory = [])) ∨ (s.cpc = .dTake2 ∧ s.factory = [false]) ∨
        s.cpc = .gone) → DTok s

structure DInv (s : State P) : Prop where
  size : 1 ≤ s.size
  num : 1 ≤ s.num
  tok : DTok s

/-- While the destructor empties the factory queue no reading thread is running, and the queue is not empty between the
    test and `Dequeue`. -/
def Calm (s : State P) : Prop :=
  ((s.cpc = .dTest ∨ s.cpc = .dTake ∨ s.cpc = .dSignal) → ∃ post, Quiet s post) ∧ (s.cpc = .dTake → s.factory ≠ [])

theorem Inv.destroy {s : State P} {goal : List P} (h : Inv s goal) (hi : s.cpc = .idle) :
    DInv { s with cpc := .dTest } := by
  obtain ⟨hsz, hnum, hfac, hdel, htok⟩ := h
  refine ⟨hsz, hnum, ?_⟩
  cases htok with
  | buf bs post hb hq => exact .drainQuiet bs post hb hq hfac (Or.inl rfl)
  | reader bs r post hb hbusy hact => exact .drainBusy bs r post hb hbusy hact hfac (Or.inl rfl)
  | caller post _ _ hc => simp [hi] at hc

theorem no_reader {s s' : State P} {i : Nat} (hd : ∀ r ∈ s.rd, r.pc = .done) (hs : RStep s i s') : False := by
  have hq : Quiet { s with started := s.rd.length } [] := ⟨s.rd, by simp, rfl, hd, by simp⟩
  cases hs with
  | take r l hr hp _ _ => have := hd r (List.mem_of_getElem? hr); simp [hp] at this
  | exit r l hr hp _ _ => have := hd r (List.mem_of_getElem? hr); simp [hp] at this
  | exit2 r hr hp _ => have := hd r (List.mem_of_getElem? hr); simp [hp] at this
  | leave r hr hp _ => have := hd r (List.mem_of_getElem? hr); simp [hp] at this
  | fill r hr hp => have := hd r (List.mem_of_getElem? hr); simp [hp] at this
  | put r b ok hr hp _ => have := hd r (List.mem_of_getElem? hr); simp [hp] at this
  | last r hr hp _ => have := hd r (List.mem_of_getElem? hr); simp [hp] at this

theorem rstep_dinv {s s' : State P} {i : Nat} (h : DInv s) (hs : RStep s i s') : DInv s' := by
  obtain ⟨hsz, hnum, htok⟩ := h
  cases htok with
  | drainQuiet bs post _ hq => exact (hq.no_step hs).elim
  | mainQuiet bs post _ hq => exact (hq.no_step hs).elim
  | caller post _ hq => exact (hq.no_step hs).elim
  | over _ hd => exact (no_reader hd hs).elim
  | drainBusy bs r post hb hbusy hact hfac hc =>
    cases hs with
    | take r' l hr hp hpass hf =>
      obtain ⟨rfl, hi⟩ := hbusy.at hr (by simp [hp]) (by simp [hp])
      refine ⟨hsz, hnum, .drainBusy bs _ post hb (hbusy.set hi _ rfl rfl) (Or.inr (Or.inl ⟨rfl, hpass⟩))
        (fun x hx => hfac x (by rw [hf]; simp at hx ⊢; exact Or.inr hx)) ?_⟩
      rcases hc with hc | hc | ⟨hc, h0⟩
      · exact Or.inl hc
      · exact Or.inr (Or.inl hc)
      · simp [hf] at h0
    | exit r' l hr hp hpass hf =>
      have := hfac false (by rw [hf]; simp)
      simp at this
    | exit2 r' hr hp _ =>
      obtain ⟨rfl, hi⟩ := hbusy.at hr (by simp [hp]) (by simp [hp])
      simp [Active, hp] at hact
    | leave r' hr hp hpass =>
      obtain ⟨rfl, hi⟩ := hbusy.at hr (by simp [hp]) (by simp [hp])
      exact ⟨hsz, hnum, .drainBusy bs _ post hb (hbusy.set hi _ rfl rfl) (Or.inr (Or.inr (Or.inr rfl))) hfac hc⟩
    | fill r' hr hp =>
      obtain ⟨rfl, hi⟩ := hbusy.at hr (by simp [hp]) (by simp [hp])
      have hpass : r'.passes > 0 := by simpa [Active, hp] using hact
      obtain ⟨h1, h2, b, ok, h3, _⟩ := filled_spec s.size hsz r' hpass hp
      exact ⟨hsz, hnum, .drainBusy bs _ post hb (hbusy.set hi _ rfl rfl) (Or.inr (Or.inr (Or.inl ⟨b, ok, h3⟩))) hfac hc⟩
    | put r' b ok hr hp hroom =>
      obtain ⟨rfl, hi⟩ := hbusy.at hr (by simp [hp]) (by simp [hp])
      refine ⟨hsz, hnum, .drainBusy (bs ++ [b]) _ post (by simp [hb]) (hbusy.set hi _ rfl rfl) ?_ hfac hc⟩
      cases ok
      · exact Or.inr (Or.inr (Or.inr rfl))
      · exact Or.inl rfl
    | last r' hr hp hroom =>
      obtain ⟨rfl, hi⟩ := hbusy.at hr (by simp [hp]) (by simp [hp])
      exact ⟨hsz, hnum, .drainQuiet bs post (by simp [hb]) (hbusy.finish hi _ rfl rfl rfl) hfac hc⟩
  | mainBusy bs r post hb hbusy hfr hc =>
    cases hs with
    | take r' l hr hp hpass hf =>
      rcases hfr with ⟨_, h⟩ | ⟨_, h⟩ <;> simp [hf] at h
    | exit r' l hr hp hpass hf =>
      obtain ⟨rfl, hi⟩ := hbusy.at hr (by simp [hp]) (by simp [hp])
      refine ⟨hsz, hnum, .mainBusy bs _ post hb (hbusy.set hi _ rfl rfl) (Or.inr ⟨rfl, ?_⟩) hc⟩
      rcases hfr with ⟨_, h⟩ | ⟨_, h⟩
      · simpa [hf] using h
      · simp [hf] at h
    | exit2 r' hr hp _ =>
      obtain ⟨rfl, hi⟩ := hbusy.at hr (by simp [hp]) (by simp [hp])
      refine ⟨hsz, hnum, .mainBusy bs _ post hb (hbusy.set hi _ rfl rfl) (Or.inl ⟨Or.inr (Or.inr (Or.inr rfl)), ?_⟩) hc⟩
      rcases hfr with ⟨h, _⟩ | ⟨_, h⟩
      · simp [Active, hp] at h
      · simp [h]
    | leave r' hr hp hpass =>
      obtain ⟨rfl, hi⟩ := hbusy.at hr (by simp [hp]) (by simp [hp])
      have hf : s.factory = [false] := by rcases hfr with ⟨_, h⟩ | ⟨h, _⟩; exact h; simp [hp] at h
      exact ⟨hsz, hnum, .mainBusy bs _ post hb (hbusy.set hi _ rfl rfl) (Or.inl ⟨Or.inr (Or.inr (Or.inr rfl)), hf⟩) hc⟩
    | fill r' hr hp =>
      obtain ⟨rfl, hi⟩ := hbusy.at hr (by simp [hp]) (by simp [hp])
      have hf : Active r' ∧ s.factory = [false] := by rcases hfr with h | ⟨h, _⟩; exact h; simp [hp] at h
      have hpass : r'.passes > 0 := by simpa [Active, hp] using hf.1
      obtain ⟨h1, h2, b, ok, h3, _⟩ := filled_spec s.size hsz r' hpass hp
      exact ⟨hsz, hnum, .mainBusy bs _ post hb (hbusy.set hi _ rfl rfl)
        (Or.inl ⟨Or.inr (Or.inr (Or.inl ⟨b, ok, h3⟩)), hf.2⟩) hc⟩
    | put r' b ok hr hp hroom =>
      obtain ⟨rfl, hi⟩ := hbusy.at hr (by simp [hp]) (by simp [hp])
      have hf : s.factory = [false] := by rcases hfr with ⟨_, h⟩ | ⟨h, _⟩; exact h; simp [hp] at h
      refine ⟨hsz, hnum, .mainBusy (bs ++ [b]) _ post (by simp [hb]) (hbusy.set hi _ rfl rfl) (Or.inl ⟨?_, hf⟩) hc⟩
      cases ok
      · exact Or.inr (Or.inr (Or.inr rfl))
      · exact Or.inl rfl
    | last r' hr hp hroom =>
      obtain ⟨rfl, hi⟩ := hbusy.at hr (by simp [hp]) (by simp [hp])
      have hf : s.factory = [false] := by rcases hfr with ⟨_, h⟩ | ⟨h, _⟩; exact h; simp [hp] at h
      exact ⟨hsz, hnum, .mainQuiet bs post (by simp [hb]) (hbusy.finish hi _ rfl rfl rfl) hf hc⟩

theorem Busy.started_le {s : State P} {r : Reader P} {post : List (Reader P)} (h : Busy s r post) :
    s.started ≤ s.rd.length := by
  obtain ⟨pre, e1, est, _, _⟩ := h
  rw [e1, est]
  simp

theorem dstep_dinv {s s' : State P} (h : DInv s) (hs : DStep s s') : DInv s' := by
  obtain ⟨hsz, hnum, htok⟩ := h
  refine ⟨by cases hs <;> exact hsz, by cases hs <;> exact hnum, ?_⟩
  cases htok with
  | drainQuiet bs post hb hq hfac hc =>
    cases hs with
    | more hi hne => exact .drainQuiet bs post hb hq hfac (Or.inr (Or.inl rfl))
    | drained hi he => exact .drainQuiet bs post hb hq hfac (Or.inr (Or.inr ⟨rfl, he⟩))
    | take x l hi hf =>
      exact .drainQuiet bs post hb hq (fun y hy => hfac y (by rw [hf]; simp at hy ⊢; exact Or.inr hy)) (Or.inl rfl)
    | signal hi hroom =>
      have h0 : s.factory = [] := by simpa [hi] using hc
      exact .mainQuiet bs post hb hq (by simp [h0]) (Or.inl rfl)
    | _ => simp_all
  | drainBusy bs r post hb hq hact hfac hc =>
    cases hs with
    | more hi hne => exact .drainBusy bs r post hb hq hact hfac (Or.inr (Or.inl rfl))
    | drained hi he => exact .drainBusy bs r post hb hq hact hfac (Or.inr (Or.inr ⟨rfl, he⟩))
    | take x l hi hf =>
      exact .drainBusy bs r post hb hq hact (fun y hy => hfac y (by rw [hf]; simp at hy ⊢; exact Or.inr hy)) (Or.inl rfl)
    | signal hi hroom =>
      have h0 : s.factory = [] := by simpa [hi] using hc
      exact .mainBusy bs r post hb hq (Or.inl ⟨hact, by simp [h0]⟩) (Or.inl rfl)
    | _ => simp_all
  | mainQuiet bs post hb hq hf hc =>
    cases hs with
    | loop hi hle => exact .mainQuiet bs post hb hq hf (Or.inr rfl)
    | endLoop hi hlt => have := hq.rd_length; omega
    | batch b l hi hbuf =>
      cases bs with
      | nil => simp [hb] at hbuf
      | cons b' bs =>
        simp only [hb, List.map_cons, List.cons_append, List.cons.injEq, Option.some.injEq] at hbuf
        exact .mainQuiet bs post hbuf.2.symm hq hf (Or.inl rfl)
    | null l hi hbuf =>
      cases bs with
      | nil =>
        simp [hb] at hbuf
        exact .caller post hbuf hq hf rfl
      | cons b' bs => simp [hb] at hbuf
    | _ => simp_all
  | mainBusy bs r post hb hq hf hc =>
    cases hs with
    | loop hi hle => exact .mainBusy bs r post hb hq hf (Or.inr rfl)
    | endLoop hi hlt => have := hq.started_le; omega
    | batch b l hi hbuf =>
      cases bs with
      | nil => simp [hb] at hbuf
      | cons b' bs =>
        simp only [hb, List.map_cons, List.cons.injEq, Option.some.injEq] at hbuf
        exact .mainBusy bs r post hbuf.2.symm hq hf (Or.inl rfl)
    | null l hi hbuf => cases bs <;> simp [hb] at hbuf
    | _ => simp_all
  | caller post hb hq hf hc =>
    cases hs with
    | next r hi hr =>
      obtain ⟨post', rfl, hbusy, hnew⟩ := hq.next hr (s' := { s with rd := s.rd.set s.started (startReader r), started := s.started + 1, cpc := .dLoop }) rfl rfl
      exact .mainBusy [] _ post' hb hbusy (Or.inl ⟨Or.inl rfl, hf⟩) (Or.inl rfl)
    | noNext hi hle =>
      have hl := hq.rd_length
      have hp : post = [] := List.length_eq_zero_iff.1 (by omega)
      subst hp
      obtain ⟨pre, e1, est, h3, _⟩ := hq
      refine .over hb ?_ ?_ (Or.inl ⟨rfl, hf⟩)
      · rw [List.append_nil] at e1
        show ∀ r ∈ s.rd, _
        rw [e1]; exact h3
      · show s.started + 1 = s.rd.length + 1
        simp at hl
        omega
    | _ => simp_all
  | over hb hd hst hc =>
    cases hs with
    | loop hi hle => omega
    | endLoop hi hlt => exact .over hb hd hst (by simp_all)
    | join hi hj => exact .over hb hd hst (by simp_all)
    | more2 hi hne => exact .over hb hd hst (by simp_all)
    | take2 x l hi hf => exact .over hb hd hst (by simp_all)
    | finish hi he => exact .over hb hd hst (by simp_all)
    | _ => simp_all

theorem ds_dinv {s s' : State P} (h : DInv s) (hs : DS s s') : DInv s' := by
  rcases hs with ⟨i, hs⟩ | hs
  · exact rstep_dinv h hs
  · exact dstep_dinv h hs

/-- The only way to get stuck. -/
theorem DInv.progress {s : State P} (h : DInv s) (hg : s.cpc ≠ .gone) (hr : ¬ (s.cpc = .dTake ∧ s.factory = [])) :
    ∃ s', DS s s' := by
  obtain ⟨hsz, hnum, htok⟩ := h
  have drain : (s.cpc = .dTest ∨ s.cpc = .dTake ∨ (s.cpc = .dSignal ∧ s.factory = [])) → ∃ s', DS s s' := by
    rintro (hc | hc | ⟨hc, h0⟩)
    · by_cases hf : s.factory = []
      · exact ⟨_, Or.inr (.drained s hc hf)⟩
      · exact ⟨_, Or.inr (.more s hc hf)⟩
    · cases hf : s.factory with
      | nil => exact absurd ⟨hc, hf⟩ hr
      | cons x l => exact ⟨_, Or.inr (.take s x l hc hf)⟩
    · exact ⟨_, Or.inr (.signal s hc (by rw [h0]; simp; omega))⟩
  have loop : s.cpc = .dLoop → ∃ s', DS s s' := by
    intro hc
    rcases Nat.lt_or_ge s.rd.length s.started with hlt | hge
    · exact ⟨_, Or.inr (.endLoop s hc hlt)⟩
    · exact ⟨_, Or.inr (.loop s hc hge)⟩
  cases htok with
  | drainQuiet bs post hb hq hfac hc => exact drain hc
  | drainBusy bs r post hb hq hact hfac hc => exact drain hc
  | mainQuiet bs post hb hq hf hc =>
    rcases hc with hc | hc
    · exact loop hc
    · cases bs with
      | nil => exact ⟨_, Or.inr (.null s [] hc (by simpa using hb))⟩
      | cons b bs => exact ⟨_, Or.inr (.batch s b _ hc (by rw [hb]; rfl))⟩
  | mainBusy bs r post hb hq hf hc =>
    rcases hc with hc | hc
    · exact loop hc
    · cases bs with
      | nil =>
        have hroom : s.buf.length < s.num := by rw [hb]; simp; omega
        rcases hf with ⟨hact, hf⟩ | ⟨hp, hf⟩
        · obtain ⟨i, s', hs⟩ := hq.moves hact hroom (by rw [hf]; simp)
          exact ⟨s', Or.inl ⟨i, hs⟩⟩
        · obtain ⟨pre, e, est, _, _⟩ := hq
          have hr : s.rd[pre.length]? = some r := by
            rw [e, List.getElem?_append_right (by omega), Nat.sub_self]; rfl
          exact ⟨_, Or.inl ⟨_, .exit2 s _ r hr hp (by rw [hf]; simp; omega)⟩⟩
      | cons b bs => exact ⟨_, Or.inr (.batch s b _ hc (by rw [hb]; rfl))⟩
  | caller post hb hq hf hc =>
    cases hr : s.rd[s.started]? with
    | none => exact ⟨_, Or.inr (.noNext s hc (List.getElem?_eq_none_iff.1 hr))⟩
    | some r => exact ⟨_, Or.inr (.next s r hc hr)⟩
  | over hb hd hst hc =>
    rcases hc with ⟨hc, hf⟩ | ⟨hc, hf⟩ | ⟨hc, hf⟩ | ⟨hc, hf⟩ | hc
    · exact loop hc
    · exact ⟨_, Or.inr (.join s hc fun r hr => Or.inr (hd r hr))⟩
    · rcases hf with hf | hf
      · exact ⟨_, Or.inr (.more2 s hc (by simp [hf]))⟩
      · exact ⟨_, Or.inr (.finish s hc hf)⟩
    · exact ⟨_, Or.inr (.take2 s _ _ hc hf)⟩
    · exact absurd hc hg

def dW : CPc → Nat
  | .idle => 10
  | .dTest => 9
  | .dTake => 8
  | .dSignal => 8
  | .dNull => 6
  | .dLoop => 5
  | .dDeq => 4
  | .dJoin => 4
  | .dTest2 => 3
  | .dTake2 => 2
  | _ => 0

theorem dstep_less {s s' : State P} (hs : DStep s s') : W 2 dW s' < W 2 dW s := by
  cases hs with
  | destroy hi => simp [W, hi, dW]
  | more hi _ => simp [W, hi, dW]
  | drained hi _ => simp [W, hi, dW]
  | take x l hi hf => simp [W, hi, hf, dW]; omega
  | signal hi _ => simp [W, hi, dW]; omega
  | loop hi _ => simp [W, hi, dW]
  | endLoop hi _ => simp [W, hi, dW]
  | batch b l hi hb => simp [W, hi, hb, dW, bW]; omega
  | null l hi hb => simp [W, hi, hb, dW, bW]; omega
  | next r hi hr =>
    have h1 := sum_set hr (startReader r)
    have := rW_start r
    simp only [W, hi, dW]
    omega
  | noNext hi _ => simp [W, hi, dW]
  | join hi _ => simp [W, hi, dW]
  | more2 hi _ => simp [W, hi, dW]
  | take2 x l hi hf => simp [W, hi, hf, dW]; omega
  | finish hi _ => simp [W, hi, dW]

theorem DInv.fill_passes {s : State P} (h : DInv s) (i : Nat) (r : Reader P)
    (hr : s.rd[i]? = some r) (hp : r.pc = .fill) : r.passes > 0 := by
  have quiet : ∀ post, Quiet s post → False := by
    rintro post ⟨pre, e, _, h3, h4⟩
    have hm := List.mem_of_getElem? hr
    rw [e, List.mem_append] at hm
    rcases hm with hm | hm
    · have := h3 r hm; simp [hp] at this
    · have := h4 r hm; simp [Fresh, hp] at this
  cases h.tok with
  | drainQuiet bs post _ hq => exact (quiet post hq).elim
  | mainQuiet bs post _ hq => exact (quiet post hq).elim
  | caller post _ hq => exact (quiet post hq).elim
  | over _ hd => have := hd r (List.mem_of_getElem? hr); simp [hp] at this
  | drainBusy bs r' post _ hbusy hact =>
    obtain ⟨rfl, _⟩ := hbusy.at hr (by simp [hp]) (by simp [hp])
    simpa [Active, hp] using hact
  | mainBusy bs r' post _ hbusy hf =>
    obtain ⟨rfl, _⟩ := hbusy.at hr (by simp [hp]) (by simp [hp])
    have : r.passes > 0 ∧ s.factory = [false] := by simpa [Active, hp] using hf
    exact this.1

theorem ds_less {s s' : State P} (h : DInv s) (hs : DS s s') : W 2 dW s' < W 2 dW s := by
  rcases hs with ⟨i, hs⟩ | hs
  · exact rstep_less hs h.size (h.fill_passes i) 2 (by omega) dW
  · exact dstep_less hs

theorem rstep_cpc {s s' : State P} {i : Nat} (hs : RStep s i s') : s'.cpc = s.cpc := by
  cases hs <;> rfl

theorem DInv.not_idle {s : State P} (h : DInv s) : s.cpc ≠ .idle := by
  intro hi
  cases h.tok <;> simp_all

theorem ds_calm {s s' : State P} (hd : DInv s) (h : Calm s) (hs : DS s s') : Calm s' := by
  rcases hs with ⟨i, hs⟩ | hs
  · have hc := rstep_cpc hs
    refine ⟨fun hd => ?_, fun hd => ?_⟩
    · rw [hc] at hd
      obtain ⟨post, hq⟩ := h.1 hd
      exact (hq.no_step hs).elim
    · rw [hc] at hd
      obtain ⟨post, hq⟩ := h.1 (Or.inr (Or.inl hd))
      exact (hq.no_step hs).elim
  · cases hs with
    | destroy hi => exact absurd hi hd.not_idle
    | more hi hne => exact ⟨fun _ => h.1 (Or.inl hi), fun _ => hne⟩
    | drained hi he => exact ⟨fun _ => h.1 (Or.inl hi), by simp⟩
    | take x l hi hf => exact ⟨fun _ => h.1 (Or.inr (Or.inl hi)), by simp⟩
    | _ => exact ⟨by simp, by simp⟩

end Sol.DataIter
