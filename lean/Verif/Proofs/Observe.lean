import Verif.Proofs.PyTaught
import Verif.Proofs.Tally
/-! What a Python object reports while it trains. -/

set_option linter.unusedSectionVars false

namespace Sol.Observe
open Sol.Params Sol.Online Sol.Loss Sol.Whole Sol.Spec Sol.Olm Sol.PySol

variable [FFun F32]

instance (cb : Callback) (held : List Nat) : Decidable (Gone cb held) :=
  match cb with
  | .printed => .isFalse fun ⟨_, h, _⟩ => nomatch h
  | .handler none => .isFalse fun ⟨_, h, _⟩ => nomatch h
  | .handler (some h) =>
    decidable_of_iff (h ∉ held) ⟨fun h1 => ⟨h, rfl, h1⟩, fun ⟨_, h1, h2⟩ => by cases h1; exact h2⟩

/-- An object and what is around it, with the examples that wait in the iterator instead of the iterator. -/
structure Seen where
  obj : Obj
  pend : List (Ex F32)
  cb : Callback
  held : List Nat

variable (pw : Int → F32) (powf : F32 → F32 → F32) (ρ : Nat → F32) (d : Train.Disp) (W : World)

/-- A statement without the iterator. -/
def look (op : OOp) (x : Seen) : Res (Seen × Out) :=
  match op with
  | .inspect h => .ok ({ x with cb := .handler h, held := h.toList ++ x.held }, ⟨none, [], .handler h⟩)
  | .release h => .ok ({ x with held := x.held.filter (· ≠ h) }, ⟨none, [], x.cb⟩)
  | .call op =>
    (act pw powf ρ d W op x.obj x.pend).bind fun r =>
      if newReports x.obj r.1.1 = [] ∨ ¬ Gone x.cb x.held then
        .ok ({ x with obj := r.1.1, pend := r.1.2 }, ⟨some r.2, newReports x.obj r.1.1, x.cb⟩)
      else .ub .useAfterFree

/-- The two outcomes belong to each other. -/
def Agree (size num : Nat) : Res (Obs × Out) → Res (Seen × Out) → Prop
  | .ub k, .ub k' => k = k'
  | .ok (s, r), .ok (x, r') => s.py.obj = x.obj ∧ Waits size num s.py.iter x.pend ∧ s.cb = x.cb ∧ s.held = x.held ∧ r = r'
  | _, _ => False

variable {pw powf ρ d W}

theorem step_look {size num : Nat} (hs : 1 ≤ size) (hn : 1 ≤ num) {s : Obs} {pend : List (Ex F32)} (hw : Waits size num s.py.iter pend)
    (op : OOp) :
    (∃ e, OStep pw powf ρ d W s op e) ∧
      ∀ e, OStep pw powf ρ d W s op e → Agree size num e (look pw powf ρ d W op ⟨s.py.obj, pend, s.cb, s.held⟩) := by
  cases op with
  | inspect h =>
    refine ⟨⟨_, .inspect⟩, fun e he => ?_⟩
    cases he
    exact ⟨rfl, hw, rfl, rfl, rfl⟩
  | release h =>
    refine ⟨⟨_, .release⟩, fun e he => ?_⟩
    cases he
    exact ⟨rfl, hw, rfl, rfl, rfl⟩
  | call op =>
    obtain ⟨⟨e, he⟩, hall⟩ := call_act pw powf ρ d W hs hn hw op
    constructor
    · cases e with
      | ub k => exact ⟨_, .fails he⟩
      | ok p =>
        obtain ⟨p, r⟩ := p
        by_cases hg : newReports s.py.obj p.obj = [] ∨ ¬ Gone s.cb s.held
        · exact ⟨_, .done he hg⟩
        · rw [not_or, not_not] at hg
          exact ⟨_, .gone he hg.1 hg.2⟩
    · intro e he
      simp only [look]
      cases he with
      | fails h =>
        have := hall _ h
        cases ha : act pw powf ρ d W op s.py.obj pend with
        | ub k => rw [ha] at this; exact this
        | ok q => rw [ha] at this; exact this.elim
      | gone h h1 h2 =>
        have := hall _ h
        cases ha : act pw powf ρ d W op s.py.obj pend with
        | ub k => rw [ha] at this; exact this.elim
        | ok q =>
          rw [ha] at this
          obtain ⟨⟨o, pend'⟩, r'⟩ := q
          obtain ⟨e1, e2, e3⟩ := this
          dsimp only [Res.bind]
          rw [← e1, if_neg (by rw [not_or, not_not]; exact ⟨h1, h2⟩)]
          rfl
      | done h h1 =>
        have := hall _ h
        cases ha : act pw powf ρ d W op s.py.obj pend with
        | ub k => rw [ha] at this; exact this.elim
        | ok q =>
          rw [ha] at this
          obtain ⟨⟨o, pend'⟩, r'⟩ := q
          obtain ⟨e1, e2, e3⟩ := this
          dsimp only [Res.bind]
          rw [← e1, if_pos h1]
          exact ⟨rfl, e2, rfl, rfl, by rw [e3]⟩

variable (pw powf ρ d W) in
/-- Statements one after the other, without the iterator. -/
def looks : List OOp → Seen → Res (Seen × List Out)
  | [], x => .ok (x, [])
  | op :: ops, x => (look pw powf ρ d W op x).bind fun r => (looks ops r.1).bind fun q => .ok (q.1, r.2 :: q.2)

/-- The two outcomes of a program belong to each other. -/
def AgreeAll (size num : Nat) : Res (Obs × List Out) → Res (Seen × List Out) → Prop
  | .ub k, .ub k' => k = k'
  | .ok (s, r), .ok (x, r') => s.py.obj = x.obj ∧ Waits size num s.py.iter x.pend ∧ s.cb = x.cb ∧ s.held = x.held ∧ r = r'
  | _, _ => False

theorem session_looks {size num : Nat} (hs : 1 ≤ size) (hn : 1 ≤ num) (ops : List OOp) {s : Obs} {pend : List (Ex F32)}
    (hw : Waits size num s.py.iter pend) :
    (∃ e, OSession pw powf ρ d W s ops e) ∧
      ∀ e, OSession pw powf ρ d W s ops e → AgreeAll size num e (looks pw powf ρ d W ops ⟨s.py.obj, pend, s.cb, s.held⟩) := by
  induction ops generalizing s pend with
  | nil =>
    refine ⟨⟨_, .nil⟩, fun e he => ?_⟩
    cases he
    exact ⟨rfl, hw, rfl, rfl, rfl⟩
  | cons op ops ih =>
    obtain ⟨⟨e, he⟩, hall⟩ := step_look (pw := pw) (powf := powf) (ρ := ρ) (d := d) (W := W) hs hn hw op
    constructor
    · have hm := hall e he
      cases e with
      | ub k => exact ⟨_, .stop he⟩
      | ok p =>
        obtain ⟨s', r⟩ := p
        cases ha : look pw powf ρ d W op ⟨s.py.obj, pend, s.cb, s.held⟩ with
        | ub k => rw [ha] at hm; exact hm.elim
        | ok q =>
          rw [ha] at hm
          obtain ⟨e', he'⟩ := (ih hm.2.1).1
          exact ⟨_, .cons he he'⟩
    · intro e' he'
      cases he' with
      | stop h =>
        have hm := hall _ h
        unfold looks
        cases ha : look pw powf ρ d W op ⟨s.py.obj, pend, s.cb, s.held⟩ with
        | ub k => rw [ha] at hm; exact hm
        | ok q => rw [ha] at hm; exact hm.elim
      | @cons _ s' _ _ r e1 h ht =>
        have hm := hall _ h
        unfold looks
        cases ha : look pw powf ρ d W op ⟨s.py.obj, pend, s.cb, s.held⟩ with
        | ub k => rw [ha] at hm; exact hm.elim
        | ok q =>
          rw [ha] at hm
          obtain ⟨x, r'⟩ := q
          obtain ⟨h1, h2, h3, h4, rfl⟩ := hm
          have hr := (ih h2).2 _ ht
          rw [h1, h3, h4] at hr
          have hx : (⟨x.obj, x.pend, x.cb, x.held⟩ : Seen) = x := rfl
          rw [hx] at hr
          dsimp only [Res.bind]
          cases hb : looks pw powf ρ d W ops x with
          | ub k =>
            rw [hb] at hr
            cases e1 with
            | ub k' => exact hr
            | ok p => exact hr.elim
          | ok q =>
            rw [hb] at hr
            cases e1 with
            | ub k' => exact hr.elim
            | ok p =>
              obtain ⟨s2, rs⟩ := p
              obtain ⟨x2, rs'⟩ := q
              obtain ⟨h5, h6, h7, h8, rfl⟩ := hr
              exact ⟨h5, h6, h7, h8, rfl⟩

/-! ### Who is told -/

/-- What the statements so far have to do with the callback and the references. -/
structure Heard (first : Callback) (before : List OOp) (cb : Callback) (held : List Nat) : Prop where
  reg : Registered first before cb
  ref : Referred before → ¬ Gone cb held

theorem heard_start (first : Callback) (hf : ∀ h, first ≠ .handler (some h)) : Heard first [] first [] :=
  ⟨.inl ⟨by simp, rfl⟩, fun _ ⟨h, h1, _⟩ => hf h h1⟩

theorem referred_snoc {before : List OOp} {op : OOp} (hop : ∀ h, op ≠ .inspect h) (hr : Referred (before ++ [op])) : Referred before := by
  intro a h b hb hn hm
  refine hr a h (b ++ [op]) (by rw [hb]; simp) (fun h' hm' => ?_) (List.mem_append_left _ hm)
  rcases List.mem_append.1 hm' with h1 | h1
  · exact hn h' h1
  · rw [List.mem_singleton] at h1
    exact hop h' h1.symm

theorem registered_snoc {first cb : Callback} {before : List OOp} {op : OOp} (hop : ∀ h, op ≠ .inspect h) (hr : Registered first before cb) :
    Registered first (before ++ [op]) cb := by
  have hnot : ∀ {l : List OOp}, (∀ h, OOp.inspect h ∉ l) → ∀ h, OOp.inspect h ∉ l ++ [op] := by
    intro l hl h hm
    rcases List.mem_append.1 hm with h1 | h1
    · exact hl h h1
    · rw [List.mem_singleton] at h1
      exact hop h h1.symm
  rcases hr with ⟨h1, h2⟩ | ⟨a, h, b, h1, h2, h3⟩
  · exact .inl ⟨hnot h1, h2⟩
  · exact .inr ⟨a, h, b ++ [op], by rw [h1]; simp, hnot h2, h3⟩

theorem heard_inspect {first cb : Callback} {before : List OOp} {held : List Nat} (h : Option Nat) :
    Heard first (before ++ [.inspect h]) (.handler h) (h.toList ++ held) := by
  refine ⟨.inr ⟨before, h, [], rfl, by simp, rfl⟩, fun _ ⟨h', h1, h2⟩ => h2 ?_⟩
  cases h1
  simp

theorem heard_release {first cb : Callback} (hf : ∀ h, first ≠ .handler (some h)) {before : List OOp} {held : List Nat}
    (hh : Heard first before cb held) (h : Nat) : Heard first (before ++ [.release h]) cb (held.filter (· ≠ h)) := by
  refine ⟨registered_snoc (by simp) hh.reg, fun hr ⟨h', h1, h2⟩ => ?_⟩
  refine hh.ref (referred_snoc (by simp) hr) ⟨h', h1, fun hm => h2 ?_⟩
  rw [List.mem_filter]
  refine ⟨hm, ?_⟩
  rw [decide_eq_true_eq]
  rintro rfl
  rcases hh.reg with ⟨-, h3⟩ | ⟨a, h3, b, h4, h5, h6⟩
  · exact hf h' (by rw [← h3, h1])
  · rw [h1] at h6
    cases h6
    refine hr a h' (b ++ [.release h']) (by rw [h4]; simp) (fun k hk => ?_) (by simp)
    rcases List.mem_append.1 hk with h7 | h7
    · exact h5 k h7
    · simp at h7

theorem heard_call {first cb : Callback} {before : List OOp} {held : List Nat} (hh : Heard first before cb held) (op : Op) :
    Heard first (before ++ [.call op]) cb held :=
  ⟨registered_snoc (by simp) hh.reg, fun hr => hh.ref (referred_snoc (by simp) hr)⟩

/-! ### Programs -/

omit [FFun F32] in
theorem callsOf_append (a b : List (OOp × List (Ex F32))) : callsOf (a ++ b) = callsOf a ++ callsOf b := List.filterMap_append

/-- Programs about an object whose calls behave: `P`, what is known between them. -/
theorem looks_all {m : M} {first : Callback} (hf : ∀ h, first ≠ .handler (some h))
    (P : List (Op × List (Ex F32)) → List (Op × List (Ex F32)) → Obj → Prop)
    (hP : ∀ before op l todo o, P before ((op, l) :: todo) o → ∃ o' r, act pw powf ρ d W op o [] = .ok ((o', []), r) ∧
      Answers powf ρ d W m before op l r ∧ Logged powf ρ d m before op l (newReports o o') r ∧ P (before ++ [(op, l)]) todo o')
    (todo : List (OOp × List (Ex F32))) :
    ∀ (before : List (OOp × List (Ex F32))) (x : Seen), P (callsOf before) (callsOf todo) x.obj → x.pend = [] →
      Heard first (before.map (·.1)) x.cb x.held → Attended ((before ++ todo).map (·.1)) →
      ∃ x' outs, looks pw powf ρ d W (todo.map (·.1)) x = .ok (x', outs) ∧ outs.length = todo.length ∧
        ∀ i op l out, todo[i]? = some (op, l) → outs[i]? = some out → Observed powf ρ d W m first (before ++ todo.take i) op l out := by
  induction todo with
  | nil => exact fun _ x _ _ _ _ => ⟨x, [], rfl, rfl, fun i op l r h => by simp at h⟩
  | cons q todo ih =>
    intro before x hx hp hh ha
    obtain ⟨op, l⟩ := q
    have happ : before ++ (op, l) :: todo = (before ++ [(op, l)]) ++ todo := by simp
    have hmap : (before ++ [(op, l)]).map (·.1) = before.map (·.1) ++ [op] := by simp
    have hfirst : ∃ x' out, look pw powf ρ d W op x = .ok (x', out) ∧ Observed powf ρ d W m first before op l out ∧
        P (callsOf (before ++ [(op, l)])) (callsOf todo) x'.obj ∧ x'.pend = [] ∧
        Heard first ((before ++ [(op, l)]).map (·.1)) x'.cb x'.held := by
      rw [hmap, callsOf_append]
      cases op with
      | inspect h =>
        refine ⟨_, _, rfl, ⟨rfl, rfl⟩, ?_, hp, heard_inspect (cb := x.cb) h⟩
        simpa [callsOf] using hx
      | release h =>
        refine ⟨_, _, rfl, ⟨rfl, rfl⟩, ?_, hp, heard_release hf hh h⟩
        simpa [callsOf] using hx
      | call op =>
        obtain ⟨o', r, h1, h2, h3, h4⟩ := hP (callsOf before) op l (callsOf todo) x.obj (by simpa [callsOf] using hx)
        have hg : newReports x.obj o' = [] ∨ ¬ Gone x.cb x.held := by
          cases hfit : isFit op with
          | false =>
            left
            unfold Logged at h3
            rw [hfit, if_neg (by simp)] at h3
            exact h3
          | true =>
            right
            exact hh.ref (ha (before.map (·.1)) op (todo.map (·.1)) (by simp) hfit)
        refine ⟨{ x with obj := o', pend := [] }, ⟨some r, newReports x.obj o', x.cb⟩, ?_, ⟨hh.reg, r, rfl, h2, h3⟩, ?_, rfl, heard_call hh op⟩
        · simp only [look, hp, h1, Res.bind, if_pos hg]
        · simpa [callsOf] using h4
    obtain ⟨x', out, h1, h2, h3, h4, h5⟩ := hfirst
    obtain ⟨x2, outs, h6, h7, h8⟩ := ih (before ++ [(op, l)]) x' h3 h4 h5 (by rw [← happ]; exact ha)
    refine ⟨x2, out :: outs, ?_, by simp [h7], ?_⟩
    · simp only [List.map_cons, looks, h1, Res.bind, h6]
    · intro i op' l' out' hi hr
      cases i with
      | zero =>
        simp only [List.getElem?_cons_zero, Option.some.injEq, Prod.mk.injEq] at hi hr
        obtain ⟨rfl, rfl⟩ := hi
        subst hr
        simpa using h2
      | succ i =>
        simp only [List.getElem?_cons_succ] at hi hr
        have := h8 i op' l' out' hi hr
        rw [List.append_assoc] at this
        exact this

/-! ### The numbers of examples in the reports -/

/-- The reports of a loop come at the numbers that are due. -/
theorem batch_numbers {A : Type} {G : Alg F32 A} (hG : Tally G) (c : Cfg F32) (p : Train.Pre) (es : List (Ex F32)) (lp lp' : Train.Loop F32 A)
    (hw : Spec.Waits lp.disp lp.s.data) (h : Train.batch G c p ρ lp es = .ok lp') :
    lp'.s.data = lp.s.data + es.length ∧
      ∃ more, lp'.reports = lp.reports ++ more ∧ (more.map (·.data)).Pairwise (· < ·) ∧
        ∀ k, k ∈ more.map (·.data) ↔ lp.s.data < k ∧ k ≤ lp.s.data + es.length ∧ Due lp.disp k := by
  induction es generalizing lp with
  | nil =>
    rw [← Res.ok.inj h]
    refine ⟨rfl, [], by simp, by simp, fun k => ?_⟩
    simp
    omega
  | cons e es ih =>
    simp only [Train.batch, Train.point, Res.bind_eq_ok] at h
    obtain ⟨lp1, ⟨x, -, s, hs, h1⟩, h2⟩ := h
    have hd := hG.one hs
    split at h1
    · rename_i hn
      obtain rfl := Res.ok.inj h1
      rw [hd] at hn
      obtain ⟨w1, w2⟩ := Props.waits_next hw hn
      obtain ⟨i1, more, i2, i3, i4⟩ := ih _ (by simpa only [hd] using w2) h2
      simp only [hd] at i1 i4
      refine ⟨by rw [i1, List.length_cons]; omega, Train.report s :: more, by rw [i2]; simp, ?_, fun k => ?_⟩
      · rw [List.map_cons, List.pairwise_cons]
        refine ⟨fun k hk => ?_, i3⟩
        have := ((i4 k).1 hk).1
        show s.data < k
        omega
      · rw [List.map_cons, List.mem_cons, i4, Props.due_advance, List.length_cons]
        show k = s.data ∨ _ ↔ _
        rw [hd]
        constructor
        · rintro (rfl | ⟨a, b, c⟩)
          · exact ⟨by omega, by omega, w1⟩
          · exact ⟨by omega, by omega, c⟩
        · rintro ⟨a, b, c⟩
          by_cases hk : k = lp.s.data + 1
          · exact .inl hk
          · exact .inr ⟨by omega, by omega, c⟩
    · rename_i hn
      obtain rfl := Res.ok.inj h1
      rw [hd] at hn
      obtain ⟨w1, w2⟩ := Props.waits_on hw hn
      obtain ⟨i1, more, i2, i3, i4⟩ := ih _ (by simpa only [hd] using w2) h2
      simp only [hd] at i1 i4
      refine ⟨by rw [i1, List.length_cons]; omega, more, i2, i3, fun k => ?_⟩
      rw [i4, List.length_cons]
      constructor
      · rintro ⟨a, b, c⟩
        exact ⟨by omega, by omega, c⟩
      · rintro ⟨a, b, c⟩
        refine ⟨?_, by omega, c⟩
        rcases Nat.lt_or_ge (lp.s.data + 1) k with h | h
        · exact h
        · exact absurd c (by rw [show k = lp.s.data + 1 by omega]; exact w1)

end Sol.Observe
