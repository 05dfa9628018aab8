import Verif.Model.Handle
/-!
# Property C14: shared storage
-/

namespace Sol.Props
open Sol.Handle

/-- A history of operations on live variables, never more than 2^31 - 1 variables pointing anywhere at once, and the
    states it leads to. -/
inductive History : State → Prop
  | start : History start
  | step {s s' : State} {op : Op} (h : History s) (hl : legal s op) (hn : s.vars.length < 2147483647)
      (hs : Handle.step s op = .ok s') : History s'

/-- Counters against a count of references: every allocated block is either in use, with its counter equal to the
    number of references, or has been released once and has no references. -/
structure Cnt (counts : List (Option Int)) (released : List Nat) (n : Nat → Nat) : Prop where
  bound : ∀ b, 0 < n b → b < counts.length
  live : ∀ b c, counts[b]? = some (some c) → c = (n b : Int) ∧ 0 < n b
  gone : ∀ b, counts[b]? = some none → n b = 0
  once : ∀ b, released.count b = if counts[b]? = some none then 1 else 0

theorem Cnt.read {s : State} {n : Nat → Nat} (h : Cnt s.counts s.released n) {b : Nat} (hb : 0 < n b) :
    readCount s b = .ok (n b : Int) := by
  have hlt := h.bound b hb
  unfold readCount
  cases hc : s.counts[b]? with
  | none => rw [List.getElem?_eq_none_iff] at hc; omega
  | some o =>
    cases o with
    | none => have := h.gone b hc; omega
    | some c => simp [(h.live b c hc).1]

/-- One reference more or less. -/
def bump (n : Nat → Nat) (v : Var) (d : Int) : Nat → Nat := fun b => if v = .block b then ((n b : Int) + d).toNat else n b

theorem Cnt.addRef {s : State} {n : Nat → Nat} (h : Cnt s.counts s.released n) (v : Var)
    (hv : ∀ b, v = .block b → 0 < n b ∧ n b < 2147483647) :
    ∃ s', Handle.addRef s v = .ok s' ∧ s'.vars = s.vars ∧ Cnt s'.counts s'.released (bump n v 1) := by
  cases v with
  | dead => exact ⟨s, rfl, rfl, h⟩
  | null => exact ⟨s, rfl, rfl, h⟩
  | block b =>
    obtain ⟨h0, h1⟩ := hv b rfl
    refine ⟨{ s with counts := s.counts.set b (some ((n b : Int) + 1)) }, ?_, rfl, ?_⟩
    · simp only [Handle.addRef, incCount, h.read h0, Res.bind_ok]
      rw [if_neg (by omega)]
    · have hlt := h.bound b h0
      have key : ∀ b', (s.counts.set b (some ((n b : Int) + 1)))[b']? =
          if b = b' then some (some ((n b : Int) + 1)) else s.counts[b']? := by
        intro b'
        simp only [List.getElem?_set, hlt, if_true]
      constructor
      · intro b' hb'
        simp only [List.length_set]
        by_cases hbb : b = b'
        · omega
        · exact h.bound b' (by simpa [bump, hbb] using hb')
      · intro b' c hc
        rw [key] at hc
        by_cases hbb : b = b'
        · subst hbb
          rw [if_pos rfl] at hc
          simp only [Option.some.injEq] at hc
          simp only [bump, if_true]
          omega
        · rw [if_neg hbb] at hc
          simpa [bump, hbb] using h.live b' c hc
      · intro b' hc
        rw [key] at hc
        by_cases hbb : b = b'
        · rw [if_pos hbb] at hc; simp at hc
        · rw [if_neg hbb] at hc
          simpa [bump, hbb] using h.gone b' hc
      · intro b'
        rw [key, h.once b']
        by_cases hbb : b = b'
        · subst hbb
          have hnone : s.counts[b]? ≠ some none := fun hc => by have := h.gone b hc; omega
          rw [if_pos rfl, if_neg hnone, if_neg (by simp)]
        · rw [if_neg hbb]

theorem Cnt.release {s : State} {n : Nat → Nat} (h : Cnt s.counts s.released n) (v : Var)
    (hv : ∀ b, v = .block b → 0 < n b) :
    ∃ s', Handle.release s v = .ok s' ∧ s'.vars = s.vars ∧ Cnt s'.counts s'.released (bump n v (-1)) := by
  cases v with
  | dead => exact ⟨s, rfl, rfl, h⟩
  | null => exact ⟨s, rfl, rfl, h⟩
  | block b =>
    have h0 := hv b rfl
    have hlt := h.bound b h0
    have key : ∀ o b', (s.counts.set b o)[b']? = if b = b' then some o else s.counts[b']? := by
      intro o b'
      simp only [List.getElem?_set, hlt, if_true]
    have hnone : s.counts[b]? ≠ some none := fun hc => by have := h.gone b hc; omega
    by_cases h1 : n b = 1
    · refine ⟨{ s with counts := s.counts.set b none, released := s.released ++ [b] }, ?_, rfl, ?_⟩
      · simp only [Handle.release, h.read h0, Res.bind_ok]
        rw [if_pos (by omega)]
      · constructor
        · intro b' hb'
          simp only [List.length_set]
          by_cases hbb : b = b'
          · omega
          · exact h.bound b' (by simpa [bump, hbb] using hb')
        · intro b' c hc
          rw [key] at hc
          by_cases hbb : b = b'
          · rw [if_pos hbb] at hc; simp at hc
          · rw [if_neg hbb] at hc
            simpa [bump, hbb] using h.live b' c hc
        · intro b' hc
          rw [key] at hc
          by_cases hbb : b = b'
          · subst hbb; simp only [bump, if_true]; omega
          · rw [if_neg hbb] at hc
            simpa [bump, hbb] using h.gone b' hc
        · intro b'
          rw [key, List.count_append, h.once b']
          by_cases hbb : b = b'
          · subst hbb
            rw [if_pos rfl, if_pos rfl, if_neg hnone]; simp
          · rw [if_neg hbb]
            simp [hbb]
    · refine ⟨{ s with counts := s.counts.set b (some ((n b : Int) - 1)) }, ?_, rfl, ?_⟩
      · simp only [Handle.release, h.read h0, Res.bind_ok]
        rw [if_neg (by omega)]
      · constructor
        · intro b' hb'
          simp only [List.length_set]
          by_cases hbb : b = b'
          · omega
          · exact h.bound b' (by simpa [bump, hbb] using hb')
        · intro b' c hc
          rw [key] at hc
          by_cases hbb : b = b'
          · subst hbb
            rw [if_pos rfl] at hc
            simp only [Option.some.injEq] at hc
            simp only [bump, if_true]
            omega
          · rw [if_neg hbb] at hc
            simpa [bump, hbb] using h.live b' c hc
        · intro b' hc
          rw [key] at hc
          by_cases hbb : b = b'
          · rw [if_pos hbb] at hc; simp at hc
          · rw [if_neg hbb] at hc
            simpa [bump, hbb] using h.gone b' hc
        · intro b'
          rw [key, h.once b']
          by_cases hbb : b = b'
          · subst hbb
            rw [if_pos rfl, if_neg hnone, if_neg (by simp)]
          · rw [if_neg hbb]

/-- References held by the variables of a state. -/
def refs (vs : List Var) : Nat → Nat := fun b => vs.count (.block b)

theorem count_set {vs : List Var} {i : Nat} (hi : i < vs.length) (v w : Var) :
    (vs.set i v).count w + (if vs[i] = w then 1 else 0) = vs.count w + (if v = w then 1 else 0) := by
  induction vs generalizing i with
  | nil => simp at hi
  | cons x vs ih =>
    cases i with
    | zero =>
      simp only [List.set_cons_zero, List.count_cons, List.getElem_cons_zero, beq_iff_eq]
      omega
    | succ i =>
      have := ih (i := i) (by simpa using hi)
      simp only [List.set_cons_succ, List.count_cons, List.getElem_cons_succ]
      omega

theorem Cnt.congr {counts : List (Option Int)} {released : List Nat} {n m : Nat → Nat} (h : Cnt counts released n)
    (e : ∀ b, n b = m b) : Cnt counts released m := by
  have : n = m := funext e
  rw [← this]; exact h

theorem var_eq {s : State} {i : Nat} (hi : alive s i) :
    ∃ h : i < s.vars.length, s.vars[i] = var s i ∧ var s i ≠ .dead := by
  obtain ⟨v, hv, hd⟩ := hi
  obtain ⟨h, e⟩ := List.getElem?_eq_some_iff.1 hv
  refine ⟨h, ?_, ?_⟩
  · simp [var, hv, e]
  · simp [var, hv, hd]

theorem refs_var {s : State} {i b : Nat} (hi : alive s i) (hb : var s i = .block b) : 0 < refs s.vars b := by
  obtain ⟨h, e, _⟩ := var_eq hi
  unfold refs
  rw [List.count_pos_iff, ← hb, ← e]
  exact List.getElem_mem h

theorem refs_le (vs : List Var) (b : Nat) : refs vs b ≤ vs.length := List.count_le_length

theorem step_counted {s : State} (h : Cnt s.counts s.released (refs s.vars)) (op : Op) (hl : legal s op)
    (hn : s.vars.length < 2147483647) :
    ∃ s', Handle.step s op = .ok s' ∧ Cnt s'.counts s'.released (refs s'.vars) := by
  cases op with
  | create =>
    refine ⟨_, rfl, h.congr fun b => ?_⟩
    simp [refs]
  | copy j =>
    obtain ⟨s', h1, h2, h3⟩ := h.addRef (var s j) (fun b hb =>
      ⟨refs_var hl hb, by have := refs_le s.vars b; omega⟩)
    refine ⟨{ s' with vars := s'.vars ++ [var s j] }, by simp [Handle.step, h1], h3.congr fun b => ?_⟩
    simp only [h2, refs, bump, List.count_append, List.count_singleton, beq_iff_eq]
    split <;> omega
  | init i =>
    obtain ⟨hi, e, hd⟩ := var_eq hl
    cases hv : var s i with
    | dead => exact absurd hv hd
    | block b => exact ⟨s, by simp [Handle.step, hv], h⟩
    | null =>
      refine ⟨{ s with vars := s.vars.set i (.block s.counts.length), counts := s.counts ++ [some 1] },
        by simp [Handle.step, hv], ?_⟩
      have hfresh : refs s.vars s.counts.length = 0 := by
        apply Decidable.byContradiction
        intro hc
        have := h.bound s.counts.length (by omega)
        omega
      have hset : ∀ b, refs (s.vars.set i (.block s.counts.length)) b =
          refs s.vars b + if s.counts.length = b then 1 else 0 := by
        intro b
        have := count_set hi (.block s.counts.length) (.block b)
        rw [e, hv] at this
        simp only [reduceCtorEq, if_false, Var.block.injEq] at this
        simpa [refs] using this
      have hget : ∀ b, (s.counts ++ [some (1 : Int)])[b]? =
          if b = s.counts.length then some (some 1) else s.counts[b]? := by
        intro b
        rw [List.getElem?_append]
        split
        · rw [if_neg (by omega)]
        · split
          · rename_i hb; simp [hb]
          · rw [List.getElem?_eq_none_iff.2 (by simp; omega), List.getElem?_eq_none_iff.2 (by omega)]
      constructor
      · intro b hb
        rw [hset] at hb
        simp only [List.length_append, List.length_singleton]
        by_cases hbb : s.counts.length = b
        · omega
        · rw [if_neg hbb] at hb
          have := h.bound b (by omega)
          omega
      · intro b c hc
        simp only [hget] at hc
        rw [hset]
        by_cases hbb : b = s.counts.length
        · rw [if_pos hbb] at hc
          simp only [Option.some.injEq] at hc
          subst hbb
          rw [hfresh, if_pos rfl]
          omega
        · rw [if_neg hbb] at hc
          rw [if_neg (by omega)]
          simpa using h.live b c hc
      · intro b hc
        simp only [hget] at hc
        by_cases hbb : b = s.counts.length
        · rw [if_pos hbb] at hc; simp at hc
        · rw [if_neg hbb] at hc
          rw [hset, if_neg (by omega), h.gone b hc]
      · intro b
        simp only [hget]
        rw [h.once b]
        by_cases hbb : b = s.counts.length
        · rw [if_pos hbb, List.getElem?_eq_none_iff.2 (by omega), if_neg (by simp), if_neg (by simp)]
        · rw [if_neg hbb]
  | assign i j =>
    obtain ⟨hi, ei, hdi⟩ := var_eq hl.1
    obtain ⟨hj, ej, hdj⟩ := var_eq hl.2
    by_cases hv : var s i = var s j
    · exact ⟨s, by simp [Handle.step, hv], h⟩
    · obtain ⟨s1, a1, a2, a3⟩ := h.release (var s i) (fun b hb => refs_var hl.1 hb)
      have hne : ∀ b, var s j = .block b → bump (refs s.vars) (var s i) (-1) b = refs s.vars b := by
        intro b hb
        simp only [bump]
        rw [if_neg]
        rw [← hb]; exact hv
      obtain ⟨s2, b1, b2, b3⟩ := a3.addRef (var s j) (fun b hb => by
        rw [hne b hb]
        exact ⟨refs_var hl.2 hb, by have := refs_le s.vars b; omega⟩)
      refine ⟨{ s2 with vars := s2.vars.set i (var s j) }, by simp [Handle.step, hv, a1, b1], b3.congr fun b => ?_⟩
      have hc := count_set hi (var s j) (.block b)
      rw [ei] at hc
      dsimp only
      rw [b2, a2]
      have hpos : var s i = .block b → 0 < refs s.vars b := fun hb => refs_var hl.1 hb
      simp only [refs, bump] at hpos ⊢
      by_cases c1 : var s i = .block b
      · have := hpos c1
        have c2 : var s j ≠ .block b := fun hc => hv (by rw [c1, hc])
        simp only [c1, c2, if_true, if_false] at hc ⊢
        omega
      · by_cases c2 : var s j = .block b
        · simp only [c1, c2, if_true, if_false] at hc ⊢
          omega
        · simp only [c1, c2, if_false] at hc ⊢
          omega
  | destroy i =>
    obtain ⟨hi, ei, hdi⟩ := var_eq hl
    obtain ⟨s1, a1, a2, a3⟩ := h.release (var s i) (fun b hb => refs_var hl hb)
    refine ⟨{ s1 with vars := s1.vars.set i .dead }, by simp [Handle.step, a1], a3.congr fun b => ?_⟩
    have hc := count_set hi .dead (.block b)
    rw [ei] at hc
    dsimp only
    rw [a2]
    have hpos : var s i = .block b → 0 < refs s.vars b := fun hb => refs_var hl hb
    simp only [refs, bump] at hpos ⊢
    by_cases c1 : var s i = .block b
    · have := hpos c1
      simp only [c1, if_true, reduceCtorEq, if_false] at hc ⊢
      omega
    · simp only [c1, reduceCtorEq, if_false] at hc ⊢
      omega

theorem History.counted {s : State} (h : History s) : Cnt s.counts s.released (refs s.vars) := by
  induction h with
  | start => exact ⟨by simp [refs, Handle.start], by simp [Handle.start], by simp [Handle.start], by simp [Handle.start]⟩
  | step h hl hn hs ih =>
    obtain ⟨s', h1, h2⟩ := step_counted ih _ hl hn
    rw [h1] at hs
    cases hs
    exact h2

/-- **C14 (no undefined behaviour).** After any history, every further operation on live variables runs: no counter or
    block is touched after its release. -/
theorem C14_no_use_after_release (s : State) (h : History s) (op : Op) (hl : legal s op)
    (hn : s.vars.length < 2147483647) : ∃ s', Handle.step s op = .ok s' :=
  let ⟨s', h1, _⟩ := step_counted h.counted op hl hn
  ⟨s', h1⟩

/-- **C14 (storage).** After any history: the block behind a variable is not released; a block is released exactly when
    no variable points to it any more (so as soon as the last one is gone, and there is no leak); no block is released
    twice; the counter of a block in use is the number of variables pointing to it. -/
theorem C14_released_exactly_once (s : State) (h : History s) (b : Nat) :
    (.block b ∈ s.vars → b < s.counts.length ∧ b ∉ s.released ∧
      s.counts[b]? = some (some (s.vars.count (.block b) : Int))) ∧
    (b < s.counts.length → (b ∈ s.released ↔ .block b ∉ s.vars)) ∧ s.released.count b ≤ 1 := by
  have hc := h.counted
  have ho := hc.once b
  have hmem : b ∈ s.released ↔ s.counts[b]? = some none := by
    rw [← List.count_pos_iff, ho]
    split <;> simp_all
  have hin : .block b ∈ s.vars ↔ 0 < refs s.vars b := by unfold refs; rw [List.count_pos_iff]
  refine ⟨fun hb => ?_, fun hb => ?_, by rw [ho]; split <;> omega⟩
  · have h0 := hin.1 hb
    have hlt := hc.bound b h0
    refine ⟨hlt, fun hr => ?_, ?_⟩
    · have := hc.gone b (hmem.1 hr); omega
    · cases hv : s.counts[b]? with
      | none => rw [List.getElem?_eq_none_iff] at hv; omega
      | some o =>
        cases o with
        | none => have := hc.gone b hv; omega
        | some c => rw [(hc.live b c hv).1]; rfl
  · rw [hmem]
    constructor
    · intro hg hb
      have := hc.gone b hg
      have := hin.1 hb
      omega
    · intro hn
      cases hv : s.counts[b]? with
      | none => rw [List.getElem?_eq_none_iff] at hv; omega
      | some o =>
        cases o with
        | none => rfl
        | some c => exact absurd (hin.2 (hc.live b c hv).2) hn

/-- An instance: two variables share a block, one is reassigned, then the other destroyed; the block is released. -/
example : ∃ s, History s ∧ s.released = [0] ∧ s.vars = [.dead, .block 1, .block 1] := by
  have h0 : History start := .start
  have h1 := h0.step (op := .create) (s' := ⟨[.null], [], []⟩) trivial (by decide) rfl
  have h2 := h1.step (op := .init 0) (s' := ⟨[.block 0], [some 1], []⟩) ⟨_, rfl, by decide⟩ (by decide) rfl
  have h3 := h2.step (op := .copy 0) (s' := ⟨[.block 0, .block 0], [some 2], []⟩) ⟨_, rfl, by decide⟩ (by decide) rfl
  have h4 := h3.step (op := .create) (s' := ⟨[.block 0, .block 0, .null], [some 2], []⟩) trivial (by decide) rfl
  have h5 := h4.step (op := .init 2) (s' := ⟨[.block 0, .block 0, .block 1], [some 2, some 1], []⟩)
    ⟨_, rfl, by decide⟩ (by decide) rfl
  have h6 := h5.step (op := .assign 1 2) (s' := ⟨[.block 0, .block 1, .block 1], [some 1, some 2], []⟩)
    ⟨⟨_, rfl, by decide⟩, ⟨_, rfl, by decide⟩⟩ (by decide) rfl
  have h7 := h6.step (op := .destroy 0) (s' := ⟨[.dead, .block 1, .block 1], [none, some 2], [0]⟩)
    ⟨_, rfl, by decide⟩ (by decide) rfl
  exact ⟨_, h7, rfl, rfl⟩

end Sol.Props
