import Verif.Model.LoadLoop
import Verif.Spec.LoadLoop
import Verif.Proofs.PreProcess
/-!
# The loop that collects the settings of a model file
-/

namespace Sol.LoadLoop
open Sol.Spec Sol.PreProcess

theorem cut (t : List Char) : (t.dropWhile (fun c => c != '\n') = [] ∧ '\n' ∉ t) ∨
    ∃ l r, t = l ++ '\n' :: r ∧ '\n' ∉ l ∧ t.dropWhile (fun c => c != '\n') = '\n' :: r ∧
      t.takeWhile (fun c => c != '\n') = l := by
  induction t with
  | nil => exact .inl ⟨rfl, by simp⟩
  | cons c t ih =>
    by_cases hc : c = '\n'
    · subst hc
      exact .inr ⟨[], t, rfl, by simp, by simp, by simp⟩
    · have hc' : (c != '\n') = true := by simpa using hc
      rw [List.dropWhile_cons_of_pos (by exact hc'), List.takeWhile_cons_of_pos (by exact hc')]
      rcases ih with ⟨h1, h2⟩ | ⟨l, r, h1, h2, h3, h4⟩
      · exact .inl ⟨h1, by simpa [Ne.symm hc] using h2⟩
      · exact .inr ⟨c :: l, r, by simp [h1], by simpa [Ne.symm hc] using h2, h3, by rw [h4]⟩

theorem getline_end {s : S} (h : s.ok = true) (hn : '\n' ∉ s.rest) :
    getline s = { s with line := s.rest, rest := [], ok := false } := by
  rcases cut s.rest with ⟨h1, _⟩ | ⟨l, r, h1, _⟩
  · simp only [getline, h, if_true, h1]
  · exact absurd (by rw [h1]; simp) hn

theorem takeWhile_line {l r : List Char} (hl : '\n' ∉ l) :
    (l ++ '\n' :: r).takeWhile (fun c => c != '\n') = l ∧ (l ++ '\n' :: r).dropWhile (fun c => c != '\n') = '\n' :: r := by
  induction l with
  | nil => simp
  | cons c l ih =>
    simp only [List.mem_cons, not_or] at hl
    have hc : (c != '\n') = true := by simpa using Ne.symm hl.1
    simp [hc, ih hl.2]

theorem getline_line {s : S} (h : s.ok = true) {l r : List Char} (hr : s.rest = l ++ '\n' :: r) (hl : '\n' ∉ l) :
    getline s = { s with line := l, rest := r } := by
  have := takeWhile_line (r := r) hl
  simp only [getline, h, if_true, hr, this.1, this.2]

theorem line_unique {l r l' r' : List Char} (hl : '\n' ∉ l) (hl' : '\n' ∉ l') (h : l ++ '\n' :: r = l' ++ '\n' :: r') :
    l = l' ∧ r = r' := by
  have h1 := takeWhile_line (r := r) hl
  have h2 := takeWhile_line (r := r') hl'
  rw [h] at h1
  refine ⟨h1.1.symm.trans h2.1, ?_⟩
  have := h1.2.symm.trans h2.2
  simpa using this

theorem marker_plain : '\n' ∉ marker := by decide

/-- After the end of the file the loop goes on for ever. -/
theorem loop_stuck {s : S} (h : s.ok = false) (hl : s.line ≠ marker) (n : Nat) : loop n s = none := by
  induction n generalizing s with
  | zero => simp [loop, hl]
  | succ n ih =>
    rw [loop, if_neg hl]
    have hg : getline s = s := by simp [getline, h]
    rw [hg]
    exact ih h hl

theorem isLine_after {l r m : List Char} (h : IsLine m r) : IsLine m (l ++ '\n' :: r) := by
  obtain ⟨hm, a, b, h1, h2, h3⟩ := h
  refine ⟨hm, l ++ '\n' :: a, b, by simp [h1], .inr ?_, h3⟩
  rcases h2 with rfl | ⟨a', rfl⟩
  · exact ⟨l, rfl⟩
  · exact ⟨l ++ '\n' :: a', by simp⟩

/-- The lines of a text with a newline: the first one and those of the rest. -/
theorem isLine_cons {l r m : List Char} (hl : '\n' ∉ l) : IsLine m (l ++ '\n' :: r) ↔ m = l ∨ IsLine m r := by
  constructor
  · rintro ⟨hm, a, b, h1, h2, h3⟩
    rcases h2 with rfl | ⟨a', rfl⟩
    · left
      rcases h3 with rfl | ⟨b', rfl⟩
      · refine absurd ?_ hm
        have : m = l ++ '\n' :: r := by simpa using h1.symm
        rw [this]
        simp
      · exact (line_unique hl hm (by simpa using h1)).1.symm
    · right
      have h1' : l ++ '\n' :: r = a' ++ '\n' :: (m ++ b) := by simpa using h1
      rcases cut a' with ⟨_, hn⟩ | ⟨p, q, hp, hpn, _⟩
      · have := line_unique hl hn h1'
        exact ⟨hm, [], b, by simpa using this.2, .inl rfl, h3⟩
      · rw [hp] at h1'
        have := line_unique hl hpn (r' := q ++ '\n' :: (m ++ b)) (by simpa using h1')
        exact ⟨hm, q ++ ['\n'], b, by simp [this.2], .inr ⟨q, rfl⟩, h3⟩
  · rintro (rfl | h)
    · exact ⟨hl, [], '\n' :: r, by simp, .inl rfl, .inr ⟨r, rfl⟩⟩
    · exact isLine_after h

theorem isLine_single {t m : List Char} (ht : '\n' ∉ t) : IsLine m t ↔ m = t := by
  constructor
  · rintro ⟨hm, a, b, h1, h2, h3⟩
    rcases h2 with rfl | ⟨a', rfl⟩
    · rcases h3 with rfl | ⟨b', rfl⟩
      · simpa using h1.symm
      · exact absurd (by rw [h1]; simp) ht
    · exact absurd (by rw [h1]; simp) ht
  · rintro rfl
    exact ⟨ht, [], [], by simp, .inl rfl, .inl rfl⟩

/-- The loop ends exactly if "model parameters:" is a line of what is left. -/
theorem loop_ends {s : S} (h : s.ok = true) (hl : s.line ≠ marker) : (∃ n r, loop n s = some r) ↔ IsLine marker s.rest := by
  generalize hk : s.rest.length = k
  induction k using Nat.strong_induction_on generalizing s with
  | _ k ih =>
    subst hk
    rcases cut s.rest with ⟨_, hn⟩ | ⟨l, r, hr, hln, _⟩
    · rw [isLine_single hn]
      constructor
      · rintro ⟨n, t, hn'⟩
        cases n with
        | zero => simp [loop, hl] at hn'
        | succ n =>
          rw [loop, if_neg hl, getline_end h hn] at hn'
          by_contra hc
          rw [loop_stuck (by rfl) (fun e => hc e.symm)] at hn'
          cases hn'
      · intro e
        refine ⟨1, { s with line := s.rest, rest := [], ok := false, out := s.out ++ s.rest }, ?_⟩
        rw [loop, if_neg hl, getline_end h hn, loop, if_pos e.symm]
    · have hg := getline_line h hr hln
      rw [hr, isLine_cons hln]
      by_cases hm : l = marker
      · refine ⟨fun _ => .inl hm.symm, fun _ => ⟨1, { s with line := l, rest := r, out := s.out ++ l }, ?_⟩⟩
        rw [loop, if_neg hl, hg, loop, if_pos hm]
      · have := ih r.length (by rw [hr]; simp; omega) (s := { s with line := l, rest := r, out := s.out ++ l }) h hm rfl
        dsimp only at this
        constructor
        · rintro ⟨n, t, hn⟩
          right
          rw [← this]
          cases n with
          | zero => simp [loop, hl] at hn
          | succ n =>
            rw [loop, if_neg hl, hg] at hn
            exact ⟨n, t, hn⟩
        · rintro (e | e)
          · exact absurd e.symm hm
          · obtain ⟨n, t, hn⟩ := this.2 e
            refine ⟨n + 1, t, ?_⟩
            rw [loop, if_neg hl, hg]
            exact hn

theorem first_line (text : List Char) :
    (getline { rest := text, ok := true, line := [], out := [] }).line = first ↔ StartsWithLine first text := by
  rcases cut text with ⟨_, hn⟩ | ⟨l, r, hr, hln, _⟩
  · rw [getline_end rfl hn]
    constructor
    · intro h
      exact ⟨by decide, .inl h⟩
    · rintro ⟨_, h | ⟨b, h⟩⟩
      · exact h
      · exact absurd (by rw [h]; simp) hn
  · rw [getline_line rfl hr hln]
    constructor
    · rintro rfl
      exact ⟨by decide, .inr ⟨r, hr⟩⟩
    · rintro ⟨h0, h | ⟨b, h⟩⟩
      · refine absurd ?_ h0
        rw [← h, hr]
        simp
      · rw [hr] at h
        exact (line_unique hln h0 h).1

theorem collect_ends (text : List Char) : (∃ n g, collect n text = some g) ↔
    ¬ StartsWithLine first text ∨ ∃ rest, text = first ++ '\n' :: rest ∧ IsLine marker rest := by
  by_cases hf : StartsWithLine first text
  · have h1 := (first_line text).2 hf
    have hc : ∀ n, collect n text = (loop n (getline { rest := text, ok := true, line := [], out := [] })).map .lines := by
      intro n
      simp only [collect, h1, if_true]
    obtain ⟨h0, h | ⟨b, h⟩⟩ := hf
    · constructor
      · rintro ⟨n, g, hn⟩
        rw [hc, getline_end rfl (by rw [h]; exact h0), loop_stuck rfl (by rw [h]; decide)] at hn
        cases hn
      · rintro (h' | ⟨rest, h', _⟩)
        · exact absurd ⟨h0, .inl h⟩ h'
        · rw [h] at h'
          have := congrArg List.length h'
          simp at this
    · have := loop_ends (s := { rest := b, ok := true, line := first, out := [] }) rfl (by decide : first ≠ marker)
      dsimp only at this
      constructor
      · rintro ⟨n, g, hn⟩
        rw [hc, getline_line (s := ⟨text, true, [], []⟩) rfl h h0] at hn
        obtain ⟨r, hr, _⟩ := Option.map_eq_some_iff.1 hn
        exact .inr ⟨b, h, this.1 ⟨n, r, hr⟩⟩
      · rintro (h' | ⟨rest, h', hl⟩)
        · exact absurd ⟨h0, .inr ⟨b, h⟩⟩ h'
        · obtain ⟨_, rfl⟩ := line_unique h0 h0 (h.symm.trans h')
          obtain ⟨n, r, hn⟩ := this.2 hl
          refine ⟨n, .lines r, ?_⟩
          rw [hc, getline_line (s := ⟨text, true, [], []⟩) rfl h h0, hn]
          rfl
  · refine ⟨fun _ => .inl hf, fun _ => ⟨0, .invalid, ?_⟩⟩
    have h1 := mt (first_line text).1 hf
    simp only [collect, h1, if_false]

/-- Lines that are not "model parameters:" are collected. -/
theorem loop_collects {s : S} (h : s.ok = true) (hl : s.line ≠ marker) {json rest : List Char}
    (hr : s.rest = json ++ (marker ++ '\n' :: rest)) (hj : json = [] ∨ ∃ j, json = j ++ ['\n']) (hm : ¬ IsLine marker json) :
    ∃ n, loop n s = some { rest := rest, ok := true, line := marker, out := s.out ++ (joined json ++ marker) } := by
  generalize hk : json.length = k
  induction k using Nat.strong_induction_on generalizing s json with
  | _ k ih =>
    subst hk
    rcases cut json with ⟨_, hn⟩ | ⟨l, r, hlr, hln, _⟩
    · rcases hj with rfl | ⟨j, rfl⟩
      · refine ⟨1, ?_⟩
        rw [loop, if_neg hl, getline_line h hr marker_plain, loop, if_pos rfl]
        simp [h, joined]
      · exact absurd (by simp) hn
    · have hr' : s.rest = l ++ '\n' :: (r ++ (marker ++ '\n' :: rest)) := by simp [hr, hlr]
      have hg := getline_line h hr' hln
      have hlm : l ≠ marker := by
        rintro rfl
        exact hm (by rw [hlr]; exact (isLine_cons hln).2 (.inl rfl))
      have hj' : r = [] ∨ ∃ j, r = j ++ ['\n'] := by
        rcases List.eq_nil_or_concat r with h0 | ⟨j, c, h0⟩
        · exact .inl h0
        · right
          rcases hj with h1 | ⟨j', h1⟩
          · rw [hlr] at h1
            simp at h1
          · refine ⟨j, ?_⟩
            rw [h0, List.concat_eq_append] at hlr ⊢
            rw [hlr] at h1
            have : (l ++ '\n' :: j) ++ [c] = j' ++ ['\n'] := by simpa using h1
            have := (List.append_inj' this rfl).2
            rw [this]
      obtain ⟨n, hn⟩ := ih r.length (by rw [hlr]; simp; omega)
        (s := { s with line := l, rest := r ++ (marker ++ '\n' :: rest), out := s.out ++ l }) h hlm rfl hj'
        (fun e => hm (by rw [hlr]; exact isLine_after e)) rfl
      refine ⟨n + 1, ?_⟩
      rw [loop, if_neg hl, hg]
      dsimp only at hn ⊢
      rw [hn]
      have hjl : joined l = l := by
        unfold joined
        rw [List.filter_eq_self]
        intro c hc
        simp only [bne_iff_ne, ne_eq]
        rintro rfl
        exact hln hc
      have : joined json = l ++ joined r := by
        rw [hlr]
        unfold joined at hjl ⊢
        rw [List.filter_append, hjl]
        simp
      rw [this]
      simp

end Sol.LoadLoop
