import Verif.Proofs.JsonNum
import Verif.Spec.Json
/-!
# The JSON reader ends
-/

namespace Sol.Json
open Sol.FloatText Sol.Text Sol.TextWriters Sol.Spec Sol.Props
open Sol.NumericParser hiding isDigit

/-! ### Lengths -/

theorem digits_length (l : List Char) : (l.dropWhile isDigit).length ≤ l.length := (List.dropWhile_sublist _).length_le

theorem fracPart_length (s : List Char) : (fracPart s).2.length ≤ s.length := by
  unfold fracPart
  cases s with
  | nil => simp
  | cons c t =>
    have := digits_length t
    dsimp only
    split_ifs
    · simp only [List.length_cons]
      omega
    · simp

theorem expPart_length (s : List Char) : (expPart s).2.length ≤ s.length := by
  unfold expPart
  cases s with
  | nil => simp
  | cons c t =>
    dsimp only
    split_ifs
    · cases t with
      | nil => simp
      | cons d u =>
        have e1 := digits_length u
        have e2 := digits_length (d :: u)
        dsimp only
        split_ifs <;> simp only [List.length_cons] at * <;> omega
    · simp

theorem readNumber_length (s : List Char) : (readNumber s).2.length ≤ s.length := by
  unfold readNumber
  dsimp only
  have h1 := digits_length s
  have h2 := fracPart_length (s.dropWhile isDigit)
  have h3 := expPart_length (fracPart (s.dropWhile isDigit)).2
  omega

theorem readString_length {s a b : List Char} (h : readString s = some (a, b)) : b.length < s.length := by
  induction s using readString.induct generalizing a b with
  | case1 => simp [readString] at h
  | case2 => simp [readString] at h
  | case3 d s ih =>
    unfold readString at h
    simp only [if_true, Option.map_eq_some_iff, Prod.mk.injEq, Prod.exists] at h
    obtain ⟨x, y, h1, _, rfl⟩ := h
    have := ih h1
    simp
    omega
  | case4 =>
    unfold readString at h
    simp at h
    simp [h.2]
  | case5 c s h1 h2 ih =>
    unfold readString at h
    simp only [if_neg h1, if_neg h2, Option.map_eq_some_iff, Prod.mk.injEq, Prod.exists] at h
    obtain ⟨x, y, h3, _, rfl⟩ := h
    have := ih h3
    simp
    omega

theorem cComment_length {s t : List Char} (h : cComment s = some t) : t.length < s.length := by
  induction s with
  | nil => simp [cComment] at h
  | cons c s ih =>
    unfold cComment at h
    split_ifs at h
    · simp only [Option.some.injEq] at h
      subst h
      simp
    · have := ih h
      simp
      omega

theorem cppComment_length (s : List Char) : (cppComment s).length ≤ s.length := by
  induction s with
  | nil => simp [cppComment]
  | cons c s ih =>
    unfold cppComment
    split_ifs <;> simp <;> omega

theorem readComment_length (s : List Char) : (readComment s).2.length ≤ s.length := by
  unfold readComment
  cases s with
  | nil => simp
  | cons c s =>
    dsimp only
    split_ifs
    · cases h : cComment s with
      | none => simp
      | some t =>
        have := cComment_length h
        simp
        omega
    · have := cppComment_length s
      simp
      omega
    · simp

theorem readWord_length (w : List Char) (t : Token) (s : List Char) : (readWord w t s).2.length ≤ s.length := by
  unfold readWord
  split_ifs <;> simp

theorem tokenFrom_length (c : Char) (s : List Char) : (tokenFrom c s).2.length ≤ s.length := by
  unfold tokenFrom
  by_cases h : c = '{'
  · rw [if_pos h]
  rw [if_neg h]; clear h
  by_cases h : c = '}'
  · rw [if_pos h]
  rw [if_neg h]; clear h
  by_cases h : c = '['
  · rw [if_pos h]
  rw [if_neg h]; clear h
  by_cases h : c = ']'
  · rw [if_pos h]
  rw [if_neg h]; clear h
  by_cases h : c = '"'
  · rw [if_pos h]
    cases hs : readString s with
    | none => simp
    | some p =>
      have := readString_length (a := p.1) (b := p.2) hs
      dsimp only
      omega
  rw [if_neg h]; clear h
  by_cases h : c = '/'
  · rw [if_pos h]
    exact readComment_length s
  rw [if_neg h]; clear h
  by_cases h : isDigit c ∨ c = '-'
  · rw [if_pos h]
    exact readNumber_length s
  rw [if_neg h]; clear h
  by_cases h : c = 't'
  · rw [if_pos h]
    exact readWord_length _ _ s
  rw [if_neg h]; clear h
  by_cases h : c = 'f'
  · rw [if_pos h]
    exact readWord_length _ _ s
  rw [if_neg h]; clear h
  by_cases h : c = 'n'
  · rw [if_pos h]
    exact readWord_length _ _ s
  rw [if_neg h]; clear h
  split_ifs <;> exact le_rfl

/-- Every token but the end of the text takes at least one character. -/
theorem readToken_length (s : List Char) : (readToken s).2.length ≤ s.length ∧
    ((readToken s).1 = .eos ∨ (readToken s).2.length < s.length) := by
  have h0 : (s.dropWhile isBlank).length ≤ s.length := (List.dropWhile_sublist _).length_le
  unfold readToken
  cases h : s.dropWhile isBlank with
  | nil => simp
  | cons c r =>
    rw [h, List.length_cons] at h0
    have := tokenFrom_length c r
    dsimp only
    exact ⟨by omega, .inr (by omega)⟩

theorem skipComments_ends {n : Nat} {s : List Char} (h : s.length < n) : ∃ t r, skipComments n s = some (t, r) ∧ r.length ≤ s.length ∧
    (t = .eos ∨ r.length < s.length) := by
  induction n generalizing s with
  | zero => omega
  | succ n ih =>
    obtain ⟨h1, h2⟩ := readToken_length s
    unfold skipComments
    split_ifs with hc
    · have : (readToken s).2.length < s.length := by
        rcases h2 with h2 | h2
        · rw [h2] at hc
          cases hc
        · exact h2
      obtain ⟨t, r, e, l1, l2⟩ := ih (s := (readToken s).2) (by omega)
      refine ⟨t, r, e, by omega, ?_⟩
      rcases l2 with l2 | l2
      · exact .inl l2
      · exact .inr (by omega)
    · exact ⟨_, _, rfl, h1, h2⟩

theorem recover_ends {n : Nat} {t : Token} {s : List Char} (h : s.length < n) : ∃ r, recover t n s = some r ∧ r.length ≤ s.length := by
  induction n generalizing s with
  | zero => omega
  | succ n ih =>
    obtain ⟨h1, h2⟩ := readToken_length s
    unfold recover
    split_ifs with hc
    · exact ⟨_, rfl, h1⟩
    · rw [not_or] at hc
      have : (readToken s).2.length < s.length := by
        rcases h2 with h2 | h2
        · exact absurd h2 hc.2
        · exact h2
      obtain ⟨r, e, l⟩ := ih (s := (readToken s).2) (by omega)
      exact ⟨r, e, by omega⟩

/-- The reader ended, further in the text. -/
def Ended {α : Type} (s : List Char) : Out α → Prop
  | .ok _ r => r.length < s.length
  | .fail r => r.length ≤ s.length
  | .thrown => True
  | .pending => False

theorem recovered_ends {α : Type} {t : Token} {n : Nat} {s s' : List Char} (h : s.length < n) (hs : s.length ≤ s'.length) :
    Ended s' (recovered (α := α) t n s) := by
  obtain ⟨r, e, l⟩ := recover_ends (t := t) h
  unfold recovered
  rw [e]
  show r.length ≤ s'.length
  omega

theorem reader_ends (n : Nat) :
    (∀ d s, 2 * s.length + 2 ≤ n → Ended s (readValue n d s)) ∧
    (∀ d l last s, 2 * s.length + 2 ≤ n → Ended s (readObject n d l last s)) ∧
    (∀ d l s, 2 * s.length + 3 ≤ n → Ended s (readArray n d l s)) := by
  induction n with
  | zero => exact ⟨by omega, by omega, by omega⟩
  | succ n ih =>
    obtain ⟨ihV, ihO, ihA⟩ := ih
    refine ⟨?_, ?_, ?_⟩
    · intro d s hn
      unfold readValue
      split_ifs
      · trivial
      obtain ⟨t, r, e, l1, l2⟩ := skipComments_ends (n := n) (s := s) (by omega)
      rw [e]
      have lt : t ≠ .eos → r.length < s.length := fun h => l2.resolve_left h
      cases t with
      | objBegin =>
        have lt := lt (by simp)
        have := ihO (d + 1) .nil [] r (by omega)
        dsimp only
        cases h : readObject n (d + 1) .nil [] r <;> rw [h] at this <;> simp only [Ended] at this ⊢ <;> omega
      | arrBegin =>
        have lt := lt (by simp)
        have hb : (r.dropWhile isBlank).length ≤ r.length := (List.dropWhile_sublist _).length_le
        dsimp only
        generalize r.dropWhile isBlank = u at hb
        split
        · simp only [Ended, List.length_cons] at hb ⊢
          omega
        · have := ihA (d + 1) .nil u (by omega)
          cases h : readArray n (d + 1) .nil u <;> rw [h] at this <;> simp only [Ended] at this ⊢ <;> omega
      | num t =>
        have lt := lt (by simp)
        dsimp only
        cases decodeNumber t <;> simp only [Ended] <;> omega
      | str t =>
        have lt := lt (by simp)
        dsimp only
        cases decodeString t <;> simp only [Ended] <;> omega
      | yes => exact lt (by simp)
      | no => exact lt (by simp)
      | null => exact lt (by simp)
      | objEnd => exact l1
      | arrEnd => exact l1
      | comma => exact l1
      | colon => exact l1
      | comment => exact l1
      | eos => exact l1
      | error => exact l1
    · intro d l last s hn
      unfold readObject
      obtain ⟨t, r, e, l1, l2⟩ := skipComments_ends (n := n) (s := s) (by omega)
      rw [e]
      have lt : t ≠ .eos → r.length < s.length := fun h => l2.resolve_left h
      cases t with
      | objEnd =>
        have lt := lt (by simp)
        dsimp only
        split_ifs
        · exact lt
        · exact recovered_ends (by omega) l1
      | str t =>
        have lt := lt (by simp)
        dsimp only
        cases decodeString t with
        | none => exact recovered_ends (by omega) l1
        | some name =>
          dsimp only
          have hc := (readToken_length r).1
          cases h1 : readToken r with
          | mk t1 s1 =>
            rw [h1] at hc
            dsimp only at hc ⊢
            have other : Ended s (recovered (α := Members) .objEnd n s1) := recovered_ends (by omega) (by omega)
            cases t1 with
            | colon =>
              dsimp only
              have hv := ihV d s1 (by omega)
              cases h2 : readValue n d s1 with
              | ok v s2 =>
                rw [h2] at hv
                simp only [Ended] at hv
                dsimp only
                have hc2 := (readToken_length s2).1
                cases h3 : readToken s2 with
                | mk t3 s3 =>
                  rw [h3] at hc2
                  dsimp only at hc2 ⊢
                  have other : Ended s (recovered (α := Members) .objEnd n s3) := recovered_ends (by omega) (by omega)
                  have again : ∀ l' k s4, s4.length ≤ s3.length → Ended s (readObject n d l' k s4) := by
                    intro l' k s4 h4
                    have := ihO d l' k s4 (by omega)
                    cases h : readObject n d l' k s4 <;> rw [h] at this <;> simp only [Ended] at this ⊢ <;> omega
                  cases t3 with
                  | objEnd =>
                    simp only [Ended]
                    omega
                  | comma => exact again _ _ _ le_rfl
                  | comment =>
                    dsimp only
                    obtain ⟨t5, r5, e5, l5, _⟩ := skipComments_ends (n := n) (s := s3) (by omega)
                    rw [e5]
                    cases t5 with
                    | objEnd =>
                      simp only [Ended]
                      omega
                    | _ => exact again _ _ _ l5
                  | _ => exact other
              | fail s2 =>
                rw [h2] at hv
                simp only [Ended] at hv
                exact recovered_ends (by omega) (by omega)
              | thrown => trivial
              | pending =>
                rw [h2] at hv
                exact hv
            | _ => exact other
      | _ => exact recovered_ends (by omega) l1
    · intro d l s hn
      unfold readArray
      have hv := ihV d s (by omega)
      cases h2 : readValue n d s with
      | ok v s2 =>
        rw [h2] at hv
        simp only [Ended] at hv
        dsimp only
        obtain ⟨t, r, e, l1, l2⟩ := skipComments_ends (n := n) (s := s2) (by omega)
        rw [e]
        cases t with
        | arrEnd =>
          simp only [Ended]
          omega
        | comma =>
          dsimp only
          have := ihA d (l.snoc v) r (by omega)
          cases h : readArray n d (l.snoc v) r <;> rw [h] at this <;> simp only [Ended] at this ⊢ <;> omega
        | _ => exact recovered_ends (by omega) (by omega)
      | fail s2 =>
        rw [h2] at hv
        simp only [Ended] at hv
        exact recovered_ends (by omega) (by omega)
      | thrown => trivial
      | pending =>
        rw [h2] at hv
        exact hv

/-- `parse` ends on every text. -/
theorem parse_ends {n : Nat} {text junk : List Char} (h : 2 * (text ++ junk).length + 2 ≤ n) : ∃ r, parse n text junk = some r := by
  have hv := (reader_ends n).1 0 (text ++ junk) h
  unfold parse
  cases e : readValue n 0 (text ++ junk) with
  | ok v s =>
    rw [e] at hv
    simp only [Ended] at hv
    obtain ⟨t, r, e2, _⟩ := skipComments_ends (n := n) (s := s) (by omega)
    dsimp only
    rw [e2]
    exact ⟨_, rfl⟩
  | fail s =>
    rw [e] at hv
    simp only [Ended] at hv
    obtain ⟨t, r, e2, _⟩ := skipComments_ends (n := n) (s := s) (by omega)
    dsimp only
    rw [e2]
    exact ⟨_, rfl⟩
  | thrown => exact ⟨_, rfl⟩
  | pending =>
    rw [e] at hv
    exact hv.elim

end Sol.Json
