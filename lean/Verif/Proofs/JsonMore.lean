import Verif.Proofs.JsonRead
/-!
# More steps do not change what the JSON reader reads
-/

namespace Sol.Json

theorem skip_more {n : Nat} {s : List Char} {r : Token × List Char} (h : skipComments n s = some r) : skipComments (n + 1) s = some r := by
  induction n generalizing s with
  | zero => cases h
  | succ n ih =>
    unfold skipComments at h ⊢
    split at h
    · rename_i hc
      rw [if_pos hc]
      exact ih h
    · rename_i hc
      rw [if_neg hc]
      exact h

theorem recover_more {t : Token} {n : Nat} {s r : List Char} (h : recover t n s = some r) : recover t (n + 1) s = some r := by
  induction n generalizing s with
  | zero => cases h
  | succ n ih =>
    unfold recover at h ⊢
    split_ifs at h ⊢ with hc
    · exact h
    · exact ih h

theorem recovered_more {α : Type} {t : Token} {n : Nat} {s : List Char} (h : recovered (α := α) t n s ≠ .pending) :
    recovered (α := α) t (n + 1) s = recovered t n s := by
  unfold recovered at h ⊢
  cases hr : recover t n s with
  | none =>
    rw [hr] at h
    exact absurd rfl h
  | some r => rw [recover_more hr]

theorem reader_more (n : Nat) :
    (∀ d s, readValue n d s ≠ .pending → readValue (n + 1) d s = readValue n d s) ∧
    (∀ d l last s, readObject n d l last s ≠ .pending → readObject (n + 1) d l last s = readObject n d l last s) ∧
    (∀ d l s, readArray n d l s ≠ .pending → readArray (n + 1) d l s = readArray n d l s) := by
  induction n with
  | zero =>
    refine ⟨?_, ?_, ?_⟩
    · intro d s h
      exact absurd (by simp [readValue]) h
    · intro d l last s h
      exact absurd (by simp [readObject]) h
    · intro d l s h
      exact absurd (by simp [readArray]) h
  | succ n ih =>
    obtain ⟨ihV, ihO, ihA⟩ := ih
    refine ⟨?_, ?_, ?_⟩
    · intro d s h
      rw [readValue] at h
      rw [readValue, readValue]
      by_cases hd : stackLimit ≤ d
      · rw [if_pos hd, if_pos hd]
      rw [if_neg hd] at h ⊢
      rw [if_neg hd]
      cases hs : skipComments n s with
      | none =>
        rw [hs] at h
        exact absurd rfl h
      | some p =>
        obtain ⟨t, r⟩ := p
        rw [skip_more hs]
        rw [hs] at h
        cases t with
        | objBegin =>
          dsimp only at h ⊢
          rw [ihO]
          intro e
          rw [e] at h
          exact h rfl
        | arrBegin =>
          dsimp only at h ⊢
          generalize r.dropWhile isBlank = u at h ⊢
          split at h
          · rfl
          · rw [ihA]
            intro e
            rw [e] at h
            exact h rfl
        | _ => rfl
    · intro d l last s h
      rw [readObject] at h
      rw [readObject, readObject]
      cases hs : skipComments n s with
      | none =>
        rw [hs] at h
        exact absurd rfl h
      | some p =>
        obtain ⟨t, r⟩ := p
        rw [skip_more hs]
        rw [hs] at h
        cases t with
        | objEnd =>
          dsimp only at h ⊢
          split_ifs at h ⊢
          · rfl
          · exact recovered_more h
        | str t =>
          dsimp only at h ⊢
          cases hd : decodeString t with
          | none =>
            rw [hd] at h
            exact recovered_more h
          | some name =>
            rw [hd] at h
            dsimp only at h ⊢
            cases h1 : readToken r with
            | mk t1 s1 =>
              rw [h1] at h
              cases t1 with
              | colon =>
                dsimp only at h ⊢
                have hv : readValue n d s1 ≠ .pending := by
                  intro e
                  rw [e] at h
                  exact h rfl
                rw [ihV d s1 hv]
                cases h2 : readValue n d s1 with
                | ok v s2 =>
                  rw [h2] at h
                  dsimp only at h ⊢
                  cases h3 : readToken s2 with
                  | mk t3 s3 =>
                    rw [h3] at h
                    cases t3 with
                    | objEnd => rfl
                    | comma => exact ihO _ _ _ _ h
                    | comment =>
                      dsimp only at h ⊢
                      cases h5 : skipComments n s3 with
                      | none =>
                        rw [h5] at h
                        exact absurd rfl h
                      | some p =>
                        obtain ⟨t5, s5⟩ := p
                        rw [skip_more h5]
                        rw [h5] at h
                        cases t5 with
                        | objEnd => rfl
                        | _ => exact ihO _ _ _ _ h
                    | _ => exact recovered_more h
                | fail s2 =>
                  rw [h2] at h
                  exact recovered_more h
                | thrown => rfl
                | pending => exact absurd h2 hv
              | _ => exact recovered_more h
        | _ => exact recovered_more h
    · intro d l s h
      rw [readArray] at h
      rw [readArray, readArray]
      have hv : readValue n d s ≠ .pending := by
        intro e
        rw [e] at h
        exact h rfl
      rw [ihV d s hv]
      cases h2 : readValue n d s with
      | ok v s2 =>
        rw [h2] at h
        dsimp only at h ⊢
        cases h5 : skipComments n s2 with
        | none =>
          rw [h5] at h
          exact absurd rfl h
        | some p =>
          obtain ⟨t5, s5⟩ := p
          rw [skip_more h5]
          rw [h5] at h
          cases t5 with
          | arrEnd => rfl
          | comma => exact ihA _ _ _ h
          | _ => exact recovered_more h
      | fail s2 =>
        rw [h2] at h
        exact recovered_more h
      | thrown => rfl
      | pending => exact absurd h2 hv

/-- More steps do not change the result. -/
theorem parse_more {n k : Nat} {text junk : List Char} {r : Parsed} (h : parse n text junk = some r) (hk : n ≤ k) :
    parse k text junk = some r := by
  induction k, hk using Nat.le_induction with
  | base => exact h
  | succ k _ ih =>
    unfold parse at ih ⊢
    have hv : readValue k 0 (text ++ junk) ≠ .pending := by
      intro e
      rw [e] at ih
      cases ih
    rw [(reader_more k).1 _ _ hv]
    cases h2 : readValue k 0 (text ++ junk) with
    | ok v s =>
      rw [h2] at ih
      dsimp only at ih ⊢
      cases h5 : skipComments k s with
      | none =>
        rw [h5] at ih
        cases ih
      | some p =>
        rw [skip_more h5]
        rw [h5] at ih
        exact ih
    | fail s =>
      rw [h2] at ih
      dsimp only at ih ⊢
      cases h5 : skipComments k s with
      | none =>
        rw [h5] at ih
        cases ih
      | some p =>
        rw [skip_more h5]
        rw [h5] at ih
        exact ih
    | thrown =>
      rw [h2] at ih
      exact ih
    | pending => exact absurd h2 hv

theorem parse_stable (text junk : List Char) : ∃ p, ∀ k, 2 * (text ++ junk).length + 2 ≤ k → parse k text junk = some p := by
  obtain ⟨p, hp⟩ := parse_ends (text := text) (junk := junk) le_rfl
  exact ⟨p, fun k hk => parse_more hp hk⟩

end Sol.Json
