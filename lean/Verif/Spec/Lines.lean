/-!
# Lines of a text file
-/

namespace Sol.Spec

/-- `l` is the first line of the text `l ++ r`: it ends with its only newline, or the text ends with it. -/
def FirstLine (l r : List Char) : Prop :=
  l ≠ [] ∧ ((∃ t, l = t ++ ['\n'] ∧ '\n' ∉ t) ∨ ('\n' ∉ l ∧ r = []))

/-- `L` is the list of the lines of the text `f`, newlines included. -/
def Lines : List (List Char) → List Char → Prop
  | [], f => f = []
  | l :: L, f => ∃ r, f = l ++ r ∧ FirstLine l r ∧ Lines L r

theorem exists_firstLine (f : List Char) (h : f ≠ []) : ∃ l r, f = l ++ r ∧ FirstLine l r := by
  induction f with
  | nil => exact absurd rfl h
  | cons c f ih =>
    by_cases hc : c = '\n'
    · subst hc
      exact ⟨['\n'], f, rfl, by simp, .inl ⟨[], rfl, by simp⟩⟩
    · by_cases hf : f = []
      · subst hf
        exact ⟨[c], [], rfl, by simp, .inr ⟨by simp [Ne.symm hc], rfl⟩⟩
      · obtain ⟨l, r, h1, h2, h3⟩ := ih hf
        refine ⟨c :: l, r, by rw [h1]; rfl, by simp, ?_⟩
        rcases h3 with ⟨t, h4, h5⟩ | ⟨h4, h5⟩
        · exact .inl ⟨c :: t, by rw [h4]; rfl, by simp [h5, Ne.symm hc]⟩
        · exact .inr ⟨by simp [h4, Ne.symm hc], h5⟩

theorem exists_lines (f : List Char) : ∃ L, Lines L f := by
  generalize hn : f.length = n
  induction n using Nat.strongRecOn generalizing f with
  | ind n ih =>
    by_cases h : f = []
    · exact ⟨[], h⟩
    · obtain ⟨l, r, h1, h2⟩ := exists_firstLine f h
      have : 0 < l.length := List.length_pos_iff.2 h2.1
      have hl := congrArg List.length h1
      rw [List.length_append] at hl
      obtain ⟨L, hL⟩ := ih r.length (by omega) r rfl
      exact ⟨l :: L, r, h1, h2, hL⟩

end Sol.Spec
