import Verif.Proofs.Handles
/-!
# C107: `lsol_c` releases what it makes and uses only what exists
-/

namespace Sol.Props

open Sol.Handles Sol.Spec

/-- `train` uses only what exists; it releases everything, except when a model was made and a setting without value follows settings that
    were accepted. -/
theorem C107_train_partial (invalid : Int) (hi : invalid ≠ 0) (a : Train) :
    (∃ left, Acts [] (train invalid a) left) ∧ (Acts [] (train invalid a) [] ↔
      ¬(a.source = true ∧ a.made = true ∧ ∃ before after, a.params = before ++ none :: after ∧ ∀ p ∈ before, p = some 0)) := by
  rw [← setAll_none]
  unfold train
  cases hs : a.source with
  | false => exact ⟨⟨[], .done _⟩, fun _ h => by simp at h, fun _ => .done _⟩
  | true =>
    cases hm : a.made with
    | false =>
      have h := rest_acts a invalid fun _ => hi
      rw [hm] at h
      exact ⟨⟨[], h⟩, fun _ h => by simp at h, fun _ => h⟩
    | true =>
      have hr := fun ret => rest_acts a ret fun h => by rw [hm] at h; exact Bool.noConfusion h
      rw [hm] at hr
      simp only [if_true]
      cases hp : setAll a.params with
      | mk acts r =>
        have e1 : (setAll a.params).1 = acts := by rw [hp]
        cases r with
        | some ret =>
          have h : Acts [] (.make .model :: (acts ++ trainRest a ret)) [] := .make (by simp) (e1 ▸ setAll_acts a.params (hr ret))
          exact ⟨⟨[], h⟩, fun _ h => by simp at h, fun _ => h⟩
        | none =>
          have h : Acts [] (.make .model :: acts) [.model] := by
            have := setAll_acts a.params (.done [.model])
            rw [List.append_nil, e1] at this
            exact .make (by simp) this
          exact ⟨⟨_, h⟩, fun h' => absurd (Acts.unique h h') (by simp), fun h' => absurd ⟨trivial, trivial, rfl⟩ h'⟩

/-- `test` uses only what exists and releases everything, unless there is a filter and no model. -/
theorem C107_test_partial (invalid : Int) (hi : invalid ≠ 0) (a : Test) (h : a.filter.isSome = true → a.made = true) :
    Acts [] (test invalid a) [] := by
  obtain ⟨source, made, filter, load⟩ := a
  unfold test release
  cases source with
  | false => exact .done _
  | true =>
    cases made with
    | false =>
      cases filter with
      | some st => exact absurd (h rfl) (by simp)
      | none => simp [hi]; exact .done _
    | true =>
      by_cases hl : load = 0
      · cases filter with
        | none => simp [hl]; exact .make (by decide) (.make (by decide) (.use (by decide) (.use (by decide) (.use (by decide) (.free (by decide) (.free (by decide) (.done _)))))))
        | some st =>
          by_cases h0 : st = 0
          · simp [hl, h0]; exact .make (by decide) (.use (by decide) (.make (by decide) (.use (by decide) (.use (by decide) (.use (by decide) (.free (by decide) (.free (by decide) (.done _))))))))
          · simp [h0]; exact .make (by decide) (.use (by decide) (.free (by decide) (.done _)))
      · cases filter with
        | none => simp [hl]; exact .make (by decide) (.make (by decide) (.use (by decide) (.free (by decide) (.free (by decide) (.done _)))))
        | some st =>
          by_cases h0 : st = 0
          · simp [hl, h0]; exact .make (by decide) (.use (by decide) (.make (by decide) (.use (by decide) (.free (by decide) (.free (by decide) (.done _))))))
          · simp [h0]; exact .make (by decide) (.use (by decide) (.free (by decide) (.done _)))

/-- Violations: with the settings `eta=1;foo` the model is left; `test` with a filter uses a model that could not be loaded. -/
theorem C107_is_violated :
    Acts [] (train 4 ⟨true, true, [some 0, none], 0, none⟩) [.model] ∧ ¬Acts [] (train 4 ⟨true, true, [some 0, none], 0, none⟩) [] ∧
    ∀ invalid status load left, ¬Acts [] (test invalid ⟨true, false, some status, load⟩) left := by
  have h : Acts [] (train 4 ⟨true, true, [some 0, none], 0, none⟩) [.model] := .make (by decide) (.use (by decide) (.done _))
  refine ⟨h, fun h' => absurd (Acts.unique h h') (by decide), fun invalid status load left h' => ?_⟩
  unfold test at h'
  simp only [if_true, Bool.false_eq_true, if_false, Option.isSome_some, List.nil_append, List.cons_append, List.append_assoc] at h'
  cases h' with
  | use hm _ => simp at hm

/-- A training with two settings and output, and one whose data cannot be loaded. -/
theorem C107_instance :
    train 4 ⟨true, true, [some 0, some 0], 0, some 0⟩ = [.make .model, .use .model, .use .model, .make .iter, .use .iter, .use .model, .use .iter,
      .use .model, .free .model, .free .iter] ∧
    train 4 ⟨true, true, [], 2, none⟩ = [.make .model, .make .iter, .use .iter, .free .model, .free .iter] ∧
    train 4 ⟨true, true, [some 4, none], 0, none⟩ = [.make .model, .use .model, .free .model] ∧
    test 4 ⟨true, true, some 0, 0⟩ = [.make .model, .use .model, .make .iter, .use .iter, .use .model, .use .iter, .free .model, .free .iter] := by
  decide

end Sol.Props
