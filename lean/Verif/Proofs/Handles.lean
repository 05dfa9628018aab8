import Verif.Model.Handles
/-! Runs of acts. -/

namespace Sol.Handles
open Sol.Spec

theorem Acts.unique {a : List Obj} {l : List HandleAct} {b c : List Obj} (h1 : Acts a l b) (h2 : Acts a l c) : b = c := by
  induction h1 with
  | done => cases h2; rfl
  | make _ _ ih => cases h2 with | make _ h => exact ih h
  | use _ _ ih => cases h2 with | use _ h => exact ih h
  | free _ _ ih => cases h2 with | free _ h => exact ih h

/-- The settings only use the model. -/
theorem setAll_acts (l : List (Option Int)) {r : List HandleAct} {left : List Obj} (h : Acts [.model] r left) :
    Acts [.model] ((setAll l).1 ++ r) left := by
  induction l with
  | nil => exact h
  | cons p l ih =>
    cases p with
    | none => exact h
    | some st =>
      unfold setAll
      split
      · exact .use (by simp) h
      · exact .use (by simp) ih

/-- The rest of `train` releases what there is. -/
theorem rest_acts (a : Train) (ret : Int) (h : a.made = false → ret ≠ 0) :
    Acts (if a.made then [.model] else []) (trainRest a ret) [] := by
  unfold trainRest release
  by_cases h0 : ret = 0
  · have hm : a.made = true := by
      cases hb : a.made with
      | true => rfl
      | false => exact absurd h0 (h hb)
    by_cases hl : a.load = 0
    · cases ho : a.output with
      | none =>
        simp only [h0, hm, hl, if_true, and_self, Option.isSome_none, Bool.false_eq_true, if_false, decide_true]
        exact .make (by decide) (.use (by decide) (.use (by decide) (.use (by decide) (.free (by decide) (.free (by decide) (.done _))))))
      | some _ =>
        simp only [h0, hm, hl, if_true, and_self, Option.isSome_some, decide_true]
        exact .make (by decide) (.use (by decide) (.use (by decide) (.use (by decide) (.use (by decide) (.free (by decide) (.free (by decide) (.done _)))))))
    · simp only [h0, hm, hl, if_true, and_false, if_false, decide_true]
      exact .make (by decide) (.use (by decide) (.free (by decide) (.free (by decide) (.done _))))
  · cases hm : a.made with
    | true =>
      simp only [h0, if_true, false_and, if_false, decide_false, Bool.false_eq_true]
      exact .free (by decide) (.done _)
    | false =>
      simp only [h0, false_and, if_false, decide_false, Bool.false_eq_true]
      exact .done _

/-- The loop returns from the program at a setting without value, if all before were accepted. -/
theorem setAll_none (l : List (Option Int)) :
    (setAll l).2 = none ↔ ∃ before after, l = before ++ none :: after ∧ ∀ p ∈ before, p = some 0 := by
  induction l with
  | nil => simp [setAll]
  | cons p l ih =>
    cases p with
    | none => exact ⟨fun _ => ⟨[], l, rfl, by simp⟩, fun _ => rfl⟩
    | some st =>
      unfold setAll
      by_cases h : st = 0
      · subst h
        simp only [ne_eq, not_true_eq_false, if_false, ih]
        constructor
        · rintro ⟨b, c, rfl, hb⟩
          exact ⟨some 0 :: b, c, rfl, by simpa using hb⟩
        · rintro ⟨b, c, e, hb⟩
          cases b with
          | nil => cases e
          | cons q b => exact ⟨b, c, (List.cons.inj e).2, fun p hp => hb p (by simp [hp])⟩
      · simp only [ne_eq, h, not_false_eq_true, if_true]
        constructor
        · intro h; cases h
        · rintro ⟨b, c, e, hb⟩
          cases b with
          | nil => cases e
          | cons q b =>
            have := hb q (by simp)
            obtain ⟨rfl, -⟩ := List.cons.inj e
            exact absurd (Option.some.inj this) h

end Sol.Handles
