import Verif.Proofs.LoadLoop
/-!
# C47: loading any file terminates
-/

namespace Sol.Props
open Sol.LoadLoop Sol.Spec

/-- C47: exactly the files whose first line is not "model info:", or that have a later line "model parameters:", are read to the
    point where the settings are parsed.  (The rest of `Load` has no loop without a bound.) -/
theorem C47_ends_iff_partial (text : List Char) : (∃ n g, collect n text = some g) ↔
    ¬ StartsWithLine "model info:".toList text ∨
    ∃ rest, text = "model info:".toList ++ '\n' :: rest ∧ IsLine "model parameters:".toList rest :=
  collect_ends text

/-- C47, for files as `Save` writes them, whatever the settings are: the settings are collected and the stream is left at the start
    of the parameters. -/
theorem C47_saved_partial (json params : List Char) (hj : ∃ j, json = j ++ ['\n'])
    (hm : ¬ IsLine "model parameters:".toList json) :
    ∃ n s, collect n ("model info:\n".toList ++ (json ++ ("model parameters:\n".toList ++ params))) = some (.lines s) ∧
      s.out = joined json ++ "model parameters:".toList ∧ s.rest = params ∧ s.ok = true := by
  have hr : "model info:\n".toList ++ (json ++ ("model parameters:\n".toList ++ params)) =
      first ++ '\n' :: (json ++ (marker ++ '\n' :: params)) := by
    have h1 : "model info:\n".toList = first ++ ['\n'] := by decide
    have h2 : "model parameters:\n".toList = marker ++ ['\n'] := by decide
    rw [h1, h2]
    simp
  have hg := getline_line (s := ⟨_, true, [], []⟩) rfl hr (by decide)
  obtain ⟨n, hn⟩ := loop_collects (s := ⟨json ++ (marker ++ '\n' :: params), true, first, []⟩) rfl (by decide : first ≠ marker)
    rfl (.inr hj) hm
  refine ⟨n, ⟨params, true, marker, [] ++ (joined json ++ marker)⟩, ?_, rfl, rfl, rfl⟩
  unfold collect
  dsimp only
  rw [hg]
  dsimp only
  rw [if_pos rfl, hn]
  rfl

theorem C47_instance :
    collect 5 "model info:\n{\n \"t\" : 1\n}\nmodel parameters:\nweight[0]:\n[ 1 ]\n".toList =
      some (.lines { rest := "weight[0]:\n[ 1 ]\n".toList, ok := true, line := "model parameters:".toList,
                     out := "{ \"t\" : 1}model parameters:".toList }) ∧
    collect 0 "label 1:2\n".toList = some .invalid ∧
    collect 2 "model info:\nmodel parameters:".toList =
      some (.lines { rest := [], ok := false, line := "model parameters:".toList, out := "model parameters:".toList }) ∧
    ¬ IsLine "model parameters:".toList "{}\n".toList := by
  refine ⟨by decide, by decide, by decide, ?_⟩
  rw [show "{}\n".toList = "{}".toList ++ '\n' :: [] by decide, isLine_cons (by decide), isLine_single (by decide)]
  decide

/-- C47 is false: a file that ends inside the settings keeps `Load` in its loop for ever. -/
theorem C47_is_violated : ¬ ∃ n g, collect n "model info:\n{\n}\n".toList = some g := by
  rw [collect_ends]
  rintro (h | ⟨rest, h, hl⟩)
  · exact h ⟨by decide, .inr ⟨"{\n}\n".toList, by decide⟩⟩
  · have hr : "model info:\n{\n}\n".toList = first ++ '\n' :: "{\n}\n".toList := by decide
    obtain ⟨_, rfl⟩ := line_unique (by decide) (by decide) (hr.symm.trans h)
    rw [show "{\n}\n".toList = "{".toList ++ '\n' :: ("}".toList ++ '\n' :: []) by decide, isLine_cons (by decide),
      isLine_cons (by decide), isLine_single (by decide)] at hl
    revert hl
    decide

end Sol.Props
