import Verif.Proofs.LoadText
import Verif.Props.Json
import Verif.Props.Save
/-!
# C46 and C47 for files as text
-/

namespace Sol.Props
open Sol.Params Sol.Spec Sol.FloatText Sol.Text

variable {files : List Char → Option (List Char)} {m : M}

theorem info_int {k : String} {n : Int} (h : info m k = some (.int n)) :
    n ∈ [m.classNum, m.clf, normNum m.norm, m.t, (m.dim : Int), m.k, m.p] ∨ (m.cls = .fofs ∧ n = m.fofsB) := by
  unfold info at h
  split_ifs at h
  · cases h
  · cases h; simp
  · cases h; simp
  · cases h
  · cases h; simp
  · cases h
  unfold online at h
  split at h
  · rename_i x hx
    cases h
    unfold common at hx
    split_ifs at hx <;> cases hx <;> simp
  · unfold own at h
    split at h <;> (try split_ifs at h) <;> cases h <;> simp [*]

theorem kind_of_savable (hm : Savable m) (hn : m.classNum ≤ 2147483647) {k : String} {x : Tok} (h : info m k = some x) : Kind x := by
  have h1 := hm.classNum
  cases x with
  | str s => trivial
  | real x =>
    obtain ⟨q, rfl, hq, _⟩ := hm.ordinary k x h
    exact hq
  | int n =>
    show -2 ^ 63 ≤ n ∧ n ≤ 2 ^ 64 - 1
    have hclf : 1 ≤ m.clf ∧ m.clf ≤ 2147483647 := by
      unfold M.clf
      split <;> omega
    have hnorm : 0 ≤ normNum m.norm ∧ normNum m.norm ≤ 2 := by cases m.norm <;> decide
    have ht := hm.t
    have hd := hm.dim
    have hk := hm.k
    have hp := hm.p
    rcases info_int h with h | ⟨h, e⟩
    · simp only [List.mem_cons, List.not_mem_nil, or_false] at h
      rcases h with rfl | rfl | rfl | rfl | rfl | rfl | rfl <;> omega
    · have := hm.fofsB h
      omega

/-- C46, for the text of the file: writing and reading the settings as JSON text makes no difference; what is behind the end of the
    settings in memory does not matter either. -/
theorem C46_text_partial (hc : -2147483648 ≤ m.classNum ∧ m.classNum ≤ 2147483647) (hk : ∀ k x, info m k = some x → Kind x)
    (junk : List Char) : ∃ N, ∀ n, N ≤ n → loadText files n junk (saveText m) = some (load files (save m)) :=
  loadText_save (readable_save hc hk) junk

/-- C46: the text of a saved model is loaded; class, dimension, loss and normalisation are the same; every setting that the model
    reports and every element of its vectors is the same up to printing with six digits. -/
theorem C46_file_partial (hm : Savable m) (hn : m.classNum ≤ 2147483647) (junk : List Char) :
    ∃ m' N, (∀ n, N ≤ n → loadText files n junk (saveText m) = some (.model m')) ∧ m'.cls = m.cls ∧ m'.classNum = m.classNum ∧
      m'.dim = m.dim ∧ m'.loss = m.loss ∧ m'.norm = m.norm ∧ (∀ k, SameInfo (info m k) (info m' k)) ∧
      List.Forall₂ (List.Forall₂ Printed) m.w m'.w ∧ List.Forall₂ (List.Forall₂ Printed) m.scale m'.scale ∧
      List.Forall₂ (List.Forall₂ Printed) m.sum m'.sum ∧ List.Forall₂ Printed m.X m'.X := by
  obtain ⟨m', h1, h⟩ := C46_loads_partial (files := files) hm
  have := hm.classNum
  obtain ⟨N, hN⟩ := C46_text_partial (files := files) ⟨by omega, hn⟩ (fun k x h => kind_of_savable hm hn h) junk
  rw [h1] at hN
  exact ⟨m', N, hN, h⟩

/-- C47: `Load` ends exactly for the files whose first line is not "model info:", or that have a later line "model parameters:";
    this includes the JSON reader and everything after it. -/
theorem C47_load_partial (junk text : List Char) : (∃ N r, ∀ n, N ≤ n → loadText files n junk text = some r) ↔
    ¬ StartsWithLine "model info:".toList text ∨
    ∃ rest, text = "model info:".toList ++ '\n' :: rest ∧ IsLine "model parameters:".toList rest := by
  rw [loadText_ends]
  exact C47_ends_iff_partial text

/-- The text of a new model, and what is loaded from some texts: a model; null for settings that are no JSON, for an unknown class,
    without online settings; an exception for settings that are an array, for a missing or textual number of classes. -/
theorem C46_text_instance :
    saveText (fresh .perceptron 2) =
      ("model info:\n{\n\t\"clf_num\" : 1,\n\t\"cls_num\" : 2,\n\t\"loss\" : \"bool\",\n\t\"model\" : \"perceptron\",\n" ++
       "\t\"norm\" : 0,\n\t\"online\" : \n\t{\n\t\t\"bias_eta\" : 0,\n\t\t\"dim\" : 1,\n\t\t\"lazy_update\" : \"false\",\n" ++
       "\t\t\"t\" : 0\n\t}\n}\nmodel parameters:\nweight[0]:\n[ 0 ]\n").toList ∧
    loadText noFiles 1000 [] (saveText (fresh .perceptron 2)) = some (.model (fresh .perceptron 2)) ∧
    loadText noFiles 2000 ['\x00', '!'] (saveText selected) = some (.model { selected with initialT := 7 }) ∧
    loadText noFiles 100 [] "model info:\nmodel parameters:\n".toList = some .null ∧
    loadText noFiles 100 [] "model info:\n{\"model\":\"x\",\"cls_num\":2}\nmodel parameters:\n".toList = some .null ∧
    loadText noFiles 100 [] "model info:\n{\"model\":\"ogd\",\"cls_num\":2,\"clf_num\":2}\nmodel parameters:\n".toList = some .null ∧
    loadText noFiles 100 [] "model info:\n[]\nmodel parameters:\n".toList = some .thrown ∧
    loadText noFiles 100 [] "model info:\n{\"model\":\"ogd\"}\nmodel parameters:\n".toList = some .thrown ∧
    loadText noFiles 100 [] "model info:\n{\"model\":\"ogd\",\"cls_num\":\"2\"}\nmodel parameters:\n".toList = some .thrown := by
  decide +kernel

end Sol.Props
