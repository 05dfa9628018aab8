import Verif.Proofs.SaveAgain
import Verif.Props.LoadText
/-!
# C46: saving a loaded model gives the same file
-/

namespace Sol.Props
open Sol.Params Sol.Spec Sol.FloatText Sol.Text

variable {files : List Char → Option (List Char)} {m : M}

/-- C46: if no number is tiny, the file of the loaded model has the same text, character by character; so loading that file gives the
    very same model again.  Missing: tiny numbers, models that cannot be loaded. -/
theorem C46_again_partial (hm : Savable m) (hn : m.classNum ≤ 2147483647)
    (hv : (∀ v ∈ m.w, ∀ x ∈ v, Ordinary x) ∧ (∀ v ∈ m.scale, ∀ x ∈ v, Ordinary x) ∧ (∀ v ∈ m.sum, ∀ x ∈ v, Ordinary x) ∧
      ∀ x ∈ m.X, Ordinary x) (junk : List Char) :
    ∃ m' N, (∀ n, N ≤ n → loadText files n junk (saveText m) = some (.model m')) ∧ saveText m' = saveText m ∧
      ∀ n, N ≤ n → loadText files n junk (saveText m') = some (.model m') := by
  obtain ⟨m', h1, h2, h3, h4, h5, h6, h7, h8, h9, h10, h11⟩ := load_save (files := files) hm
  have := hm.classNum
  obtain ⟨N, hN⟩ := C46_text_partial (files := files) ⟨by omega, hn⟩ (fun k x h => kind_of_savable hm hn h) junk
  rw [h1] at hN
  have hs := saveText_back h2 h3 h5 h6 h7 h8 h9 h10 h11 hm.ordinary hv
  exact ⟨m', N, hN, hs, fun n h => by rw [hs]; exact hN n h⟩

/-- A weight with more than six digits: the loaded model differs, the file of the loaded model does not. -/
theorem C46_again_instance :
    let m : M := { fresh .perceptron 2 with w := [[.fin (11184811 / 33554432)]] }
    let m' : M := { fresh .perceptron 2 with w := [[.fin (11184799 / 33554432)]] }
    loadText noFiles 1000 [] (saveText m) = some (.model m') ∧ m' ≠ m ∧ saveText m' = saveText m := by
  decide +kernel

end Sol.Props
