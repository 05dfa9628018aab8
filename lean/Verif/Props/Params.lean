import Verif.Proofs.Params
/-!
# C48: rejected parameters
-/

namespace Sol.Props
open Sol.Params Sol.Spec Sol.FloatText Sol.Text

variable (files : List Char → Option (List Char)) (m : M) (name : String) (v : List Char)

/-- C48, for the parameters that are checked before they are stored (all but those listed in `Delicate`): a call that is rejected
    leaves the model as it was. -/
theorem C48_unchanged_partial (h : (set files m name v).2 = .rejected) (hn : ¬ Delicate m.cls name) : (set files m name v).1 = m :=
  left_same (set_left h) hn

/-- C48, for text that does not start with a number, given to a parameter that takes a number: it is rejected and the model stays as
    it was. -/
theorem C48_text_partial (h1 : stof v = .error .invalidArgument) (h2 : stoi v = .error .invalidArgument)
    (hn : name ∉ ["model", "lazy_update", "loss", "norm", "filter", "exp_show", "step_show"]) :
    set files m name v = (m, .rejected) :=
  set_word ⟨h1, h2⟩ hn

/-- C48: a rejected call changes at most the variable of the parameter itself. -/
theorem C48_confined_partial (h : (set files m name v).2 = .rejected) : forget name (set files m name v).1 = forget name m :=
  left_forget (set_left h)

/-- C48: a rejected call is made good by any accepted call for the same parameter; afterwards the model is as if the rejected call had
    not been made. -/
theorem C48_retry_partial (h : (set files m name v).2 = .rejected) (v' : List Char)
    (ha : (set files m name v').2 = .accepted) : set files (set files m name v).1 name v' = set files m name v' :=
  left_retry (set_left h) ha

/-- No files. -/
def noFiles : List Char → Option (List Char) := fun _ => none

theorem C48_instance :
    (set noFiles (fresh .ogd 2) "power_t" "-1".toList).2 = .rejected ∧
    ¬ Delicate (fresh .ogd 2).cls "power_t" ∧
    stof "fast".toList = .error .invalidArgument ∧
    set noFiles (fresh .ogd 2) "eta" "fast".toList = (fresh .ogd 2, .rejected) ∧
    (set noFiles (fresh .ogd 2) "eta" "-0.5".toList).2 = .rejected ∧
    (set noFiles (fresh .ogd 2) "eta" "-0.5".toList).1 = { fresh .ogd 2 with eta := .fin (-1 / 2) } ∧
    set noFiles (set noFiles (fresh .ogd 2) "eta" "-0.5".toList).1 "eta" "0.25".toList =
      ({ fresh .ogd 2 with eta := .fin (1 / 4) }, .accepted) := by
  decide +kernel

theorem C48_instance_multi :
    (set noFiles (fresh .adaRdaOfs 3) "delta" "0".toList).2 = .rejected ∧
    set noFiles (set noFiles (fresh .adaRdaOfs 3) "delta" "0".toList).1 "delta" "2".toList =
      ({ fresh .adaRdaOfs 3 with delta := .fin 2, scale := [[.fin 2], [.fin 2], [.fin 2]] }, .accepted) ∧
    (set noFiles (fresh .adaRdaOfs 3) "cost_margin" "2".toList) = (fresh .adaRdaOfs 3, .rejected) ∧
    (set noFiles (fresh .adaRdaOfs 3) "B" "7".toList) = ({ fresh .adaRdaOfs 3 with lambda := .fin 7 }, .accepted) := by
  decide +kernel

/-- C48 is false: a negative learning rate for the bias is rejected and stored all the same; an unknown loss leaves a model without a
    loss; a loss that ALMA2 does not admit is kept, and the hinge loss it had points to released storage. -/
theorem C48_is_violated :
    set noFiles (fresh .ogd 2) "bias_eta" "-1".toList = ({ fresh .ogd 2 with biasEta := .fin (-1) }, .rejected) ∧
    set noFiles (fresh .ogd 2) "loss" "log".toList = ({ fresh .ogd 2 with loss := none }, .rejected) ∧
    set noFiles (fresh .alma2 2) "loss" "bool".toList =
      ({ fresh .alma2 2 with loss := some .bool, hinge := false }, .rejected) ∧
    set noFiles (fresh .alma2 2) "norm" "L1".toList = ({ fresh .alma2 2 with norm := .l1 }, .rejected) ∧
    set noFiles (fresh .ogd 2) "exp_show" "x".toList = ({ fresh .ogd 2 with disp := none }, .rejected) := by
  decide +kernel

end Sol.Props
