import Verif.Proofs.ParamAtoms
import Verif.Props.Params
import Verif.Proofs.Cli
import Verif.Model.PyCv
import Verif.Props.StrUtil
/-!
# C87: parameters may be given in any order
-/

namespace Sol.Props
open Sol.Params Sol.Spec Sol.FloatText Sol.Text Sol.Cli

variable (files : List Char → Option (List Char))

/-- C87: if all parameters are accepted and no two of them are stored in the same place, they are accepted in any order, and the model
    is the same in the end. -/
theorem C87_order_partial {l l' : List (String × List Char)} (hp : l.Perm l') {m m' : M}
    (hd : (l.map fun p => slotOf m.cls p.1).Nodup) (h : setAll files m l = (m', .accepted)) : setAll files m l' = (m', .accepted) :=
  setAll_perm files hp hd h

/-- C87: such parameters are refused in any order if they are in one. -/
theorem C87_refused_partial {l l' : List (String × List Char)} (hp : l.Perm l') {m : M} (hd : (l.map fun p => slotOf m.cls p.1).Nodup)
    (h : (setAll files m l).2 ≠ .accepted) : (setAll files m l').2 ≠ .accepted := by
  intro h'
  refine h ?_
  have := setAll_perm files hp.symm (m := m) (m' := (setAll files m l').1) ((hp.map _).nodup_iff.1 hd) (by rw [← h'])
  rw [this]

/-- C87 for `SOL(algo, class_num, **params)`: the order of the dictionary is of no account. -/
theorem C87_python_partial {V : Type} [PyCv.PyVal V] {cls : Cls} {n : Int} {d d' : Cv.Dict V} (hp : d.Perm d')
    (hd : ((PyCv.settings d).map fun p => slotOf cls p.1).Nodup) : PyCv.createWith files cls n d = PyCv.createWith files cls n d' := by
  unfold PyCv.createWith create
  split <;> rename_i m hm
  · rfl
  have hc : m.cls = cls := by
    split at hm
    · cases hm; rfl
    · cases hm
  rw [← hc] at hd
  replace hp : (PyCv.settings d).Perm (PyCv.settings d') := (hp.filter _).map _
  rcases e : setAll files m (PyCv.settings d) with ⟨m₁, e₁⟩
  by_cases ha : e₁ = .accepted
  · subst ha
    rw [setAll_perm files hp hd e]
  · have hb := C87_refused_partial files hp hd (by rw [e]; exact ha)
    rcases e' : setAll files m (PyCv.settings d') with ⟨m₂, e₂⟩
    rw [e'] at hb
    cases e₁ <;> cases e₂ <;> simp_all

/-- C87 for `--params`: the pieces of the list may be exchanged. -/
theorem C87_command_partial {text text' : List Char} {ps ps' : List (List Char)} (ht : Pieces ';' text ps) (ht' : Pieces ';' text' ps')
    (hp : ps.Perm ps') {m m' : M}
    (hd : ∀ l, List.Forall₂ (Setting FirstWord) ps l → (l.map fun p => slotOf m.cls p.1).Nodup)
    (h : setParams files m (StrUtil.split ';' text) = .inl m') : setParams files m (StrUtil.split ';' text') = .inl m' := by
  obtain ⟨l, ⟨qs, h1, h2⟩, h3⟩ := (params_iff m m' text).1 h
  rw [(StrUtil.split_of_pieces h1).symm.trans (StrUtil.split_of_pieces ht)] at h2
  obtain ⟨l', h4, h5⟩ := List.perm_comp_forall₂ hp.symm h2
  exact (params_iff m m' text').2 ⟨l', ⟨ps', ht', h4⟩, setAll_perm files h5.symm (hd l h2) h3⟩

/-- Three parameters of PET, and the same in another order. -/
def petSettings : List (String × List Char) := [("lambda", "3".toList), ("eta", "0.5".toList), ("t", "4".toList)]

theorem C87_instance :
    petSettings.Perm petSettings.reverse ∧ (petSettings.map fun p => slotOf Cls.pet p.1).Nodup ∧
    setAll noFiles (fresh .pet 2) petSettings =
      ({ fresh .pet 2 with lambda := .fin 3, eta := .fin (1 / 2), initialT := 4, t := 4 }, .accepted) :=
  ⟨(List.reverse_perm _).symm, by decide +kernel, by decide +kernel⟩

/-- The dimension and the parameter that fills the vectors of that dimension. -/
theorem C87_instance_multi :
    ([("delta", "2".toList), ("dim", "3".toList), ("cls_num", "3".toList)].map fun p : String × List Char => slotOf Cls.adaRda p.1).Nodup ∧
    setAll noFiles (fresh .adaRda 3) [("delta", "2".toList), ("dim", "3".toList), ("cls_num", "3".toList)] =
      setAll noFiles (fresh .adaRda 3) [("cls_num", "3".toList), ("dim", "3".toList), ("delta", "2".toList)] ∧
    (setAll noFiles (fresh .adaRda 3) [("delta", "2".toList), ("dim", "3".toList), ("cls_num", "3".toList)]).1.scale =
      [[.fin 2, .fin 2, .fin 2], [.fin 2, .fin 2, .fin 2], [.fin 2, .fin 2, .fin 2]] := by
  decide +kernel

theorem C87_instance_command :
    Pieces ';' "lambda=3;eta=0.5".toList ["lambda=3".toList, "eta=0.5".toList] ∧
    Pieces ';' "eta=0.5;lambda=3".toList ["eta=0.5".toList, "lambda=3".toList] ∧
    setParams noFiles (fresh .pet 2) (StrUtil.split ';' "lambda=3;eta=0.5".toList) =
      .inl { fresh .pet 2 with lambda := .fin 3, eta := .fin (1 / 2) } := by
  refine ⟨?_, ?_, by with_unfolding_all rfl⟩
  · exact (C52_split _ _ _).1 (by decide +kernel)
  · exact (C52_split _ _ _).1 (by decide +kernel)

/-- C87 is false for names that are stored in the same place, though they are different parameters for the user: the last of `B` and
    `lambda` counts; `t` replaces the time `t0` that was given before; one display takes the place of the other. -/
theorem C87_is_violated :
    setAll noFiles (fresh .pet 2) [("B", "3".toList), ("lambda", "5".toList)] = ({ fresh .pet 2 with lambda := .fin 5 }, .accepted) ∧
    setAll noFiles (fresh .pet 2) [("lambda", "5".toList), ("B", "3".toList)] = ({ fresh .pet 2 with lambda := .fin 3 }, .accepted) ∧
    setAll noFiles (fresh .fobosL1 2) [("t", "4".toList), ("t0", "1".toList)] =
      ({ fresh .fobosL1 2 with initialT := 4, t := 4, t0 := .fin 1, lastTime := [.fin 1] }, .accepted) ∧
    setAll noFiles (fresh .fobosL1 2) [("t0", "1".toList), ("t", "4".toList)] =
      ({ fresh .fobosL1 2 with initialT := 4, t := 4, t0 := .fin 4, lastTime := [.fin 4] }, .accepted) ∧
    setAll noFiles (fresh .ogd 2) [("exp_show", "4".toList), ("step_show", "9".toList)] ≠
      setAll noFiles (fresh .ogd 2) [("step_show", "9".toList), ("exp_show", "4".toList)] := by
  decide +kernel

end Sol.Props
