import Verif.Proofs.Took
import Verif.Spec.Accepted
import Verif.Props.Params
/-!
# C56: accepted parameters
-/

namespace Sol.Props
open Sol.Params Sol.Spec Sol.FloatText Sol.Text

theorem target_eq (c : Cls) (name : String) : target c name = settingOf c name := by
  simp [target, settingOf]

variable {files : List Char → Option (List Char)} {m : M} {name : String} {v : List Char}

/-- C56: an accepted call changes no other setting that the model reports. -/
theorem C56_others (h : (set files m name v).2 = .accepted) {j : String} (hj : j ≠ settingOf m.cls name) :
    info (set files m name v).1 j = info m j :=
  took_info (set_took h) (by rw [target_eq]; exact hj)

/-- C56: after an accepted call for a real number, the model reports the number that the text starts with. -/
theorem C56_real (h : (set files m name v).2 = .accepted) (hn : settingOf m.cls name ∈ realSettings) :
    ∃ x, stof v = .ok x ∧ info (set files m name v).1 (settingOf m.cls name) = some (.real x) := by
  rw [← target_eq] at hn ⊢
  exact took_real (set_took h) hn

/-- C56: the same for whole numbers. -/
theorem C56_int (h : (set files m name v).2 = .accepted) (hn : name ∈ ["t", "k", "p"]) :
    ∃ n r, stoi v = .ok (n, r) ∧ info (set files m name v).1 name = some (.int n) := by
  have ht : target m.cls name = name := by
    simp only [List.mem_cons, List.not_mem_nil, or_false] at hn
    rcases hn with rfl | rfl | rfl <;> simp [target]
  have := set_took h
  rw [ht] at this
  exact took_int this hn

/-- C56, for text: the smoothing of active learning, the lazy flag, the loss and the normalisation. -/
theorem C56_text (h : (set files m name v).2 = .accepted) :
    (name = "active_smoothness" → stof v = .ok (set files m name v).1.smooth) ∧
    (name = "lazy_update" → (set files m name v).1.lazy = decide (v = "true".toList)) ∧
    (name = "loss" → ∃ k, (set files m name v).1.loss = some k ∧ (lossName k).toList = v.map Char.toLower) ∧
    (name = "norm" → ∀ n, (v, n) ∈ normOf → (set files m name v).1.norm = n) := by
  have hk : ∀ s, s ≠ "B" → name = s → target m.cls name = s := by
    rintro s hs rfl
    simp [target, hs]
  have ht := set_took h
  refine ⟨fun e => took_smooth ht (hk _ (by decide) e), fun e => took_lazy ht (hk _ (by decide) e), fun e => ?_, fun e n hn => ?_⟩
  · obtain ⟨k, h1, h2⟩ := took_loss ht (hk _ (by decide) e)
    exact ⟨k, h2, by simpa using List.find?_some h1⟩
  · have hv := took_norm ht (hk _ (by decide) e)
    generalize (set files m name v).1.norm = n' at hv
    revert hv
    simp only [normOf, List.mem_cons, List.not_mem_nil, or_false, Prod.mk.injEq] at hn
    unfold NormText
    rcases hn with ⟨rfl, rfl⟩ | ⟨rfl, rfl⟩ | ⟨rfl, rfl⟩ | ⟨rfl, rfl⟩ | ⟨rfl, rfl⟩ | ⟨rfl, rfl⟩ <;> cases n' <;> decide

/-- C56, for the dimension, which only grows, and for the number of features of FOFS: the number is taken modulo 2^32. -/
theorem C56_size_partial (h : (set files m name v).2 = .accepted) :
    (name = "dim" → ∃ n r, stoi v = .ok (n, r) ∧ (set files m name v).1.dim = max m.dim (n % 4294967296).toNat) ∧
    (m.cls = .fofs → name = "B" →
      ∃ n r, stoi v = .ok (n, r) ∧ info (set files m name v).1 "B" = some (.int (n % 4294967296))) := by
  have ht := set_took h
  refine ⟨fun e => took_dim ht (by subst e; simp [target]), fun hc e => took_B ht (by subst e; simp [target, hc])⟩

/-- C56: an accepted call leaves the weights alone; a larger dimension makes them longer by zeros. -/
theorem C56_weights (h : (set files m name v).2 = .accepted) :
    (set files m name v).1.w = m.w ∨
    (name = "dim" ∧ (set files m name v).1.w =
      m.w.map fun u => u ++ List.replicate ((set files m name v).1.dim - u.length) 0) := by
  have hk : target m.cls name = "dim" → name = "dim" := by
    unfold target
    split_ifs with hc
    · intro e
      exact absurd e (by decide)
    · exact id
  rcases took_weights (set_took h) with e | ⟨e, e'⟩
  · exact .inl e
  · exact .inr ⟨hk e, e'⟩

theorem C56_instance :
    (set noFiles (fresh .sofs 3) "B" "25".toList).2 = .accepted ∧
    info (set noFiles (fresh .sofs 3) "B" "25".toList).1 "lambda" = some (.real (.fin 25)) ∧
    info (set noFiles (fresh .sofs 3) "B" "25".toList).1 "r" = some (.real 1) ∧
    (set noFiles (fresh .sofs 3) "dim" "3".toList).2 = .accepted ∧
    (set noFiles (fresh .sofs 3) "dim" "3".toList).1.w = [[0, 0, 0], [0, 0, 0], [0, 0, 0]] ∧
    info (set noFiles (fresh .alma2 2) "k" "7".toList).1 "k" = some (.int 7) ∧
    info (set noFiles (fresh .alma2 2) "k" "7".toList).1 "p" = some (.int 2) ∧
    info (set noFiles (fresh .ogd 2) "loss" "Logistic".toList).1 "loss" = some (.str "logistic".toList) ∧
    info (set noFiles (fresh .ogd 2) "norm" "L2".toList).1 "norm" = some (.int 2) ∧
    info (set noFiles (fresh .cw 2) "a" "0.25".toList).1 "a" = some (.real (.fin (1 / 4))) := by
  decide +kernel

/-- C56 is false as stated: a smaller dimension is accepted and ignored, a negative number of features is accepted and becomes
    huge, text after a number is ignored, any text but "true" switches the lazy update off, and a smoothing below 1 is accepted
    but not reported. -/
theorem C56_is_violated :
    ((set noFiles (set noFiles (fresh .ogd 2) "dim" "3".toList).1 "dim" "2".toList).2 = .accepted ∧
      info (set noFiles (set noFiles (fresh .ogd 2) "dim" "3".toList).1 "dim" "2".toList).1 "dim" = some (.int 3)) ∧
    ((set noFiles (fresh .fofs 2) "B" "-1".toList).2 = .accepted ∧
      info (set noFiles (fresh .fofs 2) "B" "-1".toList).1 "B" = some (.int 4294967295)) ∧
    ((set noFiles (fresh .ogd 2) "eta" "0.5e".toList).2 = .accepted ∧
      info (set noFiles (fresh .ogd 2) "eta" "0.5e".toList).1 "eta" = some (.real (.fin (1 / 2)))) ∧
    ((set noFiles (fresh .ogd 2) "lazy_update" "True".toList).2 = .accepted ∧
      info (set noFiles (fresh .ogd 2) "lazy_update" "True".toList).1 "lazy_update" = some (.str "false".toList)) ∧
    ((set noFiles (fresh .ogd 2) "active_smoothness" "0.5".toList).2 = .accepted ∧
      info (set noFiles (fresh .ogd 2) "active_smoothness" "0.5".toList).1 "active_smoothness" = none) := by
  decide +kernel

end Sol.Props
