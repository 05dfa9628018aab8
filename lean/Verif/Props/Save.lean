import Verif.Proofs.Reached
import Verif.Props.Params
/-!
# C46: saving and loading
-/

namespace Sol.Props
open Sol.Params Sol.Spec Sol.FloatText Sol.Text

variable {files : List Char → Option (List Char)} {m : M}

theorem forall₂_back {v : List F32} (h : ∀ x ∈ v, Finite x) : List.Forall₂ Printed v (v.map back) := by
  rw [List.forall₂_map_right_iff, List.forall₂_same]
  exact fun x hx => printed_back (h x hx)

theorem forall₂_backs {vs : List (List F32)} (h : ∀ v ∈ vs, ∀ x ∈ v, Finite x) :
    List.Forall₂ (List.Forall₂ Printed) vs (vs.map (List.map back)) := by
  rw [List.forall₂_map_right_iff, List.forall₂_same]
  exact fun v hv => forall₂_back (h v hv)

/-- C46: a saved model is loaded; class, dimension, loss and normalisation are the same; every setting that the model reports
    and every element of its vectors is the same up to printing with six digits. -/
theorem C46_loads_partial (hm : Savable m) : ∃ m', load files (save m) = .model m' ∧ m'.cls = m.cls ∧ m'.classNum = m.classNum ∧
    m'.dim = m.dim ∧ m'.loss = m.loss ∧ m'.norm = m.norm ∧ (∀ k, SameInfo (info m k) (info m' k)) ∧
    List.Forall₂ (List.Forall₂ Printed) m.w m'.w ∧ List.Forall₂ (List.Forall₂ Printed) m.scale m'.scale ∧
    List.Forall₂ (List.Forall₂ Printed) m.sum m'.sum ∧ List.Forall₂ Printed m.X m'.X := by
  obtain ⟨m', h1, h2, h3, h4, h5, h6, h7, h8, h9, h10, h11⟩ := load_save (files := files) hm
  obtain ⟨v1, v2, v3, v4⟩ := hm.vectors
  refine ⟨m', h1, h2, h3, h4, h5, h6, fun k => ?_, ?_, ?_, ?_, ?_⟩
  · rw [h7]
    cases hi : info m k with
    | none => trivial
    | some x =>
      cases x with
      | str s => rfl
      | int n => rfl
      | real x =>
        obtain ⟨q, e1, e2, _⟩ := hm.ordinary k x hi
        exact printed_back ⟨q, e1, e2⟩
  · rw [h8]
    exact forall₂_backs v1
  · rw [h9]
    exact forall₂_backs v2
  · rw [h10]
    exact forall₂_backs v3
  · rw [h11]
    exact forall₂_back v4

/-- C46: the condition holds for every state that a new model gets into by accepted parameters and by training, if it has ordinary
    numbers and FOFS was given the number of its features. -/
theorem C46_reached_partial (h : Reached files m) (ht : m.t ≤ 2147483647) (hk : m.k ≤ 2147483647) (hd : m.dim ≤ 2147483647)
    (hB : m.cls = .fofs → 0 < m.fofsB ∧ m.fofsB ≤ 2147483647)
    (ho : ∀ k x, info m k = some (.real x) → Ordinary x)
    (hv : (∀ v ∈ m.w, ∀ x ∈ v, Finite x) ∧ (∀ v ∈ m.scale, ∀ x ∈ v, Finite x) ∧ (∀ v ∈ m.sum, ∀ x ∈ v, Finite x) ∧
      ∀ x ∈ m.X, Finite x) : Savable m :=
  reached_savable h ht hk hd hB ho hv

theorem back_short {x : F32} (h1 : Finite x) (h2 : Short x) : back x = x := by
  obtain ⟨q, rfl, hq⟩ := h1
  obtain ⟨q', e, hs⟩ := h2
  cases e
  rw [back, six_exact hs (six_digits q), round_single hq]

theorem map_back {v : List F32} (h1 : ∀ x ∈ v, Finite x) (h2 : ∀ x ∈ v, Short x) : v.map back = v := by
  have := List.map_congr_left (f := back) (g := id) fun x hx => back_short (h1 x hx) (h2 x hx)
  rw [this, List.map_id]

theorem map_backs {vs : List (List F32)} (h1 : ∀ v ∈ vs, ∀ x ∈ v, Finite x) (h2 : ∀ v ∈ vs, ∀ x ∈ v, Short x) :
    vs.map (List.map back) = vs := by
  have := List.map_congr_left (f := List.map back) (g := id) fun v hv => map_back (h1 v hv) (h2 v hv)
  rw [this, List.map_id]

/-- C46: if all numbers have at most six digits, the loaded model is the same. -/
theorem C46_exact_partial (hm : Savable m) (hi : ∀ k x, info m k = some (.real x) → Short x)
    (hv : (∀ v ∈ m.w, ∀ x ∈ v, Short x) ∧ (∀ v ∈ m.scale, ∀ x ∈ v, Short x) ∧ (∀ v ∈ m.sum, ∀ x ∈ v, Short x) ∧
      ∀ x ∈ m.X, Short x) : ∃ m', load files (save m) = .model m' ∧ (∀ k, info m' k = info m k) ∧ m'.w = m.w ∧
      m'.scale = m.scale ∧ m'.sum = m.sum ∧ m'.X = m.X := by
  obtain ⟨m', h1, h2, h3, h4, h5, h6, h7, h8, h9, h10, h11⟩ := load_save (files := files) hm
  obtain ⟨v1, v2, v3, v4⟩ := hm.vectors
  obtain ⟨s1, s2, s3, s4⟩ := hv
  refine ⟨m', h1, fun k => ?_, by rw [h8, map_backs v1 s1], by rw [h9, map_backs v2 s2], by rw [h10, map_backs v3 s3],
    by rw [h11, map_back v4 s4]⟩
  rw [h7]
  cases hk : info m k with
  | none => rfl
  | some x =>
    cases x with
    | str s => rfl
    | int n => rfl
    | real x =>
      obtain ⟨q, e1, e2, _⟩ := hm.ordinary k x hk
      simp only [Option.map_some, Tok.back, back_short ⟨q, e1, e2⟩ (hi k x hk)]

theorem score_close {w : List F32} (hw : ∀ x ∈ w, Finite x) (x : List ℚ) :
    |exactScore (w.map back) x - exactScore w x| ≤ slack w x := by
  induction w generalizing x with
  | nil => simp [exactScore, slack]
  | cons v w ih =>
    cases x with
    | nil => simp [exactScore, slack]
    | cons a x =>
      have h := ih (fun y hy => hw y (List.mem_cons_of_mem _ hy)) x
      obtain ⟨q, rfl, hq⟩ := hw v List.mem_cons_self
      obtain ⟨r, hr, hc⟩ := reread_close hq
      simp only [exactScore, slack, List.map_cons, List.zipWith_cons_cons, List.sum_cons, back, hr, valueOf] at h ⊢
      have hm : |r * a - q * a| ≤ (|q| / 100000 + 2 ^ (-150 : ℤ)) * |a| := by
        rw [← sub_mul, abs_mul]
        exact mul_le_mul_of_nonneg_right hc (abs_nonneg a)
      rw [abs_le] at h hm ⊢
      constructor <;> linarith [h.1, h.2, hm.1, hm.2]

theorem zip_self {α : Type} {l : List α} {a b : α} (h : (a, b) ∈ l.zip l) : a = b := by
  induction l with
  | nil => cases h
  | cons c l ih =>
    rw [List.zip_cons_cons, List.mem_cons] at h
    rcases h with h | h
    · cases h
      rfl
    · exact ih h

/-- C46: exact scores change by no more than the slack, so that a class which is ahead by more stays ahead, and the sign
    of a score that is larger stays the same. -/
theorem C46_scores_partial (hm : Savable m) : ∃ m', load files (save m) = .model m' ∧ m'.w.length = m.w.length ∧
    (∀ w w', (w, w') ∈ m.w.zip m'.w → ∀ x, |exactScore w' x - exactScore w x| ≤ slack w x ∧
      (slack w x < exactScore w x → 0 < exactScore w' x) ∧ (exactScore w x < -slack w x → exactScore w' x < 0)) ∧
    ∀ w w' u u', (w, w') ∈ m.w.zip m'.w → (u, u') ∈ m.w.zip m'.w → ∀ x, slack w x + slack u x < exactScore w x - exactScore u x →
      exactScore u' x < exactScore w' x := by
  obtain ⟨m', h1, h2, h3, h4, h5, h6, h7, h8, h9, h10, h11⟩ := load_save (files := files) hm
  have key : ∀ w w', (w, w') ∈ m.w.zip m'.w → ∀ x, |exactScore w' x - exactScore w x| ≤ slack w x := by
    intro w w' hw x
    rw [h8, List.zip_map_right, List.mem_map] at hw
    obtain ⟨⟨a, b⟩, h, e⟩ := hw
    cases e
    have hab := List.of_mem_zip h
    obtain rfl : a = b := zip_self h
    exact score_close (hm.vectors.1 a hab.1) x
  refine ⟨m', h1, by rw [h8]; simp, fun w w' hw x => ?_, fun w w' u u' hw hu x hx => ?_⟩
  · have h := key w w' hw x
    refine ⟨h, fun hp => ?_, fun hp => ?_⟩ <;> rw [abs_le] at h <;> linarith [h.1, h.2]
  · have h := key w w' hw x
    have h' := key u u' hu x
    rw [abs_le] at h h'
    linarith [h.1, h.2, h'.1, h'.2]

/-! ### New models -/

theorem info_reals {k : String} {x : F32} (h : info m k = some (.real x)) :
    x ∈ [m.biasEta, m.cost, m.lambda, m.powerT, m.eta, m.C, m.alpha, m.r, m.a, m.phi, m.sigma, m.rou, m.delta, m.fofsLambda] ∨
    (1 : F32) ≤? m.smooth ∧ x = m.smooth := by
  by_cases hs : k = "active_smoothness"
  · subst hs
    rw [info_smooth] at h
    split_ifs at h with h1
    cases h
    exact .inr ⟨h1, rfl⟩
  by_cases hk : k ∈ keys
  swap
  · by_cases ht : k ∈ ["model", "cls_num", "clf_num", "loss", "norm"]
    · simp only [List.mem_cons, List.not_mem_nil, or_false] at ht
      rcases ht with rfl | rfl | rfl | rfl | rfl <;> simp [info] at h
    · rw [info_none hk ht] at h
      cases h
  left
  by_cases hl : k = "lambda" ∧ regOf m.cls ≠ .none
  · obtain ⟨rfl, hr⟩ := hl
    simp [info, hr] at h
    simp [h]
  rw [info_online hk (fun e => by by_contra hc; exact hl ⟨e, hc⟩)] at h
  by_cases hown : k ∈ ownNames
  · rw [online_own hown] at h
    have hv := own_vals h
    simp only [ownNames, List.mem_cons, List.not_mem_nil, or_false] at hown
    rcases hown with rfl | rfl | rfl | rfl | rfl | rfl | rfl | rfl | rfl | rfl | rfl | rfl | rfl | rfl <;>
      simp at hv <;> simp [hv]
  · have hcase : k = "bias_eta" ∨ k = "t" ∨ k = "dim" ∨ k = "lazy_update" ∨ k = "cost_margin" := by
      revert hk hown hs
      simp only [ownNames, keys, List.mem_cons, List.not_mem_nil, or_false]
      tauto
    rcases hcase with rfl | rfl | rfl | rfl | rfl
    · simp [online, common] at h
      simp [h]
    · simp [online, common] at h
    · simp [online, common] at h
    · simp [online, common] at h
    · simp only [online, common, String.reduceEq, if_false, if_true, own_none hown] at h
      cases hc : m.costSensitive
      · simp [hc] at h
      · simp [hc] at h
        simp [h]

theorem ordinary_of (q : ℚ) (n e : ℤ) (h1 : |n| < 2 ^ 24) (h2 : -100 ≤ e) (h3 : e ≤ 104) (h : q = n * (2 : ℚ) ^ e) : Ordinary (.fin q) := by
  refine ⟨q, rfl, ⟨n, e, h1, by omega, h3, h⟩, ?_⟩
  by_cases h0 : n = 0
  · left
    rw [h, h0]
    simp
  · right
    rw [h, abs_mul, abs_of_pos (by positivity : (0 : ℚ) < 2 ^ e)]
    have : (1 : ℚ) ≤ |(n : ℚ)| := by
      have : 1 ≤ |n| := Int.one_le_abs h0
      exact_mod_cast this
    have h4 : (2 : ℚ) ^ (-125 : ℤ) ≤ 2 ^ e := zpow_le_zpow_right₀ (by norm_num) (by omega)
    have : (0 : ℚ) < 2 ^ e := by positivity
    nlinarith

theorem finite_of {x : F32} (h : Ordinary x) : Finite x := by
  obtain ⟨q, e1, e2, _⟩ := h
  exact ⟨q, e1, e2⟩

theorem ordinary_fresh (c : Cls) (n : Int) {k : String} {x : F32} (h : info (fresh c n) k = some (.real x)) : Ordinary x := by
  have o0 : Ordinary 0 := ordinary_of 0 0 0 (by norm_num) (by norm_num) (by norm_num) (by norm_num)
  have o1 : Ordinary 1 := ordinary_of 1 1 0 (by norm_num) (by norm_num) (by norm_num) (by norm_num)
  have oh : Ordinary (F32.round (1 / 2)) := by
    rw [show F32.round (1 / 2) = .fin (1 / 2) by decide +kernel]
    exact ordinary_of _ 1 (-1) (by norm_num) (by norm_num) (by norm_num) (by norm_num)
  have oa : Ordinary (F32.round (9 / 10)) := by
    rw [show F32.round (9 / 10) = .fin (15099494 / 2 ^ 24) by decide +kernel]
    exact ordinary_of _ 15099494 (-24) (by norm_num) (by norm_num) (by norm_num) (by norm_num)
  have op : Ordinary (F32.round (5244 / 10000)) := by
    rw [show F32.round (5244 / 10000) = .fin (8797972 / 2 ^ 24) by decide +kernel]
    exact ordinary_of _ 8797972 (-24) (by norm_num) (by norm_num) (by norm_num) (by norm_num)
  have ot : Ordinary (.fin 10) := ordinary_of 10 10 0 (by norm_num) (by norm_num) (by norm_num) (by norm_num)
  have os : Ordinary (F32.sqrt (.fin 2)) := by
    rw [show F32.sqrt (.fin 2) = .fin (11863283 / 2 ^ 23) by decide +kernel]
    exact ordinary_of _ 11863283 (-23) (by norm_num) (by norm_num) (by norm_num) (by norm_num)
  rcases info_reals h with h | h
  · have oC : Ordinary (if c = .alma2 then F32.sqrt (.fin 2) else 1) := by
      split_ifs
      · exact os
      · exact o1
    revert x
    simp only [fresh, List.forall_mem_cons]
    intro x _ h
    have : ∀ y ∈ [(0 : F32), 0, 0, F32.round (1 / 2), 1, if c = .alma2 then F32.sqrt (.fin 2) else 1, F32.round (9 / 10), 1, 1,
        F32.round (5244 / 10000), 1, 0, .fin 10, 0], Ordinary y := by
      simp only [List.forall_mem_cons]
      exact ⟨o0, o0, o0, oh, o1, oC, oa, o1, o1, op, o1, o0, ot, o0, by simp⟩
    exact this x h
  · exact absurd h.1 (by simp only [fresh]; decide +kernel)

/-- C46: every new model but FOFS meets the condition. -/
theorem C46_new_partial (c : Cls) (hc : c ≠ .fofs) (n : Int) (hn : 1 < n) : Savable (fresh c n) := by
  have o0 : Finite 0 := finite_of (ordinary_of 0 0 0 (by norm_num) (by norm_num) (by norm_num) (by norm_num))
  have o1 : Finite (.fin 1) := finite_of (ordinary_of 1 1 0 (by norm_num) (by norm_num) (by norm_num) (by norm_num))
  have ot : Finite (.fin 10) := finite_of (ordinary_of 10 10 0 (by norm_num) (by norm_num) (by norm_num) (by norm_num))
  refine reached_savable (files := noFiles) (.new (c := c) (n := n) (by simp [create, hn])) (by simp [fresh]) (by simp [fresh])
    (by simp [fresh])
    (fun h => absurd h hc) (fun k x h => ordinary_fresh c n h) ⟨?_, ?_, ?_, ?_⟩
  · intro v hv x hx
    simp only [fresh, List.mem_replicate] at hv
    rw [hv.2, List.mem_singleton] at hx
    rw [hx]
    exact o0
  · intro v hv x hx
    simp only [fresh] at hv
    split_ifs at hv
    · rw [List.mem_replicate] at hv
      rw [hv.2, List.mem_singleton] at hx
      rw [hx]
      cases c <;> first | exact o1 | exact ot
    · cases hv
  · intro v hv x hx
    simp only [fresh] at hv
    split_ifs at hv
    · rw [List.mem_replicate] at hv
      rw [hv.2, List.mem_singleton] at hx
      rw [hx]
      exact o0
    · cases hv
  · intro x hx
    simp only [fresh] at hx
    split_ifs at hx
    · rw [List.mem_singleton] at hx
      rw [hx]
      exact o0
    · cases hx

/-! ### Concrete models -/

/-- A model after training with feature selection, three classes. -/
def selected : M :=
  { (set noFiles (fresh .sofs 3) "B" "25".toList).1 with
    t := 7, dim := 2, w := [[.fin 1, .fin (1 / 4)], [0, .fin (-3 / 2)], [.fin 10, 0]],
    scale := [[.fin 1, .fin (1 / 8)], [.fin (1 / 3 * 3), .fin (1 / 2)], [.fin 1, .fin (3 / 4)]] }

theorem selected_reached : Reached noFiles selected := by
  refine .train (m := (set noFiles (fresh .sofs 3) "B" "25".toList).1)
    (.set (.new (c := .sofs) (n := 3) (by decide +kernel)) (by decide +kernel))
    ⟨⟨?_, ?_, ?_, ?_, ?_⟩, ?_, ?_, ?_, fun _ => ⟨?_, ?_⟩, ?_⟩
  all_goals decide +kernel

/-- The weights of a loaded model. -/
def loadedWeights : Loaded → Option (List (List F32))
  | .model m => some m.w
  | _ => none

/-- A binary model with the given weights. -/
def weighted (w : List F32) : M := { fresh .ogd 2 with dim := w.length, w := [w] }

theorem C46_instance :
    Reached noFiles selected ∧
    load noFiles (save selected) = .model { selected with initialT := 7 } ∧
    info selected "lambda" = some (.real (.fin 25)) ∧
    load noFiles (save (fresh .ogd 2)) = .model (fresh .ogd 2) ∧
    load noFiles (save (fresh .adaRdaOfs 4)) = .model (fresh .adaRdaOfs 4) ∧
    load noFiles (save (fresh .sop 3)) = .model (fresh .sop 3) ∧
    load noFiles (save (set noFiles (fresh .fofs 2) "B" "10".toList).1) =
      .model (set noFiles (fresh .fofs 2) "B" "10".toList).1 ∧
    loadedWeights (load noFiles (save (weighted [.fin (15099494 / 2 ^ 24), .fin (-2)]))) =
      some [[.fin (15099494 / 2 ^ 24), .fin (-2)]] ∧
    loadedWeights (load noFiles (save (weighted [.fin (1 / 3 * 3), .fin (8388609 / 2 ^ 3)]))) =
      some [[.fin 1, .fin 1048580]] :=
  ⟨selected_reached, by decide +kernel⟩

/-- C46 is false as stated: two weights that cancel but for the last digits, and with them the label of an example; an infinite
    weight becomes 0, and so do the weights behind it; an infinite learning rate gives a file that is not parsed; a learning rate
    just above the smallest normal number is printed as one below, which throws; a new FOFS model and one with a negative number
    of features cannot be loaded; neither can a model after a rejected parameter; smoothing below 1 is lost. -/
theorem C46_is_violated :
    (loadedWeights (load noFiles (save (weighted [.fin (1 + 1 / 2 ^ 23), .fin (-1)]))) = some [[.fin 1, .fin (-1)]] ∧
      0 < exactScore [.fin (1 + 1 / 2 ^ 23), .fin (-1)] [1, 1] ∧ exactScore [.fin 1, .fin (-1)] [1, 1] = 0) ∧
    loadedWeights (load noFiles (save (weighted [.fin 3, .pinf, .fin 5]))) = some [[.fin 3, 0, 0]] ∧
    ((set noFiles (fresh .ogd 2) "eta" "inf".toList).2 = .accepted ∧
      load noFiles (save (set noFiles (fresh .ogd 2) "eta" "inf".toList).1) = .null) ∧
    ((set noFiles (fresh .ogd 2) "eta" "1.1754944e-38".toList).2 = .accepted ∧
      load noFiles (save (set noFiles (fresh .ogd 2) "eta" "1.1754944e-38".toList).1) = .thrown) ∧
    load noFiles (save (fresh .fofs 2)) = .null ∧
    load noFiles (save (set noFiles (fresh .fofs 2) "B" "-1".toList).1) = .thrown ∧
    load noFiles (save (set noFiles (fresh .ogd 2) "bias_eta" "-1".toList).1) = .null ∧
    ((set noFiles (fresh .ogd 2) "active_smoothness" "0.5".toList).1.smooth = .fin (1 / 2) ∧
      load noFiles (save (set noFiles (fresh .ogd 2) "active_smoothness" "0.5".toList).1) = .model (fresh .ogd 2)) := by
  decide +kernel

end Sol.Props
