import Verif.Proofs.Save
/-!
# The states that accepted parameters and training lead to
-/

namespace Sol.Params
open Sol.Text Sol.FloatText Sol.PreProcess Sol.Spec

variable {files : List Char → Option (List Char)}

/-- The settings pass the checks of their parameters. -/
structure Checked (m : M) : Prop where
  classNum : 1 < m.classNum
  loss : ∃ k, m.loss = some k ∧ Admits m.cls m.classNum k
  norm : m.cls = .alma2 → m.norm = .l2
  t : 0 ≤ m.t
  bias : (0 : F32) ≤? m.biasEta
  cost : m.costSensitive = true → m.classNum = 2 ∧ (0 : F32) <? m.cost
  eta : (0 : F32) ≤? m.eta
  powerT : (0 : F32) ≤? m.powerT
  delta : (0 : F32) <? m.delta
  sigma : (0 : F32) <? m.sigma
  rou : (0 : F32) ≤? m.rou
  alpha : (0 : F32) <? m.alpha ∧ m.alpha ≤? (1 : F32)
  fofsLambda : (0 : F32) ≤? m.fofsLambda
  k : 0 < m.k
  p : -2147483648 < m.p ∧ m.p ≤ 2147483647
  shape : Shaped m

theorem stoi_range {v r : List Char} {n : Int} (h : stoi v = .ok (n, r)) : -2147483648 ≤ n ∧ n ≤ 2147483647 := by
  unfold stoi stoInt at h
  dsimp only at h
  by_cases h1 : (takeSign (v.dropWhile isSpace)).2.takeWhile isDigit = []
  · rw [if_pos h1] at h
    cases h
  · rw [if_neg h1] at h
    generalize (if (takeSign (v.dropWhile isSpace)).1 = true then
      -(digitsVal ((takeSign (v.dropWhile isSpace)).2.takeWhile isDigit) : Int)
      else digitsVal ((takeSign (v.dropWhile isSpace)).2.takeWhile isDigit)) = val at h
    by_cases h2 : val < -2147483648 ∨ 2147483647 < val
    · rw [if_pos h2] at h
      cases h
    · rw [if_neg h2] at h
      cases h
      omega

theorem checked_new {c : Cls} {n : Int} {m : M} (h : create c n = some m) : Checked m := by
  unfold create at h
  split_ifs at h with hn
  cases h
  have e0 : ((0 : F32) ≤? (0 : F32)) = true := by decide +kernel
  have e1 : ((0 : F32) ≤? (1 : F32)) = true := by decide +kernel
  have e2 : ((0 : F32) ≤? F32.round (1 / 2)) = true := by decide +kernel
  have e3 : ((0 : F32) <? F32.fin 10) = true := by decide +kernel
  have e4 : ((0 : F32) <? (1 : F32)) = true := by decide +kernel
  have e5 : ((0 : F32) <? F32.round (9 / 10)) = true ∧ (F32.round (9 / 10) ≤? (1 : F32)) = true := by decide +kernel
  refine ⟨hn, ?_, ?_, Int.le_refl 0, e0, (fun h => by cases h), e1, e2, e3, e4, e0, e5, e0, (by decide : (0 : Int) < 1),
    (by decide : (-2147483648 : Int) < 2 ∧ (2 : Int) ≤ 2147483647), shaped_fresh c n⟩
  · refine ⟨_, rfl, ?_⟩
    change Admits c n _
    by_cases h2 : n = 2
    · subst h2
      cases c <;> simp [newLoss, Admits, isBC, isHinge, isBool]
    · cases c <;> simp [newLoss, Admits, isMC, isHinge, isBool, h2]
  · intro h
    have h : c = .alma2 := h
    subst h
    rfl

theorem onlineLoss_acc {m : M} {v : List Char} (hn : 1 < m.classNum) (h : (onlineSet files m "loss" v).2 = .accepted) :
    ∃ k, onlineSet files m "loss" v = ({ m with loss := some k, hinge := false, reinit := true }, .accepted) ∧
      (if m.classNum = 2 then isBC k = true else isMC k = true) := by
  rw [online_loss] at h ⊢
  split at h
  · cases h
  · rename_i k hk
    refine ⟨k, ?_⟩
    by_cases h1 : (if m.clf = 1 then isBC k else isMC k) = true
    swap
    · rw [if_neg h1] at h
      cases h
    refine ⟨by rw [if_pos h1], ?_⟩
    by_cases h2 : m.classNum = 2
    · rw [if_pos h2]
      rwa [if_pos (by simp [M.clf, h2])] at h1
    · rw [if_neg h2]
      rwa [if_neg (by simp [M.clf, h2]; omega)] at h1

theorem loss_admits {m : M} {v : List Char} (hn : 1 < m.classNum) (h : (set files m "loss" v).2 = .accepted) :
    ∃ k, (set files m "loss" v).1.loss = some k ∧ Admits m.cls m.classNum k := by
  have hh : ∀ b, (hingeLoss files m v b).2 = .accepted → m.cls ∉ [Cls.perceptron, .sop] →
      ∃ k, (hingeLoss files m v b).1.loss = some k ∧ Admits m.cls m.classNum k := by
    intro b hb hc
    unfold hingeLoss andThen at hb ⊢
    by_cases ha : (onlineSet files m "loss" v).2 = .accepted
    · obtain ⟨k, e1, e2⟩ := onlineLoss_acc hn ha
      rw [e1] at hb ⊢
      simp only [if_true, Option.any_some] at hb ⊢
      by_cases h1 : isHinge k = true
      · rw [if_pos h1]
        exact ⟨k, rfl, e2, fun _ => h1, fun h => absurd h hc⟩
      · rw [if_neg h1] at hb
        cases hb
    · rw [if_neg ha] at hb
      exact absurd hb ha
  have hb : (boolLoss files m v).2 = .accepted → m.cls ∉ [Cls.alma2, .arow, .sofs, .cw, .eccw] →
      ∃ k, (boolLoss files m v).1.loss = some k ∧ Admits m.cls m.classNum k := by
    intro hb hc
    unfold boolLoss andThen at hb ⊢
    by_cases ha : (onlineSet files m "loss" v).2 = .accepted
    · obtain ⟨k, e1, e2⟩ := onlineLoss_acc hn ha
      rw [e1] at hb ⊢
      simp only [if_true, Option.any_some] at hb ⊢
      by_cases h1 : isBool k = true
      · rw [if_pos h1]
        exact ⟨k, rfl, e2, fun h => absurd h hc, fun _ => h1⟩
      · rw [if_neg h1] at hb
        cases hb
    · rw [if_neg ha] at hb
      exact absurd hb ha
  have ho : (onlineSet files m "loss" v).2 = .accepted → m.cls ∉ [Cls.alma2, .arow, .sofs, .cw, .eccw] →
      m.cls ∉ [Cls.perceptron, .sop] → ∃ k, (onlineSet files m "loss" v).1.loss = some k ∧ Admits m.cls m.classNum k := by
    intro h h1 h2
    obtain ⟨k, e1, e2⟩ := onlineLoss_acc hn h
    exact ⟨k, by rw [e1], e2, fun h => absurd h h1, fun h => absurd h h2⟩
  unfold set at h ⊢
  cases hc : m.cls <;> rw [hc] at hh hb ho <;> simp only [hc] at h ⊢ <;>
    try simp only [perceptronSet, ogdSet, stgSet, paSet, almaSet, arowSet, cwSet, rdaSet, erdaSet, sopSet, adaSet, fofsSet, ofB,
      String.reduceEq, if_false, if_true] at h ⊢
  all_goals
    first
    | exact ho h (by decide) (by decide)
    | exact hh _ h (by decide)
    | exact hb h (by decide)

theorem norm_alma {m : M} {v : List Char} (hc : m.cls = .alma2) (h : (set files m "norm" v).2 = .accepted) :
    (set files m "norm" v).1.norm = .l2 := by
  unfold set at h ⊢
  simp only [hc] at h ⊢
  simp only [almaSet, String.reduceEq, if_false, if_true, andThen] at h ⊢
  split_ifs at h ⊢ with ha
  · rw [check_fst]
    exact of_decide_eq_true (check_acc h)
  · exact absurd h ha

theorem took_loss_norm {m m' : M} {v : List Char} {name : String} (h : Took m v name m') :
    (name ≠ "loss" → m'.loss = m.loss) ∧ (name ≠ "norm" → m'.norm = m.norm) := by
  cases h with
  | dim n r h => unfold updateDim; split_ifs <;> exact ⟨fun _ => rfl, fun _ => rfl⟩
  | loss k b h => exact ⟨fun h => absurd rfl h, fun _ => rfl⟩
  | norm k h => exact ⟨fun _ => rfl, fun h => absurd rfl h⟩
  | _ => exact ⟨fun _ => rfl, fun _ => rfl⟩

theorem took_checked {m m' : M} {v : List Char} {name : String} (h : Took m v name m') (hm : Checked m)
    (hl : ∃ k, m'.loss = some k ∧ Admits m.cls m.classNum k) (hn : m.cls = .alma2 → m'.norm = .l2) : Checked m' := by
  have hs := took_shaped h hm.shape
  obtain ⟨a1, a2, a3, a4, a5, a6, a7, a8, a9, a10, a11, a12, a13, a14, a15, a16⟩ := hm
  cases h with
  | dim n r h =>
    clear hl hn
    revert hs
    unfold updateDim
    by_cases hd : m.dim < (n % 4294967296).toNat
    · rw [if_pos hd]
      intro hs
      exact ⟨a1, a2, a3, a4, a5, a6, a7, a8, a9, a10, a11, a12, a13, a14, a15, hs⟩
    · rw [if_neg hd]
      intro hs
      exact ⟨a1, a2, a3, a4, a5, a6, a7, a8, a9, a10, a11, a12, a13, a14, a15, hs⟩
  | bias x b h h0 => exact ⟨a1, a2, a3, a4, h0, a6, a7, a8, a9, a10, a11, a12, a13, a14, a15, hs⟩
  | t n r h h0 => exact ⟨a1, a2, a3, h0, a5, a6, a7, a8, a9, a10, a11, a12, a13, a14, a15, hs⟩
  | tReg n r x h h0 => exact ⟨a1, a2, a3, h0, a5, a6, a7, a8, a9, a10, a11, a12, a13, a14, a15, hs⟩
  | cost x h h0 hc =>
    refine ⟨a1, a2, a3, a4, a5, fun _ => ⟨?_, h0⟩, a7, a8, a9, a10, a11, a12, a13, a14, a15, hs⟩
    unfold M.clf at hc
    split_ifs at hc with h2
    · exact h2
    · omega
  | loss k b h => exact ⟨a1, hl, a3, a4, a5, a6, a7, a8, a9, a10, a11, a12, a13, a14, a15, hs⟩
  | norm k h => exact ⟨a1, a2, hn, a4, a5, a6, a7, a8, a9, a10, a11, a12, a13, a14, a15, hs⟩
  | powerT x h h0 hc => exact ⟨a1, a2, a3, a4, a5, a6, a7, h0, a9, a10, a11, a12, a13, a14, a15, hs⟩
  | eta x h h0 hc => exact ⟨a1, a2, a3, a4, a5, a6, h0, a8, a9, a10, a11, a12, a13, a14, a15, hs⟩
  | k n r b h h0 hc => exact ⟨a1, a2, a3, a4, a5, a6, a7, a8, a9, a10, a11, a12, a13, h0, a15, hs⟩
  | p n r h h0 hc =>
    have := stoi_range h
    exact ⟨a1, a2, a3, a4, a5, a6, a7, a8, a9, a10, a11, a12, a13, a14, ⟨by dsimp only; omega, this.2⟩, hs⟩
  | alpha x h h0 hc =>
    rw [Bool.and_eq_true] at h0
    exact ⟨a1, a2, a3, a4, a5, a6, a7, a8, a9, a10, a11, h0, a13, a14, a15, hs⟩
  | sigma x h h0 hc => exact ⟨a1, a2, a3, a4, a5, a6, a7, a8, a9, h0, a11, a12, a13, a14, a15, hs⟩
  | rou x h h0 hc => exact ⟨a1, a2, a3, a4, a5, a6, a7, a8, a9, a10, h0, a12, a13, a14, a15, hs⟩
  | delta x h h0 hc => exact ⟨a1, a2, a3, a4, a5, a6, a7, a8, h0, a10, a11, a12, a13, a14, a15, hs⟩
  | fofsLambda x h h0 hc => exact ⟨a1, a2, a3, a4, a5, a6, a7, a8, a9, a10, a11, a12, h0, a14, a15, hs⟩
  | _ => exact ⟨a1, a2, a3, a4, a5, a6, a7, a8, a9, a10, a11, a12, a13, a14, a15, hs⟩

/-- All states reached pass the checks. -/
theorem reached_checked {m : M} (h : Reached files m) : Checked m := by
  induction h with
  | new h => exact checked_new h
  | @set m name v _ ha hm =>
    have ht := set_took ha
    have hln := took_loss_norm ht
    refine took_checked ht hm ?_ ?_
    · by_cases hl : name = "loss"
      · subst hl
        exact loss_admits hm.classNum ha
      · have : target m.cls name ≠ "loss" := by
          unfold target
          split_ifs
          · decide
          · exact hl
        rw [hln.1 this]
        exact hm.loss
    · intro hc
      by_cases hl : name = "norm"
      · subst hl
        exact norm_alma hc ha
      · have : target m.cls name ≠ "norm" := by
          unfold target
          split_ifs
          · decide
          · exact hl
        rw [hln.2 this]
        exact hm.norm hc
  | train _ ht hm =>
    obtain ⟨hs, h0, hk, -, -, e⟩ := ht
    obtain ⟨a1, a2, a3, a4, a5, a6, a7, a8, a9, a10, a11, a12, a13, a14, a15, a16⟩ := hm
    rw [e] at h0 hs hk ⊢
    exact ⟨a1, a2, a3, h0, a5, a6, a7, a8, a9, a10, a11, a12, a13, hk, a15, hs⟩

/-- The states reached can be saved and loaded, if their numbers are ordinary. -/
theorem reached_savable {m : M} (h : Reached files m) (ht : m.t ≤ 2147483647) (hk : m.k ≤ 2147483647) (hd : m.dim ≤ 2147483647)
    (hB : m.cls = .fofs → 0 < m.fofsB ∧ m.fofsB ≤ 2147483647)
    (ho : ∀ k x, info m k = some (.real x) → Ordinary x)
    (hv : (∀ v ∈ m.w, ∀ x ∈ v, Finite x) ∧ (∀ v ∈ m.scale, ∀ x ∈ v, Finite x) ∧ (∀ v ∈ m.sum, ∀ x ∈ v, Finite x) ∧
      ∀ x ∈ m.X, Finite x) : Savable m := by
  obtain ⟨a1, a2, a3, a4, a5, a6, a7, a8, a9, a10, a11, a12, a13, a14, a15, a16⟩ := reached_checked h
  exact ⟨a1, a2, a3, ⟨a4, ht⟩, hd, ho, a5, a6, a7, a8, a9, a10, a11, a12, a13, ⟨a14, hk⟩, a15, hB, a16, hv⟩

end Sol.Params
