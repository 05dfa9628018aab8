import Mathlib.Algebra.Field.Basic
import Mathlib.Tactic.FieldSimp
import Verif.Model.CApi
import Verif.Props.Train
/-!
# C67: predictions and scores through the C interface
-/

set_option linter.unusedSectionVars false

namespace Sol.Props
open Sol.Online Sol.Loss Sol.Spec Sol.PreProcess Sol.Train Sol.Olm Sol.DataIter Sol.CApi

section
variable {α A : Type} [Zero α] [One α] [Add α] [Sub α] [Mul α] [Div α] [Neg α] [FCmp α] [IntCast α] [FFun α] [FSqrt α]

theorem predictBatch_test (c : Cfg α) (p : Pre) (s : St α A) (e n : Nat) (rows : List (Row α)) (es : List (Ex α)) :
    predictBatch c p s rows es = testBatch c p s (e, n, rows) es >>= fun r => .ok r.2.2 := by
  induction es generalizing e n rows with
  | nil => rfl
  | cons x es ih =>
    simp only [predictBatch, testBatch, testPoint, bind_bind]
    cases preProcess c.clf p.sel p.norm x with
    | ub k => rfl
    | ok y =>
      simp only [Res.bind_ok]
      cases predict c s y.x with
      | ub k => rfl
      | ok v =>
        obtain ⟨v, l⟩ := v
        simp only [Res.bind_ok]
        exact ih _ _ _

theorem predictBatches_flat (c : Cfg α) (p : Pre) (s : St α A) (rows : List (Row α)) (n : Nat) (bs : List (List (Ex α))) :
    predictBatches c p s (rows, n) bs = predictBatch c p s rows bs.flatten >>= fun rows => .ok (rows, n + bs.flatten.length) := by
  have happ : ∀ (rows : List (Row α)) (a b : List (Ex α)),
      predictBatch c p s rows (a ++ b) = predictBatch c p s rows a >>= fun r => predictBatch c p s r b := by
    intro rows a b
    induction a generalizing rows with
    | nil => rfl
    | cons e a ih =>
      simp only [List.cons_append, predictBatch, bind_bind]
      cases preProcess c.clf p.sel p.norm e with
      | ub k => rfl
      | ok y =>
        simp only [Res.bind_ok]
        cases predict c s y.x with
        | ub k => rfl
        | ok v => exact ih _
  induction bs generalizing rows n with
  | nil => rfl
  | cons b bs ih =>
    simp only [predictBatches, List.flatten_cons, happ, bind_bind, List.length_append]
    cases predictBatch c p s rows b with
    | ub k => rfl
    | ok r =>
      simp only [Res.bind_ok]
      rw [ih, Nat.add_assoc]

/-- C67: `sol_Predict` ends exactly as `sol_Test` does, leaves the same model, calls back with the rows that `sol_Test` writes, in
    order, and returns the number of examples. -/
theorem C67_predict (G : Alg α A) (c : Cfg α) (p : Pre) (s : St α A) (bs : List (List (Ex α))) :
    predictAll G c p s bs = testAll G c p s bs >>= fun r => .ok (r.1, r.2.1, bs.flatten.length) := by
  unfold predictAll testAll Train.test
  rw [bind_bind]
  cases (if s.fresh then G.endTrain c s else .ok s : Res (St α A)) with
  | ub k => rfl
  | ok s1 =>
    simp only [Res.bind_ok, predictBatches_flat, testBatches_flat, bind_bind, predictBatch_test c p s1 0 0]
    cases testBatch c p s1 (0, 0, []) bs.flatten with
    | ub k => rfl
    | ok r =>
      obtain ⟨e, n, rows⟩ := r
      simp only [Res.bind_ok, Nat.zero_add]

/-- C67: the calls are for the examples in order, each with the example's label and with the label and the scores that the model
    predicts for it. -/
theorem C67_rows (G : Alg α A) (c : Cfg α) (p : Pre) (s s' : St α A) (bs : List (List (Ex α))) (xs : List (Ex α))
    (h : List.Forall₂ (fun e x => preProcess c.clf p.sel p.norm e = .ok x) bs.flatten xs) (rows : List (Row α)) (n : Nat)
    (hp : predictAll G c p s bs = .ok (s', rows, n)) : List.Forall₂ (RowOf c s') xs rows ∧ n = xs.length := by
  rw [C67_predict, Res.bind_eq_ok] at hp
  obtain ⟨⟨s1, rows1, rate⟩, h1, h2⟩ := hp
  simp only [Res.ok.injEq, Prod.mk.injEq] at h2
  obtain ⟨rfl, rfl, rfl⟩ := h2
  exact ⟨(C62_test G c p s s1 bs xs h rows1 rate h1).1, h.length_eq⟩

/-- C67: however the iterator cuts the data into batches, `sol_Predict` gives the same. -/
theorem C67_batches (G : Alg α A) (c : Cfg α) (p : Pre) (s : St α A) (size num : Nat) (hs : 1 ≤ size)
    (hn : 1 ≤ num) (fs : List (List (Ex α) × Bool × Nat)) (i : State (Ex α)) (hi : IterReach size num fs i)
    (he : i.ended = true) : predictAll G c p s i.delivered = predictAll G c p s [allPoints fs] := by
  rw [C67_predict, C67_predict, testAll, testAll, C61_test G c p s size num hs hn fs i hi he,
    C23_null_after_everything size num hs hn fs i hi he]
  simp

end

/-- C67: `SOL.score` is the fraction of the examples whose predicted label is their label. -/
theorem C67_score {α A : Type} [Field α] [CharZero α] [FCmp α] [FFun α] [FSqrt α] (G : Alg α A) (c : Cfg α) (p : Pre) (s s' : St α A)
    (bs : List (List (Ex α))) (xs : List (Ex α)) (h : List.Forall₂ (fun e x => preProcess c.clf p.sel p.norm e = .ok x) bs.flatten xs)
    (hne : xs ≠ []) (a : α) (hs : CApi.score G c p s bs = .ok (s', a)) :
    ∃ rows, List.Forall₂ (RowOf c s') xs rows ∧ a = ((rows.countP fun row => row.pred = row.label : Nat) : α) / (xs.length : α) := by
  simp only [CApi.score, testAll, Res.bind_eq_ok] at hs
  obtain ⟨⟨s1, rows, rate⟩, h1, h2⟩ := hs
  simp only [Res.ok.injEq, Prod.mk.injEq] at h2
  obtain ⟨rfl, rfl⟩ := h2
  obtain ⟨hf, hr⟩ := C62_test G c p s s1 bs xs h rows rate h1
  refine ⟨rows, hf, ?_⟩
  have hl : xs.length = rows.length := hf.length_eq
  have h0 : (rows.length : α) ≠ 0 := by
    rw [← hl]
    exact_mod_cast (List.length_pos_iff.2 hne).ne'
  have hsum : rows.length = (rows.countP fun row => row.pred = row.label) + rows.countP fun row => row.pred ≠ row.label := by
    have := List.length_eq_countP_add_countP (p := fun row : Row α => decide (row.pred = row.label)) (l := rows)
    simpa using this
  have hsum' : (rows.length : α) = ((rows.countP fun row => row.pred = row.label : Nat) : α) +
      ((rows.countP fun row => row.pred ≠ row.label : Nat) : α) := by exact_mod_cast congrArg (Nat.cast (R := α)) hsum
  rw [hr, hl]
  push_cast
  rw [eq_div_iff h0, sub_mul, one_mul, div_mul_cancel₀ _ h0]
  rw [hsum']
  ring

/-- Four examples in two batches and a perceptron that takes one of them for the other class: `sol_Predict` calls back four times;
    the score is three quarters, and `sol_Test`, whose documentation says "return test accuracy", returns one quarter. -/
theorem C67_instance :
    letI : FFun Rat := unusedFun
    letI : FSqrt Rat := ⟨fun a => a⟩
    let es : List (Ex Rat) := [⟨-1, [(1, -2)]⟩, ⟨1, [(1, 1)]⟩, ⟨-1, [(1, -5)]⟩, ⟨-1, [(1, 3)]⟩]
    let s := { model1 () with w := [[0, 1]], fresh := false }
    Yields (predictAll (perceptron (α := Rat)) cfg1 ⟨Sel.none, .none⟩ s [es.take 3, es.drop 3])
      (fun r => r.2.1 = [⟨-1, -1, [-2]⟩, ⟨1, 1, [1]⟩, ⟨-1, -1, [-5]⟩, ⟨-1, 1, [3]⟩] ∧ r.2.2 = 4) ∧
    Yields (CApi.score (perceptron (α := Rat)) cfg1 ⟨Sel.none, .none⟩ s [es.take 3, es.drop 3]) (fun r => r.2 = 3 / 4) ∧
    Yields (testAll (perceptron (α := Rat)) cfg1 ⟨Sel.none, .none⟩ s [es.take 3, es.drop 3]) (fun r => r.2.2 = 1 / 4) ∧
    Yields (predictLabels (perceptron (α := Rat)) cfg1 ⟨Sel.none, .none⟩ s [es.take 3, es.drop 3])
      (fun r => r.2 = ([-1, 1, -1, 1], [-1, 1, -1, -1])) := by
  decide +kernel

/-- C67 is violated: c_api.h:110-126 says that `sol_Train` and `sol_Test` return the accuracy, and lsol_c.cc:94 and 138 print it so;
    what they return is the error rate. -/
theorem C67_is_violated :
    letI : FFun Rat := unusedFun
    letI : FSqrt Rat := ⟨fun a => a⟩
    ¬ ∀ (c : Cfg Rat) (p : Pre) (s s' : St Rat Unit) (bs : List (List (Ex Rat))) (rows : List (Row Rat)) (rate : Rat),
      testAll perceptron c p s bs = .ok (s', rows, rate) →
        rate = ((rows.countP fun row => row.pred = row.label : Nat) : Rat) / (rows.length : Rat) := by
  intro h
  have := h cfg1 ⟨Sel.none, .none⟩ { model1 () with w := [[0, 1]], fresh := false } _ [[⟨-1, [(1, -2)]⟩]] _ _ rfl
  revert this
  decide +kernel

end Sol.Props
