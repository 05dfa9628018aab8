import Verif.Proofs.PreProcess
import Verif.Proofs.Variance
import Verif.Props.Online
import Verif.Base.F32Sqrt
import Mathlib.Order.WithBot
/-! # C43-C45: labels, pre-selected features, normalisation -/

set_option linter.unusedSectionVars false
set_option linter.unusedVariables false

namespace Sol.Props

open Sol.Online Sol.Olm Sol.Sparse Sol.Loss Sol.Spec Sol.PreProcess Sol.Text

/-! ### C43 -/

/-- Labels of two-class models become +1 or -1, labels of multi-class models stay; doing it twice changes nothing. -/
theorem C43_calibration (clf : Nat) (label : Int) :
    (clf = 1 → (label = 1 → calibrate clf label = 1) ∧ (label ≠ 1 → calibrate clf label = -1)) ∧
    (clf ≠ 1 → calibrate clf label = label) ∧ calibrate clf (calibrate clf label) = calibrate clf label := by
  unfold calibrate
  refine ⟨fun h => ⟨fun h1 => by simp [h, h1], fun h1 => by simp [h, h1]⟩, fun h => by simp [h], ?_⟩
  by_cases h : clf = 1 <;> by_cases h1 : label = 1 <;> simp [h, h1]

section
variable {α A : Type} [Zero α] [One α] [Add α] [Sub α] [Mul α] [Neg α] [Div α] [IntCast α] [FCmp α] [FFun α] [FSqrt α]

/-- Predictions are labels of the same set, for any number type: +1 or -1, or the number of a class. -/
theorem C43_label_set (c : Cfg α) (s : St α A) (x : SVec α) (hc : 1 ≤ c.clf) (hx : Ascending x) (hd : 1 ≤ s.dim)
    (hw : Vecs c.clf s.dim s.w) : ∃ p l, predict c s x = .ok (p, l) ∧ p.length = c.clf ∧
      (c.clf = 1 → l = 1 ∨ l = -1) ∧ (c.clf ≠ 1 → 0 ≤ l ∧ l < c.clf) ∧ calibrate c.clf l = l := by
  obtain ⟨⟨p, l⟩, h1, h2, h3⟩ := gives_predict hc hx hd hw
  have hl : c.clf = 1 → l = 1 ∨ l = -1 := by
    intro h
    obtain ⟨q, -, h4⟩ := Res.bind_eq_ok.1 h1
    obtain ⟨l', h5, h6⟩ := Res.bind_eq_ok.1 h4
    obtain ⟨rfl, rfl⟩ := Prod.mk.inj (Res.ok.inj h6)
    rw [labelOf, if_pos h] at h5
    obtain ⟨a, -, h7⟩ := Res.bind_eq_ok.1 h5
    have := Res.ok.inj h7
    unfold sign at this
    split at this <;> omega
  refine ⟨p, l, h1, h2, hl, h3, ?_⟩
  by_cases h : c.clf = 1
  · rcases hl h with rfl | rfl <;> simp [calibrate, h]
  · exact (C43_calibration c.clf l).2.1 h

end

/-- The prediction of a multi-class model is the smallest class with the highest score; that of a two-class model says whether
    the score is at least 0. -/
theorem C43_first_best {α A : Type} [Zero α] [One α] [Add α] [Sub α] [Mul α] [Neg α] [Div α] [IntCast α] [LinearOrder α] [FFun α]
    [FSqrt α] (c : Cfg α) (s : St α A) (x : SVec α) (p : List α) (l : Int) (hc : 1 ≤ c.clf) (hw : p.length = c.clf)
    (h : predict c s x = .ok (p, l)) :
    (c.clf ≠ 1 → ∃ k : Nat, ∃ v, l = k ∧ p[k]? = some v ∧ (∀ u ∈ p, u ≤ v) ∧ ∀ (j : Nat) (u : α), j < k → p[j]? = some u → u < v) ∧
    (c.clf = 1 → ∃ v, p = [v] ∧ (l = 1 ↔ 0 ≤ v) ∧ (l = -1 ↔ v < 0)) := by
  obtain ⟨q, -, h4⟩ := Res.bind_eq_ok.1 h
  obtain ⟨l', h5, h6⟩ := Res.bind_eq_ok.1 h4
  obtain ⟨rfl, rfl⟩ := Prod.mk.inj (Res.ok.inj h6)
  unfold labelOf at h5
  constructor
  · intro h1
    rw [if_neg h1] at h5
    obtain ⟨k, v, e1, e2, e3, e4⟩ := maxElement_spec q (by rintro rfl; simp at hw; omega)
    exact ⟨k, v, by rw [← Res.ok.inj h5, e1], e2, e3, e4⟩
  · intro h1
    rw [if_pos h1] at h5
    obtain ⟨v, rfl⟩ := List.length_eq_one_iff.1 (hw.trans h1)
    have := Res.ok.inj h5
    refine ⟨v, rfl, ?_⟩
    unfold sign at this
    by_cases hv : 0 ≤ v
    · rw [if_pos (by simpa using hv)] at this
      refine ⟨by simp [hv, ← this], ?_⟩
      simp [← this, not_lt.2 hv]
    · rw [if_neg (by simpa using hv)] at this
      refine ⟨?_, by simp [not_le.1 hv, ← this]⟩
      simp [← this, hv]

/-- Binary32 numbers other than NaN in their order. -/
def rank : F32 → WithBot (WithTop Rat)
  | .fin q => ((q : WithTop Rat) : WithBot (WithTop Rat))
  | .pinf => ((⊤ : WithTop Rat) : WithBot (WithTop Rat))
  | .ninf => ⊥
  | .nan => ⊥

theorem rank_lt {a b : F32} (ha : a ≠ .nan) (hb : b ≠ .nan) : (a <? b) = true ↔ rank a < rank b := by
  show F32.lt a b = true ↔ _
  cases a <;> cases b <;>
    first
      | exact absurd rfl ha
      | exact absurd rfl hb
      | (simp [F32.lt, rank, WithBot.bot_lt_coe]; done)
      | (simp only [F32.lt, rank, WithBot.coe_lt_coe]; simp [WithTop.coe_lt_top])

theorem maxLoop_rank (l : List F32) (h : F32.nan ∉ l) (best : Nat) (bv : F32) (hb : bv ≠ .nan) (i : Nat) :
    maxLoop best bv i l = maxLoop best (rank bv) i (l.map rank) := by
  induction l generalizing best bv i with
  | nil => rfl
  | cons v l ih =>
    simp only [List.mem_cons, not_or] at h
    have hv : v ≠ .nan := Ne.symm h.1
    simp only [List.map_cons, maxLoop]
    have e := rank_lt hb hv
    by_cases hlt : (bv <? v) = true
    · rw [if_pos hlt, if_pos (by simpa using e.1 hlt), ih h.2 _ _ hv]
    · rw [if_neg hlt, if_neg (by simpa using fun hh => hlt (e.2 hh)), ih h.2 _ _ hb]

/-- The same for binary32 scores, infinities included: no class has a higher score, the classes before have a lower one. -/
theorem C43_first_best_float {A : Type} [FFun F32] [FSqrt F32] (c : Cfg F32) (s : St F32 A) (x : SVec F32) (p : List F32) (l : Int)
    (hc : 2 ≤ c.clf) (hw : p.length = c.clf) (hn : F32.nan ∉ p) (h : predict c s x = .ok (p, l)) :
    ∃ k : Nat, ∃ v, l = k ∧ p[k]? = some v ∧ (∀ u ∈ p, (v <? u) = false) ∧
      ∀ (j : Nat) (u : F32), j < k → p[j]? = some u → (u <? v) = true := by
  obtain ⟨q, -, h4⟩ := Res.bind_eq_ok.1 h
  obtain ⟨l', h5, h6⟩ := Res.bind_eq_ok.1 h4
  obtain ⟨rfl, rfl⟩ := Prod.mk.inj (Res.ok.inj h6)
  rw [labelOf, if_neg (by omega)] at h5
  have hne : ∀ u ∈ q, u ≠ F32.nan := fun u hu e => hn (e ▸ hu)
  have e : maxElement q = maxElement (q.map rank) := by
    cases q with
    | nil => rfl
    | cons a q =>
      simp only [List.mem_cons, not_or] at hn
      simp only [maxElement, List.map_cons, maxLoop_rank q hn.2 0 a (Ne.symm hn.1)]
  obtain ⟨k, v', e1, e2, e3, e4⟩ := maxElement_spec (q.map rank) (by
    intro h0
    have := List.map_eq_nil_iff.1 h0
    subst this
    simp at hw
    omega)
  rw [List.getElem?_map] at e2
  cases hk : q[k]? with
  | none => rw [hk] at e2; simp at e2
  | some v =>
    rw [hk] at e2
    obtain rfl : rank v = v' := by simpa using e2
    have hv := hne v (List.mem_of_getElem? hk)
    refine ⟨k, v, by rw [← Res.ok.inj h5, e, e1], hk, fun u hu => ?_, fun j u hj hu => ?_⟩
    · have := e3 (rank u) (List.mem_map_of_mem hu)
      by_contra hlt
      exact absurd ((rank_lt hv (hne u hu)).1 (by simpa using hlt)) (not_lt.2 this)
    · exact (rank_lt (hne u (List.mem_of_getElem? hu)) hv).2 (e4 j (rank u) hj (by simp [hu]))

/-- Three classes, two of them with the highest score. -/
theorem C43_instance :
    letI : FFun Rat := unusedFun
    letI : FSqrt Rat := ⟨fun a => a⟩
    let s : St Rat Unit := { model3 () with dim := 2, w := [[0, 1], [1, 2], [2, 1]] }
    Vecs 3 2 s.w ∧ Yields (predict cfg3 s [(1, 1), (7, 4)]) (fun r => r = ([1, 3, 3], 1)) ∧
    calibrate 1 5 = -1 ∧ calibrate 3 5 = 5 := by
  refine ⟨⟨rfl, by simp⟩, by decide +kernel, by decide, by decide⟩

/-! ### C44 -/

/-- A feature list read from a file: exactly the values of unlisted features become 0. -/
theorem C44_filter_partial (ls : List (List Char)) (is : List Nat) (h : Listing ls is) (hne : is ≠ []) :
    ∃ s, loadPreSel (some (unlines ls)) = .ok (.ok, s) ∧
      ∀ {α : Type} [Zero α] (x : SVec α), filterFeatures s x = .ok (x.map fun p => (p.1, if p.1 ∈ is then p.2 else 0)) :=
  load_filter h hne

/-- Without a list nothing is dropped, also after a list that could not be read. -/
theorem C44_no_list {α : Type} [Zero α] (x : SVec α) : filterFeatures Sel.none x = .ok x ∧
    ∀ file v s, loadPreSel file = .ok (v, s) → v ≠ .ok → filterFeatures s x = .ok x := by
  refine ⟨rfl, fun file v s h hv => ?_⟩
  have hs : s = Sel.none := by
    unfold loadPreSel at h
    split at h
    · exact (Prod.mk.inj (Res.ok.inj h)).2.symm
    · split at h
      · obtain ⟨m, -, h1⟩ := Res.bind_eq_ok.1 h
        obtain ⟨f, -, h2⟩ := Res.bind_eq_ok.1 h1
        exact absurd (Prod.mk.inj (Res.ok.inj h2)).1.symm hv
      · exact (Prod.mk.inj (Res.ok.inj h)).2.symm
  rw [hs]
  rfl

section
variable {α : Type} [Field α] [LinearOrder α] [IsStrictOrderedRing α] [FFun α] [FSqrt α]

/-- With a list, two examples with the same values of the listed features get the same scores from every model, with every
    normalisation. With a normalisation some listed feature must not be 0: `hn` is not used in the proof because a field has
    0 / 0 = 0, but without it the division differs from the one of the code, see `C44_is_violated`. -/
theorem C44_scores_partial (ls : List (List Char)) (is : List Nat) (h : Listing ls is) (hne : is ≠ []) (n : Norm) (clf : Nat)
    (e e' : Ex α) (he : Ascending e.x) (he' : Ascending e'.x) (hs : ∀ i ∈ is, feat e.x i = feat e'.x i)
    (hn : n = .none ∨ ∃ i ∈ is, feat e.x i ≠ 0) (ws : List (List α)) (hw : ∀ w ∈ ws, 1 ≤ w.length) :
    ∃ s d d', loadPreSel (some (unlines ls)) = .ok (.ok, s) ∧ preProcess clf s n e = .ok d ∧ preProcess clf s n e' = .ok d' ∧
      scores ws d.x = scores ws d'.x := by
  obtain ⟨s, h1, h2⟩ := load_filter h hne
  refine ⟨s, ⟨calibrate clf e.label, normalise n (e.x.map fun p => (p.1, if p.1 ∈ is then p.2 else 0))⟩,
    ⟨calibrate clf e'.label, normalise n (e'.x.map fun p => (p.1, if p.1 ∈ is then p.2 else 0))⟩, h1, ?_, ?_, ?_⟩
  · rw [preProcess, h2]; rfl
  · rw [preProcess, h2]; rfl
  · have a1 := asc_map he fun i a => if i ∈ is then a else 0
    have a2 := asc_map he' fun i a => if i ∈ is then a else 0
    have hf : ∀ i, feat (e.x.map fun p => (p.1, if p.1 ∈ is then p.2 else 0)) i =
        feat (e'.x.map fun p => (p.1, if p.1 ∈ is then p.2 else 0)) i := by
      intro i
      rw [feat_map e.x (fun i a => if i ∈ is then a else 0) (by simp) i,
        feat_map e'.x (fun i a => if i ∈ is then a else 0) (by simp) i]
      by_cases hi : i ∈ is
      · simp [hi, hs i hi]
      · simp [hi]
    have hN : ∀ i, feat (normalise n (e.x.map fun p => (p.1, if p.1 ∈ is then p.2 else 0))) i =
        feat (normalise n (e'.x.map fun p => (p.1, if p.1 ∈ is then p.2 else 0))) i := by
      intro i
      rw [normalise_feat, normalise_feat, hf i, normOf_same a1 a2 hf n]
    have b1 := normalise_asc a1 n
    have b2 := normalise_asc a2 n
    show scores ws (normalise n _) = scores ws (normalise n _)
    rw [scores_eq b1 hw, scores_eq b2 hw]
    congr 1
    apply List.map_congr_left
    intro w _
    congr 1
    exact sum_same b1 b2 hN (fun i a => coord w i * a) (by simp)

end

/-- A list with a comment, a blank and a trailing remark. -/
theorem C44_hypotheses : Listing ["# chosen".toList, "3".toList, " 1 x".toList] [3, 1] ∧
    unlines ["# chosen".toList, "3".toList, " 1 x".toList] = "# chosen\n3\n 1 x\n".toList := by
  refine ⟨?_, by decide⟩
  have h1 : Listing [" 1 x".toList] [1] := .entry (sp := [' ']) (t := [' ', 'x']) (i := 1) (by simp [Indent]) (by decide) (by decide)
    (by decide) (by decide) .nil
  have h2 : Listing ["3".toList, " 1 x".toList] [3, 1] := .entry (sp := []) (t := []) (i := 3) (by simp [Indent]) (by decide)
    (by decide) (by decide) (by decide) h1
  exact .comment (sp := []) (t := " chosen".toList) (by simp [Indent]) (by decide) h2

/-- That list applied to an example, with L1 normalisation of what is left. -/
theorem C44_instance :
    letI : FSqrt Rat := ⟨fun a => a⟩
    Yields (do
      let (v, s) ← loadPreSel (some "# chosen\n3\n 1 x\n".toList)
      let e ← preProcess (α := Rat) 1 s .l1 ⟨2, [(1, 1), (2, 5), (3, -3), (9, 4)]⟩
      .ok (v, s, e.label, e.x)) fun r =>
    r = (.ok, ⟨3, [false, true, false, true]⟩, -1, [(1, 1 / 4), (2, 0), (3, -3 / 4), (9, 0)]) := by
  decide +kernel

/-- The property as stated does not hold: a list without an index dereferences a null pointer; and in binary32 an unlisted
    feature makes the score NaN when all listed features are 0 and examples are normalised, while without it the score is that
    of the bias. -/
theorem C44_is_violated :
    Fails (loadPreSel (some "# nothing\n".toList)) .nullDeref ∧
    letI : FFun F32 := unusedFun
    (∀ b : Bool, Yields (do
      let (_, s) ← loadPreSel (some "1\n".toList)
      let e ← preProcess (α := F32) 1 s .l2 ⟨1, if b then [(5, 1)] else []⟩
      scores [[F32.fin 2, .fin 3, .fin 0, .fin 0, .fin 0, .fin 0]] e.x) fun r => r = if b then [F32.nan] else [F32.fin 2]) := by
  decide +kernel

/-! ### C45 -/

section
variable {α : Type} [Field α] [LinearOrder α] [IsStrictOrderedRing α]

theorem absnorm_pos {x : SVec α} (h : ∃ p ∈ x, p.2 ≠ 0) : 0 < absnorm x := by
  obtain ⟨p, hp, h0⟩ := h
  unfold absnorm
  refine lt_of_lt_of_le (abs_pos.2 h0) (List.single_le_sum ?_ _ (List.mem_map.2 ⟨p, hp, rfl⟩))
  intro a ha
  obtain ⟨q, -, rfl⟩ := List.mem_map.1 ha
  exact abs_nonneg _

theorem sqnorm_pos {x : SVec α} (h : ∃ p ∈ x, p.2 ≠ 0) : 0 < sqnorm x := by
  obtain ⟨p, hp, h0⟩ := h
  unfold sqnorm
  refine lt_of_lt_of_le (mul_self_pos.2 h0) (List.single_le_sum ?_ _ (List.mem_map.2 ⟨p, hp, rfl⟩))
  intro a ha
  obtain ⟨q, -, rfl⟩ := List.mem_map.1 ha
  exact mul_self_nonneg _

theorem absnorm_scale (x : SVec α) (k : α) : absnorm (x.map fun p => (p.1, p.2 / k)) = absnorm x / |k| := by
  unfold absnorm
  induction x with
  | nil => simp
  | cons p x ih => simp only [List.map_cons, List.sum_cons] at ih ⊢; rw [ih, abs_div, add_div]

theorem sqnorm_scale (x : SVec α) (k : α) : sqnorm (x.map fun p => (p.1, p.2 / k)) = sqnorm x / (k * k) := by
  unfold sqnorm
  induction x with
  | nil => simp
  | cons p x ih => simp only [List.map_cons, List.sum_cons] at ih ⊢; rw [ih, div_mul_div_comm, add_div]

/-- What normalisation does to an example: the indexes stay, the values are multiplied with one positive number. -/
def SameDirection (x y : SVec α) : Prop := ∃ k : α, 0 < k ∧ y = x.map fun p => (p.1, k * p.2)

theorem same_of_norm [FSqrt α] (n : Norm) (x : SVec α) (h : 0 < normOf n x) : SameDirection x (normalise n x) := by
  refine ⟨(normOf n x)⁻¹, inv_pos.2 h, ?_⟩
  rw [normalise_eq]
  apply List.map_congr_left
  intro p _
  rw [div_eq_inv_mul]

theorem again_of_norm [FSqrt α] (n : Norm) (x : SVec α) (h : normOf n (normalise n x) = 1) :
    normalise n (normalise n x) = normalise n x := by
  rw [normalise_eq n (normalise n x), h]
  simp

/-- L1: absolute values sum up to 1, and a second normalisation does nothing; in every ordered field. -/
theorem C45_l1 [FSqrt α] (clf : Nat) (e : Ex α) (h : ∃ p ∈ e.x, p.2 ≠ 0) :
    ∃ d, preProcess clf Sel.none .l1 e = .ok d ∧ absnorm d.x = 1 ∧ SameDirection e.x d.x ∧ preProcess clf Sel.none .l1 d = .ok d := by
  have hp := absnorm_pos h
  have h1 : absnorm (normalise .l1 e.x) = 1 := by
    rw [normalise_eq, absnorm_scale]
    show absnorm e.x / |absnorm e.x| = 1
    rw [abs_of_pos hp, div_self hp.ne']
  refine ⟨_, rfl, h1, same_of_norm .l1 e.x hp, ?_⟩
  show Res.ok (Ex.mk (calibrate clf (calibrate clf e.label)) (normalise .l1 (normalise .l1 e.x))) =
    .ok ⟨calibrate clf e.label, normalise .l1 e.x⟩
  rw [(C43_calibration clf e.label).2.2, again_of_norm .l1 e.x h1]

end

/-- L2: squares sum up to 1, and a second normalisation does nothing; over the reals. -/
theorem C45_l2 (clf : Nat) (e : Ex ℝ) (h : ∃ p ∈ e.x, p.2 ≠ 0) :
    ∃ d, preProcess clf Sel.none .l2 e = .ok d ∧ sqnorm d.x = 1 ∧ SameDirection e.x d.x ∧ preProcess clf Sel.none .l2 d = .ok d := by
  have hp := sqnorm_pos h
  have hq : 0 < normOf .l2 e.x := Real.sqrt_pos.2 hp
  have h1 : sqnorm (normalise .l2 e.x) = 1 := by
    rw [normalise_eq, sqnorm_scale]
    show sqnorm e.x / (Real.sqrt (sqnorm e.x) * Real.sqrt (sqnorm e.x)) = 1
    rw [Real.mul_self_sqrt hp.le, div_self hp.ne']
  refine ⟨_, rfl, h1, same_of_norm .l2 e.x hq, ?_⟩
  show Res.ok (Ex.mk (calibrate clf (calibrate clf e.label)) (normalise .l2 (normalise .l2 e.x))) =
    .ok ⟨calibrate clf e.label, normalise .l2 e.x⟩
  rw [(C43_calibration clf e.label).2.2, again_of_norm .l2 e.x (by
    show Real.sqrt (sqnorm (normalise .l2 e.x)) = 1
    rw [h1, Real.sqrt_one])]

/-- Same direction: the same indexes, and every value keeps its sign. -/
theorem C45_signs {α : Type} [Field α] [LinearOrder α] [IsStrictOrderedRing α] (x y : SVec α) (h : SameDirection x y) :
    y.map (·.1) = x.map (·.1) ∧ ∀ (i : Nat) (p q : Nat × α), x[i]? = some p → y[i]? = some q →
      (0 < q.2 ↔ 0 < p.2) ∧ (q.2 < 0 ↔ p.2 < 0) ∧ (q.2 = 0 ↔ p.2 = 0) := by
  obtain ⟨k, hk, rfl⟩ := h
  refine ⟨by simp, fun i p q hp hq => ?_⟩
  rw [List.getElem?_map, hp] at hq
  obtain rfl : (p.1, k * p.2) = q := by simpa using hq
  exact ⟨mul_pos_iff_of_pos_left hk, by simp [mul_neg_iff, hk, not_lt.2 hk.le], by simp [hk.ne']⟩

/-- The classical triangle, in binary32: 3 and 4 become 3/5 and 4/5 rounded; and a list of absolute values. -/
theorem C45_instance :
    (∃ p ∈ [(1, (3 : Rat)), (4, -4)], p.2 ≠ 0) ∧
    (Yields (preProcess (α := F32) 1 Sel.none .l2 ⟨7, [(1, .fin 3), (4, .fin (-4))]⟩) fun r =>
      r.label = -1 ∧ r.x = [(1, F32.round (3 / 5)), (4, F32.round (-4 / 5))]) ∧
    letI : FSqrt Rat := ⟨fun a => a⟩
    (Yields (preProcess (α := Rat) 1 Sel.none .l1 ⟨1, [(1, 3), (4, -5)]⟩) fun r => r.x = [(1, 3 / 8), (4, -5 / 8)]) := by
  refine ⟨⟨_, List.mem_cons_self, by decide⟩, by decide +kernel, by decide +kernel⟩

end Sol.Props
