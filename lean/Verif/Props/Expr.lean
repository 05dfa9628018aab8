import Mathlib.Algebra.Order.Field.Rat
import Verif.Proofs.Expr
/-!
# C82: a statement on vectors computes every element from the old values

The library evaluates vector expressions lazily: `H = Sqrt(L2(H - delta) + L2(g * x)) + delta` reads elements of `H` while others are
already overwritten.  The `_partial` theorems: for operands with the destination's shape (dense), for operands that reach the features
that are used (sparse), every statement does what it says, and operands with other shapes are refused.  Not true in general:
`C82_is_violated`.  The theorems without the suffix: the statements of all algorithms, evaluated so, do what Model/Olm and Model/Select
say.
-/

namespace Sol.Props

open Sol.Expr Sol.Spec Sol.Sparse Sol.Online Sol.Olm Sol.Select

section
variable {α : Type}

/-- **C82**, dense expressions: element `i` becomes `op` of its old value and of the expression's value at `i` in the OLD memory, for all
    `i`; the storage behind the elements and all other matrices stay as they were. -/
theorem C82_dense_partial (op : α → α → α) {M : Mem α} {h : Nat} {m : Mat α} {e : Flat α} (hm : M h = some m)
    (hsz : m.rows * m.cols ≤ m.data.length) (he : ∀ k ∈ mats e, Stored M k m.rows m.cols) :
    ∃ d, calcFlat op M h e = .ok (M.put h { m with data := d }) ∧ d.length = m.data.length ∧
      (∀ i, i < m.rows * m.cols → ∃ a v, m.data[i]? = some a ∧ Elem M i e v ∧ d[i]? = some (op a v)) ∧
      ∀ i, m.rows * m.cols ≤ i → d[i]? = m.data[i]? := by
  obtain ⟨s, hs, hs'⟩ := shape_same he
  have hsh : shapeOf M h = .ok (m.rows, m.cols) := by simp [shapeOf, hm]
  obtain ⟨d, q1, q2, q3, q4⟩ := calcLoop_spec op (m.rows * m.cols) (i := 0) hm (by omega) fun k _ hk => stored_elem he (by omega)
  refine ⟨d, ?_, q2, fun i hi => q3 i (by omega) (by omega), fun i hi => q4 i (by omega)⟩
  rw [calcFlat, hsh, Res.bind_ok, hs, Res.bind_ok, if_neg]
  · exact q1
  · rintro ⟨k1, k2⟩
    exact hs'.elim k1 fun k => k2 k.symm

/-- **C82**, the same for an assignment. -/
theorem C82_assign_partial {M : Mem α} {h : Nat} {m : Mat α} {e : Flat α} (hm : M h = some m)
    (hsz : m.rows * m.cols ≤ m.data.length) (he : ∀ k ∈ mats e, Stored M k m.rows m.cols) :
    ∃ d, assign M h e = .ok (M.put h { m with data := d }) ∧ d.length = m.data.length ∧
      (∀ i, i < m.rows * m.cols → ∃ v, Elem M i e v ∧ d[i]? = some v) ∧
      ∀ i, m.rows * m.cols ≤ i → d[i]? = m.data[i]? := by
  have hi : initMat M h = M := by simp [initMat, hm]
  obtain ⟨d, q1, q2, q3, q4⟩ := C82_dense_partial (fun _ v => v) hm hsz he
  refine ⟨d, by rw [assign, hi, q1], q2, fun i hi => ?_, q4⟩
  obtain ⟨a, v, -, k2, k3⟩ := q3 i hi
  exact ⟨v, k2, k3⟩

/-- **C82**, expressions with a sparse vector in ascending order: the elements of its features, as far as the destination has them, become
    `op` of their old value and of the expression's value from the OLD memory; everything else stays as it was. -/
theorem C82_sparse_partial (op : α → α → α) {M : Mem α} {h : Nat} {m : Mat α} {s : Sp α} (hm : M h = some m)
    (hsz : m.rows * m.cols ≤ m.data.length) (hx : Ascending s.vector)
    (he : ∀ p ∈ s.vector, p.1 < m.rows * m.cols → ∀ k ∈ spMats s, ∃ a, InMat M k p.1 a) :
    ∃ d, calcSp op M h s = .ok (M.put h { m with data := d }) ∧ d.length = m.data.length ∧
      (∀ p ∈ s.vector, p.1 < m.rows * m.cols → ∃ a v, m.data[p.1]? = some a ∧ SpElem M p.1 p.2 s v ∧ d[p.1]? = some (op a v)) ∧
      ∀ i, (∀ p ∈ s.vector, p.1 = i → m.rows * m.cols ≤ i) → d[i]? = m.data[i]? := by
  have hsh : shapeOf M h = .ok (m.rows, m.cols) := by simp [shapeOf, hm]
  set sz := m.rows * m.cols with hszd
  set n := trim s.vector sz s.vector.length with hn
  have hnle : n ≤ s.vector.length := trim_le _ _ _
  have htake : s.vector.take n = s.vector.filter fun p => decide (p.1 < sz) := take_trim _ hx sz
  have hin : ∀ k i y, k < n → s.vector[k]? = some (i, y) → i < sz ∧ (i, y) ∈ s.vector := by
    intro k i y hk hp
    have hmem : (i, y) ∈ s.vector.take n := List.mem_of_getElem? (by rw [List.getElem?_take, if_pos hk]; exact hp : (s.vector.take n)[k]? = _)
    rw [htake, List.mem_filter] at hmem
    exact ⟨by simpa using hmem.2, hmem.1⟩
  have hout : ∀ p ∈ s.vector, p.1 < sz → ∃ k, k < n ∧ s.vector[k]? = some p := by
    intro p hp hlt
    have hmem : p ∈ s.vector.take n := by
      rw [htake, List.mem_filter]
      exact ⟨hp, by simpa using hlt⟩
    obtain ⟨k, hk⟩ := List.mem_iff_getElem?.1 hmem
    rw [List.getElem?_take] at hk
    by_cases hkn : k < n
    · exact ⟨k, hkn, by simpa [hkn] using hk⟩
    · simp [hkn] at hk
  obtain ⟨d, q1, q2, q3, q4⟩ := calcSpLoop_spec op n (j := 0) hm (by omega) hx fun k i y _ hk hp => by
    obtain ⟨h1, h2⟩ := hin k i y (by omega) hp
    exact ⟨by omega, spElem_exists (he _ h2 h1)⟩
  refine ⟨d, ?_, q2, fun p hp hlt => ?_, fun i hi => q4 i fun k y _ hk hp => ?_⟩
  · rw [calcSp, hsh, Res.bind_ok, Sp.size, trimSp_eq s _ _ (Nat.le_refl _), Res.bind_ok]
    exact q1
  · obtain ⟨k, h1, h2⟩ := hout p hp hlt
    exact q3 k p.1 p.2 (by omega) (by omega) h2
  · obtain ⟨h1, h2⟩ := hin k i y (by omega) hp
    have := hi _ h2 rfl
    omega

/-- **C82**: operands that are not empty and do not all have the destination's shape are refused, before anything is changed. -/
theorem C82_shapes_partial (op : α → α → α) {M : Mem α} {h r c : Nat} {e : Flat α} (hh : Stored M h r c)
    (he : ∀ k ∈ mats e, ∃ r c, Stored M k r c ∧ r * c ≠ 0) {k : Nat} (hk : k ∈ mats e) (hne : ¬ Stored M k r c) :
    calcFlat op M h e = .ub .exception := by
  obtain ⟨m, h1, rfl, rfl, -⟩ := hh
  have hsh : shapeOf M h = .ok (m.rows, m.cols) := by simp [shapeOf, h1]
  rw [calcFlat, hsh, Res.bind_ok]
  rcases shape_cases he with h3 | ⟨h3, -⟩ | ⟨r', c', -, hz, h3, h4⟩
  · rw [h3]; rfl
  · rw [h3] at hk; cases hk
  · rw [h3, Res.bind_ok, if_pos]
    refine ⟨hz, fun hc => hne ?_⟩
    obtain ⟨rfl, rfl⟩ := Prod.mk.inj hc
    exact h4 k hk

section
variable [Zero α] [Add α]

/-- **C82**: the product of two dense expressions is the sum over all elements, in order. -/
theorem C82_dot_partial (op : α → α → α) {M : Mem α} {l r : Flat α} {a b : Nat} (hl : ∀ k ∈ mats l, Stored M k a b)
    (hr : ∀ k ∈ mats r, Stored M k a b) (hl0 : mats l ≠ []) (hr0 : mats r ≠ []) (hab : a * b ≠ 0) :
    ∃ vs : List (α × α), Expr.dot op M l r = .ok (vs.foldl (fun t p => t + op p.1 p.2) 0) ∧
      List.Forall₂ (fun k p => Elem M k l p.1 ∧ Elem M k r p.2) (List.range (a * b)) vs := by
  obtain ⟨s1, e1, -, q1⟩ := shape_size hl hl0
  obtain ⟨s2, e2, -, q2⟩ := shape_size hr hr0
  obtain rfl := q1 hab
  obtain rfl := q2 hab
  obtain ⟨vs, h1, h2⟩ := Expr.dotLoop_spec op (M := M) (l := l) (r := r) (a * b) 0 0 (fun k _ hk => stored_elem hl (by omega))
    fun k _ hk => stored_elem hr (by omega)
  refine ⟨vs, ?_, by rwa [List.range_eq_range']⟩
  rw [Expr.dot, e1, Res.bind_ok, e2, Res.bind_ok, if_neg (by simp)]
  exact h1

/-- **C82**: the product of a dense and a sparse expression is the sum over the features that the dense one has, in order. -/
theorem C82_dotSparse_partial (op : α → α → α) {M : Mem α} {l : Flat α} {s : Sp α} {a b : Nat} (hl : ∀ k ∈ mats l, Stored M k a b)
    (hl0 : mats l ≠ []) (hx : Ascending s.vector) (he : ∀ p ∈ s.vector, p.1 < a * b → ∀ k ∈ spMats s, ∃ v, InMat M k p.1 v) :
    ∃ vs : List (α × α), dotSp op M l s = .ok (vs.foldl (fun t p => t + op p.1 p.2) 0) ∧
      List.Forall₂ (fun p q => Elem M p.1 l q.1 ∧ SpElem M p.1 p.2 s q.2) (s.vector.filter fun p => p.1 < a * b) vs := by
  obtain ⟨s1, e1, q1, -⟩ := shape_size hl hl0
  have htake := take_trim s.vector hx (a * b)
  obtain ⟨vs, h1, h2⟩ := dotSpLoop_spec op (M := M) (l := l) (s := s) (trim s.vector (a * b) s.vector.length) 0 0
    (by rw [Nat.zero_add]; exact trim_le _ _ _) fun p hp => by
      rw [List.drop_zero, htake, List.mem_filter] at hp
      have hp2 : p.1 < a * b := by simpa using hp.2
      exact ⟨stored_elem hl hp2, spElem_exists (he p hp.1 hp2)⟩
  rw [List.drop_zero, htake] at h2
  refine ⟨vs, ?_, h2⟩
  rw [dotSp, e1, Res.bind_ok, q1, Sp.size, trimSp_eq s _ _ (Nat.le_refl _), Res.bind_ok]
  exact h1

/-- **C82**: `reduce` of a dense expression goes over all elements in order. -/
theorem C82_reduce_partial (op : α → α → α) {M : Mem α} {e : Flat α} {a b : Nat} (he : ∀ k ∈ mats e, Stored M k a b) (h0 : mats e ≠ []) :
    ∃ vs, reduce op M e = .ok (vs.foldl op 0) ∧ List.Forall₂ (fun k v => Elem M k e v) (List.range (a * b)) vs := by
  obtain ⟨s1, e1, q1, -⟩ := shape_size he h0
  obtain ⟨vs, h1, h2⟩ := reduceLoop_spec op (M := M) (e := e) (a * b) 0 0 fun k _ hk => stored_elem he (by omega)
  refine ⟨vs, ?_, by rwa [List.range_eq_range']⟩
  rw [reduce, e1, Res.bind_ok, q1, h1]

/-- **C82**: `reduce` of a sparse expression goes over all entries in order. -/
theorem C82_reduceSparse_partial (op : α → α → α) {M : Mem α} {s : Sp α} (he : ∀ p ∈ s.vector, ∀ k ∈ spMats s, ∃ v, InMat M k p.1 v) :
    ∃ vs, reduceSp op M s = .ok (vs.foldl op 0) ∧ List.Forall₂ (fun p v => SpElem M p.1 p.2 s v) s.vector vs := by
  obtain ⟨vs, h1, h2⟩ := reduceSpLoop_spec op (M := M) (s := s) s.vector.length 0 0 (by omega) fun p hp => by
    rw [List.drop_zero, List.take_length] at hp
    exact spElem_exists (he p hp)
  rw [List.drop_zero, List.take_length] at h2
  exact ⟨vs, h1, h2⟩

end

end

/-! ### The statements of the algorithms -/

section
variable {α : Type} [Zero α] [One α] [Add α] [Sub α] [Mul α] [Div α] [Neg α] [FCmp α] [IntCast α] [FSqrt α]

/-- **C82**: the steps of Perceptron, OGD, PA, ALMA2 and FOFS on the weights of a class. -/
theorem C82_first_order {M : Mem α} {h : Nat} {w : List α} (hw : IsVec M h w) (x : SVec α) :
    (∀ k b w', step k b x w = .ok w' → Runs (stepS k b x h M) M h w') ∧ Runs (projectS h M) M h (project w) ∧
      ∀ normCoeff momentum k b w', fofsStep normCoeff momentum k b x w = .ok w' → Runs (fofsS normCoeff momentum k b x h M) M h w' := by
  have hscale : ∀ (op : α → α → α) (a : α) {M : Mem α} {w : List α}, IsVec M h w → Runs (calcFlat op M h (.scalar a)) M h (w.map (op · a)) :=
    fun op a M w hw => calcFlat_link op hw (fun k hk => by cases hk) (by simp) fun i b hb => ⟨a, .scalar a, by simp [hb]⟩
  have hstep : ∀ {M : Mem α} {w : List α}, IsVec M h w → ∀ k b w', step k b x w = .ok w' → Runs (stepS k b x h M) M h w' := by
    intro M w hw k b w' hs
    simp only [step, Res.bind_eq_ok] at hs
    obtain ⟨w1, h1, h2⟩ := hs
    refine runs_then (calcSp_link _ (fun M' v i y r _ _ hr => ?_) hw h1) fun M' k1 k2 => bias_link _ k1 h2 fun a ha => ⟨b, .scalar b, rfl⟩
    obtain rfl := Res.ok.inj hr
    exact .right (.scalar k) (.vec x)
  refine ⟨hstep hw, ?_, fun normCoeff momentum k b w' hs => ?_⟩
  · rw [projectS, reduce_link sqE hw, Res.bind_ok, project]
    have he : List.foldl (fun v a => v + sqE a) 0 w = dnorm2 w := rfl
    rw [he]
    by_cases hc : (1 <? FSqrt.sqrt (dnorm2 w)) = true
    · simp only [hc, if_true]
      exact hscale _ _ hw
    · simp only [hc]
      exact ⟨M, rfl, hw, fun _ _ => rfl⟩
  · simp only [fofsStep, Res.bind_eq_ok, Res.ok.injEq] at hs
    obtain ⟨w1, h1, rfl⟩ := hs
    refine runs_then (hscale _ momentum hw) fun M1 k1 _ => runs_then (hstep k1 k b w1 h1) fun M2 k2 _ => ?_
    dsimp only
    rw [reduce_link sqE k2, Res.bind_ok]
    have he : List.foldl (fun v a => v + sqE a) 0 w1 = dnorm2 w1 := rfl
    rw [he]
    by_cases hc : (normCoeff / FSqrt.sqrt (dnorm2 w1) <? 1) = true
    · simp only [hc, if_true]
      exact hscale _ _ k2
    · simp only [hc]
      exact ⟨M2, rfl, k2, fun _ _ => rfl⟩

/-- **C82**: the statements of AROW, SOFS, CW and ECCW: weights, variances, confidence. -/
theorem C82_confidence {M : Mem α} {h sig : Nat} {w sg : List α} (hw : IsVec M h w) (hs : IsVec M sig sg) (hne : sig ≠ h) (x : SVec α) :
    (∀ k b w', sigStep k b x w sg = .ok w' → Runs (sigStepS k b x h sig M) M h w') ∧
      (∀ r1 sg', arowSig r1 x sg = .ok sg' → Runs (arowSigS r1 x sig M) M sig sg') ∧
      (∀ tmp sg', cwSig tmp x sg = .ok sg' → Runs (cwSigS tmp x sig M) M sig sg') ∧
      ∀ v, dotOp (fun s y => s * (y * y)) sg x = .ok v → dotSp (· * ·) M (.mat sig) (squares x) = .ok v := by
  refine ⟨fun k b w' hh => ?_, fun r1 sg' hh => ?_, fun tmp sg' hh => ?_, fun v hv => ?_⟩
  · simp only [sigStep, Res.bind_eq_ok] at hh
    obtain ⟨w1, h1, s0, h2, h3⟩ := hh
    refine runs_then (calcSp_link _ (fun M' v i y r _ hk hr => ?_) hw h1) fun M' k1 k2 => bias_link _ k1 h3 fun a ha =>
      ⟨b * s0, .bin (.scalar b) (isVec_lget (isVec_frame hs (k2 sig hne)) h2), rfl⟩
    obtain ⟨s, q1, q2⟩ := Res.bind_eq_ok.1 hr
    obtain rfl := Res.ok.inj q2
    exact .right (.bin (.scalar k) (isVec_lget (isVec_frame hs (hk sig hne)) q1)) (.vec x)
  · simp only [arowSig, Res.bind_eq_ok] at hh
    obtain ⟨w1, h1, h2⟩ := hh
    refine runs_then (calcSp_link _ (fun M' v i y r hv hk hr => ?_) hs h1) fun M' k1 k2 => bias_link _ k1 h2 fun a ha =>
      ⟨1 + a * r1, .bin (.scalar 1) (.bin (isVec_lget k1 ha) (.scalar r1)), rfl⟩
    obtain ⟨s, q1, q2⟩ := Res.bind_eq_ok.1 hr
    obtain rfl := Res.ok.inj q2
    exact .right (.scalar 1) (.left (.right (isVec_lget hv q1) (.un (.vec x))) (.scalar r1))
  · simp only [cwSig, Res.bind_eq_ok] at hh
    obtain ⟨w1, h1, h2⟩ := hh
    refine runs_then (calcSp_link _ (fun M' v i y r hv hk hr => ?_) hs h1) fun M' k1 k2 => bias_link _ k1 h2 fun a ha =>
      ⟨1 + tmp * a, .bin (.scalar 1) (.bin (.scalar tmp) (isVec_lget k1 ha)), rfl⟩
    obtain ⟨s, q1, q2⟩ := Res.bind_eq_ok.1 hr
    obtain rfl := Res.ok.inj q2
    exact .right (.scalar 1) (.right (.bin (.scalar tmp) (isVec_lget hv q1)) (.un (.vec x)))
  · exact dotSp_link (· * ·) (fun y => y * y) hs (fun i y => .un (.vec x)) hv

/-- **C82**: the truncations of STG, FOBOS_L1 and AdaFOBOS_L1.  The time stamps are real numbers in the code; `hx` says that they are exact. -/
theorem C82_lazy {M : Mem α} {h last H : Nat} {w Hs : List α} {ts : List Int} (hw : IsVec M h w)
    (hl : IsVec M last (ts.map fun l => ((l : Int) : α))) (hH : IsVec M H Hs) (hne : last ≠ h) (hneH : H ≠ h) (t : Int)
    (hx : ∀ l ∈ ts, ((t - l : Int) : α) = (t : α) - (l : α)) (x : SVec α) (rate b : α) (w' : List α) :
    (fobosTrunc rate b t ts x w = .ok w' → Runs (lazyTruncS rate b (t : α) last x h M) M h w') ∧
      (dense2 (fun a l => trunc a (rate * (((t - l : Int) : α)))) w ts = .ok w' → Runs (endTruncS rate (t : α) last h M) M h w') ∧
      ((do
        let w ← calcExp (fun _ r => r) (fun w i _ => do
          let a ← lget w i
          let l ← lget ts i
          let h ← lget Hs i
          .ok (trunc a (rate * (((t - l : Int) : α)) / h))) w x
        let h0 ← lget Hs 0
        atBias (fun v => trunc v (b / h0)) w) = .ok w' → Runs (adaTruncS rate b (t : α) last H x h M) M h w') ∧
      ((do
        let r ← dense2 (fun h l => rate * (((t - l : Int) : α)) / h) Hs ts
        let w ← dense2 (fun a r => trunc a r) w r
        let h0 ← lget Hs 0
        atBias (fun v => trunc v (b / h0)) w) = .ok w' → Runs (adaEndTruncS rate b (t : α) last H h M) M h w') := by
  have stamp : ∀ {M' : Mem α} {i : Nat} {l : Int}, M' last = M last → ts[i]? = some l → Elem M' i (.mat last) ((l : Int) : α) :=
    fun {M' i l} hk hi => .mat (isVec_get (isVec_frame hl hk) (by simp [hi]))
  have late : ∀ {M' : Mem α} {i : Nat} {l : Int}, M' last = M last → ts[i]? = some l →
      Elem M' i (lateness rate (t : α) last) (rate * (((t - l : Int) : α))) := by
    intro M' i l hk hi
    rw [hx l (List.mem_of_getElem? hi)]
    exact .bin (.scalar rate) (.bin (.scalar _) (stamp hk hi))
  refine ⟨fun hh => ?_, fun hh => ?_, fun hh => ?_, fun hh => ?_⟩
  · simp only [fobosTrunc, Res.bind_eq_ok] at hh
    obtain ⟨w1, h1, h2⟩ := hh
    refine runs_then (assignSp_link (fun M' v i y r hv hk hr => ?_) hw h1) fun M' k1 k2 => bias_link _ k1 h2 fun a ha =>
      ⟨trunc a b, .bin (isVec_lget k1 ha) (.scalar b), rfl⟩
    simp only [Res.bind_eq_ok] at hr
    obtain ⟨a, q1, l, q2, q3⟩ := hr
    obtain rfl := Res.ok.inj q3
    exact .left (.right (isVec_lget hv q1) (.vec x)) (late (hk last hne) (lget_eq_ok.1 q2))
  · obtain ⟨h1, h2, h3⟩ := dense2_eq hh
    refine assign_link hw (fun k hk => ?_) h2 fun i a ha => ?_
    · simp only [endTrunc, lateness, mats, List.nil_append, List.cons_append, List.mem_cons, List.not_mem_nil, or_false] at hk
      rcases hk with rfl | rfl
      · exact ⟨w, hw, rfl⟩
      · exact ⟨_, hl, by simp [h1]⟩
    · obtain ⟨l, hl'⟩ := get_of_length h1 ha
      exact ⟨_, .bin (.mat (isVec_get hw ha)) (late rfl hl'), h3 i a l ha hl'⟩
  · simp only [Res.bind_eq_ok] at hh
    obtain ⟨w1, h1, h0, h2, h3⟩ := hh
    refine runs_then (assignSp_link (fun M' v i y r hv hk hr => ?_) hw h1) fun M' k1 k2 => bias_link _ k1 h3 fun a ha =>
      ⟨trunc a (b / h0), .bin (isVec_lget k1 ha) (.bin (.scalar b) (isVec_lget (isVec_frame hH (k2 H hneH)) h2)), rfl⟩
    simp only [Res.bind_eq_ok] at hr
    obtain ⟨a, q1, l, q2, g, q3, q4⟩ := hr
    obtain rfl := Res.ok.inj q4
    exact .left (.right (isVec_lget hv q1) (.vec x))
      (.bin (late (hk last hne) (lget_eq_ok.1 q2)) (isVec_lget (isVec_frame hH (hk H hneH)) q3))
  · simp only [Res.bind_eq_ok] at hh
    obtain ⟨rs, h1, w1, h2, h0, h3, h4⟩ := hh
    obtain ⟨p1, p2, p3⟩ := dense2_eq h1
    obtain ⟨r1, r2, r3⟩ := dense2_eq h2
    refine runs_then (assign_link (w' := w1) hw (fun k hk => ?_) r2 fun i a ha => ?_) fun M' k1 k2 => bias_link _ k1 h4 fun a ha =>
      ⟨trunc a (b / h0), .bin (isVec_lget k1 ha) (.bin (.scalar b) (isVec_lget (isVec_frame hH (k2 H hneH)) h3)), rfl⟩
    · simp only [adaEndTrunc, lateness, mats, List.nil_append, List.cons_append, List.mem_cons, List.not_mem_nil, or_false] at hk
      rcases hk with rfl | rfl | rfl
      · exact ⟨w, hw, rfl⟩
      · exact ⟨_, hl, by simp; omega⟩
      · exact ⟨_, hH, by omega⟩
    · obtain ⟨g, hg⟩ := get_of_length (u := Hs) (by omega) ha
      obtain ⟨l, hl'⟩ := get_of_length (u := ts) (by omega) ha
      exact ⟨_, .bin (.mat (isVec_get hw ha)) (.bin (late rfl hl') (.mat (isVec_get hH hg))), r3 i a _ ha (p3 i g l hg hl')⟩

/-- **C82**: the statements of RDA, RDA_L1 and ERDA_L1. -/
theorem C82_dual {M : Mem α} {h u : Nat} {w us : List α} (hw : IsVec M h w) (hu : IsVec M u us) (hne : u ≠ h) (x : SVec α) :
    (∀ g us', addGrad g x us = .ok us' → Runs (addGradS g x u M) M u us') ∧
      (∀ k kb w', fromDual (fun a => k * a) (fun a => kb * a) x w us = .ok w' → Runs (dualS k kb x h u M) M h w') ∧
      (∀ k kb th w', fromDual (fun a => k * trunc a th) (fun a => kb * trunc a th) x w us = .ok w' →
        Runs (dualTruncS k kb th x h u M) M h w') ∧
      (∀ k kb w', fromDualAll (fun a => k * a) (fun a => kb * a) w us = .ok w' → Runs (dualAllS k kb h u M) M h w') ∧
      ∀ k kb th w', fromDualAll (fun a => k * trunc a th) (fun a => kb * trunc a th) w us = .ok w' →
        Runs (dualTruncAllS k kb th h u M) M h w' := by
  refine ⟨fun g us' hh => ?_, fun k kb w' hh => ?_, fun k kb th w' hh => ?_, fun k kb w' hh => ?_, fun k kb th w' hh => ?_⟩
  · simp only [addGrad, Res.bind_eq_ok] at hh
    obtain ⟨w1, h1, h2⟩ := hh
    refine runs_then (calcSp_link _ (fun M' v i y r _ _ hr => ?_) hu h1) fun M' k1 k2 => bias_link _ k1 h2 fun a ha => ⟨g, .scalar g, rfl⟩
    obtain rfl := Res.ok.inj hr
    exact .right (.scalar g) (.vec x)
  · simp only [fromDual, Res.bind_eq_ok] at hh
    obtain ⟨w1, h1, a, h2, h3⟩ := hh
    refine runs_then (assignSp_link (fun M' v i y r hv hk hr => ?_) hw h1) fun M' k1 k2 => set_link k1 h3
      (.bin (.scalar kb) (isVec_lget (isVec_frame hu (k2 u hne)) h2))
    obtain ⟨a, q1, q2⟩ := Res.bind_eq_ok.1 hr
    obtain rfl := Res.ok.inj q2
    exact .right (.scalar k) (.right (isVec_lget (isVec_frame hu (hk u hne)) q1) (.vec x))
  · simp only [fromDual, Res.bind_eq_ok] at hh
    obtain ⟨w1, h1, a, h2, h3⟩ := hh
    refine runs_then (assignSp_link (fun M' v i y r hv hk hr => ?_) hw h1) fun M' k1 k2 => set_link k1 h3
      (.bin (.scalar kb) (.bin (isVec_lget (isVec_frame hu (k2 u hne)) h2) (.scalar th)))
    obtain ⟨a, q1, q2⟩ := Res.bind_eq_ok.1 hr
    obtain rfl := Res.ok.inj q2
    exact .right (.scalar k) (.left (.right (isVec_lget (isVec_frame hu (hk u hne)) q1) (.vec x)) (.scalar th))
  · simp only [fromDualAll, Res.bind_eq_ok] at hh
    obtain ⟨w1, h1, a, h2, h3⟩ := hh
    obtain ⟨p1, p2, p3⟩ := dense2_eq h1
    refine runs_then (assign_link (w' := w1) hw (fun k hk => ?_) p2 fun i a ha => ?_) fun M' k1 k2 => set_link k1 h3
      (.bin (.scalar kb) (isVec_lget (isVec_frame hu (k2 u hne)) h2))
    · simp only [dualAll, mats, List.nil_append, List.mem_cons, List.not_mem_nil, or_false] at hk
      subst hk
      exact ⟨us, hu, p1.symm⟩
    · obtain ⟨c, hc⟩ := get_of_length p1 ha
      exact ⟨_, .bin (.scalar k) (.mat (isVec_get hu hc)), p3 i a c ha hc⟩
  · simp only [fromDualAll, Res.bind_eq_ok] at hh
    obtain ⟨w1, h1, a, h2, h3⟩ := hh
    obtain ⟨p1, p2, p3⟩ := dense2_eq h1
    refine runs_then (assign_link (w' := w1) hw (fun k hk => ?_) p2 fun i a ha => ?_) fun M' k1 k2 => set_link k1 h3
      (.bin (.scalar kb) (.bin (isVec_lget (isVec_frame hu (k2 u hne)) h2) (.scalar th)))
    · simp only [dualTruncAll, mats, List.nil_append, List.append_nil, List.mem_cons, List.not_mem_nil, or_false] at hk
      subst hk
      exact ⟨us, hu, p1.symm⟩
    · obtain ⟨c, hc⟩ := get_of_length p1 ha
      exact ⟨_, .bin (.scalar k) (.bin (.mat (isVec_get hu hc)) (.scalar th)), p3 i a c ha hc⟩

/-- **C82**: the statements of SOP; its steps on `v` are `C82_first_order`. -/
theorem C82_sop {M : Mem α} {h v X : Nat} {w vs Xs : List α} (hw : IsVec M h w) (hv : IsVec M v vs) (hX : IsVec M X Xs) (hvh : v ≠ h)
    (hXh : X ≠ h) (a : α) (x : SVec α) (w' : List α) :
    (calcExp (fun _ r => r) (fun _ i y => do
        let vi ← lget vs i
        let xi ← lget Xs i
        .ok (vi / (a + xi + y * y))) w x = .ok w' → Runs (sopS a x h v X M) M h w') ∧
      (calcExp (· + ·) (fun _ _ y => .ok (y * y)) Xs x = .ok w' → Runs (addSquaresS x X M) M X w') ∧
      ((do
        let q ← dense2 (fun vi xi => vi / (a + xi)) vs Xs
        dense2 (fun _ r => r) w q) = .ok w' → Runs (sopAllS a h v X M) M h w') := by
  refine ⟨fun hh => ?_, fun hh => ?_, fun hh => ?_⟩
  · refine assignSp_link (fun M' u i y r _ hk hr => ?_) hw hh
    simp only [Res.bind_eq_ok] at hr
    obtain ⟨vi, q1, xi, q2, q3⟩ := hr
    obtain rfl := Res.ok.inj q3
    exact .right (isVec_lget (isVec_frame hv (hk v hvh)) q1)
      (.right (.bin (.scalar a) (isVec_lget (isVec_frame hX (hk X hXh)) q2)) (.un (.vec x)))
  · refine calcSp_link _ (fun M' u i y r _ hk hr => ?_) hX hh
    obtain rfl := Res.ok.inj hr
    exact .un (.vec x)
  · simp only [Res.bind_eq_ok] at hh
    obtain ⟨q, h1, h2⟩ := hh
    obtain ⟨p1, p2, p3⟩ := dense2_eq h1
    obtain ⟨r1, r2, r3⟩ := dense2_eq h2
    refine assign_link hw (fun k hk => ?_) r2 fun i b hb => ?_
    · simp only [sopAll, mats, List.nil_append, List.cons_append, List.mem_cons, List.not_mem_nil, or_false] at hk
      rcases hk with rfl | rfl
      · exact ⟨vs, hv, by omega⟩
      · exact ⟨Xs, hX, by omega⟩
    · obtain ⟨vi, hvi⟩ := get_of_length (u := vs) (by omega) hb
      obtain ⟨xi, hxi⟩ := get_of_length (u := Xs) (by omega) hb
      exact ⟨_, .bin (.mat (isVec_get hv hvi)) (.bin (.scalar a) (.mat (isVec_get hX hxi))), r3 i b _ hb (p3 i vi xi hvi hxi)⟩

/-- **C82**: the statements of AdaFOBOS and AdaRDA and their variants. -/
theorem C82_ada {M : Mem α} {h u H : Nat} {w us Hs : List α} (hw : IsVec M h w) (hu : IsVec M u us) (hH : IsVec M H Hs) (huh : u ≠ h)
    (hHh : H ≠ h) (x : SVec α) (w' : List α) :
    (∀ delta g, adaH delta g x Hs = .ok w' → Runs (adaHS delta g x H M) M H w') ∧
      (∀ k b, adaStep k b x w Hs = .ok w' → Runs (adaStepS k b x h H M) M h w') ∧
      (∀ eta bias0, (do
        let w ← calcExp (fun _ r => r) (fun _ i _ => do
          let a ← lget us i
          let h ← lget Hs i
          .ok (-eta * a / h)) w x
        atBias (· * bias0) w) = .ok w' → Runs (adaDualS (-eta) bias0 x h u H M) M h w') ∧
      (∀ eta kb th, (do
        let w ← calcExp (fun _ r => r) (fun _ i _ => do
          let a ← lget us i
          let h ← lget Hs i
          .ok (-eta * trunc a th / h)) w x
        let u0 ← lget us 0
        let h0 ← lget Hs 0
        lset w 0 (kb * trunc u0 th / h0)) = .ok w' → Runs (adaDualTruncS (-eta) kb th x h u H M) M h w') ∧
      (∀ eta bias0, adaRdaEnd (fun a => a) eta bias0 w us Hs = .ok w' → Runs (adaDualAllS (-eta) bias0 h u H M) M h w') ∧
      ∀ eta bias0 th, adaRdaEnd (fun a => trunc a th) eta bias0 w us Hs = .ok w' →
        Runs (adaDualTruncAllS (-eta) bias0 th h u H M) M h w' := by
  refine ⟨fun delta g hh => ?_, fun k b hh => ?_, fun eta bias0 hh => ?_, fun eta kb th hh => ?_, fun eta bias0 hh => ?_,
    fun eta bias0 th hh => ?_⟩
  · simp only [adaH, Res.bind_eq_ok] at hh
    obtain ⟨w1, h1, h2⟩ := hh
    refine runs_then (assignSp_link (fun M' v i y r hv hk hr => ?_) hH h1) fun M' k1 k2 => bias_link _ k1 h2 fun a ha =>
      ⟨_, .bin (.un (.bin (.bin (.bin (isVec_lget k1 ha) (.scalar delta)) (.bin (isVec_lget k1 ha) (.scalar delta))) (.scalar (g * g))))
        (.scalar delta), rfl⟩
    simp only [Res.bind_eq_ok] at hr
    obtain ⟨b, q1, q2⟩ := hr
    obtain rfl := Res.ok.inj q2
    exact .left (.un (.right (.un (.bin (isVec_lget hv q1) (.scalar delta))) (.un (.right (.scalar g) (.vec x))))) (.scalar delta)
  · simp only [adaStep, Res.bind_eq_ok] at hh
    obtain ⟨w1, h1, h0, h2, h3⟩ := hh
    refine runs_then (calcSp_link _ (fun M' v i y r hv hk hr => ?_) hw h1) fun M' k1 k2 => bias_link _ k1 h3 fun a ha =>
      ⟨_, .bin (.scalar b) (isVec_lget (isVec_frame hH (k2 H hHh)) h2), rfl⟩
    simp only [Res.bind_eq_ok] at hr
    obtain ⟨c, q1, q2⟩ := hr
    obtain rfl := Res.ok.inj q2
    exact .left (.right (.scalar k) (.vec x)) (isVec_lget (isVec_frame hH (hk H hHh)) q1)
  · simp only [Res.bind_eq_ok] at hh
    obtain ⟨w1, h1, h2⟩ := hh
    refine runs_then (assignSp_link (fun M' v i y r hv hk hr => ?_) hw h1) fun M' k1 k2 => bias_link _ k1 h2 fun a ha =>
      ⟨bias0, .scalar bias0, rfl⟩
    simp only [Res.bind_eq_ok] at hr
    obtain ⟨a, q1, c, q2, q3⟩ := hr
    obtain rfl := Res.ok.inj q3
    exact .left (.right (.scalar _) (.right (isVec_lget (isVec_frame hu (hk u huh)) q1) (.vec x))) (isVec_lget (isVec_frame hH (hk H hHh)) q2)
  · simp only [Res.bind_eq_ok] at hh
    obtain ⟨w1, h1, u0, h2, h0, h3, h4⟩ := hh
    refine runs_then (assignSp_link (fun M' v i y r hv hk hr => ?_) hw h1) fun M' k1 k2 => set_link k1 h4
      (.bin (.bin (.scalar kb) (.bin (isVec_lget (isVec_frame hu (k2 u huh)) h2) (.scalar th))) (isVec_lget (isVec_frame hH (k2 H hHh)) h3))
    simp only [Res.bind_eq_ok] at hr
    obtain ⟨a, q1, c, q2, q3⟩ := hr
    obtain rfl := Res.ok.inj q3
    exact .left (.right (.scalar _) (.left (.right (isVec_lget (isVec_frame hu (hk u huh)) q1) (.vec x)) (.scalar th)))
      (isVec_lget (isVec_frame hH (hk H hHh)) q2)
  · simp only [adaRdaEnd, Res.bind_eq_ok] at hh
    obtain ⟨q, h1, w1, h2, h3⟩ := hh
    obtain ⟨p1, p2, p3⟩ := dense2_eq h1
    obtain ⟨r1, r2, r3⟩ := dense2_eq h2
    refine runs_then (assign_link (w' := w1) hw (fun k hk => ?_) r2 fun i b hb => ?_) fun M' k1 k2 => bias_link _ k1 h3 fun a ha =>
      ⟨bias0, .scalar bias0, rfl⟩
    · simp only [adaDualAll, dualAll, mats, List.nil_append, List.cons_append, List.mem_cons, List.not_mem_nil, or_false] at hk
      rcases hk with rfl | rfl
      · exact ⟨us, hu, by omega⟩
      · exact ⟨Hs, hH, by omega⟩
    · obtain ⟨a, ha⟩ := get_of_length (u := us) (by omega) hb
      obtain ⟨c, hc⟩ := get_of_length (u := Hs) (by omega) hb
      exact ⟨_, .bin (.bin (.scalar _) (.mat (isVec_get hu ha))) (.mat (isVec_get hH hc)), r3 i b _ hb (p3 i a c ha hc)⟩
  · simp only [adaRdaEnd, Res.bind_eq_ok] at hh
    obtain ⟨q, h1, w1, h2, h3⟩ := hh
    obtain ⟨p1, p2, p3⟩ := dense2_eq h1
    obtain ⟨r1, r2, r3⟩ := dense2_eq h2
    refine runs_then (assign_link (w' := w1) hw (fun k hk => ?_) r2 fun i b hb => ?_) fun M' k1 k2 => bias_link _ k1 h3 fun a ha =>
      ⟨bias0, .scalar bias0, rfl⟩
    · simp only [adaDualTruncAll, dualTruncAll, mats, List.nil_append, List.append_nil, List.cons_append, List.mem_cons, List.not_mem_nil,
        or_false] at hk
      rcases hk with rfl | rfl
      · exact ⟨us, hu, by omega⟩
      · exact ⟨Hs, hH, by omega⟩
    · obtain ⟨a, ha⟩ := get_of_length (u := us) (by omega) hb
      obtain ⟨c, hc⟩ := get_of_length (u := Hs) (by omega) hb
      exact ⟨_, .bin (.bin (.scalar _) (.bin (.mat (isVec_get hu ha)) (.scalar th))) (.mat (isVec_get hH hc)), r3 i b _ hb (p3 i a c ha hc)⟩

/-- **C82**: the sums over the classes that feature selection looks at. -/
theorem C82_select {M : Mem α} {h : Nat} {v : List α} (hv : IsVec M h v) {k : Nat} {w : List α} (hw : IsVec M k w) (hne : k ≠ h)
    (x : SVec α) (v' : List α) :
    Runs (clearS h M) M h (List.replicate v.length 0) ∧
      (absAt x [w] v = .ok v' → Runs (absFirstS x h k M) M h v') ∧
      (absMore x [w] v = .ok v' → Runs (absMoreS x h k M) M h v') ∧
      (absAll [w] v = .ok v' → Runs (absAllS h k M) M h v') ∧ (sumAll [w] v = .ok v' → Runs (sumS h k M) M h v') := by
  refine ⟨?_, fun hh => ?_, fun hh => ?_, fun hh => ?_, fun hh => ?_⟩
  · refine assign_link hv (fun k hk => by cases hk) (by simp) fun i a ha => ⟨0, .scalar 0, ?_⟩
    have := (List.getElem?_eq_some_iff.1 ha).1
    simp [this]
  · simp only [absAt, absMore, Res.bind_eq_ok, Res.ok.injEq] at hh
    obtain ⟨v1, h1, rfl⟩ := hh
    refine assignSp_link (fun M' u i y r _ hk hr => ?_) hv h1
    simp only [Res.bind_eq_ok] at hr
    obtain ⟨a, q1, q2⟩ := hr
    obtain rfl := Res.ok.inj q2
    exact .un (.right (isVec_lget (isVec_frame hw (hk k hne)) q1) (.vec x))
  · simp only [absMore, Res.bind_eq_ok, Res.ok.injEq] at hh
    obtain ⟨v1, h1, rfl⟩ := hh
    refine calcSp_link _ (fun M' u i y r _ hk hr => ?_) hv h1
    simp only [Res.bind_eq_ok] at hr
    obtain ⟨a, q1, q2⟩ := hr
    obtain rfl := Res.ok.inj q2
    exact .un (.right (isVec_lget (isVec_frame hw (hk k hne)) q1) (.vec x))
  · simp only [absAll, Res.bind_eq_ok, Res.ok.injEq] at hh
    obtain ⟨v1, h1, rfl⟩ := hh
    obtain ⟨p1, p2, p3⟩ := dense2_eq h1
    refine calcFlat_link _ hv (fun j hj => ?_) p2 fun i a ha => ?_
    · simp only [absAllE, mats, List.mem_cons, List.not_mem_nil, or_false] at hj
      subst hj
      exact ⟨w, hw, p1.symm⟩
    · obtain ⟨b, hb⟩ := get_of_length p1 ha
      exact ⟨_, .un (.mat (isVec_get hw hb)), p3 i a b ha hb⟩
  · simp only [sumAll, Res.bind_eq_ok, Res.ok.injEq] at hh
    obtain ⟨v1, h1, rfl⟩ := hh
    obtain ⟨p1, p2, p3⟩ := dense2_eq h1
    refine calcFlat_link _ hv (fun j hj => ?_) p2 fun i a ha => ?_
    · simp only [mats, List.mem_cons, List.not_mem_nil, or_false] at hj
      subst hj
      exact ⟨w, hw, p1.symm⟩
    · obtain ⟨b, hb⟩ := get_of_length p1 ha
      exact ⟨_, .mat (isVec_get hw hb), p3 i a b ha hb⟩

end

/-! ### Examples -/

/-- A vector with spare storage, two of the same length, an empty one and a short one. -/
def shelf : Mem ℚ := fun k => match k with
  | 0 => some ⟨1, 3, [1, 2, 4, 9]⟩
  | 1 => some ⟨1, 3, [10, 20, 30]⟩
  | 2 => some ⟨1, 0, []⟩
  | 3 => some ⟨1, 1, [7]⟩
  | 4 => some ⟨2, 2, [1, 2, 3, 4]⟩
  | _ => none

/-- What the storage of matrix `h` is afterwards. -/
def After (r : Res (Mem ℚ)) (h : Nat) (d : List ℚ) : Prop := ∃ M, r = .ok M ∧ ∃ m, M h = some m ∧ m.data = d

/-- `w = w * w - v` and `Sigma /= (1 + Sigma * L2(x) * r1)` read what they overwrite, feature 5 is beyond the end, and the spare storage stays
    as it is; a vector of another length is refused. -/
theorem C82_instance :
    Stored shelf 0 1 3 ∧ (∀ k ∈ mats (.bin (· - ·) (.bin (· * ·) (.mat 0) (.mat 0)) (.mat 1) : Flat ℚ), Stored shelf k 1 3) ∧
      After (assign shelf 0 (.bin (· - ·) (.bin (· * ·) (.mat 0) (.mat 0)) (.mat 1))) 0 [-9, -16, -14, 9] ∧
      Ascending ([(1, 2), (2, 1), (5, 3)] : SVec ℚ) ∧
      After (calcSp (· / ·) shelf 0 (arowDivisor 3 0 [(1, 2), (2, 1), (5, 3)])) 0 [1, 2 / 25, 4 / 13, 9] ∧
      After (arowSigS 3 [(1, 2), (2, 1), (5, 3)] 0 shelf) 0 [1 / 4, 2 / 25, 4 / 13, 9] ∧
      IsVec shelf 0 [1, 2, 4] ∧ arowSig 3 [(1, 2), (2, 1), (5, 3)] [1, 2, 4] = .ok [1 / 4, 2 / 25, 4 / 13] ∧
      calcFlat (· + ·) shelf 0 (.bin (· * ·) (.scalar 2) (.mat 3)) = .ub .exception ∧
      dotSp (· * ·) shelf (.mat 0) (squares [(1, 2), (2, 1), (5, 3)]) = .ok 12 ∧
      Expr.dot (· * ·) shelf (.mat 0) (.mat 1) = .ok 170 := by
  refine ⟨⟨_, rfl, rfl, rfl, by decide⟩, fun k hk => ?_, ⟨_, rfl, _, rfl, by decide +kernel⟩, by simp [Ascending], ⟨_, rfl, _, rfl, by decide +kernel⟩,
    ⟨_, rfl, _, rfl, by decide +kernel⟩, ⟨_, rfl, rfl, rfl, by decide +kernel⟩, by decide +kernel, rfl, by decide +kernel, by decide +kernel⟩
  simp only [mats, List.cons_append, List.nil_append, List.mem_cons, List.not_mem_nil, or_false] at hk
  rcases hk with rfl | rfl | rfl
  · exact ⟨_, rfl, rfl, rfl, by decide⟩
  · exact ⟨_, rfl, rfl, rfl, by decide⟩
  · exact ⟨_, rfl, rfl, rfl, by decide⟩

/-- **C82 is violated**: an empty operand is taken for a number and read out of bounds; a short operand beside a sparse vector is read out of
    bounds; a matrix cannot be constructed from an expression that is not empty; an element of a row other than the first, read through a
    constant matrix, is an element of the first row. -/
theorem C82_is_violated :
    calcFlat (· + ·) shelf 0 (.mat 2) = .ub .outOfBounds ∧
      calcSp (· - ·) shelf 0 (.right (· * ·) (.mat 3) (.vec [(1, 2)])) = .ub .outOfBounds ∧
      (∀ (M : Mem ℚ) (h r c : Nat) (e : Flat ℚ), h ∉ mats e → (∀ k ∈ mats e, Stored M k r c) → mats e ≠ [] → r * c ≠ 0 →
        construct M h e = .ub .exception) ∧
      element (⟨2, 2, [1, 2, 3, 4]⟩ : Mat ℚ) 0 1 = .ok 3 ∧ elementConst (⟨2, 2, [1, 2, 3, 4]⟩ : Mat ℚ) 0 1 = .ok 1 := by
  refine ⟨by rfl, by rfl, fun M h r c e hh he h0 hrc => ?_, by rfl, by rfl⟩
  have he' : ∀ k ∈ mats e, Stored ((initMat (fun k => if k = h then none else M k) h)) k r c := by
    intro k hk
    have hkh : k ≠ h := fun hc => hh (hc ▸ hk)
    obtain ⟨m, h1, h2⟩ := he k hk
    exact ⟨m, by simp [initMat, Mem.put, hkh, h1], h2⟩
  obtain ⟨s, e1, -, q1⟩ := shape_size he' h0
  obtain rfl := q1 hrc
  have hsh : shapeOf (initMat (fun k => if k = h then none else M k) h) h = .ok (0, 0) := by simp [shapeOf, initMat, Mem.put]
  rw [construct, assign, calcFlat, hsh, Res.bind_ok, e1, Res.bind_ok, if_pos]
  refine ⟨hrc, fun hc => hrc ?_⟩
  obtain ⟨rfl, rfl⟩ := Prod.mk.inj hc
  rfl

end Sol.Props
