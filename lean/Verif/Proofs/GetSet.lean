import Verif.Proofs.LoadText
import Verif.Spec.CApi
/-! Proofs about listing the parameters and setting them again. -/

namespace Sol.CApi
open Sol.Params Sol.Spec Sol.Json Sol.Text Sol.FloatText

/-! ### Listing -/

theorem shown_fin (q : ℚ) : shownText (.real (.fin q)) = put (.fin q) := rfl

theorem shown_int (n : Int) : shownText (.int n) = showInt n := rfl

theorem shown_str (v : List Char) : shownText (.str v) = v := rfl

theorem shown_real (x : F32) : realText x = shownText (.real x) := by cases x <;> rfl

theorem member_tok (k : List Char) (x : Tok) : member k x.value = some [(k, shownText x)] := by
  cases x with
  | str s => rw [Tok.value, member, asString]; rfl
  | int n => rw [Tok.value, member, asString]; rfl
  | real x => rw [Tok.value, member, asString, shown_real]; rfl

theorem parameters_toks (l : List (String × Tok)) : parameters (members (l.map fun p => (p.1.toList, p.2.value))) =
    some (l.map fun p => (p.1.toList, shownText p.2)) := by
  induction l with
  | nil => simp [members, parameters]
  | cons p l ih => 
    simp only [List.map_cons, members, parameters, member_tok, ih]
    rfl

/-- The names and values in the order of the calls. -/
def listed (m : M) : List (String × Tok) :=
  [("clf_num", .int m.clf), ("cls_num", .int m.classNum), ("loss", .str (lossText m)), ("model", .str (modelName m.cls).toList),
   ("norm", .int (normNum m.norm))] ++ ((save m).online ++ if regOf m.cls = .none then [] else [("lambda", .real m.lambda)])

theorem get_listed (m : M) : getModelParameters m = some ((listed m).map fun p => (p.1.toList, shownText p.2)) := by
  unfold getModelParameters tree listed
  dsimp only
  have hl : (save m).lambda = if regOf m.cls = .none then none else some (.real m.lambda) := rfl
  rw [hl]
  have h1 : ∀ n : Int, member "clf_num".toList (.int n) = some [("clf_num".toList, shownText (.int n))] := fun n => member_tok _ (.int n)
  have h2 : ∀ n : Int, member "cls_num".toList (.int n) = some [("cls_num".toList, shownText (.int n))] := fun n => member_tok _ (.int n)
  have h3 : ∀ n : Int, member "norm".toList (.int n) = some [("norm".toList, shownText (.int n))] := fun n => member_tok _ (.int n)
  have h4 : ∀ s, member "loss".toList (.str s) = some [("loss".toList, shownText (.str s))] := fun s => member_tok _ (.str s)
  have h5 : ∀ s, member "model".toList (.str s) = some [("model".toList, shownText (.str s))] := fun s => member_tok _ (.str s)
  have h6 : ∀ k l, member k (.obj l) = parameters l := fun k l => by rw [member]
  have h7 := member_tok "lambda".toList (.real m.lambda)
  by_cases hr : regOf m.cls = .none
  · simp only [hr, if_true, List.append_nil, members, parameters, h1, h2, h3, h4, h5, h6, parameters_toks, List.map_append,
      List.map_cons, List.cons_append, List.nil_append]
    rfl
  · simp only [hr, if_false, List.cons_append, List.nil_append, members, parameters, h1, h2, h3, h4, h5, h6, parameters_toks,
      List.map_append, List.map_cons, List.map_nil]
    rw [h7]
    simp only [List.append_nil, List.cons_append, List.nil_append]
    rfl

theorem mem_online (m : M) (k : String) (x : Tok) : (k, x) ∈ (save m).online ↔ k ∈ keys ∧ online m k = some x := by
  rw [save_online, List.mem_filterMap]
  constructor
  · rintro ⟨j, hj, h⟩
    cases ho : online m j with
    | none => rw [ho] at h; cases h
    | some y =>
      rw [ho] at h
      cases h
      exact ⟨hj, ho⟩
  · rintro ⟨hk, h⟩
    exact ⟨k, hk, by rw [h]; rfl⟩

theorem listed_iff (m : M) (k : String) (x : Tok) : (k, x) ∈ listed m ↔ info m k = some x := by
  unfold listed
  rw [List.mem_append, List.mem_append, mem_online]
  by_cases h5 : k ∈ ["model", "cls_num", "clf_num", "loss", "norm"]
  · have hk : k ∉ keys := by
      simp only [List.mem_cons, List.not_mem_nil, or_false] at h5
      rcases h5 with rfl | rfl | rfl | rfl | rfl <;> decide
    have hl : k ≠ "lambda" := by
      rintro rfl
      exact absurd h5 (by decide)
    have hlast : ((k, x) ∈ (if regOf m.cls = .none then [] else [("lambda", Tok.real m.lambda)])) ↔ False := by
      split_ifs <;> simp [hl]
    simp only [hk, hlast, false_and, or_false]
    simp only [List.mem_cons, List.not_mem_nil, or_false] at h5
    rcases h5 with rfl | rfl | rfl | rfl | rfl <;> simp [info, eq_comm]
  · have h1 : ((k, x) ∈ [("clf_num", Tok.int m.clf), ("cls_num", .int m.classNum), ("loss", .str (lossText m)),
        ("model", .str (modelName m.cls).toList), ("norm", .int (normNum m.norm))]) ↔ False := by
      simp only [List.mem_cons, List.not_mem_nil, or_false, not_or] at h5
      simp [h5.1, h5.2.1, h5.2.2.1, h5.2.2.2.1, h5.2.2.2.2]
    rw [h1, false_or]
    by_cases hk : k ∈ keys
    · by_cases hl : k = "lambda" ∧ regOf m.cls ≠ .none
      · obtain ⟨rfl, hr⟩ := hl
        have ho : online m "lambda" = none := by
          cases h : online m "lambda" with
          | none => rfl
          | some y =>
            rw [online_lambda h] at hr
            exact absurd rfl hr
        rw [if_neg hr, ho]
        simp [info, hr, eq_comm]
      · have hno : ((k, x) ∈ (if regOf m.cls = .none then [] else [("lambda", Tok.real m.lambda)])) ↔ False := by
          split_ifs with hr
          · simp
          · have : k ≠ "lambda" := fun h => hl ⟨h, hr⟩
            simp [this]
        rw [hno, or_false, info_online hk (fun h => not_not.1 fun h' => hl ⟨h, h'⟩)]
        exact ⟨fun h => h.2, fun h => ⟨hk, h⟩⟩
    · rw [info_none hk h5]
      have : k ≠ "lambda" := by
        rintro rfl
        exact hk (by decide)
      simp only [hk, false_and, false_or, reduceCtorEq, iff_false]
      split_ifs <;> simp [this]

theorem online_names_nodup (m : M) : ((save m).online.map Prod.fst).Nodup := by
  have hs : ((save m).online.map Prod.fst).Sublist keys := by
    rw [save_online]
    generalize keys = ks
    induction ks with
    | nil => exact .slnil
    | cons k ks ih =>
      rw [List.filterMap_cons]
      cases h : online m k with
      | none => exact ih.cons _
      | some x => exact ih.cons_cons _
  exact hs.nodup (by decide)

theorem listed_nodup (m : M) : ((listed m).map Prod.fst).Nodup := by
  have hk : ∀ k ∈ (save m).online.map Prod.fst, k ∈ keys ∧ (k = "lambda" → regOf m.cls = .none) := by
    intro k hk
    rw [List.mem_map] at hk
    obtain ⟨⟨k', x⟩, h, rfl⟩ := hk
    obtain ⟨h1, h2⟩ := (mem_online m k' x).1 h
    refine ⟨h1, ?_⟩
    rintro e
    dsimp only at e
    subst e
    rw [online_lambda h2]
    rfl
  unfold listed
  rw [List.map_append, List.nodup_append]
  refine ⟨by simp only [List.map_cons, List.map_nil]; decide, ?_, ?_⟩
  · rw [List.map_append, List.nodup_append]
    refine ⟨online_names_nodup m, by split_ifs <;> simp, ?_⟩
    intro a ha b hb
    split_ifs at hb with hr
    · simp at hb
    · simp only [List.map_cons, List.map_nil, List.mem_cons, List.not_mem_nil, or_false] at hb
      subst hb
      rintro rfl
      exact hr ((hk _ ha).2 rfl)
  · intro a ha b hb
    have hb' : b ∈ keys := by
      rw [List.map_append, List.mem_append] at hb
      rcases hb with hb | hb
      · exact (hk b hb).1
      · split_ifs at hb with hr
        · simp at hb
        · simp only [List.map_cons, List.map_nil, List.mem_cons, List.not_mem_nil, or_false] at hb
          subst hb
          decide
    rintro rfl
    simp only [List.map_cons, List.map_nil, List.mem_cons, List.not_mem_nil, or_false] at ha
    rcases ha with rfl | rfl | rfl | rfl | rfl <;> revert hb' <;> decide

/-- What is listed is what the model reports. -/
theorem get_shows (m : M) : ∃ l, getModelParameters m = some (l.map fun p => (p.1.toList, p.2)) ∧ Shows m l := by
  refine ⟨(listed m).map fun p => (p.1, shownText p.2), ?_, ?_, ?_⟩
  · rw [get_listed, List.map_map]
    rfl
  · rw [List.map_map]
    exact listed_nodup m
  · intro k v
    rw [List.mem_map]
    constructor
    · rintro ⟨⟨k', x⟩, h, e⟩
      cases e
      exact ⟨x, (listed_iff m _ _).1 h, rfl⟩
    · rintro ⟨x, h, rfl⟩
      exact ⟨(k, x), (listed_iff m _ _).2 h, rfl⟩

/-! ### Setting -/

variable {files : List Char → Option (List Char)}

theorem text_shown {x : Tok} {v : List Char} (h : x.text = some v) (hn : x ≠ .real .nan) : v = shownText x := by
  cases x with
  | str s => rw [shown_str]; simpa [Tok.text] using h.symm
  | int n => rw [shown_int]; simpa [Tok.text] using h.symm
  | real x =>
    cases x with
    | fin q => rw [shown_fin]; rw [Tok.text] at h; exact (Option.some.inj h).symm
    | nan => exact absurd rfl hn
    | pinf => simp [Tok.text] at h
    | ninf => simp [Tok.text] at h

theorem set_names (files : List Char → Option (List Char)) (m : M) (v : List Char) {k : String}
    (hk : k ∈ ["model", "cls_num", "clf_num"]) : Params.set files m k v = onlineSet files m k v := by
  have hne : ∀ j ∈ ["power_t", "eta", "k", "C", "p", "alpha", "loss", "norm", "r", "a", "phi", "bias_eta", "sigma", "rou", "delta",
      "lambda", "B"], k ≠ j := by
    rintro j hj rfl
    simp only [List.mem_cons, List.not_mem_nil, or_false] at hk
    rcases hk with rfl | rfl | rfl <;> revert hj <;> decide
  simp only [List.forall_mem_cons, List.not_mem_nil, false_implies, implies_true, and_true] at hne
  obtain ⟨h1, h2, h3, h4, h5, h6, h7, h8, h9, h10, h11, h12, h13, h14, h15, h16, h17⟩ := hne
  unfold Params.set
  split <;> simp only [perceptronSet, ogdSet, stgSet, paSet, almaSet, arowSet, cwSet, rdaSet, erdaSet, sopSet, adaSet, fofsSet, ofB,
    h1, h2, h3, h4, h5, h6, h7, h8, h9, h10, h11, h12, h13, h14, h15, h16, h17, if_false]

theorem set_lambda {m : M} (hr : regOf m.cls ≠ .none) {v : List Char} {x : F32} (h : stof v = .ok x) :
    (Params.set files m "lambda" v).2 = .accepted := by
  have ho : onlineSet files m "lambda" v = ({ m with lambda := x }, .accepted) := by
    rw [online_reg files m v (by decide) (by decide), regSet_lambda, if_neg hr, num_ok h]
  cases hc : m.cls <;> rw [hc] at hr <;> first
    | exact absurd rfl hr
    | simp [Params.set, hc, ogdSet, stgSet, paSet, almaSet, cwSet, sopSet, perceptronSet, arowSet, rdaSet, erdaSet, adaSet, ofB, ho]

/-- What is kept while settings are put into a model. -/
structure Filling (m m0 : M) : Prop where
  cls : m0.cls = m.cls
  classNum : m0.classNum = m.classNum
  dim : m0.dim ≤ m.dim

/-- Setting one shown value. -/
theorem shown_step {m m0 : M} (hm : Savable m) (hn : m.classNum ≤ 2147483647) (hf : Filling m m0) {k : String} {x : Tok}
    (hx : info m k = some x) :
    (Params.set files m0 k (shownText x)).2 = .accepted ∧ Took m0 (shownText x) k (Params.set files m0 k (shownText x)).1 ∧
      info (Params.set files m0 k (shownText x)).1 k = some x.back := by
  have hn1 := hm.classNum
  by_cases h5 : k ∈ ["model", "cls_num", "clf_num"]
  · have hclf : m0.clf = m.clf := by unfold M.clf; rw [hf.classNum]
    have hb : 1 ≤ m.clf ∧ m.clf ≤ 2147483647 := by
      unfold M.clf
      split <;> omega
    have hset : Params.set files m0 k (shownText x) = (m0, .accepted) ∧ x.back = x ∧ info m0 k = some x := by
      rw [set_names files m0 _ h5]
      simp only [List.mem_cons, List.not_mem_nil, or_false] at h5
      rcases h5 with rfl | rfl | rfl
      · simp [info] at hx
        subst hx
        rw [online_model, shown_str]
        simp [hf.cls, check, Tok.back, info]
      · simp [info] at hx
        subst hx
        rw [online_clsNum, shown_int, int_ok (stoi_showInt (n := m.classNum) (by omega) hn)]
        simp [hf.classNum, check, Tok.back, info]
      · simp [info] at hx
        subst hx
        rw [online_clfNum, shown_int, int_ok (stoi_showInt (n := m.clf) (by omega) hb.2)]
        simp [hclf, check, Tok.back, info]
    rw [hset.1, hset.2.1]
    exact ⟨rfl, .same k h5, hset.2.2⟩
  by_cases hloss : k = "loss"
  · subst hloss
    obtain ⟨c, hc, ha⟩ := hm.loss
    have e : x = .str (lossName c).toList := by
      simp [info, lossText, hc] at hx
      exact hx.symm
    subst e
    have hacc := acc_loss (files := files) (m := m0) (k := c) (by rw [hf.classNum]; exact hn1) (by rw [hf.cls, hf.classNum]; exact ha)
    have ht := set_took hacc
    rw [target_other (by decide)] at ht
    refine ⟨hacc, ht, ?_⟩
    obtain ⟨c', e1, e2⟩ := took_loss ht rfl
    rw [lossNamed_lossName] at e1
    cases e1
    simp only [info, String.reduceEq, if_false, if_true, lossText]
    rw [show (Params.set files m0 "loss" (shownText (.str (lossName c).toList))).1.loss = some c from e2]
    rfl
  by_cases hnorm : k = "norm"
  · subst hnorm
    have e : x = .int (normNum m.norm) := by
      simp [info] at hx
      exact hx.symm
    subst e
    have hacc := acc_norm (files := files) (m := m0) (n := m.norm) (fun h => hm.norm (by rw [← hf.cls]; exact h))
    have ht := set_took hacc
    rw [target_other (by decide)] at ht
    refine ⟨hacc, ht, ?_⟩
    have := norm_of_text (took_norm ht rfl)
    simp only [info, String.reduceEq, if_false, if_true]
    rw [show (Params.set files m0 "norm" (shownText (.int (normNum m.norm)))).1.norm = m.norm from this]
    rfl
  by_cases hl : k = "lambda" ∧ regOf m.cls ≠ .none
  · obtain ⟨rfl, hr⟩ := hl
    have e : x = .real m.lambda := by
      simp [info, hr] at hx
      exact hx.symm
    subst e
    have hord := hm.ordinary _ _ hx
    obtain ⟨v, h1, h2⟩ := ordinary_stof hord
    have hv := text_shown h1 (by
      intro h
      obtain ⟨q, hq, _⟩ := hord
      rw [hq] at h
      simp at h)
    subst hv
    have hacc := set_lambda (files := files) (m := m0) (by rw [hf.cls]; exact hr) h2
    have ht := set_took hacc
    rw [target_other (by decide)] at ht
    obtain ⟨y, h3, h4⟩ := took_real ht (by decide)
    rw [h2] at h3
    cases h3
    exact ⟨hacc, ht, h4⟩
  · have hk : k ∈ keys := by
      by_contra hk
      have h5' : k ∉ ["model", "cls_num", "clf_num", "loss", "norm"] := by
        simp only [List.mem_cons, List.not_mem_nil, or_false, not_or] at h5 ⊢
        exact ⟨h5.1, h5.2.1, h5.2.2, hloss, hnorm⟩
      rw [info_none hk h5'] at hx
      cases hx
    have ho : online m k = some x := by
      rw [← info_online hk fun h => not_not.1 fun h' => hl ⟨h, h'⟩]
      exact hx
    obtain ⟨v, h1, h2, h3, h4⟩ := key_step (files := files) hm hf.cls hf.classNum hf.dim hk ho
    have hv := text_shown h1 (by
      rintro rfl
      obtain ⟨q, hq, _⟩ := hm.ordinary _ _ hx
      cases hq)
    subst hv
    exact ⟨h2, h3, h4⟩

theorem setParams_cons {m : M} {k : String} {v : List Char} {l : List (String × List Char)} (h : (Params.set files m k v).2 = .accepted) :
    CApi.setParams files m ((k, v) :: l) = CApi.setParams files (Params.set files m k v).1 l := by
  rw [CApi.setParams, setModelParameter]
  generalize Params.set files m k v = r at h ⊢
  obtain ⟨m', e⟩ := r
  dsimp only at h
  subst h
  rfl

theorem set_shown {m : M} (hm : Savable m) (hn : m.classNum ≤ 2147483647) (l : List (String × List Char))
    (hnd : (l.map Prod.fst).Nodup) (hl : ∀ k v, (k, v) ∈ l → ∃ x, info m k = some x ∧ v = shownText x) (m0 : M) (hf : Filling m m0) :
    ∃ m1, CApi.setParams files m0 l = .value m1 ∧ Filling m m1 ∧
      (∀ k x, k ∈ l.map Prod.fst → info m k = some x → info m1 k = some x.back) ∧
      (∀ k, k ∉ l.map Prod.fst → info m1 k = info m0 k) := by
  induction l generalizing m0 with
  | nil => exact ⟨m0, rfl, hf, by simp, fun _ _ => rfl⟩
  | cons p l ih =>
    obtain ⟨k, v⟩ := p
    obtain ⟨x, hx, rfl⟩ := hl k v List.mem_cons_self
    obtain ⟨h1, h2, h3⟩ := shown_step (files := files) hm hn hf hx
    rw [List.map_cons, List.nodup_cons] at hnd
    obtain ⟨hcls, hnum⟩ := took_cls h2
    have hdim : (Params.set files m0 k (shownText x)).1.dim ≤ m.dim := by
      by_cases hk : k = "dim"
      · subst hk
        rw [info_dim] at h3 hx
        cases hx
        simp [Tok.back] at h3
        omega
      · have := took_info h2 (j := "dim") (Ne.symm hk)
        rw [info_dim, info_dim] at this
        simp at this
        have := hf.dim
        omega
    obtain ⟨m1, e1, e2, e3, e4⟩ := ih hnd.2 (fun k v h => hl k v (List.mem_cons_of_mem _ h)) (Params.set files m0 k (shownText x)).1
      ⟨hcls.trans hf.cls, hnum.trans hf.classNum, hdim⟩
    refine ⟨m1, by rw [setParams_cons h1, e1], e2, ?_, ?_⟩
    · intro j y hj hy
      rw [List.map_cons, List.mem_cons] at hj
      by_cases hjl : j ∈ l.map Prod.fst
      · exact e3 j y hjl hy
      · obtain rfl : j = k := hj.resolve_right hjl
        rw [e4 j hjl, h3]
        rw [hx] at hy
        cases hy
        rfl
    · intro j hj
      rw [List.map_cons, List.mem_cons, not_or] at hj
      rw [e4 j hj.2, took_info h2 hj.1]

theorem info_absent {m : M} {k : String} (h : info m k = none) : info (fresh m.cls m.classNum) k = none := by
  by_cases h5 : k ∈ ["model", "cls_num", "clf_num", "loss", "norm"]
  · simp only [List.mem_cons, List.not_mem_nil, or_false] at h5
    rcases h5 with rfl | rfl | rfl | rfl | rfl <;> simp [info] at h
  · by_cases hk : k ∈ keys
    · have hl : k = "lambda" → regOf m.cls = .none := by
        rintro rfl
        by_contra hr
        simp [info, hr] at h
      exact info_fresh_none hk (by rw [← info_online hk hl]; exact h) hl
    · exact info_none hk h5

/-- A new model takes all shown values, in any order, and reports them again, up to printing. -/
theorem set_shows {m : M} (hm : Savable m) (hn : m.classNum ≤ 2147483647) {l : List (String × List Char)} (h : Shows m l) :
    ∃ m', CApi.setParams files (fresh m.cls m.classNum) l = .value m' ∧ m'.cls = m.cls ∧ m'.classNum = m.classNum ∧
      ∀ k, info m' k = (info m k).map Tok.back := by
  obtain ⟨m1, e1, e2, e3, e4⟩ := set_shown (files := files) hm hn l h.once (fun k v hk => (h.all k v).1 hk) (fresh m.cls m.classNum)
    ⟨rfl, rfl, hm.shape.dim⟩
  refine ⟨m1, e1, e2.cls, e2.classNum, fun k => ?_⟩
  cases hx : info m k with
  | some x => exact e3 k x (List.mem_map.2 ⟨(k, shownText x), (h.all k _).2 ⟨x, hx, rfl⟩, rfl⟩) hx
  | none =>
    rw [e4 k ?_, info_absent hx]
    · rfl
    · rw [List.mem_map]
      rintro ⟨⟨k', v⟩, hp, rfl⟩
      obtain ⟨x, hx', _⟩ := (h.all _ _).1 hp
      rw [hx] at hx'
      cases hx'

end Sol.CApi
