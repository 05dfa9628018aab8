import Verif.Spec.Params
/-!
# Rejected parameters
-/

namespace Sol.Params
open Sol.Text Sol.FloatText Sol.PreProcess Sol.Spec

variable {files : List Char → Option (List Char)}

theorem num_cases (m : M) (v : List Char) (f : F32 → M × End) :
    (∃ e, stof v = .error e ∧ num m v f = (m, endOf e)) ∨ ∃ x, stof v = .ok x ∧ num m v f = f x := by
  unfold num
  cases h : stof v with
  | ok x => exact .inr ⟨x, rfl, rfl⟩
  | error e => exact .inl ⟨e, rfl, rfl⟩

theorem int_cases (m : M) (v : List Char) (f : Int → M × End) :
    (∃ e, stoi v = .error e ∧ int m v f = (m, endOf e)) ∨ ∃ x r, stoi v = .ok (x, r) ∧ int m v f = f x := by
  unfold int
  cases h : stoi v with
  | ok x => exact .inr ⟨x.1, x.2, rfl, rfl⟩
  | error e => exact .inl ⟨e, rfl, rfl⟩

theorem check_cases (c : Bool) (m : M) : (c = true ∧ check c m = (m, .accepted)) ∨ (c = false ∧ check c m = (m, .rejected)) := by
  cases c <;> simp [check]

theorem scanDec_of_stoi {v : List Char} {r : Int × List Char} (h : stoi v = .ok r) :
    ∃ q, scanDec (v.dropWhile isSpace) = some q := by
  unfold stoi stoInt at h
  unfold scanDec
  generalize takeSign (v.dropWhile isSpace) = p at h ⊢
  obtain ⟨neg, s⟩ := p
  by_cases hd : s.takeWhile isDigit = []
  · simp [hd] at h
  · simp [hd]

/-- A text that starts with an integer starts with a number. -/
theorem stof_of_stoi {v : List Char} {r : Int × List Char} (h : stoi v = .ok r) {e : Exn} (he : stof v = .error e) :
    endOf e = .thrown := by
  obtain ⟨⟨q, t⟩, hq⟩ := scanDec_of_stoi h
  unfold stof at he
  simp only [hq] at he
  split_ifs at he <;> first | (cases he; rfl) | cases he

/-- Names handled by `OnlineModel::SetParameter` itself. -/
def onlineNames : List String :=
  ["bias_eta", "t", "dim", "lazy_update", "active_smoothness", "cost_margin", "exp_show", "step_show"]

/-- Names handled by `Model::SetParameter` itself. -/
def modelNames : List String := ["model", "cls_num", "clf_num", "loss", "norm", "filter"]

section eqs
variable (files : List Char → Option (List Char)) (m : M) (v : List Char)

theorem online_bias : onlineSet files m "bias_eta" v =
    (num m v fun x => check ((0 : F32) ≤? x) { m with biasEta := x }) := by
  simp only [onlineSet, String.reduceEq, if_false, if_true]
  all_goals rfl

theorem online_t : onlineSet files m "t" v =
    (int m v fun n =>
      if 0 ≤ n then
        match regSet { m with initialT := n, t := n } "t0" v with
        | some r => r
        | none => ({ m with initialT := n, t := n }, .accepted)
      else (m, .rejected)) := by
  simp only [onlineSet, String.reduceEq, if_false, if_true]
  all_goals rfl

theorem online_dim : onlineSet files m "dim" v =
    (int m v fun n => (updateDim m (n % 4294967296).toNat, .accepted)) := by
  simp only [onlineSet, String.reduceEq, if_false, if_true]
  all_goals rfl

theorem online_lazy : onlineSet files m "lazy_update" v =
    (({ m with lazy := decide (v = "true".toList) }, .accepted)) := by
  simp only [onlineSet, String.reduceEq, if_false, if_true]
  all_goals rfl

theorem online_smooth : onlineSet files m "active_smoothness" v =
    (num m v fun x => check ((0 : F32) <? x) { m with smooth := x }) := by
  simp only [onlineSet, String.reduceEq, if_false, if_true]
  all_goals rfl

theorem online_cost : onlineSet files m "cost_margin" v =
    (if m.clf ≠ 1 then (m, .rejected)
    else
      num m v fun x =>
        if (0 : F32) <? x then ({ m with cost := x, costSensitive := true, reinit := true }, .accepted)
        else ({ m with cost := x }, .rejected)) := by
  simp only [onlineSet, String.reduceEq, if_false, if_true]
  all_goals rfl

theorem online_exp : onlineSet files m "exp_show" v =
    (int { m with disp := none } v fun n => ({ m with disp := some (.exp n) }, .accepted)) := by
  simp only [onlineSet, String.reduceEq, if_false, if_true]
  all_goals rfl

theorem online_step : onlineSet files m "step_show" v =
    (int { m with disp := none } v fun n => ({ m with disp := some (.step n) }, .accepted)) := by
  simp only [onlineSet, String.reduceEq, if_false, if_true]
  all_goals rfl

theorem online_other {name : String} (h : name ∉ onlineNames) : onlineSet files m name v = modelSet files m name v := by
  simp only [onlineNames, List.mem_cons, List.not_mem_nil, or_false, not_or] at h
  obtain ⟨h1, h2, h3, h4, h5, h6, h7, h8⟩ := h
  simp only [onlineSet, h1, h2, h3, h4, h5, h6, h7, h8, if_false]

theorem online_model : onlineSet files m "model" v =
    (check (decide (v = (modelName m.cls).toList)) m) := by
  rw [online_other files m v (by decide)]
  simp only [modelSet, String.reduceEq, if_false, if_true]
  all_goals rfl

theorem online_clsNum : onlineSet files m "cls_num" v =
    (int m v fun n => check (decide (n = m.classNum)) m) := by
  rw [online_other files m v (by decide)]
  simp only [modelSet, String.reduceEq, if_false, if_true]
  all_goals rfl

theorem online_clfNum : onlineSet files m "clf_num" v =
    (int m v fun n => check (decide (n = m.clf)) m) := by
  rw [online_other files m v (by decide)]
  simp only [modelSet, String.reduceEq, if_false, if_true]
  all_goals rfl

theorem online_loss : onlineSet files m "loss" v =
    (match lossNamed v with
    | none => ({ m with loss := none, hinge := false }, .rejected)
    | some k =>
      if (if m.clf = 1 then isBC k else isMC k) then ({ m with loss := some k, hinge := false, reinit := true }, .accepted)
      else ({ m with loss := some k, hinge := false }, .rejected)) := by
  rw [online_other files m v (by decide)]
  simp only [modelSet, String.reduceEq, if_false, if_true]
  all_goals rfl

theorem online_norm : onlineSet files m "norm" v =
    (match normVal v with
    | none => (m, .thrown)
    | some n =>
      if v = "None".toList ∨ n = 0 then ({ m with norm := .none }, .accepted)
      else if v = "L1".toList ∨ n = 1 then ({ m with norm := .l1 }, .accepted)
      else if v = "L2".toList ∨ n = 2 then ({ m with norm := .l2 }, .accepted)
      else (m, .rejected)) := by
  rw [online_other files m v (by decide)]
  simp only [modelSet, String.reduceEq, if_false, if_true]
  all_goals rfl

theorem online_filter : onlineSet files m "filter" v =
    (match loadPreSel (files v) with
    | .ub k => (m, .undef k)
    | .ok (.ok, s) => ({ m with sel := s }, .accepted)
    | .ok (.threw e, s) => ({ m with sel := s }, endOf e)
    | .ok (_, s) => ({ m with sel := s }, .rejected)) := by
  rw [online_other files m v (by decide)]
  simp only [modelSet, String.reduceEq, if_false, if_true]
  all_goals rfl

theorem online_reg {name : String} (h : name ∉ onlineNames) (h' : name ∉ modelNames) : onlineSet files m name v =
    (match regSet m name v with
    | some r => r
    | none => (m, .rejected)) := by
  rw [online_other files m v h]
  simp only [modelNames, List.mem_cons, List.not_mem_nil, or_false, not_or] at h'
  obtain ⟨h1, h2, h3, h4, h5, h6⟩ := h'
  simp only [modelSet, h1, h2, h3, h4, h5, h6, if_false]
  all_goals rfl

end eqs

theorem regSet_same {m : M} {name : String} {v : List Char} {r : M × End} (h : regSet m name v = some r) (hr : r.2 = .rejected) :
    r.1 = m := by
  unfold regSet at h
  split_ifs at h
  all_goals
    simp only [Option.some.injEq] at h
    subst h
    rcases num_cases m v _ with ⟨e, _, h⟩ | ⟨x, _, h⟩ <;> rw [h] at hr ⊢
    cases hr

theorem regSet_t0 {m : M} {v : List Char} {x : Int × List Char} (hv : stoi v = .ok x) {r : M × End}
    (h : regSet m "t0" v = some r) : r.2 ≠ .rejected := by
  unfold regSet at h
  simp only [reduceCtorEq, String.reduceEq, if_false, if_true] at h
  split_ifs at h
  simp only [Option.some.injEq] at h
  subst h
  rcases num_cases m v _ with ⟨e, he, h⟩ | ⟨x, _, h⟩
  · rw [h, stof_of_stoi hv he]
    simp
  · rw [h]
    simp

theorem set_t {m : M} {v : List Char} (h : (onlineSet files m "t" v).2 = .rejected) : (onlineSet files m "t" v).1 = m := by
  rw [online_t] at h ⊢
  rcases int_cases m v _ with ⟨e, _, hi⟩ | ⟨x, t, he, hi⟩
  · rw [hi]
  · rw [hi] at h ⊢
    by_cases hx : 0 ≤ x
    · simp only [hx, if_true] at h ⊢
      split at h
      · rename_i r hr
        exact absurd h (regSet_t0 he hr)
      · simp at h
    · simp only [hx, if_false]

/-- A rejected call of `OnlineModel::SetParameter` changes nothing unless the parameter is delicate. -/
theorem onlineSet_same {m : M} {name : String} {v : List Char} (h : (onlineSet files m name v).2 = .rejected)
    (hn : name ∉ delicateAll) : (onlineSet files m name v).1 = m := by
  by_cases h1 : name ∈ onlineNames
  · simp only [onlineNames, List.mem_cons, List.not_mem_nil, or_false] at h1
    rcases h1 with rfl | rfl | rfl | rfl | rfl | rfl | rfl | rfl
    · exact absurd (by decide) hn
    · exact set_t h
    · rw [online_dim] at h ⊢
      rcases int_cases m v _ with ⟨e, _, hi⟩ | ⟨x, t, he, hi⟩
      · rw [hi]
      · rw [hi] at h
        cases h
    · rw [online_lazy] at h
      cases h
    all_goals exact absurd (by decide) hn
  by_cases h2 : name ∈ modelNames
  · simp only [modelNames, List.mem_cons, List.not_mem_nil, or_false] at h2
    rcases h2 with rfl | rfl | rfl | rfl | rfl | rfl
    · rw [online_model]
      rcases check_cases (decide (v = (modelName m.cls).toList)) m with ⟨_, h⟩ | ⟨_, h⟩ <;> rw [h]
    · rw [online_clsNum]
      rcases int_cases m v _ with ⟨e, _, hi⟩ | ⟨x, t, he, hi⟩ <;> rw [hi]
      rcases check_cases (decide (x = m.classNum)) m with ⟨_, h⟩ | ⟨_, h⟩ <;> rw [h]
    · rw [online_clfNum]
      rcases int_cases m v _ with ⟨e, _, hi⟩ | ⟨x, t, he, hi⟩ <;> rw [hi]
      rcases check_cases (decide (x = m.clf)) m with ⟨_, h⟩ | ⟨_, h⟩ <;> rw [h]
    · exact absurd (by decide) hn
    · rw [online_norm] at h ⊢
      split at h
      · cases h
      · split_ifs at h ⊢
        rfl
    · exact absurd (by decide) hn
  rw [online_reg files m v h1 h2] at h ⊢
  split at h
  · rename_i r hr
    exact regSet_same hr h
  · rfl

/-- What a rejected call can leave behind. -/
inductive Left (m : M) : String → M → Prop
  | same (name : String) : Left m name m
  | bias (x : F32) : Left m "bias_eta" { m with biasEta := x }
  | smooth (x : F32) : Left m "active_smoothness" { m with smooth := x }
  | cost (x : F32) : Left m "cost_margin" { m with cost := x }
  | exp : Left m "exp_show" { m with disp := none }
  | step : Left m "step_show" { m with disp := none }
  | filter (s : Sel) : Left m "filter" { m with sel := s }
  | loss (k : Option Loss.Kind) (b : Bool) : Left m "loss" { m with loss := k, hinge := false, reinit := b }
  | norm (n : Norm) (h : m.cls = .alma2) : Left m "norm" { m with norm := n }
  | eta (x : F32) (h : "eta" ∈ delicateOwn m.cls) : Left m "eta" { m with eta := x }
  | k (n : Int) (h : "k" ∈ delicateOwn m.cls) : Left m "k" { m with k := n }
  | alpha (x : F32) (h : m.cls = .alma2) : Left m "alpha" { m with alpha := x }
  | sigma (x : F32) (h : "sigma" ∈ delicateOwn m.cls) : Left m "sigma" { m with sigma := x }
  | rou (x : F32) (h : m.cls = .erdaL1) : Left m "rou" { m with rou := x }
  | delta (x : F32) (h : "delta" ∈ delicateOwn m.cls) : Left m "delta" { m with delta := x }
  | lambda (x : F32) (h : m.cls = .fofs) : Left m "lambda" { m with fofsLambda := x }
  | B (n : Nat) (h : m.cls = .fofs) : Left m "B" { m with fofsB := n }

theorem num_left {m : M} {name : String} {v : List Char} {f : F32 → M × End} (h : (num m v f).2 = .rejected)
    (hf : ∀ x, (f x).2 = .rejected → Left m name (f x).1) : Left m name (num m v f).1 := by
  rcases num_cases m v f with ⟨e, _, hi⟩ | ⟨x, _, hi⟩ <;> rw [hi] at h ⊢
  · exact .same _
  · exact hf x h

theorem int_left {m m' : M} {name : String} {v : List Char} {f : Int → M × End} (h : (int m' v f).2 = .rejected)
    (h0 : Left m name m') (hf : ∀ x, (f x).2 = .rejected → Left m name (f x).1) : Left m name (int m' v f).1 := by
  rcases int_cases m' v f with ⟨e, _, hi⟩ | ⟨x, t, _, hi⟩ <;> rw [hi] at h ⊢
  · exact h0
  · exact hf x h

theorem check_fst (c : Bool) (m : M) : (check c m).1 = m := by
  cases c <;> rfl

theorem onlineSet_left {m : M} {name : String} {v : List Char} (h : (onlineSet files m name v).2 = .rejected) :
    Left m name (onlineSet files m name v).1 := by
  by_cases hn : name ∈ delicateAll
  · simp only [delicateAll, List.mem_cons, List.not_mem_nil, or_false] at hn
    rcases hn with rfl | rfl | rfl | rfl | rfl | rfl | rfl
    · rw [online_bias] at h ⊢
      exact num_left h fun x _ => by rw [check_fst]; exact .bias x
    · rw [online_smooth] at h ⊢
      exact num_left h fun x _ => by rw [check_fst]; exact .smooth x
    · rw [online_cost] at h ⊢
      split_ifs at h ⊢
      · exact .same _
      · exact num_left h fun x hx => by
          split_ifs at hx ⊢
          exact .cost x
    · rw [online_loss] at h ⊢
      split at h
      · exact .loss none m.reinit
      · rename_i k _
        split_ifs at h ⊢
        all_goals exact .loss (some k) m.reinit
    · rw [online_filter] at h ⊢
      split at h
      · cases h
      · cases h
      · exact .filter _
      · exact .filter _
    · rw [online_exp] at h ⊢
      exact int_left h .exp fun x hx => by cases hx
    · rw [online_step] at h ⊢
      exact int_left h .step fun x hx => by cases hx
  · rw [onlineSet_same h hn]
    exact .same _

theorem hingeLoss_left {m : M} {v : List Char} {b : Bool} (h : (hingeLoss files m v b).2 = .rejected) :
    Left m "loss" (hingeLoss files m v b).1 := by
  unfold hingeLoss andThen at h ⊢
  by_cases ha : (onlineSet files m "loss" v).2 = .accepted
  · simp only [ha, if_true] at h ⊢
    split_ifs at h ⊢
    rw [online_loss] at ha ⊢
    split at ha
    · cases ha
    · rename_i k _
      split_ifs at ha ⊢
      all_goals exact .loss (some k) true
  · simp only [ha, if_false] at h ⊢
    exact onlineSet_left h

theorem boolLoss_left {m : M} {v : List Char} (h : (boolLoss files m v).2 = .rejected) : Left m "loss" (boolLoss files m v).1 := by
  unfold boolLoss andThen at h ⊢
  by_cases ha : (onlineSet files m "loss" v).2 = .accepted
  · simp only [ha, if_true] at h ⊢
    split_ifs at h ⊢
    rw [online_loss] at ha ⊢
    split at ha
    · cases ha
    · rename_i k _
      split_ifs at ha ⊢
      all_goals exact .loss (some k) true
  · simp only [ha, if_false] at h ⊢
    exact onlineSet_left h

theorem ogdSet_left {m : M} {name : String} {v : List Char} (hc : "eta" ∈ delicateOwn m.cls)
    (h : (ogdSet files m name v).2 = .rejected) : Left m name (ogdSet files m name v).1 := by
  unfold ogdSet at h ⊢
  split_ifs at h ⊢ with h1 h2
  · exact num_left h fun x hx => by
      split_ifs at hx ⊢
      exact .same _
  · subst h2
    exact num_left h fun x _ => by rw [check_fst]; exact .eta x hc
  · exact onlineSet_left h

theorem stgSet_left {m : M} {name : String} {v : List Char} (hc : m.cls = .stg)
    (h : (stgSet files m name v).2 = .rejected) : Left m name (stgSet files m name v).1 := by
  unfold stgSet at h ⊢
  split_ifs at h ⊢ with h1
  · subst h1
    exact int_left h (.same _) fun x _ => by rw [check_fst]; exact .k x (by rw [hc]; decide)
  · exact ogdSet_left (by rw [hc]; decide) h

theorem paSet_left {m : M} {name : String} {v : List Char} (h : (paSet files m name v).2 = .rejected) :
    Left m name (paSet files m name v).1 := by
  unfold paSet at h ⊢
  split_ifs at h ⊢
  · exact num_left h fun x hx => by cases hx
  · exact onlineSet_left h

theorem almaSet_left {m : M} {name : String} {v : List Char} (hc : m.cls = .alma2)
    (h : (almaSet files m name v).2 = .rejected) : Left m name (almaSet files m name v).1 := by
  unfold almaSet at h ⊢
  split_ifs at h ⊢ with h1 h2 h3 h4 h5 h6
  · exact int_left h (.same _) fun x hx => by split_ifs at hx
  · subst h2
    exact num_left h fun x hx => by
      split_ifs at hx ⊢
      exact .alpha x hc
  · exact num_left h fun x hx => by cases hx
  · subst h4
    exact int_left h (.same _) fun x hx => by
      split_ifs at hx ⊢
      exact .k x (by rw [hc]; decide)
  · subst h5
    exact hingeLoss_left h
  · subst h6
    unfold andThen at h ⊢
    by_cases ha : (onlineSet files m "norm" v).2 = .accepted
    · simp only [ha, if_true] at h ⊢
      rw [check_fst]
      rw [online_norm] at ha ⊢
      split at ha
      · cases ha
      · split_ifs at ha ⊢ <;> exact .norm _ hc
    · simp only [ha, if_false] at h ⊢
      exact onlineSet_left h
  · exact onlineSet_left h

theorem arowSet_left {m : M} {name : String} {v : List Char} (h : (arowSet files m name v).2 = .rejected) :
    Left m name (arowSet files m name v).1 := by
  unfold arowSet at h ⊢
  split_ifs at h ⊢ with h1 h2
  · exact num_left h fun x hx => by cases hx
  · subst h2
    exact hingeLoss_left h
  · exact onlineSet_left h

theorem cwSet_left {m : M} {name : String} {v : List Char} (h : (cwSet files m name v).2 = .rejected) :
    Left m name (cwSet files m name v).1 := by
  unfold cwSet at h ⊢
  split_ifs at h ⊢ with h1 h2 h3 h4
  · exact num_left h fun x hx => by cases hx
  · exact num_left h fun x hx => by cases hx
  · subst h3
    exact hingeLoss_left h
  · unfold andThen at h ⊢
    split_ifs at h ⊢
    exact onlineSet_left h
  · exact onlineSet_left h

theorem rdaSet_left {m : M} {name : String} {v : List Char} (hc : "sigma" ∈ delicateOwn m.cls)
    (h : (rdaSet files m name v).2 = .rejected) : Left m name (rdaSet files m name v).1 := by
  unfold rdaSet at h ⊢
  split_ifs at h ⊢ with h1
  · subst h1
    exact num_left h fun x _ => by rw [check_fst]; exact .sigma x hc
  · exact onlineSet_left h

theorem erdaSet_left {m : M} {name : String} {v : List Char} (hc : m.cls = .erdaL1)
    (h : (erdaSet files m name v).2 = .rejected) : Left m name (erdaSet files m name v).1 := by
  unfold erdaSet at h ⊢
  split_ifs at h ⊢ with h1
  · subst h1
    exact num_left h fun x _ => by rw [check_fst]; exact .rou x hc
  · exact rdaSet_left (by rw [hc]; decide) h

theorem sopSet_left {m : M} {name : String} {v : List Char} (h : (sopSet files m name v).2 = .rejected) :
    Left m name (sopSet files m name v).1 := by
  unfold sopSet at h ⊢
  split_ifs at h ⊢ with h1 h2
  · exact num_left h fun x hx => by cases hx
  · subst h2
    exact boolLoss_left h
  · exact onlineSet_left h

theorem perceptronSet_left {m : M} {name : String} {v : List Char} (h : (perceptronSet files m name v).2 = .rejected) :
    Left m name (perceptronSet files m name v).1 := by
  unfold perceptronSet at h ⊢
  split_ifs at h ⊢ with h1
  · subst h1
    exact boolLoss_left h
  · exact onlineSet_left h

theorem adaSet_left {m : M} {name : String} {v : List Char} (hc : "delta" ∈ delicateOwn m.cls) (hc' : "eta" ∈ delicateOwn m.cls)
    (h : (adaSet files m name v).2 = .rejected) : Left m name (adaSet files m name v).1 := by
  unfold adaSet at h ⊢
  split_ifs at h ⊢ with h1 h2
  · subst h1
    exact num_left h fun x hx => by
      split_ifs at hx ⊢
      exact .delta x hc
  · subst h2
    exact num_left h fun x _ => by rw [check_fst]; exact .eta x hc'
  · exact onlineSet_left h

theorem fofsSet_left {m : M} {name : String} {v : List Char} (hc : m.cls = .fofs)
    (h : (fofsSet files m name v).2 = .rejected) : Left m name (fofsSet files m name v).1 := by
  unfold fofsSet at h ⊢
  split_ifs at h ⊢ with h1 h2 h3
  · subst h1
    exact num_left h fun x _ => by rw [check_fst]; exact .eta x (by rw [hc]; decide)
  · subst h2
    exact num_left h fun x _ => by rw [check_fst]; exact .lambda x hc
  · subst h3
    exact int_left h (.same _) fun x _ => by rw [check_fst]; exact .B _ hc
  · exact onlineSet_left h

theorem left_lambda {m m' : M} {name : String} (h : Left m name m') (hn : name = "lambda") (hc : m.cls ≠ .fofs) : m' = m := by
  cases h with
  | same => rfl
  | lambda x h => exact absurd h hc
  | _ => simp at hn

/-- The name "B" is another name for "lambda", whose rejection leaves nothing behind. -/
theorem left_ofB {m m' : M} {name : String} (hc : m.cls ≠ .fofs) (h : Left m (ofB name) m') : Left m name m' := by
  unfold ofB at h
  split_ifs at h with hb
  · rw [left_lambda h rfl hc]
    exact .same _
  · exact h

/-- What a rejected call leaves behind. -/
theorem set_left {m : M} {name : String} {v : List Char} (h : (set files m name v).2 = .rejected) :
    Left m name (set files m name v).1 := by
  unfold set at h ⊢
  split at h <;> rename_i hc
  · exact perceptronSet_left h
  · exact ogdSet_left (by rw [hc]; decide) h
  · exact stgSet_left hc h
  · exact ogdSet_left (by rw [hc]; decide) h
  · exact left_ofB (by rw [hc]; decide) (ogdSet_left (by rw [hc]; decide) h)
  · exact onlineSet_left h
  · exact paSet_left h
  · exact paSet_left h
  · exact almaSet_left hc h
  · exact arowSet_left h
  · exact left_ofB (by rw [hc]; decide) (arowSet_left h)
  · exact cwSet_left h
  · exact cwSet_left h
  · exact rdaSet_left (by rw [hc]; decide) h
  · exact rdaSet_left (by rw [hc]; decide) h
  · exact erdaSet_left hc h
  · exact sopSet_left h
  · exact adaSet_left (by rw [hc]; decide) (by rw [hc]; decide) h
  · exact adaSet_left (by rw [hc]; decide) (by rw [hc]; decide) h
  · exact left_ofB (by rw [hc]; decide) (adaSet_left (by rw [hc]; decide) (by rw [hc]; decide) h)
  · exact adaSet_left (by rw [hc]; decide) (by rw [hc]; decide) h
  · exact adaSet_left (by rw [hc]; decide) (by rw [hc]; decide) h
  · exact left_ofB (by rw [hc]; decide) (adaSet_left (by rw [hc]; decide) (by rw [hc]; decide) h)
  · exact fofsSet_left hc h

/-- Parameters that are checked first are left alone. -/
theorem left_same {m m' : M} {name : String} (h : Left m name m') (hn : ¬ Delicate m.cls name) : m' = m := by
  unfold Delicate at hn
  rw [not_or] at hn
  obtain ⟨h1, h2⟩ := hn
  cases h with
  | same => rfl
  | bias x => exact absurd (by decide) h1
  | smooth x => exact absurd (by decide) h1
  | cost x => exact absurd (by decide) h1
  | exp => exact absurd (by decide) h1
  | step => exact absurd (by decide) h1
  | filter s => exact absurd (by decide) h1
  | loss k b => exact absurd (by decide) h1
  | norm n h => exact absurd (by rw [h]; decide) h2
  | eta x h => exact absurd h h2
  | k n h => exact absurd h h2
  | alpha x h => exact absurd (by rw [h]; decide) h2
  | sigma x h => exact absurd h h2
  | rou x h => exact absurd (by rw [h]; decide) h2
  | delta x h => exact absurd h h2
  | lambda x h => exact absurd (by rw [h]; decide) h2
  | B n h => exact absurd (by rw [h]; decide) h2

/-- Only the parameter's own variable differs. -/
theorem left_forget {m m' : M} {name : String} (h : Left m name m') : forget name m' = forget name m := by
  by_cases hd : Delicate m.cls name
  · cases h <;> simp [forget, hd]
  · rw [left_same h hd]

theorem num_retry {m m' : M} {v : List Char} {f g : F32 → M × End} (h : (num m v f).2 = .accepted)
    (hf : ∀ x, (f x).2 = .accepted → g x = f x) : num m' v g = num m v f := by
  rcases num_cases m v f with ⟨e, he, hi⟩ | ⟨x, hx, hi⟩ <;> rw [hi] at h ⊢
  · cases e <;> cases h
  · unfold num
    rw [hx]
    exact hf x h

theorem int_retry {m m' : M} {v : List Char} {f g : Int → M × End} (h : (int m v f).2 = .accepted)
    (hf : ∀ x, (f x).2 = .accepted → g x = f x) : int m' v g = int m v f := by
  rcases int_cases m v f with ⟨e, he, hi⟩ | ⟨x, t, hx, hi⟩ <;> rw [hi] at h ⊢
  · cases e <;> cases h
  · unfold int
    rw [hx]
    exact hf x h

theorem onlineSet_retry {m m' : M} {name : String} (h : Left m name m') (hn : name ∈ delicateAll) {v : List Char}
    (ha : (onlineSet files m name v).2 = .accepted) : onlineSet files m' name v = onlineSet files m name v := by
  cases h with
  | same => rfl
  | bias x =>
    rw [online_bias] at ha ⊢
    rw [online_bias]
    exact num_retry ha fun x hx => rfl
  | smooth x =>
    rw [online_smooth] at ha ⊢
    rw [online_smooth]
    exact num_retry ha fun x hx => rfl
  | cost x =>
    rw [online_cost] at ha ⊢
    rw [online_cost]
    have hc : M.clf { m with cost := x } = m.clf := rfl
    rw [hc]
    split_ifs at ha ⊢
    exact num_retry ha fun x hx => by
      split_ifs at hx ⊢
      rfl
  | exp =>
    rw [online_exp] at ha ⊢
    exact int_retry ha fun x hx => rfl
  | step =>
    rw [online_step] at ha ⊢
    exact int_retry ha fun x hx => rfl
  | filter s =>
    rw [online_filter] at ha ⊢
    rw [online_filter]
    split at ha
    · cases ha
    · rfl
    · rename_i e s _
      cases e <;> cases ha
    · cases ha
  | loss k b =>
    rw [online_loss] at ha ⊢
    rw [online_loss]
    have hc : M.clf { m with loss := k, hinge := false, reinit := b } = m.clf := rfl
    rw [hc]
    split at ha
    · cases ha
    · split_ifs at ha ⊢ <;> rfl
  | _ => exact absurd hn (by decide)

theorem andThen_retry {r r' : M × End} {f g : M → M × End} (h : (andThen r f).2 = .accepted)
    (hr : r.2 = .accepted → r' = r) (hf : ∀ m, g m = f m) : andThen r' g = andThen r f := by
  have hg : g = f := funext hf
  subst hg
  unfold andThen at h ⊢
  split_ifs at h with h1
  · rw [hr h1]
  · exact absurd h h1

/-- Parameters stored by `OnlineModel` and `Model`, whatever the class. -/
theorem set_retry_common {m m' : M} {name : String} (h : Left m name m') (hc : m'.cls = m.cls) (hn : name ∈ delicateAll)
    {v : List Char} (ha : (set files m name v).2 = .accepted) : set files m' name v = set files m name v := by
  have key := fun ha => onlineSet_retry (files := files) h hn (v := v) ha
  have hb : ofB name = name := by
    simp only [delicateAll, List.mem_cons, List.not_mem_nil, or_false] at hn
    rcases hn with rfl | rfl | rfl | rfl | rfl | rfl | rfl <;> rfl
  have h1 : ∀ b : Bool, name = "loss" → (hingeLoss files m v b).2 = .accepted → hingeLoss files m' v b = hingeLoss files m v b := by
    intro b hl hx
    subst hl
    exact andThen_retry hx key fun _ => rfl
  have h2 : name = "loss" → (boolLoss files m v).2 = .accepted → boolLoss files m' v = boolLoss files m v := by
    intro hl hx
    subst hl
    exact andThen_retry hx key fun _ => rfl
  unfold set at ha ⊢
  rw [hc]
  simp only [hb] at ha ⊢
  have hnames : name ≠ "power_t" ∧ name ≠ "eta" ∧ name ≠ "k" ∧ name ≠ "C" ∧ name ≠ "p" ∧ name ≠ "alpha" ∧ name ≠ "norm" ∧
      name ≠ "r" ∧ name ≠ "a" ∧ name ≠ "phi" ∧ name ≠ "sigma" ∧ name ≠ "rou" ∧ name ≠ "delta" ∧ name ≠ "lambda" ∧
      name ≠ "B" := by
    simp only [delicateAll, List.mem_cons, List.not_mem_nil, or_false] at hn
    rcases hn with rfl | rfl | rfl | rfl | rfl | rfl | rfl <;> decide
  obtain ⟨n1, n2, n3, n4, n5, n6, n7, n8, n9, n10, n11, n12, n13, n14, n15⟩ := hnames
  have k1 : (perceptronSet files m name v).2 = .accepted → perceptronSet files m' name v = perceptronSet files m name v := by
    intro ha
    unfold perceptronSet at ha ⊢
    split_ifs at ha ⊢ with hl
    · exact h2 hl ha
    · exact key ha
  have k2 : (ogdSet files m name v).2 = .accepted → ogdSet files m' name v = ogdSet files m name v := by
    intro ha
    simp only [ogdSet, n1, n2, if_false] at ha ⊢
    exact key ha
  have k3 : (stgSet files m name v).2 = .accepted → stgSet files m' name v = stgSet files m name v := by
    intro ha
    simp only [stgSet, n3, if_false] at ha ⊢
    exact k2 ha
  have k4 : (paSet files m name v).2 = .accepted → paSet files m' name v = paSet files m name v := by
    intro ha
    simp only [paSet, n4, if_false] at ha ⊢
    exact key ha
  have k5 : (almaSet files m name v).2 = .accepted → almaSet files m' name v = almaSet files m name v := by
    intro ha
    simp only [almaSet, n5, n6, n4, n3, n7, if_false] at ha ⊢
    split_ifs at ha ⊢ with hl
    · exact h1 _ hl ha
    · exact key ha
  have k6 : (arowSet files m name v).2 = .accepted → arowSet files m' name v = arowSet files m name v := by
    intro ha
    simp only [arowSet, n8, if_false] at ha ⊢
    split_ifs at ha ⊢ with hl
    · exact h1 _ hl ha
    · exact key ha
  have k7 : (cwSet files m name v).2 = .accepted → cwSet files m' name v = cwSet files m name v := by
    intro ha
    simp only [cwSet, n9, n10, if_false] at ha ⊢
    split_ifs at ha ⊢ with hl hb
    · exact h1 _ hl ha
    · exact andThen_retry ha key fun _ => rfl
    · exact key ha
  have k8 : (rdaSet files m name v).2 = .accepted → rdaSet files m' name v = rdaSet files m name v := by
    intro ha
    simp only [rdaSet, n11, if_false] at ha ⊢
    exact key ha
  have k9 : (erdaSet files m name v).2 = .accepted → erdaSet files m' name v = erdaSet files m name v := by
    intro ha
    simp only [erdaSet, n12, if_false] at ha ⊢
    exact k8 ha
  have k10 : (sopSet files m name v).2 = .accepted → sopSet files m' name v = sopSet files m name v := by
    intro ha
    simp only [sopSet, n9, if_false] at ha ⊢
    split_ifs at ha ⊢ with hl
    · exact h2 hl ha
    · exact key ha
  have k11 : (adaSet files m name v).2 = .accepted → adaSet files m' name v = adaSet files m name v := by
    intro ha
    simp only [adaSet, n13, n2, if_false] at ha ⊢
    exact key ha
  have k12 : (fofsSet files m name v).2 = .accepted → fofsSet files m' name v = fofsSet files m name v := by
    intro ha
    simp only [fofsSet, n2, n14, n15, if_false] at ha ⊢
    exact key ha
  split at ha
  · exact k1 ha
  · exact k2 ha
  · exact k3 ha
  · exact k2 ha
  · exact k2 ha
  · exact key ha
  · exact k4 ha
  · exact k4 ha
  · exact k5 ha
  · exact k6 ha
  · exact k6 ha
  · exact k7 ha
  · exact k7 ha
  · exact k8 ha
  · exact k8 ha
  · exact k9 ha
  · exact k10 ha
  · exact k11 ha
  · exact k11 ha
  · exact k11 ha
  · exact k11 ha
  · exact k11 ha
  · exact k11 ha
  · exact k12 ha

/-- An accepted call does not depend on what a rejected call of the same parameter left behind. -/
theorem left_retry {m m' : M} {name : String} (h : Left m name m') {v : List Char}
    (ha : (set files m name v).2 = .accepted) : set files m' name v = set files m name v := by
  by_cases hn : name ∈ delicateAll
  · refine set_retry_common h ?_ hn ha
    cases h <;> rfl
  cases h with
  | same => rfl
  | bias x => exact absurd (by decide) hn
  | smooth x => exact absurd (by decide) hn
  | cost x => exact absurd (by decide) hn
  | exp => exact absurd (by decide) hn
  | step => exact absurd (by decide) hn
  | filter s => exact absurd (by decide) hn
  | loss k b => exact absurd (by decide) hn
  | norm n hc =>
    cases m
    simp only at hc
    subst hc
    simp only [set, almaSet, String.reduceEq, if_false, if_true] at ha ⊢
    refine andThen_retry ha (fun ha => ?_) fun _ => rfl
    rw [online_norm] at ha ⊢
    rw [online_norm]
    split at ha
    · cases ha
    · split_ifs at ha ⊢ <;> rfl
  | eta x hc =>
    cases m with
    | mk cls =>
    cases cls <;> simp [delicateOwn] at hc
    all_goals
      simp only [set, stgSet, ogdSet, adaSet, fofsSet, ofB, String.reduceEq, if_false, if_true] at ha ⊢
      exact num_retry ha fun x hx => rfl
  | k n hc =>
    cases m with
    | mk cls =>
    cases cls <;> simp [delicateOwn] at hc
    all_goals
      simp only [set, stgSet, almaSet, String.reduceEq, if_false, if_true] at ha ⊢
      refine int_retry ha fun x hx => ?_
      first | rfl | (split_ifs at hx ⊢; rfl)
  | alpha x hc =>
    cases m
    simp only at hc
    subst hc
    simp only [set, almaSet, String.reduceEq, if_false, if_true] at ha ⊢
    refine num_retry ha fun x hx => ?_
    split_ifs at hx ⊢
    rfl
  | sigma x hc =>
    cases m with
    | mk cls =>
    cases cls <;> simp [delicateOwn] at hc
    all_goals
      simp only [set, erdaSet, rdaSet, String.reduceEq, if_false, if_true] at ha ⊢
      exact num_retry ha fun x hx => rfl
  | rou x hc =>
    cases m
    simp only at hc
    subst hc
    simp only [set, erdaSet, String.reduceEq, if_false, if_true] at ha ⊢
    exact num_retry ha fun x hx => rfl
  | delta x hc =>
    cases m with
    | mk cls =>
    cases cls <;> simp [delicateOwn] at hc
    all_goals
      simp only [set, adaSet, ofB, String.reduceEq, if_false, if_true] at ha ⊢
      refine num_retry ha fun x hx => ?_
      split_ifs at hx ⊢
      rfl
  | lambda x hc =>
    cases m
    simp only at hc
    subst hc
    simp only [set, fofsSet, String.reduceEq, if_false, if_true] at ha ⊢
    exact num_retry ha fun x hx => rfl
  | B n hc =>
    cases m
    simp only at hc
    subst hc
    simp only [set, fofsSet, String.reduceEq, if_false, if_true] at ha ⊢
    exact int_retry ha fun x hx => rfl

/-! ### Text that is not a number -/

/-- The text does not start with a number. -/
def NoNumber (v : List Char) : Prop := stof v = .error .invalidArgument ∧ stoi v = .error .invalidArgument

theorem NoNumber.num {v : List Char} (h : NoNumber v) (m : M) (f : F32 → M × End) : num m v f = (m, .rejected) := by
  unfold Params.num
  rw [h.1]
  rfl

theorem NoNumber.int {v : List Char} (h : NoNumber v) (m : M) (f : Int → M × End) : int m v f = (m, .rejected) := by
  unfold Params.int
  rw [h.2]
  rfl

/-- Parameters whose values are numbers, as opposed to names, switches and files. -/
def worded : List String := ["model", "lazy_update", "loss", "norm", "filter", "exp_show", "step_show"]

theorem onlineSet_word {m : M} {name : String} {v : List Char} (hv : NoNumber v) (hn : name ∉ worded) :
    onlineSet files m name v = (m, .rejected) := by
  simp only [worded, List.mem_cons, List.not_mem_nil, or_false, not_or] at hn
  obtain ⟨w1, w2, w3, w4, w5, w6, w7⟩ := hn
  by_cases h1 : name ∈ onlineNames
  · simp only [onlineNames, List.mem_cons, List.not_mem_nil, or_false] at h1
    rcases h1 with rfl | rfl | rfl | rfl | rfl | rfl | rfl | rfl
    · rw [online_bias, hv.num]
    · rw [online_t, hv.int]
    · rw [online_dim, hv.int]
    · exact absurd rfl w2
    · rw [online_smooth, hv.num]
    · rw [online_cost, hv.num]
      simp only [ite_self]
    · exact absurd rfl w6
    · exact absurd rfl w7
  by_cases h2 : name ∈ modelNames
  · simp only [modelNames, List.mem_cons, List.not_mem_nil, or_false] at h2
    rcases h2 with rfl | rfl | rfl | rfl | rfl | rfl
    · exact absurd rfl w1
    · rw [online_clsNum, hv.int]
    · rw [online_clfNum, hv.int]
    · exact absurd rfl w3
    · exact absurd rfl w4
    · exact absurd rfl w5
  rw [online_reg files m v h1 h2]
  unfold regSet
  simp only [hv.num]
  split_ifs <;> rfl

/-- A number parameter given a text that is not a number is rejected without a change. -/
theorem set_word {m : M} {name : String} {v : List Char} (hv : NoNumber v) (hn : name ∉ worded) :
    set files m name v = (m, .rejected) := by
  have key : ∀ {name}, name ∉ worded → onlineSet files m name v = (m, .rejected) := fun h => onlineSet_word hv h
  have hl : name ≠ "loss" := fun h => hn (h ▸ by decide)
  have hm : name ≠ "norm" := fun h => hn (h ▸ by decide)
  have hb : ofB name ∉ worded := by
    unfold ofB
    split_ifs
    · decide
    · exact hn
  have hlb : ofB name ≠ "loss" := fun h => hb (h ▸ by decide)
  have hbias : andThen (m, End.rejected) (fun m => ({ m with reinit := true }, .accepted)) = (m, .rejected) := rfl
  unfold set
  split <;>
    simp only [perceptronSet, ogdSet, stgSet, paSet, almaSet, arowSet, cwSet, rdaSet, erdaSet, sopSet, adaSet, fofsSet, hv.num,
      hv.int, key hn, key hb, hl, hm, hlb, if_false, ite_self, hbias]

end Sol.Params
