import Verif.Proofs.ParamOrder
/-! Which assignment an accepted parameter is does not depend on the other parameters. -/

namespace Sol.Params
open Sol.Text Sol.FloatText Sol.PreProcess Sol.Spec

variable (files : List Char → Option (List Char)) {c : Cls} {n : Int} {s : String}

/-- If it is accepted for one model of the class, it is the same assignment for all. -/
def Atomic (c : Cls) (n : Int) (s : String) (S : M → M × End) : Prop :=
  ∀ m m', m.cls = c → m.classNum = n → S m = (m', .accepted) →
    ∃ a : Atom, a.Ok c ∧ a.slot = s ∧ ∀ m2, m2.cls = c → m2.classNum = n → S m2 = (a.apply m2, .accepted)

theorem atomic_ok (a : Atom) (h : a.Ok c) (hs : a.slot = s) : Atomic c n s fun m => (a.apply m, .accepted) :=
  fun _ _ _ _ _ => ⟨a, h, hs, fun _ _ _ => rfl⟩

theorem atomic_bad {S : M → M × End} (h : ∀ m, m.cls = c → m.classNum = n → (S m).2 ≠ .accepted) : Atomic c n s S :=
  fun m m' h1 h2 h3 => absurd (by rw [h3]) (h m h1 h2)

theorem atomic_congr {S S' : M → M × End} (h : ∀ m, m.cls = c → m.classNum = n → S m = S' m) (h' : Atomic c n s S') : Atomic c n s S := by
  intro m m' h1 h2 h3
  rw [h m h1 h2] at h3
  obtain ⟨a, e1, e2, e3⟩ := h' m m' h1 h2 h3
  exact ⟨a, e1, e2, fun m2 g1 g2 => by rw [h m2 g1 g2, e3 m2 g1 g2]⟩

theorem endOf_ne (e : Exn) : endOf e ≠ .accepted := by cases e <;> simp [endOf]

theorem atomic_num {v : List Char} {f : M → F32 → M × End} (g : M → M) (h : ∀ x, Atomic c n s fun m => f m x) :
    Atomic c n s fun m => num (g m) v (f m) := by
  unfold num
  cases stof v with
  | error e => exact atomic_bad fun m _ _ => endOf_ne e
  | ok x => exact h x

theorem atomic_int {v : List Char} {f : M → Int → M × End} (g : M → M) (h : ∀ x, Atomic c n s fun m => f m x) :
    Atomic c n s fun m => int (g m) v (f m) := by
  unfold int
  cases stoi v with
  | error e => exact atomic_bad fun m _ _ => endOf_ne e
  | ok x => exact h x.1

theorem atomic_check (b : Bool) (a : Atom) (h : a.Ok c) (hs : a.slot = s) : Atomic c n s fun m => check b (a.apply m) := by
  cases b with
  | false => exact atomic_bad fun m _ _ => by simp [check]
  | true => exact atomic_ok a h hs

theorem atomic_if (b : Bool) (a : Atom) (g : M → M) (h : a.Ok c) (hs : a.slot = s) :
    Atomic c n s fun m => if b then (a.apply m, .accepted) else (g m, .rejected) := by
  cases b with
  | false => exact atomic_bad fun m _ _ => by simp
  | true => exact atomic_ok a h hs

theorem atomic_ifp (b : Prop) [Decidable b] (a : Atom) (g : M → M) (h : a.Ok c) (hs : a.slot = s) :
    Atomic c n s fun m => if b then (a.apply m, .accepted) else (g m, .rejected) := by
  by_cases hb : b
  · simp only [if_pos hb]; exact atomic_ok a h hs
  · simp only [if_neg hb]; exact atomic_bad fun m _ _ => by simp

theorem slot_self {name : String} (h1 : name ≠ "B") (h2 : name ≠ "t0") (h3 : name ≠ "step_show") : slotOf c name = name := by
  unfold slotOf
  rw [if_neg (fun h => h1 h.1), if_neg h2, if_neg h3]

theorem atomic_reg (name : String) (v : List Char) :
    (∀ m, m.cls = c → regSet m name v = none) ∨ ∃ S : M → M × End, (∀ m, m.cls = c → regSet m name v = some (S m)) ∧ Atomic c n (slotOf c name) S := by
  unfold regSet
  by_cases h1 : name = "lambda"
  · subst h1
    by_cases h2 : regOf c = .none
    · exact .inl fun m hm => by rw [if_pos rfl, hm, if_pos h2]
    · refine .inr ⟨fun m => num (id m) v fun x => (Atom.apply m (.lambda x), .accepted), fun m hm => by
        rw [if_pos rfl, if_neg (hm ▸ h2)]; rfl, atomic_num id fun x => ?_⟩
      exact atomic_ok (.lambda x) trivial (by rw [slot_self] <;> first | rfl | decide)
  · by_cases h2 : name = "sparse_thresh"
    · subst h2
      by_cases h3 : regOf c = .l1 ∨ regOf c = .lazyL1
      · refine .inr ⟨fun m => num (id m) v fun x => (Atom.apply m (.thresh x), .accepted), fun m hm => by
          rw [if_neg h1, if_pos rfl, if_pos (hm ▸ h3)]; rfl, atomic_num id fun x => ?_⟩
        exact atomic_ok (.thresh x) trivial (by rw [slot_self] <;> first | rfl | decide)
      · exact .inl fun m hm => by rw [if_neg h1, if_pos rfl, hm, if_neg h3]
    · by_cases h3 : name = "t0"
      · subst h3
        by_cases h4 : regOf c = .lazyL1
        · refine .inr ⟨fun m => num (id m) v fun x => (Atom.apply m (.t0 x), .accepted), fun m hm => by
            rw [if_neg h1, if_neg h2, if_pos rfl, if_pos (hm ▸ h4)]; rfl, atomic_num id fun x => ?_⟩
          exact atomic_ok (.t0 x) trivial (by simp [slotOf, Atom.slot])
        · exact .inl fun m hm => by rw [if_neg h1, if_neg h2, if_pos rfl, hm, if_neg h4]
      · exact .inl fun m hm => by rw [if_neg h1, if_neg h2, if_neg h3]

theorem clf_of {m : M} (h : m.classNum = n) : m.clf = if n = 2 then 1 else n := by
  unfold M.clf
  rw [h]

theorem atomic_model (name : String) (v : List Char) : Atomic c n (slotOf c name) fun m => modelSet files m name v := by
  unfold modelSet
  by_cases h1 : name = "model"
  · subst h1
    simp only [if_true]
    refine atomic_congr (S' := fun m => check (decide (v = (modelName c).toList)) (Atom.apply m (.nothing "model"))) (fun m hm _ => by rw [hm]; rfl) ?_
    exact atomic_check _ _ trivial (by rw [slot_self] <;> first | rfl | decide)
  simp only [if_neg h1]
  by_cases h2 : name = "cls_num"
  · subst h2
    simp only [if_true]
    refine atomic_int id fun x => ?_
    refine atomic_congr (S' := fun m => check (decide (x = n)) (Atom.apply m (.nothing "cls_num"))) (fun m _ hm => by rw [hm]; rfl) ?_
    exact atomic_check _ _ trivial (by rw [slot_self] <;> first | rfl | decide)
  simp only [if_neg h2]
  by_cases h3 : name = "clf_num"
  · subst h3
    simp only [if_true]
    refine atomic_int id fun x => ?_
    refine atomic_congr (S' := fun m => check (decide (x = if n = 2 then 1 else n)) (Atom.apply m (.nothing "clf_num")))
      (fun m _ hm => by rw [clf_of hm]; rfl) ?_
    exact atomic_check _ _ trivial (by rw [slot_self] <;> first | rfl | decide)
  simp only [if_neg h3]
  by_cases h4 : name = "loss"
  · subst h4
    simp only [if_true]
    cases lossNamed v with
    | none => exact atomic_bad fun m _ _ => by simp
    | some k =>
      refine atomic_congr (S' := fun m => if (if (if n = 2 then 1 else n) = 1 then isBC k else isMC k) then (Atom.apply m (.loss k false), .accepted)
        else ({ m with loss := some k, hinge := false }, .rejected)) (fun m _ hm => by simp only [clf_of hm]; rfl) ?_
      exact atomic_if _ _ _ trivial (by rw [slot_self] <;> first | rfl | decide)
  simp only [if_neg h4]
  by_cases h5 : name = "norm"
  · subst h5
    simp only [if_true]
    cases normVal v with
    | none => exact atomic_bad fun m _ _ => by simp
    | some k =>
      dsimp only
      by_cases g1 : v = "None".toList ∨ k = 0
      · simp only [if_pos g1]; exact atomic_ok (.norm .none) trivial (by rw [slot_self] <;> first | rfl | decide)
      simp only [if_neg g1]
      by_cases g2 : v = "L1".toList ∨ k = 1
      · simp only [if_pos g2]; exact atomic_ok (.norm .l1) trivial (by rw [slot_self] <;> first | rfl | decide)
      simp only [if_neg g2]
      by_cases g3 : v = "L2".toList ∨ k = 2
      · simp only [if_pos g3]; exact atomic_ok (.norm .l2) trivial (by rw [slot_self] <;> first | rfl | decide)
      simp only [if_neg g3]
      exact atomic_bad fun m _ _ => by simp
  simp only [if_neg h5]
  by_cases h6 : name = "filter"
  · subst h6
    simp only [if_true]
    cases loadPreSel (files v) with
    | ub k => exact atomic_bad fun m _ _ => by simp
    | ok r =>
      obtain ⟨st, sl⟩ := r
      cases st with
      | ok => exact atomic_ok (.sel sl) trivial (by rw [slot_self] <;> first | rfl | decide)
      | threw e => exact atomic_bad fun m _ _ => endOf_ne e
      | _ => exact atomic_bad fun m _ _ => by simp
  simp only [if_neg h6]
  rcases atomic_reg (c := c) (n := n) name v with h | ⟨S, h, hS⟩
  · exact atomic_bad fun m hm _ => by rw [h m hm]; simp
  · exact atomic_congr (fun m hm _ => by rw [h m hm]) hS

theorem atomic_online (name : String) (v : List Char) : Atomic c n (slotOf c name) fun m => onlineSet files m name v := by
  unfold onlineSet
  by_cases h1 : name = "bias_eta"
  · subst h1
    simp only [if_true]
    exact atomic_num id fun x => atomic_check _ (.biasEta x) trivial (by rw [slot_self] <;> first | rfl | decide)
  simp only [if_neg h1]
  by_cases h2 : name = "t"
  · subst h2
    simp only [if_true]
    refine atomic_int id fun k => ?_
    by_cases g : 0 ≤ k
    · simp only [if_pos g]
      by_cases g2 : regOf c = .lazyL1
      · refine atomic_congr (S' := fun m => num (Atom.apply m (.time k)) v fun x => (Atom.apply m (.timeBoth k x), .accepted)) (fun m hm _ => by
          unfold regSet
          rw [if_neg (by decide), if_neg (by decide), if_pos rfl, if_pos (show regOf m.cls = _ from hm ▸ g2)]
          rfl) ?_
        exact atomic_num _ fun x => atomic_ok (.timeBoth k x) trivial (by rw [slot_self] <;> first | rfl | decide)
      · refine atomic_congr (S' := fun m => (Atom.apply m (.time k), .accepted)) (fun m hm _ => by
          unfold regSet
          rw [if_neg (by decide), if_neg (by decide), if_pos rfl, if_neg (show ¬ regOf m.cls = _ from hm ▸ g2)]
          rfl) ?_
        exact atomic_ok _ trivial (by rw [slot_self] <;> first | rfl | decide)
    · simp only [if_neg g]
      exact atomic_bad fun m _ _ => by simp
  simp only [if_neg h2]
  by_cases h3 : name = "dim"
  · subst h3
    simp only [if_true]
    exact atomic_int id fun x => atomic_ok (.dim _) trivial (by rw [slot_self] <;> first | rfl | decide)
  simp only [if_neg h3]
  by_cases h4 : name = "lazy_update"
  · subst h4
    simp only [if_true]
    exact atomic_ok (.lazy _) trivial (by rw [slot_self] <;> first | rfl | decide)
  simp only [if_neg h4]
  by_cases h5 : name = "active_smoothness"
  · subst h5
    simp only [if_true]
    exact atomic_num id fun x => atomic_check _ (.smooth x) trivial (by rw [slot_self] <;> first | rfl | decide)
  simp only [if_neg h5]
  by_cases h6 : name = "cost_margin"
  · subst h6
    simp only [if_true]
    by_cases g : (if n = 2 then 1 else n) = 1
    · refine atomic_congr (S' := fun m => num (id m) v fun x => if (0 : F32) <? x then (Atom.apply m (.cost x), .accepted)
        else ({ m with cost := x }, .rejected)) (fun m _ hm => by rw [if_neg (by rw [clf_of hm]; exact not_not.2 g)]; rfl) ?_
      exact atomic_num id fun x => atomic_if _ (.cost x) _ trivial (by rw [slot_self] <;> first | rfl | decide)
    · exact atomic_bad fun m _ hm => by rw [if_pos (by rw [clf_of hm]; exact g)]; simp
  simp only [if_neg h6]
  by_cases h7 : name = "exp_show"
  · subst h7
    simp only [if_true]
    exact atomic_int _ fun x => atomic_ok (.disp (.exp x)) trivial (by rw [slot_self] <;> first | rfl | decide)
  simp only [if_neg h7]
  by_cases h8 : name = "step_show"
  · subst h8
    simp only [if_true]
    exact atomic_int _ fun x => atomic_ok (.disp (.step x)) trivial (by simp [slotOf, Atom.slot])
  simp only [if_neg h8]
  exact atomic_model files name v

/-- The branch "loss" of `onlineSet`. -/
theorem onlineSet_loss (m : M) (v : List Char) : onlineSet files m "loss" v = match lossNamed v with
    | none => ({ m with loss := none, hinge := false }, .rejected)
    | some k =>
      if (if m.clf = 1 then isBC k else isMC k) then ({ m with loss := some k, hinge := false, reinit := true }, .accepted)
      else ({ m with loss := some k, hinge := false }, .rejected) := by
  unfold onlineSet modelSet
  simp only [show ¬ ("loss" = "bias_eta") by decide, show ¬ ("loss" = "t") by decide, show ¬ ("loss" = "dim") by decide,
    show ¬ ("loss" = "lazy_update") by decide, show ¬ ("loss" = "active_smoothness") by decide, show ¬ ("loss" = "cost_margin") by decide,
    show ¬ ("loss" = "exp_show") by decide, show ¬ ("loss" = "step_show") by decide, show ¬ ("loss" = "model") by decide,
    show ¬ ("loss" = "cls_num") by decide, show ¬ ("loss" = "clf_num") by decide, if_false, if_true]
  rfl

theorem loss_slot : "loss" = slotOf c "loss" := by rw [slot_self] <;> first | rfl | decide

theorem atomic_loss (v : List Char) (p : Loss.Kind → Bool) (h : Option Bool) :
    Atomic c n (slotOf c "loss") fun m => andThen (onlineSet files m "loss" v) fun m =>
      if m.loss.any p then (h.elim m fun b => { m with hinge := b }, .accepted) else (m, .rejected) := by
  simp only [onlineSet_loss]
  cases lossNamed v with
  | none => exact atomic_bad fun m _ _ => by simp [andThen]
  | some k =>
    refine atomic_congr (S' := fun m => if ((if (if n = 2 then 1 else n) = 1 then isBC k else isMC k) && p k) then (Atom.apply m (.loss k (h.getD false)), .accepted)
        else ({ m with loss := some k, hinge := false, reinit := if (if (if n = 2 then 1 else n) = 1 then isBC k else isMC k) then true else m.reinit }, .rejected)) (fun m _ hm => ?_) ?_
    · simp only [clf_of hm]
      cases (if (if n = 2 then 1 else n) = 1 then isBC k else isMC k) with
      | false => simp [andThen]
      | true =>
        simp only [if_true, andThen, Option.any_some]
        cases p k with
        | false => simp
        | true => cases h <;> simp [Atom.apply]
    · exact atomic_if _ (.loss k _) _ trivial loss_slot

theorem atomic_hinge (v : List Char) (keep : Bool) : Atomic c n (slotOf c "loss") fun m => hingeLoss files m v keep :=
  atomic_loss files v isHinge (some keep)

theorem atomic_bool (v : List Char) : Atomic c n (slotOf c "loss") fun m => boolLoss files m v :=
  atomic_loss files v isBool none

theorem atomic_branch {name nm : String} {S₁ S₂ : M → M × End} (h₁ : name = nm → Atomic c n s S₁) (h₂ : Atomic c n s S₂) :
    Atomic c n s fun m => if name = nm then S₁ m else S₂ m := by
  by_cases h : name = nm
  · simp only [if_pos h]; exact h₁ h
  · simp only [if_neg h]; exact h₂

theorem atomic_norm (v : List Char) :
    Atomic c n (slotOf c "norm") fun m => andThen (onlineSet files m "norm" v) fun m => check (decide (m.norm = .l2)) m := by
  have e : ∀ m, onlineSet files m "norm" v = match normVal v with
    | none => (m, .thrown)
    | some n =>
      if v = "None".toList ∨ n = 0 then ({ m with norm := .none }, .accepted)
      else if v = "L1".toList ∨ n = 1 then ({ m with norm := .l1 }, .accepted)
      else if v = "L2".toList ∨ n = 2 then ({ m with norm := .l2 }, .accepted)
      else (m, .rejected) := by
    intro m
    unfold onlineSet modelSet
    simp only [show ¬ ("norm" = "bias_eta") by decide, show ¬ ("norm" = "t") by decide, show ¬ ("norm" = "dim") by decide,
      show ¬ ("norm" = "lazy_update") by decide, show ¬ ("norm" = "active_smoothness") by decide, show ¬ ("norm" = "cost_margin") by decide,
      show ¬ ("norm" = "exp_show") by decide, show ¬ ("norm" = "step_show") by decide, show ¬ ("norm" = "model") by decide,
      show ¬ ("norm" = "cls_num") by decide, show ¬ ("norm" = "clf_num") by decide, show ¬ ("norm" = "loss") by decide, if_false, if_true]
    rfl
  simp only [e]
  cases normVal v with
  | none => exact atomic_bad fun m _ _ => by simp [andThen]
  | some k =>
    dsimp only
    by_cases g1 : v = "None".toList ∨ k = 0
    · simp only [if_pos g1]; exact atomic_bad fun m _ _ => by simp [andThen, check]
    simp only [if_neg g1]
    by_cases g2 : v = "L1".toList ∨ k = 1
    · simp only [if_pos g2]; exact atomic_bad fun m _ _ => by simp [andThen, check]
    simp only [if_neg g2]
    by_cases g3 : v = "L2".toList ∨ k = 2
    · simp only [if_pos g3]; exact atomic_ok (.norm .l2) trivial (by rw [slot_self] <;> first | rfl | decide)
    simp only [if_neg g3]
    exact atomic_bad fun m _ _ => by simp [andThen]

theorem atomic_bias (v : List Char) :
    Atomic c n (slotOf c "bias_eta") fun m => andThen (onlineSet files m "bias_eta" v) fun m => ({ m with reinit := true }, .accepted) := by
  unfold onlineSet
  simp only [if_true]
  unfold num
  cases stof v with
  | error e =>
    refine atomic_bad fun m _ _ => ?_
    have := endOf_ne e
    simp [andThen, this]
  | ok x =>
    dsimp only
    cases (0 : F32) ≤? x with
    | false => exact atomic_bad fun m _ _ => by simp [andThen, check]
    | true => exact atomic_ok (.biasEtaRe x) trivial (by rw [slot_self] <;> first | rfl | decide)

theorem atomic_ogd (name : String) (v : List Char) : Atomic c n (slotOf c name) fun m => ogdSet files m name v := by
  refine atomic_branch ?_ (atomic_branch ?_ (atomic_online files name v))
  · rintro rfl
    exact atomic_num id fun x => atomic_if _ (.powerT x) _ trivial (by rw [slot_self] <;> first | rfl | decide)
  · rintro rfl
    exact atomic_num id fun x => atomic_check _ (.eta x) trivial (by rw [slot_self] <;> first | rfl | decide)

theorem atomic_stg (name : String) (v : List Char) : Atomic c n (slotOf c name) fun m => stgSet files m name v := by
  refine atomic_branch ?_ (atomic_ogd files name v)
  rintro rfl
  exact atomic_int id fun x => atomic_check _ (.k x) trivial (by rw [slot_self] <;> first | rfl | decide)

theorem atomic_pa (name : String) (v : List Char) : Atomic c n (slotOf c name) fun m => paSet files m name v := by
  refine atomic_branch ?_ (atomic_online files name v)
  rintro rfl
  exact atomic_num id fun x => atomic_ok (.C x) trivial (by rw [slot_self] <;> first | rfl | decide)

theorem atomic_alma (name : String) (v : List Char) : Atomic c n (slotOf c name) fun m => almaSet files m name v := by
  refine atomic_branch ?_ (atomic_branch ?_ (atomic_branch ?_ (atomic_branch ?_ (atomic_branch ?_ (atomic_branch ?_ (atomic_online files name v))))))
  · rintro rfl
    refine atomic_int id fun x => ?_
    by_cases h : x = -2147483648
    · simp only [if_pos h]; exact atomic_bad fun m _ _ => by simp
    · simp only [if_neg h]; exact atomic_ok (.p x) trivial (by rw [slot_self] <;> first | rfl | decide)
  · rintro rfl
    exact atomic_num id fun x => atomic_if _ (.alpha x) _ trivial (by rw [slot_self] <;> first | rfl | decide)
  · rintro rfl
    exact atomic_num id fun x => atomic_ok (.C x) trivial (by rw [slot_self] <;> first | rfl | decide)
  · rintro rfl
    exact atomic_int id fun x => atomic_ifp _ (.kRe x) _ trivial (by rw [slot_self] <;> first | rfl | decide)
  · rintro rfl
    exact atomic_hinge files v true
  · rintro rfl
    exact atomic_norm files v

theorem atomic_arow (name : String) (v : List Char) : Atomic c n (slotOf c name) fun m => arowSet files m name v := by
  refine atomic_branch ?_ (atomic_branch ?_ (atomic_online files name v))
  · rintro rfl
    exact atomic_num id fun x => atomic_ok (.r x) trivial (by rw [slot_self] <;> first | rfl | decide)
  · rintro rfl
    exact atomic_hinge files v false

theorem atomic_cw (hc : c = .cw ∨ c = .eccw) (name : String) (v : List Char) : Atomic c n (slotOf c name) fun m => cwSet files m name v := by
  refine atomic_branch ?_ (atomic_branch ?_ (atomic_branch ?_ (atomic_branch ?_ (atomic_online files name v))))
  · rintro rfl
    exact atomic_num id fun x => atomic_ok (.aFill x) hc (by rw [slot_self] <;> first | rfl | decide)
  · rintro rfl
    exact atomic_num id fun x => atomic_ok (.phi x) trivial (by rw [slot_self] <;> first | rfl | decide)
  · rintro rfl
    exact atomic_hinge files v true
  · rintro rfl
    exact atomic_bias files v

theorem atomic_rda (name : String) (v : List Char) : Atomic c n (slotOf c name) fun m => rdaSet files m name v := by
  refine atomic_branch ?_ (atomic_online files name v)
  rintro rfl
  exact atomic_num id fun x => atomic_check _ (.sigma x) trivial (by rw [slot_self] <;> first | rfl | decide)

theorem atomic_erda (name : String) (v : List Char) : Atomic c n (slotOf c name) fun m => erdaSet files m name v := by
  refine atomic_branch ?_ (atomic_rda files name v)
  rintro rfl
  exact atomic_num id fun x => atomic_check _ (.rou x) trivial (by rw [slot_self] <;> first | rfl | decide)

theorem atomic_sop (hc : c = .sop) (name : String) (v : List Char) : Atomic c n (slotOf c name) fun m => sopSet files m name v := by
  refine atomic_branch ?_ (atomic_branch ?_ (atomic_online files name v))
  · rintro rfl
    exact atomic_num id fun x => atomic_ok (.a x) hc (by rw [slot_self] <;> first | rfl | decide)
  · rintro rfl
    exact atomic_bool files v

theorem atomic_perceptron (name : String) (v : List Char) : Atomic c n (slotOf c name) fun m => perceptronSet files m name v := by
  refine atomic_branch ?_ (atomic_online files name v)
  rintro rfl
  exact atomic_bool files v

theorem atomic_ada (hc : c ∈ [Cls.adaFobos, .adaFobosL1, .adaFobosOfs, .adaRda, .adaRdaL1, .adaRdaOfs]) (name : String) (v : List Char) :
    Atomic c n (slotOf c name) fun m => adaSet files m name v := by
  refine atomic_branch ?_ (atomic_branch ?_ (atomic_online files name v))
  · rintro rfl
    exact atomic_num id fun x => atomic_if _ (.delta x) _ hc (by rw [slot_self] <;> first | rfl | decide)
  · rintro rfl
    exact atomic_num id fun x => atomic_check _ (.eta x) trivial (by rw [slot_self] <;> first | rfl | decide)

theorem atomic_fofs (hc : c = .fofs) (name : String) (v : List Char) : Atomic c n (slotOf c name) fun m => fofsSet files m name v := by
  refine atomic_branch ?_ (atomic_branch ?_ (atomic_branch ?_ (atomic_online files name v)))
  · rintro rfl
    exact atomic_num id fun x => atomic_check _ (.eta x) trivial (by rw [slot_self] <;> first | rfl | decide)
  · rintro rfl
    exact atomic_num id fun x => atomic_check _ (.fofsLambda x) trivial (by rw [slot_self] <;> first | rfl | decide)
  · rintro rfl
    subst hc
    exact atomic_int id fun x => atomic_check _ (.fofsB _) trivial (by simp [slotOf, Atom.slot])

theorem slot_ofB (hc : c ∈ [Cls.pet, .sofs, .adaFobosOfs, .adaRdaOfs]) (name : String) : slotOf c (ofB name) = slotOf c name := by
  unfold ofB
  by_cases h : name = "B"
  · subst h
    rw [if_pos rfl, slot_self (by decide) (by decide) (by decide)]
    unfold slotOf
    rw [if_pos ⟨rfl, hc⟩]
  · rw [if_neg h]

/-- Every accepted parameter is an assignment, the same whatever the other parameters are. -/
theorem atomic_set (c : Cls) (n : Int) (name : String) (v : List Char) : Atomic c n (slotOf c name) fun m => set files m name v := by
  have go : ∀ {S : M → M × End}, Atomic c n (slotOf c name) S → (∀ m, m.cls = c → set files m name v = S m) →
      Atomic c n (slotOf c name) fun m => set files m name v := fun h e => atomic_congr (fun m hm _ => e m hm) h
  cases c
  case perceptron => exact go (atomic_perceptron files name v) fun m hm => by simp only [set, hm]
  case ogd => exact go (atomic_ogd files name v) fun m hm => by simp only [set, hm]
  case stg => exact go (atomic_stg files name v) fun m hm => by simp only [set, hm]
  case fobosL1 => exact go (atomic_ogd files name v) fun m hm => by simp only [set, hm]
  case pet => rw [← slot_ofB (by simp) name] at go ⊢; exact go (atomic_ogd files (ofB name) v) fun m hm => by simp only [set, hm]
  case pa => exact go (atomic_online files name v) fun m hm => by simp only [set, hm]
  case pa1 => exact go (atomic_pa files name v) fun m hm => by simp only [set, hm]
  case pa2 => exact go (atomic_pa files name v) fun m hm => by simp only [set, hm]
  case alma2 => exact go (atomic_alma files name v) fun m hm => by simp only [set, hm]
  case arow => exact go (atomic_arow files name v) fun m hm => by simp only [set, hm]
  case sofs => rw [← slot_ofB (by simp) name] at go ⊢; exact go (atomic_arow files (ofB name) v) fun m hm => by simp only [set, hm]
  case cw => exact go (atomic_cw files (.inl rfl) name v) fun m hm => by simp only [set, hm]
  case eccw => exact go (atomic_cw files (.inr rfl) name v) fun m hm => by simp only [set, hm]
  case rda => exact go (atomic_rda files name v) fun m hm => by simp only [set, hm]
  case rdaL1 => exact go (atomic_rda files name v) fun m hm => by simp only [set, hm]
  case erdaL1 => exact go (atomic_erda files name v) fun m hm => by simp only [set, hm]
  case sop => exact go (atomic_sop files rfl name v) fun m hm => by simp only [set, hm]
  case adaFobos => exact go (atomic_ada files (by simp) name v) fun m hm => by simp only [set, hm]
  case adaFobosL1 => exact go (atomic_ada files (by simp) name v) fun m hm => by simp only [set, hm]
  case adaFobosOfs => rw [← slot_ofB (by simp) name] at go ⊢; exact go (atomic_ada files (by simp) (ofB name) v) fun m hm => by simp only [set, hm]
  case adaRda => exact go (atomic_ada files (by simp) name v) fun m hm => by simp only [set, hm]
  case adaRdaL1 => exact go (atomic_ada files (by simp) name v) fun m hm => by simp only [set, hm]
  case adaRdaOfs => rw [← slot_ofB (by simp) name] at go ⊢; exact go (atomic_ada files (by simp) (ofB name) v) fun m hm => by simp only [set, hm]
  case fofs => exact go (atomic_fofs files rfl name v) fun m hm => by simp only [set, hm]

/-- The order of accepted parameters with different names does not matter. -/
theorem setAll_perm {l l' : List (String × List Char)} (hp : l.Perm l') {m m' : M} (hd : (l.map fun p => slotOf m.cls p.1).Nodup)
    (h : setAll files m l = (m', .accepted)) : setAll files m l' = (m', .accepted) := by
  induction hp generalizing m with
  | nil => exact h
  | cons p hp ih =>
    obtain ⟨k, v⟩ := p
    simp only [setAll, andThen] at h ⊢
    split at h
    · rename_i h1
      rw [if_pos h1]
      have e : set files m k v = ((set files m k v).1, .accepted) := by rw [← h1]
      obtain ⟨a, -, -, h3⟩ := atomic_set files m.cls m.classNum k v m _ rfl rfl e
      have h4 : set files m k v = (a.apply m, .accepted) := h3 m rfl rfl
      refine ih ?_ h
      rw [h4, (a.cls m).1]
      exact (List.nodup_cons.1 hd).2
    · rename_i h1
      rw [h] at h1
      exact absurd rfl h1
  | swap p q l =>
    obtain ⟨k, v⟩ := p
    obtain ⟨k', v'⟩ := q
    simp only [setAll, andThen] at h ⊢
    split at h
    · rename_i h1
      split at h
      · rename_i h2
        have e1 : set files m k' v' = ((set files m k' v').1, .accepted) := by rw [← h1]
        obtain ⟨a, a1, a2, a3⟩ := atomic_set files m.cls m.classNum k' v' m _ rfl rfl e1
        have a3 : ∀ m₂ : M, m₂.cls = m.cls → m₂.classNum = m.classNum → set files m₂ k' v' = (a.apply m₂, .accepted) := a3
        have e3 := a3 m rfl rfl
        rw [e3] at h2 h
        obtain ⟨c1, c2⟩ := a.cls m
        obtain ⟨b, b1, b2, b3⟩ := atomic_set files m.cls m.classNum k v (a.apply m) _ c1 c2 (by rw [← h2])
        have b3 : ∀ m₂ : M, m₂.cls = m.cls → m₂.classNum = m.classNum → set files m₂ k v = (b.apply m₂, .accepted) := b3
        obtain ⟨d1, d2⟩ := b.cls m
        rw [b3 _ c1 c2] at h
        have hne : a.slot ≠ b.slot := by
          rw [a2, b2]
          intro e
          have := (List.nodup_cons.1 hd).1
          exact this (by simp only [List.map_cons, List.mem_cons]; exact .inl e)
        rw [b3 m rfl rfl, if_pos rfl, a3 _ d1 d2, if_pos rfl, Atom.commutes a b m a1 b1 hne]
        exact h
      · rename_i h2
        rw [h] at h2
        exact absurd rfl h2
    · rename_i h1
      rw [h] at h1
      exact absurd rfl h1
  | trans h1 h2 ih1 ih2 =>
    have := ih1 hd h
    exact ih2 ((h1.map _).nodup_iff.1 hd) this

end Sol.Params
