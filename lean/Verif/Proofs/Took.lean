import Verif.Model.Save
import Verif.Proofs.Params
/-!
# Accepted parameters
-/

namespace Sol.Params
open Sol.Text Sol.FloatText Sol.PreProcess Sol.Spec

variable {files : List Char → Option (List Char)}

/-- The text stands for the normalisation. -/
def NormText (v : List Char) (n : Norm) : Prop :=
  normVal v = some (normNum n) ∨
    v = (match n with
      | .none => "None".toList
      | .l1 => "L1".toList
      | .l2 => "L2".toList)

/-- What an accepted call does. -/
inductive Took (m : M) (v : List Char) : String → M → Prop
  | same (name : String) (h : name ∈ ["model", "cls_num", "clf_num"]) : Took m v name m
  | bias (x : F32) (b : Bool) (h : stof v = .ok x) (h0 : (0 : F32) ≤? x) : Took m v "bias_eta" { m with biasEta := x, reinit := b }
  | t (n : Int) (r : List Char) (h : stoi v = .ok (n, r)) (h0 : 0 ≤ n) : Took m v "t" { m with initialT := n, t := n }
  | tReg (n : Int) (r : List Char) (x : F32) (h : stoi v = .ok (n, r)) (h0 : 0 ≤ n) :
      Took m v "t" { m with initialT := n, t := n, t0 := x, lastTime := m.lastTime.map fun _ => x }
  | dim (n : Int) (r : List Char) (h : stoi v = .ok (n, r)) : Took m v "dim" (updateDim m (n % 4294967296).toNat)
  | lazy : Took m v "lazy_update" { m with lazy := decide (v = "true".toList) }
  | smooth (x : F32) (h : stof v = .ok x) : Took m v "active_smoothness" { m with smooth := x }
  | cost (x : F32) (h : stof v = .ok x) (h0 : (0 : F32) <? x) (hc : m.clf = 1) :
      Took m v "cost_margin" { m with cost := x, costSensitive := true, reinit := true }
  | exp (n : Int) : Took m v "exp_show" { m with disp := some (.exp n) }
  | step (n : Int) : Took m v "step_show" { m with disp := some (.step n) }
  | filter (s : Sel) : Took m v "filter" { m with sel := s }
  | loss (k : Loss.Kind) (b : Bool) (h : lossNamed v = some k) :
      Took m v "loss" { m with loss := some k, hinge := b, reinit := true }
  | norm (n : Norm) (h : NormText v n) : Took m v "norm" { m with norm := n }
  | lambda (x : F32) (h : stof v = .ok x) (hc : regOf m.cls ≠ .none) : Took m v "lambda" { m with lambda := x }
  | thresh (x : F32) : Took m v "sparse_thresh" { m with thresh := x }
  | t0 (x : F32) : Took m v "t0" { m with t0 := x, lastTime := m.lastTime.map fun _ => x }
  | powerT (x : F32) (h : stof v = .ok x) (h0 : (0 : F32) ≤? x) (hc : (own m "power_t").isSome) :
      Took m v "power_t" { m with powerT := x }
  | eta (x : F32) (h : stof v = .ok x) (h0 : (0 : F32) ≤? x) (hc : (own m "eta").isSome) :
      Took m v "eta" { m with eta := x }
  | k (n : Int) (r : List Char) (b : Bool) (h : stoi v = .ok (n, r)) (h0 : 0 < n) (hc : (own m "k").isSome) :
      Took m v "k" { m with k := n, reinit := b }
  | C (x : F32) (h : stof v = .ok x) (hc : (own m "C").isSome) : Took m v "C" { m with C := x }
  | p (n : Int) (r : List Char) (h : stoi v = .ok (n, r)) (h0 : n ≠ -2147483648) (hc : (own m "p").isSome) :
      Took m v "p" { m with p := n, reinit := true }
  | alpha (x : F32) (h : stof v = .ok x) (h0 : (0 : F32) <? x && x ≤? (1 : F32)) (hc : (own m "alpha").isSome) :
      Took m v "alpha" { m with alpha := x, reinit := true }
  | r (x : F32) (h : stof v = .ok x) (hc : (own m "r").isSome) : Took m v "r" { m with r := x }
  | a (x : F32) (h : stof v = .ok x) (hc : m.cls = .sop) : Took m v "a" { m with a := x }
  | aCw (x : F32) (h : stof v = .ok x) (hc : m.cls = .cw ∨ m.cls = .eccw) :
      Took m v "a" { m with a := x, scale := fill x m.scale }
  | phi (x : F32) (h : stof v = .ok x) (hc : (own m "phi").isSome) : Took m v "phi" { m with phi := x, reinit := true }
  | sigma (x : F32) (h : stof v = .ok x) (h0 : (0 : F32) <? x) (hc : (own m "sigma").isSome) :
      Took m v "sigma" { m with sigma := x }
  | rou (x : F32) (h : stof v = .ok x) (h0 : (0 : F32) ≤? x) (hc : (own m "rou").isSome) :
      Took m v "rou" { m with rou := x }
  | delta (x : F32) (h : stof v = .ok x) (h0 : (0 : F32) <? x) (hc : (own m "delta").isSome) :
      Took m v "delta" { m with delta := x, scale := fill x m.scale }
  | fofsLambda (x : F32) (h : stof v = .ok x) (h0 : (0 : F32) ≤? x) (hc : m.cls = .fofs) :
      Took m v "lambda" { m with fofsLambda := x }
  | fofsB (n : Int) (r : List Char) (h : stoi v = .ok (n, r)) (h0 : 0 < (n % 4294967296).toNat) (hc : m.cls = .fofs) :
      Took m v "B" { m with fofsB := (n % 4294967296).toNat }

theorem check_acc {c : Bool} {m : M} (h : (check c m).2 = .accepted) : c = true := by
  cases c <;> first | rfl | cases h

theorem num_took {m m' : M} {name : String} {v : List Char} {f : F32 → M × End} (h : (num m' v f).2 = .accepted)
    (hf : ∀ x, stof v = .ok x → (f x).2 = .accepted → Took m v name (f x).1) : Took m v name (num m' v f).1 := by
  rcases num_cases m' v f with ⟨e, _, hi⟩ | ⟨x, hx, hi⟩ <;> rw [hi] at h ⊢
  · cases e <;> cases h
  · exact hf x hx h

theorem int_took {m m' : M} {name : String} {v : List Char} {f : Int → M × End} (h : (int m' v f).2 = .accepted)
    (hf : ∀ x r, stoi v = .ok (x, r) → (f x).2 = .accepted → Took m v name (f x).1) : Took m v name (int m' v f).1 := by
  rcases int_cases m' v f with ⟨e, _, hi⟩ | ⟨x, t, hx, hi⟩ <;> rw [hi] at h ⊢
  · cases e <;> cases h
  · exact hf x t hx h

theorem regSet_took {m : M} {name : String} {v : List Char} {r : M × End} (h : regSet m name v = some r)
    (hr : r.2 = .accepted) : Took m v name r.1 := by
  unfold regSet at h
  split_ifs at h with h1 h2 h3 h4 h5 h6
  · simp only [Option.some.injEq] at h
    subst h h1
    exact num_took hr fun x hx _ => .lambda x hx h2
  · simp only [Option.some.injEq] at h
    subst h h3
    exact num_took hr fun x hx _ => .thresh x
  · simp only [Option.some.injEq] at h
    subst h h5
    exact num_took hr fun x hx _ => .t0 x

theorem regSet_lambda (m : M) (v : List Char) :
    regSet m "lambda" v = if regOf m.cls = .none then none else some (num m v fun x => ({ m with lambda := x }, .accepted)) := by
  simp only [regSet, if_true]

theorem regSet_t0_eq (m : M) (v : List Char) :
    regSet m "t0" v = if regOf m.cls = .lazyL1 then
      some (num m v fun x => ({ m with t0 := x, lastTime := m.lastTime.map fun _ => x }, .accepted)) else none := by
  simp only [regSet, String.reduceEq, if_false, if_true]

theorem onlineSet_took {m : M} {name : String} {v : List Char} (h : (onlineSet files m name v).2 = .accepted) :
    Took m v name (onlineSet files m name v).1 := by
  by_cases h1 : name ∈ onlineNames
  · simp only [onlineNames, List.mem_cons, List.not_mem_nil, or_false] at h1
    rcases h1 with rfl | rfl | rfl | rfl | rfl | rfl | rfl | rfl
    · rw [online_bias] at h ⊢
      exact num_took h fun x hx ha => by rw [check_fst]; exact .bias x m.reinit hx (check_acc ha)
    · rw [online_t] at h ⊢
      refine int_took h fun n r hn ha => ?_
      split_ifs at ha ⊢ with h0
      rw [regSet_t0_eq] at ha ⊢
      split_ifs at ha ⊢
      · dsimp only at ha ⊢
        rcases num_cases { m with initialT := n, t := n } v _ with ⟨e, _, hi⟩ | ⟨x, hx, hi⟩ <;> rw [hi] at ha ⊢
        · cases e <;> cases ha
        · exact .tReg n r x hn h0
      · exact .t n r hn h0
    · rw [online_dim] at h ⊢
      exact int_took h fun n r hn _ => .dim n r hn
    · rw [online_lazy]
      exact .lazy
    · rw [online_smooth] at h ⊢
      exact num_took h fun x hx _ => by rw [check_fst]; exact .smooth x hx
    · rw [online_cost] at h ⊢
      split_ifs at h ⊢ with h1
      refine num_took h fun x hx ha => ?_
      split_ifs at ha ⊢ with h0
      exact .cost x hx h0 (not_not.1 h1)
    · rw [online_exp] at h ⊢
      exact int_took h fun n r _ _ => .exp n
    · rw [online_step] at h ⊢
      exact int_took h fun n r _ _ => .step n
  by_cases h2 : name ∈ modelNames
  · simp only [modelNames, List.mem_cons, List.not_mem_nil, or_false] at h2
    rcases h2 with rfl | rfl | rfl | rfl | rfl | rfl
    · rw [online_model, check_fst]
      exact .same _ (by decide)
    · rw [online_clsNum] at h ⊢
      exact int_took h fun n r _ _ => by rw [check_fst]; exact .same _ (by decide)
    · rw [online_clfNum] at h ⊢
      exact int_took h fun n r _ _ => by rw [check_fst]; exact .same _ (by decide)
    · rw [online_loss] at h ⊢
      split at h
      · cases h
      · rename_i k hk
        split_ifs at h ⊢
        all_goals exact .loss k false hk
    · rw [online_norm] at h ⊢
      split at h
      · cases h
      · rename_i n hn
        split_ifs at h ⊢ with a b c
        · refine .norm _ ?_
          rcases a with a | a
          · exact .inr a
          · exact .inl (by rw [hn, a]; rfl)
        · refine .norm _ ?_
          rcases b with a | a
          · exact .inr a
          · exact .inl (by rw [hn, a]; rfl)
        · refine .norm _ ?_
          rcases c with a | a
          · exact .inr a
          · exact .inl (by rw [hn, a]; rfl)
    · rw [online_filter] at h ⊢
      split at h
      · cases h
      · exact .filter _
      · exact .filter _
      · cases h
  rw [online_reg files m v h1 h2] at h ⊢
  split at h
  · rename_i r hr
    exact regSet_took hr h
  · cases h

theorem hingeLoss_took {m : M} {v : List Char} {b : Bool} (h : (hingeLoss files m v b).2 = .accepted) :
    Took m v "loss" (hingeLoss files m v b).1 := by
  unfold hingeLoss andThen at h ⊢
  by_cases ha : (onlineSet files m "loss" v).2 = .accepted
  · simp only [ha, if_true] at h ⊢
    split_ifs at h ⊢
    rw [online_loss] at ha ⊢
    split at ha
    · cases ha
    · rename_i k hk
      split_ifs at ha ⊢
      all_goals exact .loss k b hk
  · simp only [ha, if_false] at h

theorem boolLoss_took {m : M} {v : List Char} (h : (boolLoss files m v).2 = .accepted) : Took m v "loss" (boolLoss files m v).1 := by
  unfold boolLoss andThen at h ⊢
  by_cases ha : (onlineSet files m "loss" v).2 = .accepted
  · simp only [ha, if_true] at h ⊢
    split_ifs at h ⊢
    rw [online_loss] at ha ⊢
    split at ha
    · cases ha
    · rename_i k hk
      split_ifs at ha ⊢
      all_goals exact .loss k false hk
  · simp only [ha, if_false] at h

theorem ogdSet_took {m : M} {name : String} {v : List Char} (hp : (own m "power_t").isSome) (hc : (own m "eta").isSome)
    (h : (ogdSet files m name v).2 = .accepted) : Took m v name (ogdSet files m name v).1 := by
  unfold ogdSet at h ⊢
  split_ifs at h ⊢ with h1 h2
  · subst h1
    refine num_took h fun x hx ha => ?_
    split_ifs at ha ⊢ with h0
    exact .powerT x hx h0 hp
  · subst h2
    exact num_took h fun x hx ha => by rw [check_fst]; exact .eta x hx (check_acc ha) hc
  · exact onlineSet_took h

theorem stgSet_took {m : M} {name : String} {v : List Char} (hc : m.cls = .stg)
    (h : (stgSet files m name v).2 = .accepted) : Took m v name (stgSet files m name v).1 := by
  unfold stgSet at h ⊢
  split_ifs at h ⊢ with h1
  · subst h1
    exact int_took h fun n r hn ha => by
      rw [check_fst]
      exact .k n r m.reinit hn (of_decide_eq_true (check_acc ha)) (by rw [own, hc]; rfl)
  · exact ogdSet_took (by rw [own, hc]; rfl) (by rw [own, hc]; rfl) h

theorem paSet_took {m : M} {name : String} {v : List Char} (hc : (own m "C").isSome) (h : (paSet files m name v).2 = .accepted) :
    Took m v name (paSet files m name v).1 := by
  unfold paSet at h ⊢
  split_ifs at h ⊢ with h1
  · subst h1
    exact num_took h fun x hx _ => .C x hx hc
  · exact onlineSet_took h

theorem almaSet_took {m : M} {name : String} {v : List Char} (hc : m.cls = .alma2)
    (h : (almaSet files m name v).2 = .accepted) : Took m v name (almaSet files m name v).1 := by
  unfold almaSet at h ⊢
  split_ifs at h ⊢ with h1 h2 h3 h4 h5 h6
  · subst h1
    refine int_took h fun n r hn ha => ?_
    split_ifs at ha ⊢ with h0
    exact .p n r hn h0 (by rw [own, hc]; rfl)
  · subst h2
    refine num_took h fun x hx ha => ?_
    split_ifs at ha ⊢ with h0
    exact .alpha x hx h0 (by rw [own, hc]; rfl)
  · subst h3
    exact num_took h fun x hx _ => .C x hx (by rw [own, hc]; rfl)
  · subst h4
    refine int_took h fun n r hn ha => ?_
    split_ifs at ha ⊢ with h0
    exact .k n r true hn h0 (by rw [own, hc]; rfl)
  · subst h5
    exact hingeLoss_took h
  · subst h6
    unfold andThen at h ⊢
    split_ifs at h ⊢ with ha
    · rw [check_fst]
      exact onlineSet_took ha
    · exact absurd h ha
  · exact onlineSet_took h

theorem arowSet_took {m : M} {name : String} {v : List Char} (hc : (own m "r").isSome) (h : (arowSet files m name v).2 = .accepted) :
    Took m v name (arowSet files m name v).1 := by
  unfold arowSet at h ⊢
  split_ifs at h ⊢ with h1 h2
  · subst h1
    exact num_took h fun x hx _ => .r x hx hc
  · subst h2
    exact hingeLoss_took h
  · exact onlineSet_took h

theorem cwSet_took {m : M} {name : String} {v : List Char} (hc : m.cls = .cw ∨ m.cls = .eccw)
    (h : (cwSet files m name v).2 = .accepted) : Took m v name (cwSet files m name v).1 := by
  unfold cwSet at h ⊢
  split_ifs at h ⊢ with h1 h2 h3 h4
  · subst h1
    exact num_took h fun x hx _ => .aCw x hx hc
  · subst h2
    exact num_took h fun x hx _ => .phi x hx (by rcases hc with hc | hc <;> rw [own, hc] <;> rfl)
  · subst h3
    exact hingeLoss_took h
  · subst h4
    unfold andThen at h ⊢
    split_ifs at h ⊢ with ha
    · rw [online_bias] at ha ⊢
      rcases num_cases m v (fun x => check ((0 : F32) ≤? x) { m with biasEta := x }) with ⟨e, _, hi⟩ | ⟨x, hx, hi⟩ <;>
        rw [hi] at ha ⊢
      · cases e <;> cases ha
      · rw [check_fst]
        exact .bias x true hx (check_acc ha)
    · exact absurd h ha
  · exact onlineSet_took h

theorem rdaSet_took {m : M} {name : String} {v : List Char} (hc : (own m "sigma").isSome)
    (h : (rdaSet files m name v).2 = .accepted) : Took m v name (rdaSet files m name v).1 := by
  unfold rdaSet at h ⊢
  split_ifs at h ⊢ with h1
  · subst h1
    exact num_took h fun x hx ha => by rw [check_fst]; exact .sigma x hx (check_acc ha) hc
  · exact onlineSet_took h

theorem erdaSet_took {m : M} {name : String} {v : List Char} (hc : m.cls = .erdaL1)
    (h : (erdaSet files m name v).2 = .accepted) : Took m v name (erdaSet files m name v).1 := by
  unfold erdaSet at h ⊢
  split_ifs at h ⊢ with h1
  · subst h1
    exact num_took h fun x hx ha => by rw [check_fst]; exact .rou x hx (check_acc ha) (by rw [own, hc]; rfl)
  · exact rdaSet_took (by rw [own, hc]; rfl) h

theorem sopSet_took {m : M} {name : String} {v : List Char} (hc : m.cls = .sop) (h : (sopSet files m name v).2 = .accepted) :
    Took m v name (sopSet files m name v).1 := by
  unfold sopSet at h ⊢
  split_ifs at h ⊢ with h1 h2
  · subst h1
    exact num_took h fun x hx _ => .a x hx hc
  · subst h2
    exact boolLoss_took h
  · exact onlineSet_took h

theorem perceptronSet_took {m : M} {name : String} {v : List Char} (h : (perceptronSet files m name v).2 = .accepted) :
    Took m v name (perceptronSet files m name v).1 := by
  unfold perceptronSet at h ⊢
  split_ifs at h ⊢ with h1
  · subst h1
    exact boolLoss_took h
  · exact onlineSet_took h

theorem adaSet_took {m : M} {name : String} {v : List Char} (hc : (own m "delta").isSome) (hc' : (own m "eta").isSome)
    (h : (adaSet files m name v).2 = .accepted) : Took m v name (adaSet files m name v).1 := by
  unfold adaSet at h ⊢
  split_ifs at h ⊢ with h1 h2
  · subst h1
    refine num_took h fun x hx ha => ?_
    split_ifs at ha ⊢ with h0
    exact .delta x hx h0 hc
  · subst h2
    exact num_took h fun x hx ha => by rw [check_fst]; exact .eta x hx (check_acc ha) hc'
  · exact onlineSet_took h

theorem fofsSet_took {m : M} {name : String} {v : List Char} (hc : m.cls = .fofs)
    (h : (fofsSet files m name v).2 = .accepted) : Took m v name (fofsSet files m name v).1 := by
  unfold fofsSet at h ⊢
  split_ifs at h ⊢ with h1 h2 h3
  · subst h1
    exact num_took h fun x hx ha => by rw [check_fst]; exact .eta x hx (check_acc ha) (by rw [own, hc]; rfl)
  · subst h2
    exact num_took h fun x hx ha => by rw [check_fst]; exact .fofsLambda x hx (check_acc ha) hc
  · subst h3
    exact int_took h fun n r hn ha => by rw [check_fst]; exact .fofsB n r hn (of_decide_eq_true (check_acc ha)) hc
  · exact onlineSet_took h

/-- The parameter that a name stands for. -/
def target (c : Cls) (name : String) : String := if (c = .pet ∨ c = .sofs ∨ c = .adaFobosOfs ∨ c = .adaRdaOfs) ∧ name = "B" then "lambda" else name

theorem target_ofs {c : Cls} (h : c = .pet ∨ c = .sofs ∨ c = .adaFobosOfs ∨ c = .adaRdaOfs) (name : String) :
    target c name = ofB name := by
  simp [target, ofB, h]

theorem target_not {c : Cls} (h : ¬ (c = .pet ∨ c = .sofs ∨ c = .adaFobosOfs ∨ c = .adaRdaOfs)) (name : String) :
    target c name = name := by
  simp only [target, h, false_and, if_false]

/-- What an accepted call does, for every class. -/
theorem set_took {m : M} {name : String} {v : List Char} (h : (set files m name v).2 = .accepted) :
    Took m v (target m.cls name) (set files m name v).1 := by
  unfold set at h ⊢
  split at h <;> rename_i hc <;>
    first
    | rw [target_ofs (by rw [hc]; decide)]
    | rw [target_not (by rw [hc]; decide)]
  · exact perceptronSet_took h
  · exact ogdSet_took (by rw [own, hc]; rfl) (by rw [own, hc]; rfl) h
  · exact stgSet_took hc h
  · exact ogdSet_took (by rw [own, hc]; rfl) (by rw [own, hc]; rfl) h
  · exact ogdSet_took (by rw [own, hc]; rfl) (by rw [own, hc]; rfl) h
  · exact onlineSet_took h
  · exact paSet_took (by rw [own, hc]; rfl) h
  · exact paSet_took (by rw [own, hc]; rfl) h
  · exact almaSet_took hc h
  · exact arowSet_took (by rw [own, hc]; rfl) h
  · exact arowSet_took (by rw [own, hc]; rfl) h
  · exact cwSet_took (.inl hc) h
  · exact cwSet_took (.inr hc) h
  · exact rdaSet_took (by rw [own, hc]; rfl) h
  · exact rdaSet_took (by rw [own, hc]; rfl) h
  · exact erdaSet_took hc h
  · exact sopSet_took hc h
  all_goals first | exact adaSet_took (by rw [own, hc]; rfl) (by rw [own, hc]; rfl) h | exact fofsSet_took hc h

/-- `updateDim` changes the dimension and lengthens the vectors. -/
theorem updateDim_dim (m : M) (n : Nat) : (updateDim m n).dim = max m.dim n := by
  unfold updateDim
  split_ifs <;> simp <;> omega

/-- An accepted call keeps the class. -/
theorem took_cls {m m' : M} {v : List Char} {name : String} (h : Took m v name m') : m'.cls = m.cls ∧ m'.classNum = m.classNum := by
  cases h with
  | dim n r h => unfold updateDim; split_ifs <;> exact ⟨rfl, rfl⟩
  | _ => exact ⟨rfl, rfl⟩

/-- An accepted call changes no other setting. -/
theorem took_info {m m' : M} {v : List Char} {name : String} (h : Took m v name m') {j : String} (hj : j ≠ name) :
    info m' j = info m j := by
  cases h with
  | same => rfl
  | dim n r h =>
    unfold updateDim
    by_cases hd : m.dim < (n % 4294967296).toNat
    · rw [if_pos hd]
      simp only [info, online, common, own, hj, if_false, M.clf, lossText]
    · rw [if_neg hd]
  | _ => 
    simp only [info, online, common, own, hj, if_false, M.clf, lossText, false_and]
    try rfl

/-- Parameters with a real number. -/
def realNames : List String :=
  ["bias_eta", "cost_margin", "lambda", "power_t", "eta", "C", "alpha", "r", "a", "phi", "sigma", "rou", "delta"]

theorem info_own {m : M} {k : String} (h : k ∉ ["model", "cls_num", "clf_num", "loss", "norm", "bias_eta", "t", "dim",
    "lazy_update", "active_smoothness", "cost_margin", "lambda"]) : info m k = own m k := by
  simp only [List.mem_cons, List.not_mem_nil, or_false, not_or] at h
  obtain ⟨h1, h2, h3, h4, h5, h6, h7, h8, h9, h10, h11, h12⟩ := h
  simp only [info, online, common, h1, h2, h3, h4, h5, h6, h7, h8, h9, h10, h11, h12, false_and, if_false]

theorem took_real {m m' : M} {v : List Char} {name : String} (h : Took m v name m') (hn : name ∈ realNames) :
    ∃ x, stof v = .ok x ∧ info m' name = some (.real x) := by
  cases h with
  | bias x b h _ => exact ⟨x, h, by simp [info, online, common]⟩
  | cost x h _ _ => exact ⟨x, h, by simp [info, online, common]⟩
  | lambda x h hc => exact ⟨x, h, by simp [info, hc]⟩
  | fofsLambda x h _ hc => exact ⟨x, h, by simp [info, online, common, own, hc, regOf]⟩
  | powerT x h _ hc | eta x h _ hc | C x h hc | alpha x h _ hc | r x h hc | phi x h hc | sigma x h _ hc | rou x h _ hc
  | delta x h _ hc =>
    refine ⟨x, h, ?_⟩
    rw [info_own (by decide)]
    unfold own at hc ⊢
    dsimp only
    split at hc <;> first | rfl | (simp at hc)
  | a x h hc => 
    refine ⟨x, h, ?_⟩
    rw [info_own (by decide)]
    simp [own, hc]
  | aCw x h hc => 
    refine ⟨x, h, ?_⟩
    rw [info_own (by decide)]
    rcases hc with hc | hc <;> simp [own, hc]
  | same n h => 
    simp only [List.mem_cons, List.not_mem_nil, or_false] at h
    rcases h with rfl | rfl | rfl <;> exact absurd hn (by decide)
  | _ => exact absurd hn (by decide)

theorem took_int {m m' : M} {v : List Char} {name : String} (h : Took m v name m') (hn : name ∈ ["t", "k", "p"]) :
    ∃ n r, stoi v = .ok (n, r) ∧ info m' name = some (.int n) := by
  cases h with
  | t n r h _ => exact ⟨n, r, h, by simp [info, online, common]⟩
  | tReg n r x h _ => exact ⟨n, r, h, by simp [info, online, common]⟩
  | k n r b h _ hc | p n r h _ hc =>
    refine ⟨n, r, h, ?_⟩
    rw [info_own (by decide)]
    unfold own at hc ⊢
    dsimp only
    split at hc <;> first | rfl | (simp at hc)
  | same n h => 
    simp only [List.mem_cons, List.not_mem_nil, or_false] at h
    rcases h with rfl | rfl | rfl <;> exact absurd hn (by decide)
  | _ => exact absurd hn (by decide)

theorem took_B {m m' : M} {v : List Char} {name : String} (h : Took m v name m') (hn : name = "B") :
    ∃ n r, stoi v = .ok (n, r) ∧ info m' "B" = some (.int (n % 4294967296)) := by
  cases h with
  | fofsB n r h _ hc =>
    refine ⟨n, r, h, ?_⟩
    rw [info_own (by decide)]
    have : 0 ≤ n % 4294967296 := Int.emod_nonneg _ (by decide)
    simp [own, hc, this]
  | same n h => 
    subst hn
    exact absurd h (by decide)
  | _ => exact absurd hn (by decide)

theorem took_dim {m m' : M} {v : List Char} {name : String} (h : Took m v name m') (hn : name = "dim") :
    ∃ n r, stoi v = .ok (n, r) ∧ m'.dim = max m.dim (n % 4294967296).toNat := by
  cases h with
  | dim n r h => exact ⟨n, r, h, updateDim_dim m _⟩
  | same n h => 
    subst hn
    exact absurd h (by decide)
  | _ => exact absurd hn (by decide)

theorem took_lazy {m m' : M} {v : List Char} {name : String} (h : Took m v name m') (hn : name = "lazy_update") :
    m'.lazy = decide (v = "true".toList) := by
  cases h with
  | lazy => rfl
  | same n h => 
    subst hn
    exact absurd h (by decide)
  | _ => exact absurd hn (by decide)

theorem took_smooth {m m' : M} {v : List Char} {name : String} (h : Took m v name m') (hn : name = "active_smoothness") :
    stof v = .ok m'.smooth := by
  cases h with
  | smooth x h => exact h
  | same n h => 
    subst hn
    exact absurd h (by decide)
  | _ => exact absurd hn (by decide)

theorem took_loss {m m' : M} {v : List Char} {name : String} (h : Took m v name m') (hn : name = "loss") :
    ∃ k, lossNamed v = some k ∧ m'.loss = some k := by
  cases h with
  | loss k b h => exact ⟨k, h, rfl⟩
  | same n h => 
    subst hn
    exact absurd h (by decide)
  | _ => exact absurd hn (by decide)

theorem took_norm {m m' : M} {v : List Char} {name : String} (h : Took m v name m') (hn : name = "norm") : NormText v m'.norm := by
  cases h with
  | norm k h => exact h
  | same n h => 
    subst hn
    exact absurd h (by decide)
  | _ => exact absurd hn (by decide)

/-- An accepted call for anything but the dimension leaves the weights alone; the dimension makes them longer by zeros. -/
theorem took_weights {m m' : M} {v : List Char} {name : String} (h : Took m v name m') :
    m'.w = m.w ∨ (name = "dim" ∧ m'.w = m.w.map fun u => u ++ List.replicate (m'.dim - u.length) 0) := by
  cases h with
  | dim n r h =>
    unfold updateDim
    by_cases hd : m.dim < (n % 4294967296).toNat
    · rw [if_pos hd]
      exact .inr ⟨rfl, rfl⟩
    · rw [if_neg hd]
      exact .inl rfl
  | _ => exact .inl rfl

end Sol.Params
