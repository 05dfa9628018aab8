import Verif.Proofs.Kits
import Verif.Props.Train
import Verif.Props.DataIter
import Verif.Proofs.LoadText
import Verif.Props.Cli
/-! Models from the command line or a file can be trained. -/

set_option linter.unusedSectionVars false

namespace Sol.Params
open Sol.Text Sol.FloatText Sol.PreProcess Sol.Spec

variable {files : List Char → Option (List Char)}

/-! ### More about the states reached -/

/-- The flags of the selected features cover the largest index. -/
def SelOk (s : Sel) : Prop := s.maxIndex = 0 ∨ s.flags.length = s.maxIndex + 1

theorem setFlags_length (is : List Nat) (f f' : List Bool) (h : setFlags is f = .ok f') : f'.length = f.length := by
  induction is generalizing f with
  | nil => rw [← Res.ok.inj h]
  | cons i is ih =>
    simp only [setFlags, Res.bind_eq_ok] at h
    obtain ⟨g, h1, h2⟩ := h
    rw [ih g h2]
    unfold lset at h1
    split at h1
    · rw [← Res.ok.inj h1]; simp
    · cases h1

theorem loadLoop_small (ls : List (List Char)) (is js : List Nat) (v : Verdict) (hi : ∀ i ∈ is, i < 4294967296)
    (h : loadLoop ls is = (v, js)) : ∀ i ∈ js, i < 4294967296 := by
  induction ls generalizing is with
  | nil =>
    simp only [loadLoop, Prod.mk.injEq] at h
    rw [← h.2]
    exact hi
  | cons l ls ih =>
    simp only [loadLoop] at h
    split at h
    · exact ih is hi h
    · split at h
      · rw [← (Prod.mk.inj h).2]; exact hi
      · split at h
        · rw [← (Prod.mk.inj h).2]; exact hi
        · refine ih _ ?_ h
          intro i hm
          rcases List.mem_append.1 hm with hm | hm
          · exact hi i hm
          · simp only [List.mem_singleton] at hm
            omega

theorem foldl_max_mem (is : List Nat) (i : Nat) : is.foldl max i ∈ i :: is := by
  induction is generalizing i with
  | nil => simp
  | cons j is ih =>
    have := ih (max i j)
    simp only [List.foldl_cons]
    rcases List.mem_cons.1 this with h | h
    · rw [h]
      rcases max_choice i j with h | h <;> rw [h] <;> simp
    · simp [h]

theorem setFlags_mem (is : List Nat) (f f' : List Bool) (h : setFlags is f = .ok f') : ∀ i ∈ is, i < f.length := by
  induction is generalizing f with
  | nil => simp
  | cons i is ih =>
    simp only [setFlags, Res.bind_eq_ok] at h
    obtain ⟨g, h1, h2⟩ := h
    unfold lset at h1
    split at h1
    · rename_i hi
      intro j hj
      rcases List.mem_cons.1 hj with rfl | hj
      · exact hi
      · have := ih g h2 j hj
        rw [← Res.ok.inj h1] at this
        simpa using this
    · cases h1

theorem loadPreSel_ok {f : Option (List Char)} {v : Verdict} {s : Sel} (h : loadPreSel f = .ok (v, s)) : SelOk s := by
  unfold loadPreSel at h
  split at h
  · rw [← (Prod.mk.inj (Res.ok.inj h)).2]; exact Or.inl rfl
  · split at h
    · rename_i is hl
      simp only [Res.bind_eq_ok] at h
      obtain ⟨mx, h1, fl, h2, h3⟩ := h
      rw [← (Prod.mk.inj (Res.ok.inj h3)).2]
      refine Or.inr ?_
      have hlen := setFlags_length _ _ _ h2
      have hmem := setFlags_mem _ _ _ h2
      simp only [List.length_replicate] at hlen hmem
      simp only [hlen]
      cases is with
      | nil => cases h1
      | cons i is =>
        simp only [maxOf] at h1
        have hm := foldl_max_mem is i
        rw [Res.ok.inj h1] at hm
        have h5 := hmem mx hm
        have h6 := loadLoop_small _ _ _ _ (by simp) hl mx hm
        by_cases h7 : mx + 1 < 4294967296
        · exact Nat.mod_eq_of_lt h7
        · have : mx + 1 = 4294967296 := by omega
          rw [this] at h5
          simp at h5
    · rw [← (Prod.mk.inj (Res.ok.inj h)).2]; exact Or.inl rfl

/-- What else holds of every state reached. -/
structure Fair (m : M) : Prop where
  sel : SelOk m.sel
  hinge : m.cls ∈ [Cls.alma2, .cw, .eccw] → m.hinge = true
  stamped : Stamped m

theorem set_filter (m : M) (v : List Char) : set files m "filter" v = onlineSet files m "filter" v := by
  unfold set
  cases m.cls <;> simp only [perceptronSet, ogdSet, stgSet, paSet, almaSet, arowSet, cwSet, rdaSet, erdaSet, sopSet, adaSet, fofsSet, ofB,
      String.reduceEq, if_false]

theorem took_others {m m' : M} {v : List Char} {name : String} (h : Took m v name m') :
    (name ≠ "filter" → m'.sel = m.sel) ∧ (name ≠ "loss" → m'.hinge = m.hinge) ∧ m'.cls = m.cls ∧
      m'.lastTime.length = m.lastTime.length ∧ m.dim ≤ m'.dim := by
  cases h with
  | dim n r h =>
    unfold updateDim
    by_cases hd : m.dim < (n % 4294967296).toNat
    · rw [if_pos hd]
      exact ⟨fun _ => rfl, fun _ => rfl, rfl, rfl, le_of_lt hd⟩
    · rw [if_neg hd]
      exact ⟨fun _ => rfl, fun _ => rfl, rfl, rfl, Nat.le_refl m.dim⟩
  | filter s => exact ⟨fun h => absurd rfl h, fun _ => rfl, rfl, rfl, Nat.le_refl _⟩
  | loss k b h => exact ⟨fun _ => rfl, fun h => absurd rfl h, rfl, rfl, Nat.le_refl _⟩
  | tReg n r x h h0 => exact ⟨fun _ => rfl, fun _ => rfl, rfl, by simp, Nat.le_refl _⟩
  | t0 x => exact ⟨fun _ => rfl, fun _ => rfl, rfl, by simp, Nat.le_refl _⟩
  | _ => exact ⟨fun _ => rfl, fun _ => rfl, rfl, rfl, Nat.le_refl _⟩

theorem loss_hinge {m : M} {v : List Char} (hc : m.cls ∈ [Cls.alma2, .cw, .eccw]) (h : (set files m "loss" v).2 = .accepted) :
    (set files m "loss" v).1.hinge = true := by
  have hh : (hingeLoss files m v true).2 = .accepted → (hingeLoss files m v true).1.hinge = true := by
    intro hb
    unfold hingeLoss andThen at hb ⊢
    split_ifs at hb ⊢ with h1
    · dsimp only at hb ⊢
      split_ifs at hb ⊢ with h2
      rfl
    · exact absurd hb h1
  unfold set at h ⊢
  simp only [List.mem_cons, List.not_mem_nil, or_false] at hc
  rcases hc with hc | hc | hc <;> simp only [hc] at h ⊢ <;>
    simp only [almaSet, cwSet, String.reduceEq, if_false, if_true] at h ⊢ <;> exact hh h

theorem reached_fair {m : M} (h : Reached files m) : Fair m := by
  induction h with
  | @new c n m h =>
    unfold create at h
    split_ifs at h with hn
    cases h
    refine ⟨Or.inl rfl, ?_, le_rfl, le_rfl⟩
    intro hc
    have hc : c ∈ [Cls.alma2, .cw, .eccw] := hc
    simp only [List.mem_cons, List.not_mem_nil, or_false] at hc
    rcases hc with rfl | rfl | rfl <;> rfl
  | @set m name v _ ha hm =>
    have ht := set_took ha
    obtain ⟨h1, h2, h3, h4, h5⟩ := took_others ht
    refine ⟨?_, ?_, ?_, ?_⟩
    · by_cases hl : name = "filter"
      · subst hl
        rw [set_filter, online_filter] at ha ⊢
        split at ha
        · cases ha
        · rename_i s hs
          exact loadPreSel_ok hs
        · rename_i e s hs
          cases e <;> cases ha
        · cases ha
      · have : target m.cls name ≠ "filter" := by
          unfold target
          split_ifs
          · decide
          · exact hl
        rw [h1 this]
        exact hm.sel
    · intro hc
      rw [h3] at hc
      by_cases hl : name = "loss"
      · subst hl
        exact loss_hinge hc ha
      · have : target m.cls name ≠ "loss" := by
          unfold target
          split_ifs
          · decide
          · exact hl
        rw [h2 this]
        exact hm.hinge hc
    · rw [h4]; exact hm.stamped.1
    · rw [h4]; exact hm.stamped.2.trans h5
  | train _ ht hm =>
    obtain ⟨-, -, -, -, hs, e⟩ := ht
    have hs := hs hm.stamped
    rw [e] at hs ⊢
    exact ⟨hm.sel, hm.hinge, hs⟩

/-! ### Loaded models -/

theorem regSet_set {m : M} {name : String} {v : List Char} {r : M × End} (h : regSet m name v = some r) :
    set files m name v = r := by
  have hn : name ∈ ["lambda", "sparse_thresh", "t0"] ∧ regOf m.cls ≠ .none := by
    unfold regSet at h
    split_ifs at h with h1 h2 h3 h4 h5 h6
    · exact ⟨by simp [h1], h2⟩
    · exact ⟨by simp [h3], by rcases h4 with h | h <;> simp [h]⟩
    · exact ⟨by simp [h5], by simp [h6]⟩
  have hon : onlineSet files m name v = r := by
    have a1 : name ∉ onlineNames := by
      rintro h
      obtain ⟨h1, -⟩ := hn
      simp only [List.mem_cons, List.not_mem_nil, or_false] at h1
      rcases h1 with rfl | rfl | rfl <;> simp [onlineNames] at h
    have a2 : name ∉ modelNames := by
      rintro h
      obtain ⟨h1, -⟩ := hn
      simp only [List.mem_cons, List.not_mem_nil, or_false] at h1
      rcases h1 with rfl | rfl | rfl <;> simp [modelNames] at h
    rw [online_reg files m v a1 a2, h]
  obtain ⟨h1, h2⟩ := hn
  simp only [List.mem_cons, List.not_mem_nil, or_false] at h1
  rw [← hon]
  unfold set
  cases hc : m.cls <;> rw [hc] at h2 <;> simp only [regOf, ne_eq, not_true_eq_false] at h2 <;> simp only [] <;>
    rcases h1 with rfl | rfl | rfl <;>
    simp only [ogdSet, stgSet, arowSet, rdaSet, erdaSet, adaSet, ofB, String.reduceEq, if_false]

theorem andThen_accepted {r : M × End} {f : M → M × End} {m : M} (h : andThen r f = (m, .accepted)) :
    r.2 = .accepted ∧ f r.1 = (m, .accepted) := by
  unfold andThen at h
  split_ifs at h with h1
  · exact ⟨h1, h⟩
  · rw [h] at h1
    exact absurd rfl h1

theorem setReg_reached (l : List (List Char × Json.Value)) {m m' : M} (hm : Reached files m) (h : setReg m l = (m', .accepted)) :
    Reached files m' := by
  induction l generalizing m with
  | nil => rw [← (Prod.mk.inj h).1]; exact hm
  | cons p l ih =>
    obtain ⟨k, v⟩ := p
    simp only [setReg] at h
    split at h
    · cases h
    · split at h
      · rw [← (Prod.mk.inj h).1]; exact hm
      · rename_i r hr
        obtain ⟨h1, h2⟩ := andThen_accepted h
        have := regSet_set (files := files) hr
        refine ih ?_ h2
        rw [← this] at h1 ⊢
        exact .set hm h1

theorem setEach_reached (l : List (List Char × Json.Value)) {m m' : M} (hm : Reached files m)
    (h : setEach files m l = (m', .accepted)) : Reached files m' := by
  induction l generalizing m with
  | nil => rw [← (Prod.mk.inj h).1]; exact hm
  | cons p l ih =>
    obtain ⟨k, v⟩ := p
    simp only [setEach] at h
    split at h
    · cases h
    · obtain ⟨h1, h2⟩ := andThen_accepted h
      exact ih (.set hm h1) h2

theorem setInfo_reached {root : Json.Value} {m m' : M} (hm : Reached files m) (h : setInfo files m root = (m', .accepted)) :
    Reached files m' := by
  unfold setInfo at h
  split at h
  · cases h
  split_ifs at h
  · rw [← (Prod.mk.inj h).1]; exact hm
  split at h
  · cases h
  split_ifs at h
  · rw [← (Prod.mk.inj h).1]; exact hm
  split at h
  · cases h
  split_ifs at h
  · rw [← (Prod.mk.inj h).1]; exact hm
  split at h
  · cases h
  · rename_i loss _
    obtain ⟨h1, h2⟩ := andThen_accepted h
    have hm1 : Reached files (if m.loss = none ∨ loss ≠ lossText m then set files m "loss" loss else (m, .accepted)).1 := by
      split_ifs at h1 ⊢
      · exact .set hm h1
      · exact hm
    generalize (if m.loss = none ∨ loss ≠ lossText m then set files m "loss" loss else (m, .accepted)).1 = m1 at h2 hm1
    split at h2
    · cases h2
    · obtain ⟨h3, h4⟩ := andThen_accepted h2
      have hm2 := Reached.set hm1 h3
      unfold setRegs at h4
      split at h4
      · cases h4
      · rw [← (Prod.mk.inj h4).1]; exact hm2
      · split_ifs at h4
        · rw [← (Prod.mk.inj h4).1]; exact hm2
        · exact setReg_reached _ hm2 h4

theorem readNums_length (v : List F32) (s : Stream) : (readNums v s).1.length = v.length := by
  induction v generalizing s with
  | nil => rfl
  | cons a v ih =>
    cases s with
    | none => rfl
    | some s =>
      simp only [readNums]
      split
      · simp [ih]
      · simp

theorem readVec_length (v : List F32) (s : Stream) : (readVec v s).1.length = v.length := by
  simp only [readVec]
  exact readNums_length _ _

theorem readVecs_lengths (vs : List (List F32)) (s : Stream) : (readVecs vs s).1.map List.length = vs.map List.length := by
  induction vs generalizing s with
  | nil => rfl
  | cons v vs ih =>
    simp only [readVecs, List.map_cons, ih, readVec_length]

theorem readParams_trained {m : M} (h : Checked m) (s : Stream) : Trained m (readParams m s) := by
  have key : ∃ w sc su X, readParams m s = { m with w := w, scale := sc, X := X, sum := su } ∧
      w.map List.length = m.w.map List.length ∧ sc.map List.length = m.scale.map List.length ∧
      su.map List.length = m.sum.map List.length ∧ X.length = m.X.length := by
    unfold readParams
    dsimp only
    refine ⟨_, _, _, _, rfl, readVecs_lengths _ _, ?_, ?_, ?_⟩
    · split_ifs
      · exact readVecs_lengths _ _
      · rfl
    · split_ifs
      all_goals first
        | exact readVecs_lengths _ _
        | rfl
    · split_ifs
      all_goals first
        | exact readVec_length _ _
        | rfl
  obtain ⟨w, sc, su, X, e, h1, h2, h3, h4⟩ := key
  rw [e]
  have hs := h.shape
  exact ⟨⟨hs.dim, h1.trans hs.w, h2.trans hs.scale, h3.trans hs.sum, h4.trans hs.X⟩, h.t, h.k, fun _ => rfl, fun h => h, rfl⟩

theorem loadRoot_reached {root : Json.Value} {s : Stream} {m : M} (h : loadRoot files root s = .model m) : Reached files m := by
  unfold loadRoot at h
  split at h
  · cases h
  split at h
  · cases h
  split at h
  · cases h
  split at h
  · cases h
  rename_i m0 hc
  split at h
  · rename_i m1 h1
    obtain ⟨h2, h3⟩ := andThen_accepted h1
    have hm2 : Reached files (setInfo files m0 root).1 := setInfo_reached (root := root) (.new hc) (by rw [← h2])
    have hm3 : Reached files m1 := by
      unfold setOnline at h3
      split at h3
      · cases h3
      · cases h3
      · exact setEach_reached _ hm2 h3
    cases h
    exact .train hm3 (readParams_trained (reached_checked hm3) s)
  · cases h
  · cases h
  · cases h

theorem loadText_reached {n : Nat} {junk text : List Char} {m : M} (h : loadText files n junk text = some (.model m)) :
    Reached files m := by
  unfold loadText at h
  split at h
  · cases h
  · cases h
  · split at h
    · cases h
    · cases h
    · cases h
    · exact loadRoot_reached (Option.some.inj h)

end Sol.Params

namespace Sol.Whole
open Sol.Params Sol.Online Sol.Olm Sol.Select Sol.Loss Sol.Sparse Sol.Spec Sol.PreProcess

variable [FFun F32]

/-! ### Pre-processing -/

theorem gives_filterLoop {s : Sel} (hs : s.flags.length = s.maxIndex + 1) (x : SVec F32) :
    Gives (filterLoop s x) (fun y => y.map (·.1) = x.map (·.1)) := by
  induction x with
  | nil => exact .ok rfl
  | cons p x ih =>
    obtain ⟨i, y⟩ := p
    refine Gives.bind (P := fun _ => True) ?_ fun y' _ => ih.bind fun x' hx' => .ok (by simp [hx'])
    refine .ite (fun _ => .ok trivial) fun h => ?_
    exact (gives_lget (by omega)).bind fun _ _ => .ok trivial

theorem normalise_indexes (n : Norm) (x : SVec F32) : (normalise n x).map (·.1) = x.map (·.1) := by
  cases n <;> simp [normalise, scale, Function.comp_def]

theorem gives_preProcess {s : Sel} (hs : SelOk s) (clf : Nat) (n : Norm) (e : Ex F32) :
    Gives (preProcess clf s n e) (fun e' => e'.label = calibrate clf e.label ∧ e'.x.map (·.1) = e.x.map (·.1)) := by
  refine Gives.bind (P := fun y => y.map (·.1) = e.x.map (·.1)) ?_ fun y hy => .ok ⟨rfl, (normalise_indexes _ _).trans hy⟩
  unfold filterFeatures
  refine .ite (fun _ => .ok rfl) fun h => ?_
  exact gives_filterLoop (hs.resolve_left h) e.x

theorem pre_all {s : Sel} (hs : SelOk s) (clf : Nat) (n : Norm) (es : List (Ex F32)) :
    ∃ xs, List.Forall₂ (fun e x => preProcess clf s n e = .ok x) es xs ∧
      List.Forall₂ (fun e x => x.label = calibrate clf e.label ∧ x.x.map (·.1) = e.x.map (·.1)) es xs := by
  induction es with
  | nil => exact ⟨[], .nil, .nil⟩
  | cons e es ih =>
    obtain ⟨xs, h1, h2⟩ := ih
    obtain ⟨x, h3, h4⟩ := gives_preProcess hs clf n e
    exact ⟨x :: xs, .cons h3 h1, .cons h4 h2⟩

theorem good_indexes {x y : SVec F32} (h : y.map (·.1) = x.map (·.1)) (hx : Good x) : Good y := by
  obtain ⟨h1, h2⟩ := hx
  refine ⟨?_, ?_⟩
  · unfold Ascending at *
    rw [← List.pairwise_map (f := fun p : Nat × F32 => p.1) (R := fun a b => a < b)] at *
    rw [h]
    exact h1
  · intro p hp
    have : p.1 ∈ y.map (·.1) := List.mem_map_of_mem hp
    rw [h] at this
    obtain ⟨q, hq, e⟩ := List.mem_map.1 this
    rw [← e]
    exact h2 q hq

theorem dim_indexes {x y : SVec F32} (h : y.map (·.1) = x.map (·.1)) : Sparse.dim y = Sparse.dim x := by
  unfold Sparse.dim
  have : (y.getLast?).map (·.1) = (x.getLast?).map (·.1) := by
    rw [← List.getLast?_map, h, List.getLast?_map]
  cases hx : x.getLast? <;> cases hy : y.getLast? <;> rw [hx, hy] at this <;> simp_all

theorem armed_mem {ρ : Nat → F32} {u : Nat} {xs : List (Ex F32)} {p : Ex F32 × F32} (h : p ∈ Props.armed ρ u xs) : p.1 ∈ xs := by
  induction xs generalizing u with
  | nil => simp [Props.armed] at h
  | cons x xs ih =>
    simp only [Props.armed] at h
    rcases List.mem_cons.1 h with rfl | h
    · simp
    · exact List.mem_cons_of_mem _ (ih h)

theorem mem_armed {ρ : Nat → F32} {u : Nat} {xs : List (Ex F32)} {x : Ex F32} (h : x ∈ xs) : ∃ p ∈ Props.armed ρ u xs, p.1 = x := by
  induction xs generalizing u with
  | nil => simp at h
  | cons y xs ih =>
    rcases List.mem_cons.1 h with rfl | h
    · exact ⟨_, List.mem_cons_self, rfl⟩
    · obtain ⟨p, h1, h2⟩ := ih (u := u + 1) h
      exact ⟨p, List.mem_cons_of_mem _ h1, h2⟩

/-! ### Training on batches is training on the pre-processed examples -/

theorem trainKit_eq (ρ : Nat → F32) (d : Train.Disp) (m : M) (k : Kind) {A : Type} (K : Kit A) (bs : List (List (Ex F32)))
    {xs : List (Ex F32)} (h : List.Forall₂ (fun e x => preProcess (cfgOf m k).clf m.sel m.norm e = .ok x) bs.flatten xs) :
    trainKit ρ d m k K bs = kitTrain m k K (Props.armed ρ 0 xs) := by
  unfold trainKit kitTrain
  dsimp only
  cases K.begin (cfgOf m k) (startSt m K.first) with
  | ub => rfl
  | ok s =>
    have := Props.batch_loop K.G (cfgOf m k) ⟨m.sel, m.norm⟩ ρ _ _ h ⟨s, d, [], 0⟩
    simp only [Res.bind_ok, runTrain, ← this, Train.train, Props.batches_flat, bind_bind]

theorem trainKit_flat (ρ : Nat → F32) (d : Train.Disp) (m : M) (k : Kind) {A : Type} (K : Kit A) (bs : List (List (Ex F32))) :
    trainKit ρ d m k K bs = trainKit ρ d m k K [bs.flatten] := by
  simp only [trainKit, Train.train, Props.batches_flat, List.flatten_cons, List.flatten_nil, List.append_nil]

theorem trainModel_flat (powf : F32 → F32 → F32) (ρ : Nat → F32) (d : Train.Disp) (m : M) (bs : List (List (Ex F32))) :
    trainModel powf ρ d m bs = trainModel powf ρ d m [bs.flatten] := by
  unfold trainModel
  split
  · rfl
  · congr
    funext go
    split
    · congr
      funext K
      exact trainKit_flat _ _ _ _ _ _
    · rfl

theorem testModel_flat (m : M) (bs : List (List (Ex F32))) : testModel m bs = testModel m [bs.flatten] := by
  simp only [testModel, Props.testBatches_flat, List.flatten_cons, List.flatten_nil, List.append_nil]

/-- Training runs the algorithm of the class on the examples after the preprocessing. -/
theorem trainModel_kit {files : List Char → Option (List Char)} {m : M} (hm : Reached files m) (powf : F32 → F32 → F32)
    (ρ : Nat → F32) (d : Train.Disp) (bs : List (List (Ex F32))) (ht : Trainable m bs.flatten) :
    ∃ k l, ∃ K : AnyKit, Fitted m k l ∧ kitOf powf m = .ok K ∧ Gives (kitTrain m k K.2 l) (Trained m) ∧
      trainModel powf ρ d m bs = kitTrain m k K.2 l := by
  have hc := reached_checked hm
  have hf := reached_fair hm
  obtain ⟨k, hk, hk2⟩ := hc.loss
  obtain ⟨xs, h1, h2⟩ := pre_all hf.sel (cfgOf m k).clf m.norm bs.flatten
  have hx : ∀ x ∈ xs, ∃ e ∈ bs.flatten, x.label = calibrate (cfgOf m k).clf e.label ∧ x.x.map (·.1) = e.x.map (·.1) := by
    intro x hx
    clear h1
    generalize bs.flatten = es at h2
    induction h2 with
    | nil => simp at hx
    | @cons e y es ys h h' ih =>
      rcases List.mem_cons.1 hx with rfl | hx
      · exact ⟨e, List.mem_cons_self, h⟩
      · obtain ⟨e, he, h⟩ := ih hx
        exact ⟨e, List.mem_cons_of_mem _ he, h⟩
  have hx' : ∀ e ∈ bs.flatten, ∃ x ∈ xs, x.x.map (·.1) = e.x.map (·.1) := by
    intro e he
    clear h1 hx
    generalize bs.flatten = es at h2 he
    induction h2 with
    | nil => simp at he
    | @cons e y es ys h h' ih =>
      rcases List.mem_cons.1 he with rfl | he
      · exact ⟨y, List.mem_cons_self, h.2⟩
      · obtain ⟨e, he, h⟩ := ih he
        exact ⟨e, List.mem_cons_of_mem _ he, h⟩
  have hfit : Fitted m k (Props.armed ρ 0 xs) := by
    refine ⟨hc, hk, hf.hinge, hf.stamped, ?_, ?_, ht.budget, ht.features, ht.dim, ?_⟩
    · intro p hp
      obtain ⟨e, he, h3, h4⟩ := hx _ (armed_mem hp)
      have hte := ht.points e he
      refine ⟨good_indexes h4 hte.good, ?_⟩
      have hn := hc.classNum
      show LabelOk (vectors m.classNum) p.1.label
      rcases hte.label with h5 | h5
      · exact Or.inl (by rw [h5]; rfl)
      · by_cases h6 : m.classNum = 2
        · exact Or.inl (by rw [h6]; rfl)
        · have : vectors m.classNum = m.classNum.toNat := by unfold vectors; rw [if_neg h6]
          have h7 : (cfgOf m k).clf = vectors m.classNum := rfl
          right
          rw [h3, h7, this]
          unfold calibrate
          rw [if_neg (by omega)]
          omega
    · intro hch p hp
      obtain ⟨e, he, h3, h4⟩ := hx _ (armed_mem hp)
      have hte := ht.points e he
      refine ⟨good_indexes h4 hte.good, fun q hq => ?_⟩
      have : q.1 ∈ p.1.x.map (·.1) := List.mem_map_of_mem hq
      rw [h4] at this
      obtain ⟨r, hr, e⟩ := List.mem_map.1 this
      rw [← e]
      exact hte.first hch r hr
    · intro hl
      rcases ht.covered hl with h3 | ⟨e, he, h3⟩
      · exact Or.inl h3
      · obtain ⟨x, hx1, hx2⟩ := hx' e he
        obtain ⟨p, hp, rfl⟩ := mem_armed (ρ := ρ) (u := 0) hx1
        exact Or.inr ⟨p, hp, by rw [dim_indexes hx2]; exact h3⟩
  obtain ⟨K, hK, hK2⟩ := kit_trained powf hfit
  have hgo : (!m.costSensitive || (isHinge k && isBC k)) = true := by
    cases hcs : m.costSensitive with
    | false => rfl
    | true =>
      have h1 := ht.cost hcs
      rw [hk] at h1
      have h1 : isHinge k = true := h1
      have h2 := (hc.cost hcs).1
      have h3 := hk2.1
      rw [if_pos h2] at h3
      simp [h1, h3]
  unfold trainModel
  rw [hk]
  simp only [beginTrain, hk, Res.bind, hgo, if_true, hK]
  exact ⟨k, _, K, hfit, rfl, hK2, trainKit_eq ρ d m k K.2 bs h1⟩

/-- Every state reached can be trained on suitable data, and reaches another one. -/
theorem trainModel_trained {files : List Char → Option (List Char)} {m : M} (hm : Reached files m) (powf : F32 → F32 → F32)
    (ρ : Nat → F32) (d : Train.Disp) (bs : List (List (Ex F32))) (ht : Trainable m bs.flatten) :
    Gives (trainModel powf ρ d m bs) (Trained m) := by
  obtain ⟨k, l, K, -, -, h1, h2⟩ := trainModel_kit hm powf ρ d bs ht
  rw [h2]
  exact h1

/-! ### Runs -/

/-- The examples that a job reads. -/
def dataOf (pw : Int → F32) (W : World) (j : Cli.Job) : Res (List (Ex F32)) :=
  if j.passes ≤ 0 then .ok []
  else
    (DataFile.addReader j.format (W.reads j.path)).bind fun
      | none => .ok []
      | some o => (DataFile.contents pw o).bind fun r => .ok (lessons r.1 r.2 j.passes)

/-- The end of a job with this output. -/
def ending (j : Cli.Job) (wrote : Bool) (code : Int) : Res (List Char) → End
  | .ok t => .exit code (outFiles j wrote t)
  | .ub k => failed k

theorem opened {W : World} {j : Cli.Job} (h : Readable W.env j) : ∃ o, DataFile.addReader j.format (W.reads j.path) = .ok (some o) := by
  have := h.2.2
  simp only [World.env] at this
  split at this
  · exact ⟨_, by assumption⟩
  · cases this

theorem delivers_data {pw : Int → F32} {W : World} {j : Cli.Job} (h : Readable W.env j) {r : Res (List (List (Ex F32)))}
    (hd : Delivers pw W j r) : dataOf pw W j = r.bind fun bs => .ok bs.flatten := by
  unfold dataOf
  cases hd with
  | idle hp => rw [if_pos hp]; rfl
  | @points o pts st i hp ho hc hi he =>
    obtain ⟨h1, h2, -⟩ := h
    rw [if_neg (by omega), ho]
    simp only [Res.bind, hc]
    have := Props.C23_null_after_everything _ _ (by omega) (by omega) _ _ hi he
    rw [← List.map_flatten, this]
    simp [lessons, allPoints]
  | bad hp ho hc =>
    rw [if_neg (by omega), ho]
    simp only [Res.bind, hc]

theorem delivers_some (pw : Int → F32) {W : World} {j : Cli.Job} (h : Readable W.env j) : ∃ r, Delivers pw W j r := by
  by_cases hp : j.passes ≤ 0
  · exact ⟨_, .idle hp⟩
  · obtain ⟨o, ho⟩ := opened h
    obtain ⟨h1, h2, -⟩ := h
    cases hc : DataFile.contents pw o with
    | ub k => exact ⟨_, .bad (by omega) ho hc⟩
    | ok r =>
      obtain ⟨i, hi, he⟩ := Props.C24_null_comes j.batch.toNat j.buf.toNat (by omega) (by omega)
        [(r.1, decide (r.2 ≠ .endOfFile), j.passes.toNat)]
      exact ⟨_, .points (by omega) ho hc hi he⟩

/-- A job has exactly one end, whatever the threads do. -/
theorem runs_done {pw : Int → F32} {W : World} {work : M → List (List (Ex F32)) → Res (List Char)}
    (hw : ∀ m bs, work m bs = work m [bs.flatten]) {j : Cli.Job} (h : Readable W.env j) {wrote : Bool} {code : Int} {e : End} :
    Runs pw W work (.done j wrote code) e ↔ e = ending j wrote code ((dataOf pw W j).bind fun l => work j.model [l]) := by
  constructor
  · intro hr
    cases hr with
    | bad hd => rw [delivers_data h hd]; rfl
    | fails hd hf => rw [delivers_data h hd]; simp only [Res.bind, ← hw, hf]; rfl
    | done hd hf => rw [delivers_data h hd]; simp only [Res.bind, ← hw, hf]; rfl
  · rintro rfl
    obtain ⟨r, hd⟩ := delivers_some pw h
    rw [delivers_data h hd]
    cases r with
    | ub k => exact .bad hd
    | ok bs =>
      simp only [Res.bind, ← hw]
      cases hf : work j.model bs with
      | ub k => exact .fails hd hf
      | ok t => exact .done hd hf

theorem reads_data {pw : Int → F32} {W : World} {j : Cli.Job} (h : Readable W.env j) (l : List (Ex F32)) :
    Reads pw W j l ↔ dataOf pw W j = .ok l := by
  obtain ⟨o, ho⟩ := opened h
  unfold Reads dataOf
  by_cases hp : j.passes ≤ 0
  · rw [if_pos hp]
    constructor
    · rintro (⟨-, rfl⟩ | ⟨h1, -⟩)
      · rfl
      · omega
    · exact fun h => .inl ⟨hp, (Res.ok.inj h).symm⟩
  · rw [if_neg hp, ho]
    simp only [Res.bind]
    constructor
    · rintro (⟨h1, -⟩ | ⟨-, f, pts, st, h1, ⟨o', h2, h3⟩, rfl⟩)
      · omega
      · rw [h1, h2] at ho
        obtain rfl := Option.some.inj (Res.ok.inj ho)
        rw [h3]
    · intro hd
      cases hc : DataFile.contents pw o with
      | ub k => rw [hc] at hd; cases hd
      | ok r =>
        rw [hc] at hd
        refine .inr ⟨by omega, ?_⟩
        cases hf : W.reads j.path with
        | none =>
          rw [hf] at ho
          unfold DataFile.addReader at ho
          split_ifs at ho
          cases hn : DataFile.formatNamed j.format with
          | none => simp [hn] at ho
          | some fmt => cases fmt <;> simp [hn] at ho
        | some f =>
          rw [hf] at ho
          exact ⟨f, r.1, r.2, rfl, ⟨o, ho, hc⟩, (Res.ok.inj hd).symm⟩

theorem train_flat (powf : F32 → F32 → F32) (ρ : Nat → F32) (d : Train.Disp) (m : M) (bs : List (List (Ex F32))) :
    ((trainModel powf ρ d m bs).bind fun m => Res.ok (saveText m)) = (trainModel powf ρ d m [bs.flatten]).bind fun m => .ok (saveText m) := by
  rw [trainModel_flat]

theorem test_flat (m : M) (bs : List (List (Ex F32))) :
    ((testModel m bs).bind fun r => Res.ok (predText r.1)) = (testModel m [bs.flatten]).bind fun r => .ok (predText r.1) := by
  rw [testModel_flat]

theorem solTrain_done {pw : Int → F32} {powf : F32 → F32 → F32} {ρ : Nat → F32} {d : Train.Disp} {W : World} {prog : List Char}
    {args : List (List Char)} {j : Cli.Job} {w : Bool} {c : Int} (h : Cli.trainMain W.env (prog :: args) = .done j w c) (e : End) :
    SolTrain pw powf ρ d W (prog :: args) e ↔
      e = ending j w c ((dataOf pw W j).bind fun l => (trainModel powf ρ d j.model [l]).bind fun m => .ok (saveText m)) := by
  obtain ⟨-, g, ws, -, -, -, ha, -⟩ := Props.C60_train_only_partial _ _ _ _ _ _ h
  unfold SolTrain
  rw [h]
  exact runs_done (train_flat powf ρ d) ha.data

theorem solTest_done {pw : Int → F32} {W : World} {prog : List Char}
    {args : List (List Char)} {j : Cli.Job} {w : Bool} {c : Int} (h : Cli.testMain W.env (prog :: args) = .done j w c) (e : End) :
    SolTest pw W (prog :: args) e ↔
      e = ending j w c ((dataOf pw W j).bind fun l => (testModel j.model [l]).bind fun r => .ok (predText r.1)) := by
  obtain ⟨-, g, ws, -, -, ha, -⟩ := Props.C60_test_only_partial _ _ _ _ _ _ h
  unfold SolTest
  rw [h]
  exact runs_done test_flat ha.data

/-- The end of `sol_train`. -/
def trainEnd (pw : Int → F32) (powf : F32 → F32 → F32) (ρ : Nat → F32) (d : Train.Disp) (W : World) (argv : List (List Char)) : End :=
  match Cli.trainMain W.env argv with
  | .exit c => .exit c []
  | .thrown => .thrown
  | .undef k => .undef k
  | .hangs => .hangs
  | .done j w c => ending j w c ((dataOf pw W j).bind fun l => (trainModel powf ρ d j.model [l]).bind fun m => .ok (saveText m))

/-- The end of `sol_test`. -/
def testEnd (pw : Int → F32) (W : World) (argv : List (List Char)) : End :=
  match Cli.testMain W.env argv with
  | .exit c => .exit c []
  | .thrown => .thrown
  | .undef k => .undef k
  | .hangs => .hangs
  | .done j w c => ending j w c ((dataOf pw W j).bind fun l => (testModel j.model [l]).bind fun r => .ok (predText r.1))

theorem solTrain_iff (pw : Int → F32) (powf : F32 → F32 → F32) (ρ : Nat → F32) (d : Train.Disp) (W : World) (prog : List Char)
    (args : List (List Char)) (e : End) : SolTrain pw powf ρ d W (prog :: args) e ↔ e = trainEnd pw powf ρ d W (prog :: args) := by
  unfold trainEnd
  cases h : Cli.trainMain W.env (prog :: args) with
  | done j w c => exact solTrain_done h e
  | _ =>
    unfold SolTrain
    rw [h]
    constructor
    · intro hr
      cases hr
      rfl
    · rintro rfl
      constructor

theorem solTest_iff (pw : Int → F32) (W : World) (prog : List Char) (args : List (List Char)) (e : End) :
    SolTest pw W (prog :: args) e ↔ e = testEnd pw W (prog :: args) := by
  unfold testEnd
  cases h : Cli.testMain W.env (prog :: args) with
  | done j w c => exact solTest_done h e
  | _ =>
    unfold SolTest
    rw [h]
    constructor
    · intro hr
      cases hr
      rfl
    · rintro rfl
      constructor

/-! ### Sizes -/

/-- The same job with other sizes. -/
def resize (b f : Int) : Cli.Ran → Cli.Ran
  | .done j w c => .done { j with batch := b, buf := f } w c
  | r => r

theorem setParams_resize {files : List Char → Option (List Char)} {b f : Int} (os : List (List Char)) {m : M} {r : Cli.Ran}
    (h : Cli.setParams files m os = .inr r) : resize b f r = r := by
  induction os generalizing m with
  | nil => cases h
  | cons o os ih =>
    unfold Cli.setParams at h
    split at h
    · split at h
      · exact ih h
      all_goals
        cases h
        rfl
    · cases h
      rfl

theorem firstModel_resize {env : Cli.Env} {s : Cmdline.St} {b f : Int} {r : Cli.Ran}
    (h : Cli.firstModel env s = .inr r) : resize b f r = r := by
  unfold Cli.firstModel at h
  split_ifs at h
  · split at h
    all_goals
      cases h
      try rfl
  · cases h
    rfl
  · split at h
    all_goals
      cases h
      try rfl

/-- What training looks at, without the sizes. -/
structure Alike (s s' : Cmdline.St) : Prop where
  others : s'.others = s.others
  given : s'.exist "model".toList = some true ↔ s.exist "model".toList = some true
  str : ∀ n ∈ ["model", "algo", "params", "format"], Cli.str s' n = Cli.str s n
  num : ∀ n ∈ ["classes", "pass"], Cli.num s' n = Cli.num s n

theorem trainWith_resize {env : Cli.Env} {s s' : Cmdline.St} (h : Alike s s') (hb : 0 < Cli.num s "batchsize") (hf : 0 < Cli.num s "bufsize")
    (hb' : 0 < Cli.num s' "batchsize") (hf' : 0 < Cli.num s' "bufsize") (i : List Char) (o : Option (List Char)) :
    Cli.trainWith env s' i o = resize (Cli.num s' "batchsize") (Cli.num s' "bufsize") (Cli.trainWith env s i o) := by
  have e1 : Cli.firstModel env s' = Cli.firstModel env s := by
    unfold Cli.firstModel
    by_cases hm : s.exist "model".toList = some true
    · rw [if_pos hm, if_pos (h.given.2 hm), h.str "model" (by decide)]
    · rw [if_neg hm, if_neg fun x => hm (h.given.1 x), h.str "algo" (by decide), h.num "classes" (by decide)]
  unfold Cli.trainWith
  rw [e1, h.str "params" (by decide), h.str "format" (by decide), h.num "pass" (by decide)]
  cases h1 : Cli.firstModel env s with
  | inr r => exact (firstModel_resize h1).symm
  | inl m =>
    dsimp only
    cases h2 : Cli.setParams env.files m (StrUtil.split ';' (Cli.str s "params")) with
    | inr r => exact (setParams_resize _ h2).symm
    | inl m =>
      simp only [Cli.withData]
      rw [if_neg (by omega), if_neg (by omega), if_neg (by omega), if_neg (by omega : ¬ Cli.num s "bufsize" < 0),
        if_neg (by omega : ¬ Cli.num s "bufsize" = 0), if_neg (by omega : ¬ Cli.num s "batchsize" < 0),
        if_neg (by omega : ¬ (Cli.num s' "batchsize" = 0 ∧ 0 < Cli.num s "pass")),
        if_neg (by omega : ¬ (Cli.num s "batchsize" = 0 ∧ 0 < Cli.num s "pass"))]
      split_ifs <;> rfl

theorem train_resize {env : Cli.Env} {s s' : Cmdline.St} (h : Alike s s') (hb : 0 < Cli.num s "batchsize") (hf : 0 < Cli.num s "bufsize")
    (hb' : 0 < Cli.num s' "batchsize") (hf' : 0 < Cli.num s' "bufsize") :
    Cli.train env s' = resize (Cli.num s' "batchsize") (Cli.num s' "bufsize") (Cli.train env s) := by
  unfold Cli.train
  rw [h.others]
  split
  · exact trainWith_resize h hb hf hb' hf' _ _
  · exact trainWith_resize h hb hf hb' hf' _ _
  · rfl

theorem trainEnd_resize (pw : Int → F32) (powf : F32 → F32 → F32) (ρ : Nat → F32) (d : Train.Disp) (W : World) {a a' : List (List Char)} {b f : Int}
    (h : Cli.trainMain W.env a' = resize b f (Cli.trainMain W.env a)) : trainEnd pw powf ρ d W a' = trainEnd pw powf ρ d W a := by
  unfold trainEnd
  rw [h]
  cases Cli.trainMain W.env a <;> rfl

theorem testWith_resize {env : Cli.Env} {s s' : Cmdline.St}
    (hx : s'.exist "filter".toList = some true ↔ s.exist "filter".toList = some true)
    (h1 : Cli.str s' "filter" = Cli.str s "filter") (h2 : Cli.str s' "format" = Cli.str s "format") (hb : 0 < Cli.num s "batchsize") (hf : 0 < Cli.num s "bufsize")
    (hb' : 0 < Cli.num s' "batchsize") (hf' : 0 < Cli.num s' "bufsize") (p i : List Char) (o : Option (List Char)) :
    Cli.testWith env s' p i o = resize (Cli.num s' "batchsize") (Cli.num s' "bufsize") (Cli.testWith env s p i o) := by
  unfold Cli.testWith
  have e : ∀ m : M, (if s'.exist "filter".toList = some true then set env.files m "filter" (Cli.str s' "filter") else (m, .accepted)) =
      (if s.exist "filter".toList = some true then set env.files m "filter" (Cli.str s "filter") else (m, .accepted)) := by
    intro m
    by_cases h : s.exist "filter".toList = some true
    · rw [if_pos h, if_pos (hx.2 h), h1]
    · rw [if_neg h, if_neg fun k => h (hx.1 k)]
  cases env.load p with
  | model m =>
    dsimp only
    rw [e, h2]
    generalize (if s.exist "filter".toList = some true then set env.files m "filter" (Cli.str s "filter") else (m, .accepted)) = r
    obtain ⟨m, r⟩ := r
    cases r with
    | accepted =>
      simp only [Cli.withData]
      rw [if_neg (by omega), if_neg (by omega), if_neg (by omega), if_neg (by omega : ¬ Cli.num s "bufsize" < 0),
        if_neg (by omega : ¬ Cli.num s "bufsize" = 0), if_neg (by omega : ¬ Cli.num s "batchsize" < 0),
        if_neg (by omega : ¬ (Cli.num s' "batchsize" = 0 ∧ (0 : Int) < 1)),
        if_neg (by omega : ¬ (Cli.num s "batchsize" = 0 ∧ (0 : Int) < 1))]
      split_ifs <;> rfl
    | _ => rfl
  | _ => rfl

theorem test_resize {env : Cli.Env} {s s' : Cmdline.St} (ho : s'.others = s.others)
    (hx : s'.exist "filter".toList = some true ↔ s.exist "filter".toList = some true)
    (h1 : Cli.str s' "filter" = Cli.str s "filter") (h2 : Cli.str s' "format" = Cli.str s "format") (hb : 0 < Cli.num s "batchsize") (hf : 0 < Cli.num s "bufsize")
    (hb' : 0 < Cli.num s' "batchsize") (hf' : 0 < Cli.num s' "bufsize") :
    Cli.test env s' = resize (Cli.num s' "batchsize") (Cli.num s' "bufsize") (Cli.test env s) := by
  unfold Cli.test
  rw [ho]
  split
  · exact testWith_resize hx h1 h2 hb hf hb' hf' _ _ _
  · exact testWith_resize hx h1 h2 hb hf hb' hf' _ _ _
  · rfl

theorem testEnd_resize (pw : Int → F32) (W : World) {a a' : List (List Char)} {b f : Int}
    (h : Cli.testMain W.env a' = resize b f (Cli.testMain W.env a)) : testEnd pw W a' = testEnd pw W a := by
  unfold testEnd
  rw [h]
  cases Cli.testMain W.env a <;> rfl

/-! ### Where the model comes from -/

theorem setAll_reached {files : List Char → Option (List Char)} (l : List (String × List Char)) {m m' : M} (hm : Reached files m)
    (h : setAll files m l = (m', .accepted)) : Reached files m' := by
  induction l generalizing m with
  | nil => rw [← (Prod.mk.inj h).1]; exact hm
  | cons p l ih =>
    simp only [setAll] at h
    obtain ⟨h1, h2⟩ := andThen_accepted h
    exact ih (.set hm h1) h2

theorem loads_reached {W : World} (h : Loads W) {p : List Char} {m : M} (hm : W.load p = .model m) : Reached W.files m := by
  obtain ⟨f, n, junk, -, h1⟩ := h.sound p m hm
  exact loadText_reached h1

theorem job_reached {W : World} (h : Loads W) {prog : List Char} {args : List (List Char)} {j : Cli.Job} {w : Bool} {c : Int}
    (hj : Cli.trainMain W.env (prog :: args) = .done j w c) : Reached W.files j.model := by
  obtain ⟨-, g, ws, -, -, -, ha, -⟩ := Props.C60_train_only_partial _ _ _ _ _ _ hj
  obtain ⟨m, p, l, h1, -, -, h2⟩ := ha.model
  refine setAll_reached l ?_ h2
  rcases h1 with ⟨-, q, -, hl⟩ | ⟨-, a, n, cl, -, -, hn, -, rfl⟩
  · exact loads_reached h hl
  · exact .new (c := cl) (n := n) (by simp [create, hn])

theorem test_reached {W : World} (h : Loads W) {prog : List Char} {args : List (List Char)} {j : Cli.Job} {w : Bool} {c : Int}
    (hj : Cli.testMain W.env (prog :: args) = .done j w c) : Reached W.files j.model := by
  obtain ⟨-, g, ws, -, -, ha, -⟩ := Props.C60_test_only_partial _ _ _ _ _ _ hj
  obtain ⟨p, m, h1, -, h2⟩ := ha.words
  have hm := loads_reached h h1
  rcases h2 with ⟨-, h2⟩ | ⟨-, f, -, h2⟩
  · rw [h2]; exact hm
  · have := Reached.set (files := W.files) (name := "filter") (v := f) hm (by rw [show set W.files m "filter" f = _ from h2])
    rw [show set W.files m "filter" f = _ from h2] at this
    exact this

/-! ### Loading -/

omit [FFun F32] in
theorem loadText_more {files : List Char → Option (List Char)} {n k : Nat} {junk text : List Char} {r : Loaded}
    (h : loadText files n junk text = some r) (hk : n ≤ k) : loadText files k junk text = some r := by
  unfold loadText at h ⊢
  cases hc : LoadLoop.collect n text with
  | none => rw [hc] at h; cases h
  | some g =>
    rw [hc] at h
    rw [collect_more hc hk]
    cases g with
    | invalid => exact h
    | lines s =>
      dsimp only at h ⊢
      cases hp : Json.parse n s.out junk with
      | none => rw [hp] at h; cases h
      | some p =>
        rw [hp] at h
        rw [Json.parse_more hp hk]
        exact h

omit [FFun F32] in
theorem loadText_once {files : List Char → Option (List Char)} {n k : Nat} {junk text : List Char} {r r' : Loaded}
    (h : loadText files n junk text = some r) (h' : loadText files k junk text = some r') : r = r' := by
  have h1 := loadText_more h (le_max_left n k)
  rw [loadText_more h' (le_max_right n k)] at h1
  exact (Option.some.inj h1).symm

omit [FFun F32] in
/-- A world in which all files are loaded within `n` steps. -/
theorem loads_of {W : World} {n : Nat} (h1 : ∀ p m, W.reads p = none → W.load p ≠ .model m)
    (h2 : ∀ p f, W.reads p = some f → loadText W.files n [] (DataFile.chars f) = some (W.load p)) : Loads W := by
  constructor
  · intro p m hm
    cases hr : W.reads p with
    | none => exact absurd hm (h1 p m hr)
    | some f => exact ⟨f, n, [], rfl, hm ▸ h2 p f hr⟩
  · intro p f hf
    exact ⟨[], fun k r hr => loadText_once (h2 p f hf) hr⟩

end Sol.Whole
