import Verif.Proofs.PyCv
import Verif.Props.DataSet
/-! C86: cross validation with the objects of the Python class, on the files of a data set. -/

namespace Sol.Props
open Sol.Params Sol.Online Sol.Loss Sol.Whole Sol.Spec Sol.PySol Sol.Cv Sol.PyCv

section
variable [FFun F32] {pw : Int → F32} {powf : F32 → F32 → F32} {ρ : Nat → F32} {disp : Train.Disp} {V : Type} [PyVal V]

/-- The accuracy on a fold is a function of the model. -/
theorem heldOut_unique {m : M} {folds : List (List (Ex F32))} {passes v : Nat} {a b : ℚ} (ha : HeldOut powf ρ disp m folds passes v a)
    (hb : HeldOut powf ρ disp m folds passes v b) : a = b := by
  obtain ⟨m₁, l₁, rows₁, q₁, a1, a2, a3, rfl⟩ := ha
  obtain ⟨m₂, l₂, rows₂, q₂, b1, b2, b3, rfl⟩ := hb
  rw [a1] at b1
  cases b1
  rw [a2] at b2
  cases b2
  rw [a3] at b3
  cases b3
  rfl

/-- **C86 (accuracy).** The accuracy on a fold is the share of its points that the model gets right, up to the rounding of a quotient. -/
theorem C86_accuracy {files : List Char → Option (List Char)} {m : M} (hm : Reached files m) {folds : List (List (Ex F32))}
    {passes v : Nat} (ht : Trainable m (held folds passes v)) {l : List (Ex F32)} (hl : folds[v]? = some l) (h0 : l ≠ []) (h1 : l.length ≤ 2 ^ 24)
    (ha : ∀ e ∈ l, Sparse.Ascending e.x) {a : ℚ} (h : HeldOut powf ρ disp m folds passes v a) :
    ∃ m' rows x, trainModel powf ρ disp m [held folds passes v] = .ok m' ∧ testModel m' [l] = .ok (rows, x) ∧ rows.length = l.length ∧
      |a - (rows.countP fun row => row.pred = row.label) / l.length| ≤ 1 / 2 ^ 23 := by
  obtain ⟨m', l', rows, q, a1, a2, a3, rfl⟩ := h
  rw [hl] at a2
  cases a2
  have hrm : Reached files m' := by
    obtain ⟨m₂, e1, e2⟩ := trainModel_trained hm powf ρ disp [held folds passes v] (by simpa using ht)
    rw [e1] at a1
    cases a1
    exact .train hm e2
  obtain ⟨xs, rows', rate, t1, t2, t3, t4, t5⟩ := testModel_rows hrm l ha
  rw [t1] at a3
  cases a3
  have hrl : rows.length = l.length := t4.length_eq.symm
  obtain ⟨r, hr, hb⟩ := rate_fin (rows.countP fun row => row.pred ≠ row.label) rows.length List.countP_le_length
    (by rw [hrl]; exact List.length_pos_iff.2 h0) (by rw [hrl]; exact h1)
  rw [← t5] at hr
  obtain rfl : q = r := by cases hr; rfl
  refine ⟨m', rows, _, a1, t1, hrl, ?_⟩
  have hsum : (rows.countP fun row => row.pred = row.label) + (rows.countP fun row => row.pred ≠ row.label) = rows.length := by
    have := List.length_eq_countP_add_countP (fun row : Train.Row F32 => decide (row.pred = row.label)) (l := rows)
    simp only [decide_not, decide_eq_true_eq] at this ⊢
    exact this.symm
  have hpos : (0 : ℚ) < l.length := by exact_mod_cast List.length_pos_iff.2 h0
  rw [hrl] at hb hsum
  have hc : ((rows.countP fun row => row.pred = row.label : Nat) : ℚ) = l.length - ((rows.countP fun row => row.pred ≠ row.label : Nat) : ℚ) := by
    rw [eq_sub_iff_add_eq]
    exact_mod_cast hsum
  rw [hc, sub_div, div_self hpos.ne', abs_sub_comm]
  refine le_trans (le_of_eq ?_) hb
  congr 1
  ring

/-- There is a library that follows the calls. -/
theorem follows_exists (W : World) (cls : Cls) (classNum : Int) (path : Nat → List Char) (ty : List Char) :
    ∃ lib : Lib V Py ℚ, Follows pw powf ρ disp W cls classNum path ty lib := by
  classical
  refine ⟨⟨fun p => newObject W.files cls classNum p,
    fun s i => if h : ∃ e, PySol.Call pw powf ρ disp W s (.fit (path i) ty 1) e then asAccuracy h.choose else none,
    fun s i => if h : ∃ e, PySol.Call pw powf ρ disp W s (.score (path i) ty) e then (asAccuracy h.choose).map (·.2) else none⟩,
    fun _ => rfl, fun s i e he => ?_, fun s i e he => ?_⟩
  · have h : ∃ e, PySol.Call pw powf ρ disp W s (.fit (path i) ty 1) e := ⟨e, he⟩
    exact ⟨h.choose, h.choose_spec, dif_pos h⟩
  · have h : ∃ e, PySol.Call pw powf ρ disp W s (.score (path i) ty) e := ⟨e, he⟩
    exact ⟨h.choose, h.choose_spec, dif_pos h⟩

/-- **C86 (choice), the part that holds.** On files of folds that all have points, cross validation tries every combination of values on
    new objects of the class, and picks the one with the best average accuracy on points that were held out: the accuracy that
    `sol_test` reports for the model that `sol_train` makes of the other folds.  The interleaving of threads and processes does not
    matter. -/
theorem C86_chosen_partial (W : World) (cls : Cls) (classNum : Int) (path : Nat → List Char) (ty : List Char) (folds : List (List (Ex F32)))
    (hn : 2 ≤ folds.length) (hg : ∀ i l, folds[i]? = some l → FileGives pw W (path i) ty 1 l)
    (hl : ∀ l ∈ folds, l ≠ [] ∧ l.length ≤ 2 ^ 24) (ha : ∀ l ∈ folds, ∀ e ∈ l, Sparse.Ascending e.x) (passes : Nat) (hp : 1 ≤ passes)
    (params : List (String × List V)) (h0 : params ≠ []) (h1 : ∀ p ∈ params, p.2 ≠ []) (extra : Dict V) (procs : Nat)
    (hprocs : 1 ≤ procs)
    (hm : ∀ c, Combination params c → ∃ m, createWith W.files cls classNum (update c extra) = some m ∧
      Roomy (update c extra) ∧ ∀ v < folds.length, Trainable m (held folds passes v)) :
    (∃ lib : Lib V Py ℚ, Follows pw powf ρ disp W cls classNum path ty lib) ∧ ∀ lib : Lib V Py ℚ, Follows pw powf ρ disp W cls classNum path ty lib →
      ∃ cv : CV V ℚ, CV.new folds.length params extra procs = some cv ∧ (∃ cv', CV.TrainVal cv lib passes cv') ∧
        ∀ cv', CV.TrainVal cv lib passes cv' →
          ∃ c i, cv'.best = some (c, i) ∧ BestOnHeldOut powf ρ disp W.files cls classNum folds passes params extra c := by
  refine ⟨follows_exists W cls classNum path ty, fun lib hf => ?_⟩
  have hval : ∀ v < folds.length, ∀ c, Combination params c → ∀ m, createWith W.files cls classNum (update c extra) = some m →
      ∃ tr va, Validates lib passes folds.length v (update c extra) tr va ∧ HeldOut powf ρ disp m folds passes v va := by
    intro v hv c hc m hcm
    obtain ⟨m', h2, ⟨hr, h3⟩⟩ := hm c hc
    obtain ⟨⟨size, hsz⟩, num, hnm⟩ := sizes_of hr
    obtain rfl : m' = m := Option.some.inj (h2.symm.trans hcm)
    exact validates hf folds hg hl ha passes hp hn v hv h2 hsz hnm (h3 v hv)
  obtain ⟨cv, e1, e2, e3⟩ := C83_chosen folds.length hn params h0 h1 extra procs hprocs lib passes (by
    intro v hv c hc
    obtain ⟨m, h2, -⟩ := hm c hc
    obtain ⟨tr, va, h3, -⟩ := hval v hv c hc m h2
    exact ⟨tr, va, h3⟩)
  refine ⟨cv, e1, e2, fun cv' hcv => ?_⟩
  obtain ⟨c, i, f1, f2, vas, f3, f4, f5⟩ := e3 cv' hcv
  obtain ⟨m, hcm, -⟩ := hm c f2
  refine ⟨c, i, f1, f2, vas, ⟨m, hcm, f3, ?_⟩, ?_⟩
  · intro v va hva
    have hv : v < folds.length := f3 ▸ (List.getElem?_eq_some_iff.1 hva).1
    obtain ⟨tr, h2⟩ := f4 v va hva
    obtain ⟨tr', va', h3, h4⟩ := hval v hv c f2 m hcm
    have := ((C83_task _ _ _ _ _ _ _).2 h2).symm.trans ((C83_task _ _ _ _ _ _ _).2 h3)
    cases this
    exact h4
  · rintro c' vas' hc' ⟨m', hcm', hlen, hh⟩
    refine f5 c' vas' hc' hlen fun v va hva => ?_
    have hv : v < folds.length := hlen ▸ (List.getElem?_eq_some_iff.1 hva).1
    obtain ⟨tr, va', h3, h4⟩ := hval v hv c' hc' m' hcm'
    obtain rfl := heldOut_unique (hh v va hva) h4
    exact ⟨tr, h3⟩

open DataFile in
/-- **C86 (data sets), the part that holds.** `train_val` splits the data set; if every fold gets points, the settings with the best average
    accuracy on held out points are chosen, and the folds are the data set, every point in one of them, with all its digits. -/
theorem C86_data_set_partial (hpw : Powf pw) (writes : List Char → Bool) (t : F32) (pts : List (Tools.Pt F32)) (ds : DataSet.DataSet)
    (fs : DataSet.Files) (ha : Aside writes ds) (h : Coherent pw t pts ds fs) (hw : Workable pts) (hs : ∀ p ∈ pts, BinaryPoint p)
    (n : Nat) (hn : 2 ≤ n) (hn2 : n < 2 ^ 31) (choice : Nat → Nat) (cls : Cls) (passes : Nat) (hp : 1 ≤ passes)
    (params : List (String × List V)) (h0 : params ≠ []) (h1 : ∀ p ∈ params, p.2 ≠ []) (extra : Dict V) (procs : Nat)
    (hprocs : 1 ≤ procs) (load : List Char → Loaded)
    (hm : ∀ (files : List Char → Option (List Char)) c, Combination params c → ∃ m, createWith files cls ds.classNum (update c extra) = some m ∧
      Roomy (update c extra) ∧ ∀ es, (∀ e ∈ es, ∃ p ∈ pts, e = exOf p) → Trainable m es) :
    ∃ (ds' : DataSet.DataSet) (fs' : DataSet.Files) (parts : List (List (Tools.Pt F32))),
      ds.splitFile pw writes n (some "bin".toList) choice fs = .ok (.gives ds' fs') ∧
      ds'.classNum = ds.classNum ∧ ds'.sliceType = typeName .bin ∧ Coherent pw t pts ds fs' ∧ parts.length = n ∧ parts.flatten.Perm pts ∧
      (∀ (i : Nat) p, parts[i]? = some p → ∃ f, fs' (foldAt ds.foldPrefix .bin i) = some f ∧ ReadsAs pw (typeName .bin) f p .endOfFile) ∧
      ((∀ l ∈ parts, l ≠ []) →
        (∀ i < n, ds'.splitPath i fs' = .gives (foldAt ds'.foldPrefix .bin i) fs') ∧
        (∃ lib : Lib V Py ℚ, Follows pw powf ρ disp ⟨fs', writes, load⟩ cls ds'.classNum (foldAt ds'.foldPrefix .bin) ds'.sliceType lib) ∧
        ∀ lib : Lib V Py ℚ, Follows pw powf ρ disp ⟨fs', writes, load⟩ cls ds'.classNum (foldAt ds'.foldPrefix .bin) ds'.sliceType lib →
          ∃ cv : CV V ℚ, CV.new n params extra procs = some cv ∧ (∃ cv', CV.TrainVal cv lib passes cv') ∧
            ∀ cv', CV.TrainVal cv lib passes cv' → ∃ c i, cv'.best = some (c, i) ∧
              BestOnHeldOut powf ρ disp (World.files ⟨fs', writes, load⟩) cls ds.classNum (parts.map fun l => l.map exOf) passes params extra c) := by
  obtain ⟨fs', s1, s2, ⟨parts, p1, p2, p3⟩, s4, -⟩ := C84_split_partial pw hpw writes t pts ds fs ha h hw .bin hs n (by omega) hn2 choice
  have hread : ∀ (i : Nat) p, parts[i]? = some p → ∃ f, fs' (foldAt ds.foldPrefix .bin i) = some f ∧ ReadsAs pw (typeName .bin) f p .endOfFile := by
    intro i p hi
    obtain ⟨f, f1, qs, f2, f3⟩ := p3 i p hi
    obtain rfl : p = qs := by
      clear f2 f1 hi
      induction f3 with
      | nil => rfl
      | cons h _ ih => rw [ih, show _ = _ from h]
    exact ⟨f, f1, f2⟩
  refine ⟨_, fs', parts, s1, rfl, rfl, s2, p1, p2, hread, fun hne => ?_⟩
  have hmem : ∀ l ∈ parts, ∀ p ∈ l, p ∈ pts := fun l hl p hp => p2.subset (List.mem_flatten.2 ⟨l, hl, hp⟩)
  have hG : ∀ i l, (parts.map fun l => l.map exOf)[i]? = some l → FileGives pw ⟨fs', writes, load⟩ (foldAt ds.foldPrefix .bin i) (typeName .bin) 1 l := by
    intro i l hi
    rw [List.getElem?_map, Option.map_eq_some_iff] at hi
    obtain ⟨p, hi, rfl⟩ := hi
    obtain ⟨f, f1, f2⟩ := hread i p hi
    refine ⟨f, f1, .inr ⟨by decide, p, .endOfFile, f2, ?_⟩⟩
    simp [lessons, filePoints]
  have hL : ∀ l ∈ parts.map fun l => l.map exOf, l ≠ [] ∧ l.length ≤ 2 ^ 24 := by
    intro l hl
    obtain ⟨p, hp, rfl⟩ := List.mem_map.1 hl
    refine ⟨by simpa using hne p hp, ?_⟩
    rw [List.length_map]
    refine le_trans ?_ hw.few
    rw [← p2.length_eq, List.length_flatten]
    exact List.single_le_sum (by simp) _ (List.mem_map.2 ⟨p, hp, rfl⟩)
  have hA : ∀ l ∈ parts.map fun l => l.map exOf, ∀ e ∈ l, Sparse.Ascending e.x := by
    intro l hl e he
    obtain ⟨p, hp, rfl⟩ := List.mem_map.1 hl
    obtain ⟨x, hx, rfl⟩ := List.mem_map.1 he
    have h2 := hw.ascending x (hmem p hp x hx)
    rw [List.pairwise_map] at h2
    unfold Sparse.Ascending exOf
    rw [List.pairwise_map]
    exact h2.imp fun h => UInt32.lt_iff_toNat_lt.1 h
  have hM : ∀ c, Combination params c → ∃ m, createWith (World.files ⟨fs', writes, load⟩) cls ds.classNum (update c extra) = some m ∧
      Roomy (update c extra) ∧ ∀ v < (parts.map fun l => l.map exOf).length, Trainable m (held (parts.map fun l => l.map exOf) passes v) := by
    intro c hc
    obtain ⟨m, m1, mr, m2⟩ := hm (World.files ⟨fs', writes, load⟩) c hc
    refine ⟨m, m1, mr, fun v _ => m2 _ fun e he => ?_⟩
    simp only [held, List.mem_flatten, List.mem_replicate] at he
    obtain ⟨_, ⟨-, rfl⟩, he⟩ := he
    obtain ⟨l, hl, he⟩ := List.mem_flatten.1 he
    obtain ⟨p, hp, rfl⟩ := List.mem_map.1 (List.mem_of_mem_eraseIdx hl)
    obtain ⟨x, hx, rfl⟩ := List.mem_map.1 he
    exact ⟨x, hmem p hp x hx, rfl⟩
  obtain ⟨k1, k2⟩ := C86_chosen_partial (pw := pw) (powf := powf) (ρ := ρ) (disp := disp) ⟨fs', writes, load⟩ cls ds.classNum
    (foldAt ds.foldPrefix .bin) (typeName .bin) (parts.map fun l => l.map exOf) (by simpa [p1] using hn) hG hL hA passes hp params h0 h1 extra
    procs hprocs hM
  rw [List.length_map, p1] at k2
  exact ⟨fun i hi => (s4 i hi).choose_spec.1, k1, k2⟩

end

/-- Two files of folds. -/
def foldDisk : World := disk [("0.svm", "-1 1:1\n-1 2:1\n"), ("1.svm", "-1 1:2 2:1\n")]

/-- Their examples. -/
def twoFolds : List (List (Ex F32)) := [[⟨-1, [(1, .fin 1)]⟩, ⟨-1, [(2, .fin 1)]⟩], [⟨-1, [(1, .fin 2), (2, .fin 1)]⟩]]

/-- Their names. -/
def foldPath (i : Nat) : List Char := decText i ++ ".svm".toList

/-- The values of the parameter that is chosen. -/
def lambdas : List (String × List (List Char)) := [("lambda", ["1".toList, "0".toList])]

/-- A model with one of these values. -/
def lasso (q : ℚ) : M := { fresh .fobosL1 2 with lambda := .fin q }

theorem foldDisk_gives : ∀ i l, twoFolds[i]? = some l → FileGives bestPow foldDisk (foldPath i) svm 1 l := by
  intro i l h
  match i, h with
  | 0, h =>
    cases h
    exact ⟨DataFile.ofChars "-1 1:1\n-1 2:1\n".toList, by decide +kernel, .inr ⟨by decide, [⟨-1, [(1, .fin 1)]⟩, ⟨-1, [(2, .fin 1)]⟩], .endOfFile,
      ⟨⟨.svm, 4096, DataFile.ofChars "-1 1:1\n-1 2:1\n".toList⟩, by decide +kernel, by decide +kernel⟩, rfl⟩⟩
  | 1, h =>
    cases h
    exact ⟨DataFile.ofChars "-1 1:2 2:1\n".toList, by decide +kernel, .inr ⟨by decide, [⟨-1, [(1, .fin 2), (2, .fin 1)]⟩], .endOfFile,
      ⟨⟨.svm, 4096, DataFile.ofChars "-1 1:2 2:1\n".toList⟩, by decide +kernel, by decide +kernel⟩, rfl⟩⟩
  | i + 2, h => cases h

theorem lambdas_iff (c : Dict (List Char)) : Combination lambdas c ↔ c = [("lambda", "1".toList)] ∨ c = [("lambda", "0".toList)] := by
  constructor
  · intro h
    cases h with
    | cons h t =>
      cases t
      obtain ⟨h1, h2⟩ := h
      rename_i q
      obtain ⟨k, x⟩ := q
      obtain rfl : k = "lambda" := h1
      simp only [List.mem_cons, List.not_mem_nil, or_false] at h2
      rcases h2 with rfl | rfl
      · exact .inl rfl
      · exact .inr rfl
  · rintro (rfl | rfl)
    · exact .cons ⟨rfl, by simp⟩ .nil
    · exact .cons ⟨rfl, by simp⟩ .nil

theorem lasso_created : createWith foldDisk.files .fobosL1 2 (update [("lambda", "1".toList)] []) = some (lasso 1) ∧
    createWith foldDisk.files .fobosL1 2 (update [("lambda", "0".toList)] []) = some (lasso 0) := by
  decide +kernel

theorem lambda_roomy (v : List Char) : Roomy (update [("lambda", v)] []) := by
  intro p hp hn
  simp only [update, List.foldl_nil, List.mem_singleton] at hp
  subst hp
  exact absurd (show "lambda" ∈ ["batch_size", "buf_size"] from hn) (by decide)

theorem lasso_trainable (q : ℚ) (v : Nat) : Trainable (lasso q) (held twoFolds 1 v) := by
  have key : ∀ l ∈ twoFolds, ∀ e ∈ l, Good e.x := by
    unfold Good Sparse.Ascending
    decide
  refine ⟨fun e he => ⟨?_, fun h => absurd (show Cls.fobosL1 ∈ choosing from h) (by decide), .inl rfl⟩,
    fun h => absurd (show Cls.fobosL1 ∈ [Cls.pet, .sofs, .adaFobosOfs, .adaRdaOfs] from h) (by decide),
    fun h => absurd (show Cls.fobosL1 = .fofs from h) (by decide), fun h => absurd (show Cls.fobosL1 ∈ choosing from h) (by decide),
    fun _ => .inl rfl, fun h => absurd (show false = true from h) (by decide)⟩
  simp only [held, List.replicate_one, List.flatten_cons, List.flatten_nil, List.append_nil] at he
  obtain ⟨l, hl, he⟩ := List.mem_flatten.1 he
  exact key l (List.mem_of_mem_eraseIdx hl) e he

/-- The accuracy on a fold, by computation. -/
theorem heldOut_decide {m : M} {folds : List (List (Ex F32))} {passes v : Nat} {q : ℚ} {l : List (Ex F32)} (hl : folds[v]? = some l)
    (h : letI : FFun F32 := unusedFun
      ((trainModel (fun a _ => a) (fun _ => 0) (.newStep 1) m [held folds passes v]).bind fun m' => (testModel m' [l]).bind fun r => .ok r.2) = .ok (.fin q)) :
    letI : FFun F32 := unusedFun
    HeldOut (fun a _ => a) (fun _ => 0) (.newStep 1) m folds passes v (1 - q) := by
  letI : FFun F32 := unusedFun
  cases h1 : trainModel (fun a _ => a) (fun _ => 0) (.newStep 1) m [held folds passes v] with
  | ub k => rw [h1] at h; cases h
  | ok m' =>
    rw [h1] at h
    change (testModel m' [l]).bind _ = _ at h
    cases h2 : testModel m' [l] with
    | ub k => rw [h2] at h; cases h
    | ok r =>
      rw [h2] at h
      obtain ⟨rows, x⟩ := r
      obtain rfl : x = .fin q := Res.ok.inj h
      exact ⟨m', l, rows, q, h1, hl, h2, rfl⟩

/-- **C86.** Cross validation with FOBOS-L1: with `lambda` 1 half of the first fold and nothing of the second is right, with 0 everything;
    0 is chosen. -/
theorem C86_instance :
    letI : FFun F32 := unusedFun
    Scores (fun a _ => a) (fun _ => 0) (.newStep 1) foldDisk.files .fobosL1 2 twoFolds 1 [] [("lambda", "1".toList)] [1 / 2, 0] ∧
    Scores (fun a _ => a) (fun _ => 0) (.newStep 1) foldDisk.files .fobosL1 2 twoFolds 1 [] [("lambda", "0".toList)] [1, 1] ∧
    (∃ lib : Lib (List Char) Py ℚ, Follows bestPow (fun a _ => a) (fun _ => 0) (.newStep 1) foldDisk .fobosL1 2 foldPath svm lib) ∧
    ∀ lib : Lib (List Char) Py ℚ, Follows bestPow (fun a _ => a) (fun _ => 0) (.newStep 1) foldDisk .fobosL1 2 foldPath svm lib →
      ∃ cv : CV (List Char) ℚ, CV.new 2 lambdas [] 3 = some cv ∧ (∃ cv', CV.TrainVal cv lib 1 cv') ∧
        ∀ cv', CV.TrainVal cv lib 1 cv' → ∃ i, cv'.best = some ([("lambda", "0".toList)], i) := by
  letI : FFun F32 := unusedFun
  have s1 : Scores (fun a _ => a) (fun _ => 0) (.newStep 1) foldDisk.files .fobosL1 2 twoFolds 1 [] [("lambda", "1".toList)] [1 / 2, 0] := by
    refine ⟨lasso 1, lasso_created.1, rfl, fun v va h => ?_⟩
    match v, h with
    | 0, h =>
      cases h
      have := heldOut_decide (m := lasso 1) (folds := twoFolds) (passes := 1) (v := 0) (q := 1 / 2) rfl (by decide +kernel)
      rwa [show (1 : ℚ) - 1 / 2 = 1 / 2 by norm_num] at this
    | 1, h =>
      cases h
      have := heldOut_decide (m := lasso 1) (folds := twoFolds) (passes := 1) (v := 1) (q := 1) rfl (by decide +kernel)
      rwa [sub_self] at this
    | v + 2, h => cases h
  have s0 : Scores (fun a _ => a) (fun _ => 0) (.newStep 1) foldDisk.files .fobosL1 2 twoFolds 1 [] [("lambda", "0".toList)] [1, 1] := by
    refine ⟨lasso 0, lasso_created.2, rfl, fun v va h => ?_⟩
    match v, h with
    | 0, h =>
      cases h
      have := heldOut_decide (m := lasso 0) (folds := twoFolds) (passes := 1) (v := 0) (q := 0) rfl (by decide +kernel)
      rwa [sub_zero] at this
    | 1, h =>
      cases h
      have := heldOut_decide (m := lasso 0) (folds := twoFolds) (passes := 1) (v := 1) (q := 0) rfl (by decide +kernel)
      rwa [sub_zero] at this
    | v + 2, h => cases h
  obtain ⟨k1, k2⟩ := C86_chosen_partial (pw := bestPow) (powf := fun a _ => a) (ρ := fun _ => 0) (disp := .newStep 1) foldDisk .fobosL1 2
    foldPath svm twoFolds (by decide) foldDisk_gives (by decide) (by unfold Sparse.Ascending; decide) 1 (le_refl 1) lambdas (by decide) (by decide) [] 3
    (by decide) (by
      intro c hc
      rcases (lambdas_iff c).1 hc with rfl | rfl
      · exact ⟨_, lasso_created.1, lambda_roomy _, fun v _ => lasso_trainable 1 v⟩
      · exact ⟨_, lasso_created.2, lambda_roomy _, fun v _ => lasso_trainable 0 v⟩)
  refine ⟨s1, s0, k1, fun lib hlib => ?_⟩
  obtain ⟨cv, h1, h2, h3⟩ := k2 lib hlib
  refine ⟨cv, h1, h2, fun cv' h => ?_⟩
  obtain ⟨c, i, hb, hc, vas, hs, hbest⟩ := h3 cv' h
  rcases (lambdas_iff c).1 hc with rfl | rfl
  · exfalso
    have hge := hbest _ _ ((lambdas_iff _).2 (.inr rfl)) s0
    obtain ⟨m, m1, m2, m3⟩ := hs
    obtain ⟨m', n1, n2, n3⟩ := s1
    obtain rfl : m = m' := Option.some.inj (m1.symm.trans n1)
    match vas, m2, m3, hge with
    | [a, b], _, m3, hge =>
      have ea := heldOut_unique (m3 0 a rfl) (n3 0 _ rfl)
      have eb := heldOut_unique (m3 1 b rfl) (n3 1 _ rfl)
      rw [ea, eb] at hge
      norm_num [twoFolds] at hge
  · exact ⟨i, hb⟩

/-- **C86 is violated** for folds without points: the accuracy is not a number. -/
theorem C86_is_violated : Returns (disk [("0.svm", ""), ("1.svm", "-1 1:2 2:1\n")]) (lasso 0) [.fit (foldPath 1) svm 1, .score (foldPath 0) svm]
    [.rate (.fin 1), .rate .nan] :=
  returns_decide (by decide +kernel)

/-- The hypothesis of `C86_data_set_partial` on the combinations is met by the classes of `C86_instance` and the points of `C84_hypotheses`. -/
theorem C86_hypotheses (files : List Char → Option (List Char)) (c : Dict (List Char)) (hc : Combination lambdas c) :
    ∃ m, createWith files .fobosL1 2 (update c []) = some m ∧ Roomy (update c []) ∧ ∀ es, (∀ e ∈ es, ∃ p ∈ twoPoints, e = exOf p) → Trainable m es := by
  have key : ∀ q es, (∀ e ∈ es, ∃ p ∈ twoPoints, e = exOf p) → Trainable (lasso q) es := by
    intro q es hes
    have hgood : ∀ p ∈ twoPoints, Good (exOf p).x := by
      unfold Good Sparse.Ascending
      decide
    refine ⟨fun e he => ⟨?_, fun h => absurd (show Cls.fobosL1 ∈ choosing from h) (by decide), .inl rfl⟩,
      fun h => absurd (show Cls.fobosL1 ∈ [Cls.pet, .sofs, .adaFobosOfs, .adaRdaOfs] from h) (by decide),
      fun h => absurd (show Cls.fobosL1 = .fofs from h) (by decide), fun h => absurd (show Cls.fobosL1 ∈ choosing from h) (by decide),
      fun _ => .inl rfl, fun h => absurd (show false = true from h) (by decide)⟩
    obtain ⟨p, hp, rfl⟩ := hes e he
    exact hgood p hp
  rcases (lambdas_iff c).1 hc with rfl | rfl
  · exact ⟨lasso 1, by with_unfolding_all rfl, lambda_roomy _, key 1⟩
  · exact ⟨lasso 0, by with_unfolding_all rfl, lambda_roomy _, key 0⟩

end Sol.Props
