import Verif.Proofs.PyArrays
/-! # C91: arrays in Python sessions -/

namespace Sol.Props
open Sol.Params Sol.Online Sol.Loss Sol.Whole Sol.PySol Sol.Arrays Sol.PyArrays Sol.Spec

section
variable [FFun F32] {pw : Int → F32} {powf : F32 → F32 → F32} {ρ : Nat → F32} {d : Train.Disp}

/-- **C91 (arrays and files), the part that holds.** A session with matrices ends in the same ways as the session in which every matrix
    is replaced by a file with its points.  Missing: the matrices outside `MatrixData` (C53) and calls without labels
    (`C91_is_violated`). -/
theorem C91_same_partial {W W' : World} {m : Mem} (z : Int) {as : List AOp} {ops : List Op} (h : List.Forall₂ (Stands pw W m W') as ops) (s : Py)
    (e : Res (Py × List Ret)) : ASession pw powf ρ d W m z s as e ↔ PySol.Session pw powf ρ d W' s ops e := session_stands h s e

/-- **C91 (every matrix has such a file).** -/
theorem C91_file (pw : Int → F32) {m : Mem} {x : Data} {pts : List DataFile.Point} (h : MatrixData m x pts) :
    ∃ f, ReadsAs pw "bin".toList f pts .endOfFile := matrix_file pw h

/-- **C91 (sessions), the part that holds.** In a session with matrices and files, every call answers for the model that a single training
    on the examples of all training calls so far makes (C85).  Missing: as for `C85_session_partial` and `C91_same_partial`. -/
theorem C91_session_partial (W : World) (mem : Mem) (z : Int) (m : M) {files : List Char → Option (List Char)} (hm : Reached files m)
    (ops : List (AOp × List (Ex F32))) (hg : ∀ p ∈ ops, AOpGives pw W mem p.1 p.2)
    (ht : taught (ops.map fun p => (p.1.kind, p.2)) ≠ [] → Trainable m (taught (ops.map fun p => (p.1.kind, p.2))).flatten)
    (he : ∀ p ∈ ops, isFit p.1.kind = false → ∀ e ∈ p.2, Sparse.Ascending e.x)
    (hc : m.cls ∈ settled ∨ InOneGo (ops.map fun p => p.1.kind)) (size num : Nat) (hs : 1 ≤ size) (hn : 1 ≤ num) :
    (∃ e, ASession pw powf ρ d W mem z (Py.start m size num) (ops.map (·.1)) e) ∧
    ∀ e, ASession pw powf ρ d W mem z (Py.start m size num) (ops.map (·.1)) e →
      ∃ s rs, e = .ok (s, rs) ∧ rs.length = ops.length ∧
        ∀ i op l r, ops[i]? = some (op, l) → rs[i]? = some r →
          Answers powf ρ d W m ((ops.take i).map fun p => (p.1.kind, p.2)) op.kind l r := by
  obtain ⟨W', hw, os, h⟩ := machine_of ops hg
  have hkind : List.Forall₂ (fun a o => o.2 = a.2 ∧ isFit o.1 = isFit a.1.kind) ops os := by
    refine h.imp ?_
    rintro a o ⟨h1, ⟨p, f, h2⟩, -⟩
    exact ⟨h1, by rw [h2, isFit_with]⟩
  have hst : List.Forall₂ (Stands pw W mem W') (ops.map (·.1)) (os.map (·.1)) := by
    rw [List.forall₂_map_left_iff, List.forall₂_map_right_iff]
    exact h.imp fun _ _ h => h.2.2.1
  have hback : ∀ o ∈ os, ∃ a ∈ ops, o.2 = a.2 ∧ isFit o.1 = isFit a.1.kind ∧ OpGives pw W' o.1 o.2 := by
    intro o ho
    obtain ⟨i, hi, rfl⟩ := List.getElem_of_mem ho
    have hl := h.length_eq
    have h1 := (List.forall₂_iff_get.1 h).2 i (by omega) hi
    have h2 := (List.forall₂_iff_get.1 hkind).2 i (by omega) hi
    exact ⟨_, List.getElem_mem (by omega), h2.1, h2.2, h1.2.2.2⟩
  rw [← taught_with hkind] at ht
  have hcc : m.cls ∈ settled ∨ InOneGo (os.map (·.1)) := by
    refine hc.imp_right fun hi => oneGo_with (as := ops.map (·.1)) ?_ (by rw [List.map_map]; exact hi)
    rw [List.forall₂_map_left_iff, List.forall₂_map_right_iff]
    exact h.imp fun _ _ h => h.2.1
  obtain ⟨h1, h2⟩ := C85_session_partial (pw := pw) (powf := powf) (ρ := ρ) (d := d) W' m hm os
    (fun o ho => by obtain ⟨a, -, -, -, h⟩ := hback o ho; exact h) ht
    (fun o ho hf => by
      obtain ⟨a, ha, h1, h2, -⟩ := hback o ho
      rw [h1]
      exact he a ha (by rw [← h2]; exact hf)) hcc size num hs hn
  have hiff := fun e => C91_same_partial (powf := powf) (ρ := ρ) (d := d) z hst (Py.start m size num) e
  refine ⟨h1.imp fun e h => (hiff e).2 h, fun e hse => ?_⟩
  obtain ⟨s, rs, rfl, hlen, hans⟩ := h2 e ((hiff e).1 hse)
  refine ⟨s, rs, rfl, by rw [hlen, h.length_eq], fun i op l r hop hr => ?_⟩
  obtain ⟨hi, hopi⟩ := List.getElem?_eq_some_iff.1 hop
  have hl := h.length_eq
  have hR := (List.forall₂_iff_get.1 h).2 i hi (by omega)
  simp only [List.get_eq_getElem, hopi] at hR
  obtain ⟨hl2, ⟨p, f, ho1⟩, -⟩ := hR
  have ha := hans i _ _ r (List.getElem?_eq_getElem (show i < os.length by omega)) hr
  have htk := taught_with (List.forall₂_take i hkind)
  simp only [List.get_eq_getElem] at ha
  unfold Answers at ha ⊢
  rw [ho1, isFit_with, hl2, htk] at ha
  split
  · rename_i hf
    rw [if_pos hf] at ha
    exact ha
  · rename_i hf
    rw [if_neg hf] at ha
    obtain ⟨m', h3, h4⟩ := ha
    exact ⟨m', h3, tells_with hw h4⟩

/-- A prediction whose reader is undone by its first step. -/
theorem predict_breaks {R : Type} {next : R → Res (Status × Option (Tools.Pt F32) × R)} {opened : Res (Option R)} {r₀ : R} {k : UB} {W : World}
    {mem : Mem} {z : Int} {x : Data} {s : Py} (hx : ∀ r, Adds pw W mem z x 1 s.iter r ↔ AddsArray next opened 1 s.iter r)
    (hopen : opened = .ok (some r₀)) (hnext : next r₀ = .ub k) :
    (∃ e, ACall pw powf ρ d W mem z s (.predict x) e) ∧ ∀ e, ACall pw powf ρ d W mem z s (.predict x) e → e = .ub k := by
  have hadd : ∀ r, Adds pw W mem z x 1 s.iter r ↔ r = .ub k := by
    intro r
    rw [hx]
    constructor
    · intro h
      cases h with
      | lost h => exact absurd (hopen.symm.trans h) (by simp)
      | refused h => exact absurd (hopen.symm.trans h) (by simp)
      | unread h hn => omega
      | breaks h hn hb =>
        cases hopen.symm.trans h
        cases hb with
        | now h' => exact congrArg _ (Res.ub.inj (h'.symm.trans hnext))
        | later h' => exact absurd (h'.symm.trans hnext) (by simp)
      | reads h hn hr' =>
        cases hopen.symm.trans h
        exact absurd (Breaks.now hnext) (not_breaks hr')
    · rintro rfl
      exact AddsArray.breaks hopen (by omega) (.now hnext)
  refine ⟨⟨_, .bad rfl ((hadd _).2 rfl)⟩, fun e h => ?_⟩
  cases h with
  | bad h1 h2 => cases h1; exact congrArg _ (Res.ub.inj ((hadd _).1 h2))
  | closed h1 h2 => cases h1; exact absurd ((hadd _).1 h2) (by simp)
  | unready h1 h2 => cases h1; exact absurd ((hadd _).1 h2) (by simp)
  | refused h1 h2 => cases h1; exact absurd ((hadd _).1 h2) (by simp)
  | fails h1 h2 => cases h1; exact absurd ((hadd _).1 h2) (by simp)
  | done h1 h2 => cases h1; exact absurd ((hadd _).1 h2) (by simp)
  | other h1 => cases h1

/-- **C91 (no labels): every prediction without labels reads released memory.** `predict(X)` and `decision_function(X)` on a matrix with at
    least one row end in no other way than undefined behaviour, whatever the model: the labels are an array that is released when
    `__load_data` returns, before the readers start. -/
theorem C91_unlabelled (W : World) (mem : Mem) (z : Int) (rows : Nat) (hz : z ≠ 0) (hzl : Address z) (h0 : 0 < rows)
    (hr : rows < 2147483648) (s : Py) (x : Data)
    (hx : (∃ a cols stride, Address a ∧ x = .dense a none rows cols stride) ∨
      ∃ i p f, Address i ∧ Address p ∧ Address f ∧ x = .csr i p f none rows) :
    (∃ e, ACall pw powf ρ d W mem z s (.predict x) e) ∧ ∀ e, ACall pw powf ρ d W mem z s (.predict x) e → e = .ub .outOfBounds := by
  have hnarrow : ∀ v : Int, FitsInt (narrowInt v) := fun v => by unfold FitsInt narrowInt; omega
  rcases hx with ⟨a, cols, stride, ha, rfl⟩ | ⟨i, p, f, hi, hp, hf, rfl⟩
  · refine predict_breaks (r₀ := (⟨a, z, rows, narrowInt cols, narrowInt stride, 0⟩ : Dense)) (fun r => Iff.rfl) ?_ ?_
    · show openDense (densePath a z _ _ _) = _
      rw [C53_dense_path a z _ _ _ ha hzl (hnarrow _) (hnarrow _) (hnarrow _), narrowInt_id (by omega) (by omega)]
    · show Dense.next (release mem z rows) _ = _
      unfold Dense.next
      rw [if_neg (show ¬ (0 : Int) = (rows : Int) by omega)]
      show ((label (release mem z rows) z 0) >>= _) = _
      rw [released_label hz (by omega)]
      rfl
  · refine predict_breaks (r₀ := (⟨i, p, f, z, rows, 0⟩ : Csr)) (fun r => Iff.rfl) ?_ ?_
    · show openCsr (csrPath i p f z _) = _
      rw [C53_csr_path i p f z _ hi hp hf hzl (hnarrow _), narrowInt_id (by omega) (by omega)]
    · show Csr.next (release mem z rows) _ = _
      unfold Csr.next
      rw [if_neg (show ¬ (0 : Int) = (rows : Int) by omega)]
      show ((label (release mem z rows) z 0) >>= _) = _
      rw [released_label hz (by omega)]
      rfl

end

/-- The matrix of `C53_instance_dense`, with its labels. -/
def given22 : Data := .dense 1000 (some 2000) 2 2 24
def points22 : List DataFile.Point := [⟨1, [(2, .fin (3 / 2))]⟩, ⟨-1, [(1, .fin (-2))]⟩]

theorem matrix22_data : MatrixData dense22 given22 points22 := by
  have h := MatrixData.dense (m := dense22) (x := 1000) (y := 2000) (stride := 24) (rows := 2) (cols := 2) C53_instance_dense.1
    C53_instance_dense.2 (by decide) (by decide) (by decide) (by decide) (fun r hr => by constructor <;> push_cast <;> omega)
    (by unfold Address; decide) (by unfold Address; decide)
  rw [C53_instance_dense_points.1] at h
  exact h

/-- A machine with the points of the matrix in the file "x". -/
def matrixDisk (f : DataFile.File) : World := { smallDisk with reads := fun p => if p = "x".toList then some f else smallDisk.reads p }

/-- The bytes of that file. -/
def file22 : DataFile.File := match DataFile.render .bin ⟨none, points22⟩ with
  | .ok f => f
  | .ub _ => []

theorem file22_reads : ReadsAs bestPow "bin".toList file22 points22 .endOfFile := by
  obtain ⟨f, h1, h2⟩ := C73_binary bestPow none points22 (by
    have := matrix_binary (rows := 2) (cols := 2) (M := matrix22) (L := fun r => if r = 0 then 1 else -1) (by decide)
      (fun r _ => by split <;> decide)
    rw [C53_instance_dense_points.1] at this
    exact this)
  have : file22 = f := by unfold file22; rw [h1]
  rw [this]
  exact h2

theorem given22_holds : FileHolds bestPow smallDisk dense22 (matrixDisk file22) "x".toList "bin".toList given22 :=
  ⟨points22, file22, matrix22_data, by unfold matrixDisk; dsimp only; rw [if_pos rfl], file22_reads⟩

/-- The calls of `C91_instance`, with the matrix and with the file. -/
def calls22 : List AOp := [.fit given22 2, .score given22, .fit (.file fileE svm) 1, .predict given22, .sparsity, .save "m".toList]
def fileCalls22 : List Op :=
  [.fit "x".toList "bin".toList 2, .score "x".toList "bin".toList, .fit fileE svm 1, .predict "x".toList "bin".toList, .sparsity, .save "m".toList]

theorem calls22_stand : List.Forall₂ (Stands bestPow smallDisk dense22 (matrixDisk file22)) calls22 fileCalls22 :=
  .cons (.fit given22_holds) (.cons (.score given22_holds)
    (.cons (.fit ⟨by unfold matrixDisk; dsimp only; rw [if_neg (show fileE ≠ "x".toList by decide)], rfl⟩) (.cons (.predict given22_holds) (.cons .sparsity (.cons (.save rfl) .nil)))))

/-- **C91.** Two passes over the matrix with one mistake in four examples, a training on a file, and evaluations on the matrix: what the
    calls return, in every session. -/
theorem C91_instance (z : Int) (size num : Nat) (hs : 1 ≤ size) (hn : 1 ≤ num) :
    letI : FFun F32 := unusedFun
    (∃ e, ASession bestPow (fun a _ => a) (fun _ => 0) (.newStep 1) smallDisk dense22 z (Py.start (fresh .perceptron 2) size num) calls22 e) ∧
    ∀ e, ASession bestPow (fun a _ => a) (fun _ => 0) (.newStep 1) smallDisk dense22 z (Py.start (fresh .perceptron 2) size num) calls22 e →
      ∃ s, e = .ok (s, [.rate (.fin (1 / 4)), .rate 0, .rate (.fin (13421773 / 67108864)),
        .rows [⟨1, 1, [0]⟩, ⟨-1, -1, [.fin (-4)]⟩], .weights 1 2,
        .saved (DataFile.ofChars (perceptronFile "3" "5" "0 2 0").toList)]) := by
  letI : FFun F32 := unusedFun
  have h : Returns (matrixDisk file22) (fresh .perceptron 2) fileCalls22 [.rate (.fin (1 / 4)), .rate 0, .rate (.fin (13421773 / 67108864)),
      .rows [⟨1, 1, [0]⟩, ⟨-1, -1, [.fin (-4)]⟩], .weights 1 2, .saved (DataFile.ofChars (perceptronFile "3" "5" "0 2 0").toList)] :=
    returns_decide (by decide +kernel)
  obtain ⟨h1, h2⟩ := h size num hs hn
  have hiff := fun e => C91_same_partial (powf := fun a _ => a) (ρ := fun _ => 0) (d := .newStep 1) z calls22_stand
    (Py.start (fresh .perceptron 2) size num) e
  exact ⟨h1.imp fun e h => (hiff e).2 h, fun e he => h2 e ((hiff e).1 he)⟩

/-- Compressed rows with their entries out of order, and an empty row (`C53_instance_csr`). -/
theorem C91_instance_csr : MatrixData csr23 (.csr 400 600 800 (some 0) 2) [⟨0, [(1, .fin 1), (3, .fin 4)]⟩, ⟨0, []⟩] := by
  have hp : ∀ (r : Nat) row, ([[(2, .fin 4), (0, .fin 1)], []] : List (List (Nat × F64)))[r]? = some row →
      row.Perm (nonzeros 3 ((fun r c => if r = 0 then (if c = 0 then .fin 1 else if c = 2 then .fin 4 else .fin 0) else .fin 0) r)) := by
    intro r row hr
    obtain ⟨hlt, rfl⟩ := List.getElem?_eq_some_iff.1 hr
    have : r = 0 ∨ r = 1 := by simp only [List.length_cons, List.length_nil] at hlt; omega
    rcases this with rfl | rfl
    · exact List.Perm.swap _ _ _
    · exact .nil
  have h := MatrixData.csr (m := csr23) (indices := 400) (indptr := 600) (features := 800) (y := 0) (base := 7)
    (rows := [[(2, .fin 4), (0, .fin 1)], []]) (cols := 3) (L := fun _ => 0)
    ⟨C53_instance_csr.1, ?_, by decide, by decide⟩ (fun _ _ => ⟨by norm_num, by norm_num, fun _ => rfl, fun h => absurd rfl h⟩)
    (by simp) (by decide) (by decide) hp (by unfold Address; decide) (by unfold Address; decide) (by unfold Address; decide)
    (by unfold Address; decide)
  · have e : matrixPoints 2 3 (fun r c => if r = 0 then (if c = 0 then .fin 1 else if c = 2 then .fin 4 else .fin 0) else .fin 0) (fun _ => 0) =
        [⟨0, [(1, .fin 1), (3, .fin 4)]⟩, ⟨0, []⟩] := by decide +kernel
    rw [← e]
    exact h
  · intro r row hr k x hx
    obtain ⟨hlt, rfl⟩ := List.getElem?_eq_some_iff.1 hr
    obtain ⟨hlt', rfl⟩ := List.getElem?_eq_some_iff.1 hx
    have : r = 0 ∨ r = 1 := by simp only [List.length_cons, List.length_nil] at hlt; omega
    rcases this with rfl | rfl
    · have : k = 0 ∨ k = 1 := by simp only [List.getElem_cons_zero, List.length_cons, List.length_nil] at hlt'; omega
      rcases this with rfl | rfl <;> clear * - <;> exact ⟨rfl, rfl⟩
    · simp at hlt'

/-- The hypotheses of `C91_session_partial` are met by the calls of `C91_instance` with their examples. -/
theorem C91_hypotheses :
    letI : FFun F32 := unusedFun
    AOpGives bestPow smallDisk dense22 (.fit given22 2) (lessons points22 .endOfFile 2) ∧
    AOpGives bestPow smallDisk dense22 (.fit (.file fileE svm) 1) examplesE ∧
    lessons points22 .endOfFile 1 = [⟨1, [(2, .fin (3 / 2))]⟩, ⟨-1, [(1, .fin (-2))]⟩] ∧
    Reached smallDisk.files (fresh .perceptron 2) ∧ Trainable (fresh .perceptron 2) (lessons points22 .endOfFile 2 ++ examplesE) ∧
    Cls.perceptron ∈ settled := by
  letI : FFun F32 := unusedFun
  refine ⟨⟨points22, matrix22_data, rfl⟩, C85_hypotheses.2.1, rfl, .new (n := 2) rfl, ?_, by decide⟩
  have hl : lessons points22 .endOfFile 2 ++ examplesE = [⟨1, [(2, .fin (3 / 2))]⟩, ⟨-1, [(1, .fin (-2))]⟩, ⟨1, [(2, .fin (3 / 2))]⟩,
    ⟨-1, [(1, .fin (-2))]⟩, ⟨1, [(1, .fin 2)]⟩] := rfl
  rw [hl]
  have key : ∀ e ∈ ([⟨1, [(2, .fin (3 / 2))]⟩, ⟨-1, [(1, .fin (-2))]⟩, ⟨1, [(2, .fin (3 / 2))]⟩, ⟨-1, [(1, .fin (-2))]⟩, ⟨1, [(1, .fin 2)]⟩] :
      List (Ex F32)), Good e.x := by
    intro e he
    simp only [List.mem_cons, List.not_mem_nil, or_false] at he
    rcases he with rfl | rfl | rfl | rfl | rfl <;> exact ⟨by unfold Sparse.Ascending; decide, by decide⟩
  exact ⟨fun e he => ⟨key e he, fun h => absurd h (by decide), .inl rfl⟩, fun h => absurd h (by decide), fun h => absurd h (by decide),
    fun h => absurd h (by decide), fun h => absurd h (by decide), fun h => absurd h (by decide)⟩

/-- **C91 is violated** without labels: `predict(X)` with the matrix of `C91_instance` is undefined behaviour, while `predict(X, y)` gives
    the two rows. -/
theorem C91_is_violated (size num : Nat) (hs : 1 ≤ size) (hn : 1 ≤ num) :
    letI : FFun F32 := unusedFun
    (∀ e, ASession bestPow (fun a _ => a) (fun _ => 0) (.newStep 1) smallDisk dense22 4000 (Py.start (fresh .perceptron 2) size num)
      [.predict given22] e → ∃ s, e = .ok (s, [.rows [⟨1, 1, [0]⟩, ⟨-1, 1, [0]⟩]])) ∧
    (∃ e, ASession bestPow (fun a _ => a) (fun _ => 0) (.newStep 1) smallDisk dense22 4000 (Py.start (fresh .perceptron 2) size num)
      [.predict (.dense 1000 none 2 2 24)] e) ∧
    ∀ e, ASession bestPow (fun a _ => a) (fun _ => 0) (.newStep 1) smallDisk dense22 4000 (Py.start (fresh .perceptron 2) size num)
      [.predict (.dense 1000 none 2 2 24)] e → e = .ub .outOfBounds := by
  letI : FFun F32 := unusedFun
  obtain ⟨⟨e, h1⟩, h2⟩ := C91_unlabelled (pw := bestPow) (powf := fun a _ => a) (ρ := fun _ => 0) (d := .newStep 1) smallDisk dense22 4000
    2 (by decide) (by unfold Address; decide) (by decide) (by decide) (Py.start (fresh .perceptron 2) size num) (.dense 1000 none 2 2 24)
    (.inl ⟨1000, 2, 24, by unfold Address; decide, rfl⟩)
  refine ⟨fun e he => ?_, ?_, fun e he => ?_⟩
  · have h : Returns (matrixDisk file22) (fresh .perceptron 2) [.predict "x".toList "bin".toList] [.rows [⟨1, 1, [0]⟩, ⟨-1, 1, [0]⟩]] :=
      returns_decide (by decide +kernel)
    exact (h size num hs hn).2 e ((C91_same_partial 4000 (.cons (.predict given22_holds) .nil) _ e).1 he)
  · obtain rfl := h2 e h1
    exact ⟨_, .stop h1⟩
  · cases he with
    | stop h => exact congrArg _ (Res.ub.inj (h2 _ h))
    | cons h => exact absurd (h2 _ h) (by simp)

end Sol.Props
