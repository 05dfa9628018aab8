import Verif.Proofs.Ascii
import Verif.Proofs.Whole
/-! The predictions of `sol_test`: one line per example, with the label that belongs to the scores. -/

namespace Sol.Whole
open Sol.Params Sol.Online Sol.Olm Sol.Select Sol.Loss Sol.Sparse Sol.Spec Sol.PreProcess

theorem flt_def (a b : F32) : (a <? b) = F32.lt a b := rfl

theorem lt_trans32 {a b c : F32} (h1 : F32.lt a b = true) (h2 : F32.lt b c = true) : F32.lt a c = true := by
  cases a <;> cases b <;> cases c <;> simp_all [F32.lt]
  exact h1.trans h2

theorem lt_irrefl32 (a : F32) : F32.lt a a = false := by
  cases a <;> simp [F32.lt]

theorem lt_of_not32 {a b c : F32} (h1 : F32.lt a b = false) (h2 : F32.lt a c = true) : F32.lt b c = true ∨ b = .nan := by
  cases a <;> cases b <;> cases c <;> simp_all [F32.lt]
  exact h1.trans_lt h2

theorem maxLoop_picks (best : Nat) (bv : F32) (i : Nat) (l : List F32) :
    (maxLoop best bv i l = best ∧ ∀ u ∈ l, ¬ bv <? u) ∨
    (∃ (k : Nat) (v : F32), maxLoop best bv i l = i + k ∧ l[k]? = some v ∧ bv <? v ∧ (∀ u ∈ l, ¬ v <? u) ∧
      ∀ (n : Nat) u, l[n]? = some u → n < k → u <? v ∨ u = .nan) := by
  induction l generalizing best bv i with
  | nil => left; simp [maxLoop]
  | cons a l ih =>
    simp only [maxLoop, flt_def] at ih ⊢
    by_cases h : F32.lt bv a = true
    · rw [if_pos h]
      right
      rcases ih i a (i + 1) with ⟨h1, h2⟩ | ⟨k, v, h1, h2, h3, h4, h5⟩
      · refine ⟨0, a, h1, rfl, h, ?_, fun n _ _ hn => absurd hn (by omega)⟩
        intro u hu
        rcases List.mem_cons.1 hu with rfl | hu
        · simp [lt_irrefl32]
        · exact h2 u hu
      · refine ⟨k + 1, v, by rw [h1]; omega, h2, lt_trans32 h h3, ?_, ?_⟩
        · intro u hu
          rcases List.mem_cons.1 hu with rfl | hu
          · intro hv
            have := lt_trans32 hv h3
            rw [lt_irrefl32] at this
            cases this
          · exact h4 u hu
        · intro n u hn hk
          cases n with
          | zero => cases hn; exact .inl h3
          | succ n => exact h5 n u hn (by omega)
    · rw [if_neg h]
      rcases ih best bv (i + 1) with ⟨h1, h2⟩ | ⟨k, v, h1, h2, h3, h4, h5⟩
      · left
        refine ⟨h1, ?_⟩
        intro u hu
        rcases List.mem_cons.1 hu with rfl | hu
        · exact h
        · exact h2 u hu
      · right
        refine ⟨k + 1, v, by rw [h1]; omega, h2, h3, ?_, ?_⟩
        · intro u hu
          rcases List.mem_cons.1 hu with rfl | hu
          · exact fun hv => h (lt_trans32 h3 hv)
          · exact h4 u hu
        · intro n u hn hk
          cases n with
          | zero => cases hn; exact lt_of_not32 (by simpa using h) h3
          | succ n => exact h5 n u hn (by omega)

theorem labelOf_picks {classes : Int} (hc : 1 < classes) {p : List F32} (hp : p.length = vectors classes) {l : Int}
    (h : labelOf (vectors classes) p = .ok l) : Picks classes p l := by
  unfold Picks
  unfold labelOf vectors at h
  unfold vectors at hp
  by_cases h2 : classes = 2
  · rw [if_pos h2] at h hp ⊢
    obtain ⟨x, rfl⟩ := List.length_eq_one_iff.1 hp
    refine ⟨x, rfl, ?_⟩
    rw [if_pos rfl] at h
    simp only [lget, List.getElem?_cons_zero, Res.bind_ok, Res.ok.injEq] at h
    rw [← h]
    rfl
  · rw [if_neg h2] at h hp ⊢
    rw [if_neg (by omega)] at h
    cases p with
    | nil => simp at hp; omega
    | cons a p =>
      rw [← Res.ok.inj h]
      rcases maxLoop_picks 0 a 1 p with ⟨h1, h2⟩ | ⟨k, v, h1, h2, h3, h4, h5⟩
      · refine ⟨0, a, by simp [maxElement, h1], rfl, fun i u hi => ⟨?_, by omega⟩⟩
        cases i with
        | zero => cases hi; simp [flt_def, lt_irrefl32]
        | succ i => exact h2 u (List.mem_of_getElem? hi)
      · refine ⟨k + 1, v, by simp only [maxElement, h1]; push_cast; omega, h2, fun i u hi => ?_⟩
        cases i with
        | zero =>
          cases hi
          refine ⟨?_, fun _ => .inl h3⟩
          intro hv
          have := lt_trans32 hv h3
          rw [lt_irrefl32] at this
          cases this
        | succ i => exact ⟨h4 u (List.mem_of_getElem? hi), fun hk => h5 i u hi (by omega)⟩

variable [FFun F32]

theorem gives_testBatch {c : Cfg F32} {p : Train.Pre} {s : St F32 Unit} (hc : 1 ≤ c.clf) (hd : 1 ≤ s.dim) (hw : Vecs c.clf s.dim s.w)
    {es xs : List (Ex F32)} (h : List.Forall₂ (fun e x => preProcess c.clf p.sel p.norm e = .ok x) es xs)
    (hx : ∀ x ∈ xs, Ascending x.x) (r : Nat × Nat × List (Train.Row F32)) : ∃ r', Train.testBatch c p s r es = .ok r' := by
  induction h generalizing r with
  | nil => exact ⟨r, rfl⟩
  | @cons e x es xs h1 _ ih =>
    obtain ⟨⟨v, lab⟩, h2, -⟩ := gives_predict (s := s) hc (hx x List.mem_cons_self) hd hw
    simp only [Train.testBatch, Train.testPoint, h1, h2, Res.bind_ok]
    exact ih (fun x hx' => hx x (List.mem_cons_of_mem _ hx')) _

/-- `Test` of a model that can be reached: one line per example. -/
theorem testModel_rows {files : List Char → Option (List Char)} {m : M} (hm : Reached files m) (l : List (Ex F32))
    (hl : ∀ e ∈ l, Ascending e.x) :
    ∃ xs rows rate, testModel m [l] = .ok (rows, rate) ∧
      List.Forall₂ (fun e x => preProcess (vectors m.classNum) m.sel m.norm e = .ok x) l xs ∧
      List.Forall₂ (RowOf (cfgOf m .hinge) (startSt m ())) xs rows ∧
      List.Forall₂ (fun (e : Ex F32) (r : Train.Row F32) => r.label = calibrate (vectors m.classNum) e.label ∧ r.scores.length = vectors m.classNum ∧
        Picks m.classNum r.scores r.pred) l rows ∧
      rate = (((rows.countP fun row => row.pred ≠ row.label : Nat) : Int) : F32) / ((rows.length : Int) : F32) := by
  have hc := reached_checked hm
  have hf := reached_fair hm
  obtain ⟨xs, h1, h2⟩ := pre_all hf.sel (vectors m.classNum) m.norm l
  have hclf : 1 ≤ vectors m.classNum := by
    have := hc.classNum
    unfold vectors
    split <;> omega
  have hv := vecs_of_lengths hc.shape.w
  have hx : ∀ x ∈ xs, Ascending x.x := by
    clear h1
    induction h2 with
    | nil => simp
    | @cons e x es xs h _ ih =>
      intro y hy
      rcases List.mem_cons.1 hy with rfl | hy
      · have := hl e List.mem_cons_self
        unfold Ascending at *
        rw [← List.pairwise_map (f := fun p : Nat × F32 => p.1) (R := fun a b => a < b)] at *
        rw [h.2]
        exact this
      · exact ih (fun e he => hl e (List.mem_cons_of_mem _ he)) y hy
  obtain ⟨⟨e, n, rows⟩, h3⟩ := gives_testBatch (c := cfgOf m .hinge) (p := ⟨m.sel, m.norm⟩) (s := startSt m ()) hclf hc.shape.dim hv h1 hx
    (0, 0, [])
  obtain ⟨rows', a, b, h4, h5⟩ := Props.testBatch_rows _ _ _ _ _ h1 _ _ h3
  simp only [List.nil_append, Nat.zero_add] at a b h5
  subst a b h5
  refine ⟨xs, rows, _, ?_, h1, h4, ?_, rfl⟩
  · simp only [testModel, Train.testBatches, h3, Res.bind_ok, h4.length_eq]
  · clear h3 h1
    induction h4 generalizing l with
    | nil => cases h2; exact .nil
    | @cons x r xs rows h _ ih =>
      obtain ⟨ha, hb⟩ := h
      cases h2 with
      | cons h2 h3 =>
        refine .cons ⟨ha.trans h2.1, ?_⟩ (ih _ (fun e he => hl e (List.mem_cons_of_mem _ he)) h3 fun x hx' => hx x (List.mem_cons_of_mem _ hx'))
        obtain ⟨q, h5, h6⟩ := gives_predict (s := startSt m ()) (c := cfgOf m .hinge) hclf (hx x List.mem_cons_self) hc.shape.dim hv
        rw [hb] at h5
        cases h5
        refine ⟨h6.1, labelOf_picks hc.classNum h6.1 ?_⟩
        obtain ⟨p, -, h8⟩ := Res.bind_eq_ok.1 hb
        obtain ⟨lab, h9, h10⟩ := Res.bind_eq_ok.1 h8
        obtain ⟨rfl, rfl⟩ := Prod.mk.inj (Res.ok.inj h10)
        exact h9

omit [FFun F32] in
theorem predText_lines (rows : List (Train.Row F32)) : predText rows = unlines (predictionLines rows) := by
  have hi : ∀ (a : List Char) (l : List (List Char)), ['\t'].intercalate (a :: l) = a ++ l.flatMap fun t => '\t' :: t := by
    intro a l
    induction l generalizing a with
    | nil => simp [List.intercalate]
    | cons b l ih => rw [List.intercalate_cons_cons, ih]; simp
  unfold predText unlines predictionLines
  rw [List.flatMap_cons]
  congr 1
  rw [List.flatMap_map]
  congr 1
  funext r
  rw [hi]
  simp only [rowText, List.flatMap_cons, List.cons_append, List.append_assoc, List.flatMap_map]
  rfl

omit [FFun F32] in
theorem ofChars_chars (f : DataFile.File) : DataFile.ofChars (DataFile.chars f) = f := by
  unfold DataFile.ofChars DataFile.chars
  rw [List.map_map, List.map_congr_left (g := id), List.map_id]
  intro b _
  have hb := b.toNat_lt
  have hv : b.toNat.isValidChar := Or.inl (by omega)
  simp only [Function.comp_apply, id, Char.ofNat, hv, dif_pos, Char.ofNatAux, Char.toNat]
  apply UInt8.toNat_inj.1
  simp

omit [FFun F32] in
theorem wrote_iff {W : World} {j : Cli.Job} {text : List Char} (hp : DataFile.Plain7 text) (e : End) :
    e = ending j (Writes W.env j) 0 (.ok text) ↔ ∃ files, e = .exit 0 files ∧ Wrote W j text files := by
  unfold ending outFiles Writes Wrote
  cases ho : j.out with
  | none => simp
  | some p =>
    cases hw : W.writes p with
    | false => simp [World.env, hw]
    | true =>
      have hc := DataFile.chars_ofChars hp
      simp only [Option.any_some, World.env, hw, if_true, Option.some.injEq]
      constructor
      · rintro rfl
        exact ⟨_, rfl, .inr ⟨p, _, rfl, hw, rfl, hc⟩⟩
      · rintro ⟨files, rfl, ⟨h, -⟩ | ⟨q, f, rfl, -, rfl, h⟩⟩
        · rw [h p rfl] at hw; cases hw
        · rw [← h, ofChars_chars]

end Sol.Whole
