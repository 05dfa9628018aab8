import Verif.Spec.PyArrays
import Verif.Props.Arrays
import Verif.Props.PySol
import Verif.Props.DataFile
/-! Calls with arrays are calls with files that hold the same points. -/

namespace Sol.PyArrays
open Sol.Params Sol.Online Sol.Loss Sol.Whole Sol.PySol Sol.Arrays Sol.Spec

theorem not_breaks {R : Type} {next : R → Res (Status × Option (Tools.Pt F32) × R)} {r : R} {ps : List (Tools.Pt F32)} {st : Status} {k : UB}
    (h : Arrays.Reads next r ps st) : ¬ Breaks next r k := by
  induction h with
  | stop h =>
    intro hb
    cases hb with
    | now h' => rw [h] at h'; cases h'
    | later h' => rw [h] at h'; cases h'
  | point h _ ih =>
    intro hb
    cases hb with
    | now h' => rw [h] at h'; cases h'
    | later h' t => rw [h] at h'; cases h'; exact ih t

theorem adds_array {R : Type} {next : R → Res (Status × Option (Tools.Pt F32) × R)} {opened : Res (Option R)} {r₀ : R} {pts : List DataFile.Point}
    (ho : opened = .ok (some r₀)) (hr : ∀ ps st, Arrays.Reads next r₀ ps st ↔ ps = pts ∧ st = .endOfFile) (n : Int) (i : DataIter.State DataFile.Point)
    (r : Res (Option (DataIter.State DataFile.Point))) : AddsArray next opened n i r ↔ r = .ok (some (addPoints i pts .endOfFile n)) := by
  have hread := (hr pts .endOfFile).2 ⟨rfl, rfl⟩
  constructor
  · intro h
    cases h with
    | lost h => rw [ho] at h; cases h
    | refused h => rw [ho] at h; cases h
    | unread h hn => unfold addPoints; rw [if_pos hn, if_pos hn]
    | breaks h hn hb => rw [ho] at h; cases h; exact absurd hb (not_breaks hread)
    | reads h hn h' =>
      rw [ho] at h; cases h
      obtain ⟨rfl, rfl⟩ := (hr _ _).1 h'
      rfl
  · rintro rfl
    by_cases hn : n ≤ 0
    · have := AddsArray.unread (next := next) (i := i) ho hn
      unfold addPoints at this ⊢
      rw [if_pos hn] at this ⊢
      exact this
    · exact .reads ho (by omega) hread

theorem adds_matrix {pw : Int → F32} {W : World} {m : Mem} {z : Int} {d : Data} {pts : List DataFile.Point} (h : MatrixData m d pts) (n : Int)
    (i : DataIter.State DataFile.Point) (r : Res (Option (DataIter.State DataFile.Point))) :
    Adds pw W m z d n i r ↔ r = .ok (some (addPoints i pts .endOfFile n)) := by
  cases h with
  | @dense x y stride rows cols M L hd hl h0 hr hc hs ho hx hy =>
    refine adds_array (r₀ := ⟨x, y, rows, cols, stride, 0⟩) ?_ (Props.C53_dense_partial m x y stride rows cols M L hd hl h0 ho) n i r
    show openDense (densePath x y _ _ _) = _
    rw [narrowInt_id (by omega) (by omega), narrowInt_id (by omega) (by omega), narrowInt_id hs.1 hs.2]
    exact Props.C53_dense_path x y rows cols stride hx hy ⟨by omega, by omega⟩ ⟨by omega, by omega⟩ hs
  | @csr indices indptr features y base rows cols M L hc hl h0 hr hw hM hi hp hf hy =>
    refine adds_array (r₀ := ⟨indices, indptr, features, y, rows.length, 0⟩) ?_
      (Props.C53_csr_partial m indices indptr features y base rows cols M L hc hl h0 hw hM) n i r
    show openCsr (csrPath indices indptr features y _) = _
    rw [narrowInt_id (by omega) (by omega)]
    exact Props.C53_csr_path indices indptr features y rows.length hi hp hf hy ⟨by omega, by omega⟩

theorem load_points {pw : Int → F32} {W : World} {p f : List Char} {file : DataFile.File} {pts : List DataFile.Point} (hf : W.reads p = some file)
    (hr : ReadsAs pw f file pts .endOfFile) (n : Int) (i : DataIter.State DataFile.Point) :
    load pw W p f n i = .ok (some (addPoints i pts .endOfFile n)) := by
  obtain ⟨o, h1, h2⟩ := hr
  unfold PySol.load addPoints
  rw [hf, h1]
  by_cases hn : n ≤ 0
  · simp only [Res.bind, if_pos hn]
  · simp only [Res.bind, if_neg hn, h2]

theorem adds_holds {pw : Int → F32} {W W' : World} {m : Mem} {z : Int} {d : Data} {p f : List Char} (h : FileHolds pw W m W' p f d) (n : Int)
    (i : DataIter.State DataFile.Point) (r : Res (Option (DataIter.State DataFile.Point))) :
    Adds pw W m z d n i r ↔ r = load pw W' p f n i := by
  cases d with
  | file p' f' =>
    obtain ⟨h1, rfl⟩ := h
    show r = load pw W p' f n i ↔ _
    unfold PySol.load
    rw [h1]
  | dense x y rows cols stride =>
    obtain ⟨pts, file, h1, h2, h3⟩ := h
    rw [adds_matrix h1, load_points h2 h3]
  | csr a b c y rows =>
    obtain ⟨pts, file, h1, h2, h3⟩ := h
    rw [adds_matrix h1, load_points h2 h3]

variable [FFun F32] {pw : Int → F32} {powf : F32 → F32 → F32} {ρ : Nat → F32} {disp : Train.Disp} {W W' : World} {m : Mem} {z : Int}

/-- A call that has data. -/
theorem call_data {a : AOp} {op : Op} {d : Data} {p f : List Char} {n : Int} (ha : a.source = some (d, n)) (ho : op.source = some (p, f, n))
    (hk : ready powf disp a.kind = ready powf disp op) (ht : treat ρ a.kind = treat ρ op) (h : FileHolds pw W m W' p f d) (s : Py)
    (e : Res (Py × Ret)) : ACall pw powf ρ disp W m z s a e ↔ Call pw powf ρ disp W' s op e := by
  constructor
  · intro hc
    cases hc with
    | bad h1 h2 => rw [ha] at h1; cases h1; exact .bad ho ((adds_holds h _ _ _).1 h2).symm
    | closed h1 h2 => rw [ha] at h1; cases h1; exact .closed ho ((adds_holds h _ _ _).1 h2).symm
    | unready h1 h2 h3 => rw [ha] at h1; cases h1; exact .unready ho ((adds_holds h _ _ _).1 h2).symm (hk ▸ h3)
    | refused h1 h2 h3 => rw [ha] at h1; cases h1; exact .refused ho ((adds_holds h _ _ _).1 h2).symm (hk ▸ h3)
    | fails h1 h2 h3 h4 h5 => rw [ha] at h1; cases h1; exact .fails ho ((adds_holds h _ _ _).1 h2).symm (hk ▸ h3) h4 (ht ▸ h5)
    | done h1 h2 h3 h4 h5 => rw [ha] at h1; cases h1; exact .done ho ((adds_holds h _ _ _).1 h2).symm (hk ▸ h3) h4 (ht ▸ h5)
    | other h1 => rw [ha] at h1; cases h1
  · intro hc
    cases hc with
    | bad h1 h2 => rw [ho] at h1; cases h1; exact .bad ha ((adds_holds h _ _ _).2 h2.symm)
    | closed h1 h2 => rw [ho] at h1; cases h1; exact .closed ha ((adds_holds h _ _ _).2 h2.symm)
    | unready h1 h2 h3 => rw [ho] at h1; cases h1; exact .unready ha ((adds_holds h _ _ _).2 h2.symm) (hk ▸ h3)
    | refused h1 h2 h3 => rw [ho] at h1; cases h1; exact .refused ha ((adds_holds h _ _ _).2 h2.symm) (hk ▸ h3)
    | fails h1 h2 h3 h4 h5 => rw [ho] at h1; cases h1; exact .fails ha ((adds_holds h _ _ _).2 h2.symm) (hk ▸ h3) h4 (ht ▸ h5)
    | done h1 h2 h3 h4 h5 => rw [ho] at h1; cases h1; exact .done ha ((adds_holds h _ _ _).2 h2.symm) (hk ▸ h3) h4 (ht ▸ h5)
    | sparsity => cases ho
    | save => cases ho

theorem call_stands {a : AOp} {op : Op} (h : Stands pw W m W' a op) (s : Py) (e : Res (Py × Ret)) :
    ACall pw powf ρ disp W m z s a e ↔ Call pw powf ρ disp W' s op e := by
  cases h with
  | fit h => exact call_data rfl rfl (by funext o; rfl) (by funext o bs; cases o <;> rfl) h s e
  | score h => exact call_data rfl rfl (by funext o; rfl) (by funext o bs; cases o <;> rfl) h s e
  | predict h => exact call_data rfl rfl (by funext o; rfl) (by funext o bs; cases o <;> rfl) h s e
  | sparsity =>
    constructor
    · intro hc
      cases hc with
      | other _ h =>
        cases h with
        | sparsity => exact .sparsity
        | bad h1 | closed h1 | unready h1 | refused h1 | fails h1 | done h1 => cases h1
      | bad h1 | closed h1 | unready h1 | refused h1 | fails h1 | done h1 => cases h1
    · intro hc
      refine .other rfl ?_
      cases hc with
      | sparsity => exact .sparsity
      | bad h1 | closed h1 | unready h1 | refused h1 | fails h1 | done h1 => cases h1
  | @save p hw =>
    constructor
    · intro hc
      cases hc with
      | other _ h =>
        cases h with
        | save =>
          have := Call.save (pw := pw) (powf := powf) (ρ := ρ) (d := disp) (W := W') (s := s) (p := p)
          rwa [hw] at this
        | bad h1 | closed h1 | unready h1 | refused h1 | fails h1 | done h1 => cases h1
      | bad h1 | closed h1 | unready h1 | refused h1 | fails h1 | done h1 => cases h1
    · intro hc
      refine .other rfl ?_
      cases hc with
      | save =>
        rw [hw]
        exact .save
      | bad h1 | closed h1 | unready h1 | refused h1 | fails h1 | done h1 => cases h1

theorem session_stands {as : List AOp} {ops : List Op} (h : List.Forall₂ (Stands pw W m W') as ops) (s : Py) (e : Res (Py × List Ret)) :
    ASession pw powf ρ disp W m z s as e ↔ Session pw powf ρ disp W' s ops e := by
  induction h generalizing s e with
  | nil =>
    constructor
    · intro h; cases h; exact .nil
    · intro h; cases h; exact .nil
  | cons h _ ih =>
    constructor
    · intro hc
      cases hc with
      | stop h1 => exact .stop ((call_stands h _ _).1 h1)
      | cons h1 h2 => exact .cons ((call_stands h _ _).1 h1) ((ih _ _).1 h2)
    · intro hc
      cases hc with
      | stop h1 => exact .stop ((call_stands h _ _).2 h1)
      | cons h1 h2 => exact .cons ((call_stands h _ _).2 h1) ((ih _ _).2 h2)

/-! ### A machine with the data in files -/

omit [FFun F32] in
theorem narrow_isFloat (v : F64) : IsFloat (narrow v) := by
  cases v with
  | fin q => exact DataFile.round_isFloat q
  | pinf => trivial
  | ninf => trivial
  | nan => trivial

omit [FFun F32] in
theorem matrix_binary {rows cols : Nat} {M : Nat → Nat → F64} {L : Nat → Int} (hc : cols < 2147483648)
    (hL : ∀ r < rows, -2147483648 ≤ L r ∧ L r ≤ 2147483647) : ∀ p ∈ matrixPoints rows cols M L, BinaryPoint p := by
  intro p hp
  obtain ⟨r, hr, rfl⟩ := List.mem_map.1 hp
  have := hL r (List.mem_range.1 hr)
  refine ⟨⟨this.1, by show L r < _; omega⟩, ?_, ?_⟩
  · intro f hf
    obtain ⟨e, -, rfl⟩ := List.mem_map.1 hf
    exact narrow_isFloat _
  · have h : (nonzeros cols (M r)).length ≤ cols := by
      unfold nonzeros
      rw [List.length_map]
      simpa using List.length_filter_le (fun c => decide (M r c ≠ .fin 0)) (List.range cols)
    show 5 * ((nonzeros cols (M r)).map asFeat).length < _
    rw [List.length_map]
    omega

omit [FFun F32] in
theorem matrix_file {m : Mem} {d : Data} {pts : List DataFile.Point} (pw : Int → F32) (h : MatrixData m d pts) :
    ∃ f, ReadsAs pw "bin".toList f pts .endOfFile := by
  have hb : ∀ p ∈ pts, BinaryPoint p := by
    cases h with
    | dense hd hl h0 hr hc => exact matrix_binary hc fun r h => ⟨(hl r h).1, (hl r h).2.1⟩
    | csr hc hl h0 hr hw => exact matrix_binary hw fun r h => ⟨(hl r h).1, (hl r h).2.1⟩
  obtain ⟨f, -, h⟩ := Props.C73_binary pw none pts hb
  exact ⟨f, h⟩

/-- The call with a file. -/
def withFile (p f : List Char) : AOp → Op
  | .fit _ n => .fit p f n
  | .score _ => .score p f
  | .predict _ => .predict p f
  | .sparsity => .sparsity
  | .save q => .save q

omit [FFun F32] in
theorem data_file {d : Data} {n : Int} {l : List (Ex F32)} (h : DataGives pw W m d n l) :
    ∃ fo f, ∀ W' : World, ∀ p, W'.reads p = fo → FileHolds pw W m W' p f d ∧ FileGives pw W' p f n l := by
  have key : ∀ pts, MatrixData m d pts → l = lessons pts .endOfFile n → ∃ fo f, ∀ W' : World, ∀ p, W'.reads p = fo →
      (∃ pts file, MatrixData m d pts ∧ W'.reads p = some file ∧ ReadsAs pw f file pts .endOfFile) ∧ FileGives pw W' p f n l := by
    intro pts hm hl
    obtain ⟨f, hf⟩ := matrix_file pw hm
    refine ⟨some f, "bin".toList, fun W' p hp => ⟨⟨pts, f, hm, hp, hf⟩, f, hp, ?_⟩⟩
    by_cases hn : n ≤ 0
    · refine .inl ⟨hn, ?_, ?_⟩
      · rw [hl]; unfold lessons; simp [Int.toNat_of_nonpos hn, filePoints]
      · obtain ⟨o, h1, -⟩ := hf; exact ⟨o, h1⟩
    · exact .inr ⟨by omega, pts, .endOfFile, hf, hl⟩
  cases d with
  | file p' f' =>
    refine ⟨W.reads p', f', fun W' p hp => ⟨⟨hp, rfl⟩, ?_⟩⟩
    obtain ⟨file, h1, h2⟩ := h
    exact ⟨file, by rw [hp, h1], h2⟩
  | dense x y rows cols stride =>
    obtain ⟨pts, h1, h2⟩ := h
    exact key pts h1 h2
  | csr a b c y rows =>
    obtain ⟨pts, h1, h2⟩ := h
    exact key pts h1 h2

omit [FFun F32] in
theorem op_file {a : AOp} {l : List (Ex F32)} (h : AOpGives pw W m a l) :
    ∃ g : Option DataFile.File × List Char, ∀ W' : World, W'.writes = W.writes → ∀ p, W'.reads p = g.1 →
      Stands pw W m W' a (withFile p g.2 a) ∧ OpGives pw W' (withFile p g.2 a) l := by
  cases a with
  | fit d n => obtain ⟨fo, f, h⟩ := data_file h; exact ⟨(fo, f), fun W' _ p hp => ⟨.fit (h W' p hp).1, (h W' p hp).2⟩⟩
  | score d => obtain ⟨fo, f, h⟩ := data_file h; exact ⟨(fo, f), fun W' _ p hp => ⟨.score (h W' p hp).1, (h W' p hp).2⟩⟩
  | predict d => obtain ⟨fo, f, h⟩ := data_file h; exact ⟨(fo, f), fun W' _ p hp => ⟨.predict (h W' p hp).1, (h W' p hp).2⟩⟩
  | sparsity => exact ⟨(none, []), fun W' _ p _ => ⟨.sparsity, h⟩⟩
  | save q => exact ⟨(none, []), fun W' hw p _ => ⟨.save (by rw [hw]), h⟩⟩

omit [FFun F32] in
/-- A machine with a file for every call. -/
theorem machine_of (ops : List (AOp × List (Ex F32))) (hg : ∀ p ∈ ops, AOpGives pw W m p.1 p.2) :
    ∃ W' : World, W'.writes = W.writes ∧ ∃ os : List (Op × List (Ex F32)),
      List.Forall₂ (fun a o => o.2 = a.2 ∧ (∃ p f, o.1 = withFile p f a.1) ∧ Stands pw W m W' a.1 o.1 ∧ OpGives pw W' o.1 o.2) ops os := by
  have : ∃ gs : List (Option DataFile.File × List Char), List.Forall₂ (fun a g => ∀ W' : World, W'.writes = W.writes → ∀ p, W'.reads p = g.1 →
      Stands pw W m W' a.1 (withFile p g.2 a.1) ∧ OpGives pw W' (withFile p g.2 a.1) a.2) ops gs := by
    induction ops with
    | nil => exact ⟨[], .nil⟩
    | cons a ops ih =>
      obtain ⟨g, h⟩ := op_file (hg a List.mem_cons_self)
      obtain ⟨gs, h'⟩ := ih fun p hp => hg p (List.mem_cons_of_mem _ hp)
      exact ⟨g :: gs, .cons h h'⟩
  obtain ⟨gs, h⟩ := this
  have hlen := h.length_eq
  refine ⟨{ W with reads := fun q => (gs[q.length]?.map (·.1)).join }, rfl,
    List.ofFn fun i : Fin ops.length => (withFile (List.replicate i 'a') (gs[i.1]'(by omega)).2 ops[i].1, ops[i].2), ?_⟩
  refine List.forall₂_iff_get.2 ⟨by simp, fun i h1 h2 => ?_⟩
  have hi := (List.forall₂_iff_get.1 h).2 i h1 (by omega)
  simp only [List.get_eq_getElem, List.getElem_ofFn] at hi ⊢
  refine ⟨rfl, ⟨_, _, rfl⟩, hi { W with reads := fun q => (gs[q.length]?.map (·.1)).join } rfl (List.replicate i 'a') ?_⟩
  simp [List.getElem?_eq_getElem (show i < gs.length by omega)]

omit [FFun F32] in
theorem isFit_with (p f : List Char) (a : AOp) : isFit (withFile p f a) = isFit a.kind := by cases a <;> rfl

omit [FFun F32] in
theorem tells_with {M' : World} (hw : M'.writes = W.writes) {mm : M} {p f : List Char} {a : AOp} {l : List (Ex F32)} {r : Ret}
    (h : Tells M' mm (withFile p f a) l r) : Tells W mm a.kind l r := by
  cases a with
  | save q =>
    have h' : (M'.writes q = true ∧ ∃ f, r = .saved f ∧ DataFile.chars f = saveText mm) ∨ (M'.writes q = false ∧ r = .unsaved) := h
    rw [hw] at h'
    exact h'
  | _ => exact h

omit [FFun F32] in
theorem taught_with {ops : List (AOp × List (Ex F32))} {os : List (Op × List (Ex F32))}
    (h : List.Forall₂ (fun a o => o.2 = a.2 ∧ isFit o.1 = isFit a.1.kind) ops os) :
    taught os = taught (ops.map fun p => (p.1.kind, p.2)) := by
  induction h with
  | nil => rfl
  | @cons a o _ _ h _ ih =>
    unfold taught at ih ⊢
    rw [List.map_cons, List.filter_cons, List.filter_cons]
    dsimp only
    rw [h.2]
    split
    · rw [List.map_cons, List.map_cons, ih, h.1]
    · exact ih

omit [FFun F32] in
theorem oneGo_with {as : List AOp} {os : List Op} (h : List.Forall₂ (fun a o => ∃ p f, o = withFile p f a) as os)
    (hi : InOneGo (as.map AOp.kind)) : InOneGo os := by
  have h' : List.Forall₂ (fun o k => isFit o = isFit k ∧ ∀ q, o = .save q → k = .save q) os (as.map AOp.kind) := by
    rw [List.forall₂_map_right_iff]
    refine (h.imp ?_).flip
    rintro a o ⟨p, f, rfl⟩
    exact ⟨isFit_with p f a, fun q hq => by cases a <;> first | exact hq | cases hq⟩
  obtain ⟨a, b, e, he, ha, hb, hc, hd⟩ := hi
  rw [he, List.append_assoc] at h'
  have h1 := List.forall₂_take_append _ _ _ h'
  have h2 := List.forall₂_drop_append _ _ _ h'
  have h3 := List.forall₂_take_append _ _ _ h2
  have h4 := List.forall₂_drop_append _ _ _ h2
  have all : ∀ {l k : List Op} {v : Bool}, List.Forall₂ (fun o k => isFit o = isFit k ∧ ∀ q, o = .save q → k = .save q) l k →
      (∀ o ∈ k, isFit o = v) → ∀ o ∈ l, isFit o = v := by
    intro l k v h hk
    induction h with
    | nil => simp
    | cons h _ ih =>
      intro o ho
      rcases List.mem_cons.1 ho with rfl | ho
      · rw [h.1]; exact hk _ List.mem_cons_self
      · exact ih (fun o h => hk o (List.mem_cons_of_mem _ h)) o ho
  refine ⟨_, _, _, ?_, all h1 ha, all h3 hb, all h4 hc, ?_⟩
  · rw [List.append_assoc, List.take_append_drop, List.take_append_drop]
  · intro q hq
    generalize List.drop b.length (List.drop a.length os) = l at h4 hq
    cases h4 with
    | nil => cases hq
    | cons h _ =>
      obtain rfl := Option.some.inj hq
      exact hd q (by rw [h.2 q rfl]; rfl)

/-! ### Labels that nobody keeps -/

omit [FFun F32] in
theorem released_label {m : Mem} {z rows : Int} (hz : z ≠ 0) (hr : 0 < rows) : label (release m z rows) z 0 = .ub .outOfBounds := by
  unfold label
  rw [if_pos hz]
  have : (release m z rows).dbl (z + 8 * 0) = none := by
    show (if _ then _ else _) = _
    rw [if_pos ⟨by omega, by omega⟩]
  unfold loadD
  rw [this]
  rfl

end Sol.PyArrays
