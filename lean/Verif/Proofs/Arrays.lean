import Verif.Spec.Arrays
import Verif.Proofs.StrUtil
import Verif.Props.Sort
/-! Reading in-memory matrices. -/

namespace Sol.Arrays

open Sol.Spec Sol.PreProcess Sol.Text Sol.StrUtil Sol.Tools

/-! ### Paths -/

theorem intText_plain (v : Int) : intText v ≠ [] ∧ ∀ c ∈ intText v, c = '-' ∨ c.isDigit = true := by
  unfold intText
  obtain ⟨c, ds, h1, h2⟩ := decText_cons v.natAbs
  split
  · refine ⟨by simp, fun a ha => ?_⟩
    rcases List.mem_cons.1 ha with rfl | ha
    · exact .inl rfl
    · exact .inr (digits_decText _ a ha)
  · refine ⟨by rw [h1]; simp, fun a ha => .inr (digits_decText _ a ha)⟩

theorem stoInt_int {lo hi v : Int} (h1 : lo ≤ v) (h2 : v ≤ hi) : stoInt lo hi (intText v) = .ok (v, []) := by
  obtain ⟨c, ds, e1, e2⟩ := decText_cons v.natAbs
  have h3 := digit_plain e2
  have hd : ∀ a ∈ decText v.natAbs, isDigit a = true := fun a ha => by rw [isDigit_eq]; exact digits_decText _ a ha
  have et : (decText v.natAbs).takeWhile isDigit = decText v.natAbs := by
    have := takeWhile_app (b := []) hd (by simp)
    simpa using this
  have ed : (decText v.natAbs).dropWhile isDigit = [] := by
    have := dropWhile_app (b := []) hd (by simp)
    simpa using this
  have ev : (digitsVal (decText v.natAbs) : Int) = v.natAbs := by rw [digitsVal_eq, decVal_decText]
  have hne : decText v.natAbs ≠ [] := by rw [e1]; simp
  unfold stoInt
  by_cases hv : v < 0
  · have : takeSign ((intText v).dropWhile isSpace) = (true, decText v.natAbs) := by
      rw [intText, if_pos hv, List.dropWhile_cons, if_neg (by decide)]
      rfl
    rw [this]
    simp only [et, ed, ev, if_true]
    rw [if_neg hne, if_neg (by omega)]
    simp only [Except.ok.injEq, Prod.mk.injEq, and_true]
    omega
  · have : takeSign ((intText v).dropWhile isSpace) = (false, decText v.natAbs) := by
      rw [intText, if_neg hv, e1, List.dropWhile_cons, if_neg (by rw [h3.1]; simp), takeSign]
      · intro s e; exact h3.2.1 (List.cons.inj e).1
      · intro s e; exact h3.2.2.1 (List.cons.inj e).1
    rw [this]
    simp only [et, ed, ev, Bool.false_eq_true, if_false]
    rw [if_neg hne, if_neg (by omega)]
    simp only [Except.ok.injEq, Prod.mk.injEq, and_true]
    omega

theorem strip_plain {s : List Char} (h : ∀ c ∈ s, c = '-' ∨ c.isDigit = true) : strip s = s := by
  have hn : ∀ c ∈ s, stripped c = false := fun c hc => by
    rcases h c hc with rfl | hd
    · rfl
    · have := digit_plain hd
      simp [stripped, this.2.2.2.2.1, this.2.2.2.2.2.1]
  unfold strip
  have e1 : s.dropWhile stripped = s := by
    have := dropWhile_app (p := stripped) (a := []) (b := s) (by simp) (fun c hc => hn c (List.mem_of_mem_head? hc))
    simpa using this
  rw [e1]
  have := takeWhile_app (p := fun c => !stripped c) (a := s) (b := []) (fun c hc => by simp [hn c hc]) (by simp)
  simpa using this

theorem parseAddr_int {v : Int} (h1 : -9223372036854775808 ≤ v) (h2 : v ≤ 9223372036854775807) :
    parseAddr (intText v) = .ok (some v) := by
  unfold parseAddr stoll
  rw [strip_plain (intText_plain v).2, stoInt_int h1 h2]

theorem parseParts_ints {vs : List Int} (h : ∀ v ∈ vs, -9223372036854775808 ≤ v ∧ v ≤ 9223372036854775807) :
    parseParts (vs.map intText) = .ok (some vs) := by
  induction vs with
  | nil => rfl
  | cons v vs ih =>
    rw [List.map_cons, parseParts, parseAddr_int (h v (by simp)).1 (h v (by simp)).2]
    simp only [Res.bind_ok, ih fun a ha => h a (by simp [ha])]

theorem pieces_path (vs : List Int) : Pieces ';' (pathText vs) (vs.map intText) := by
  have hp : ∀ v, intText v ≠ [] ∧ ';' ∉ intText v := fun v => ⟨(intText_plain v).1, fun hc => by
    rcases (intText_plain v).2 _ hc with h | h
    · exact absurd h (by decide)
    · exact absurd h (by decide)⟩
  induction vs with
  | nil => exact .done _ (by simp [pathText])
  | cons v vs ih =>
    cases vs with
    | nil => exact .last [] _ (by simp) (hp v).1 (hp v).2
    | cons w vs => exact .more [] _ _ _ (by simp) (hp v).1 (hp v).2 ih

theorem parsePath_text {vs : List Int} (h : ∀ v ∈ vs, -9223372036854775808 ≤ v ∧ v ≤ 9223372036854775807) (h5 : vs.length = 5) :
    parsePath (pathText vs) = .ok (some vs) := by
  unfold parsePath
  rw [split_of_pieces (pieces_path vs), if_neg (by simp [h5]), parseParts_ints h]

theorem narrowInt_id {v : Int} (h1 : -2147483648 ≤ v) (h2 : v ≤ 2147483647) : narrowInt v = v := by
  unfold narrowInt
  omega

/-! ### Dense rows -/

theorem int32_ok {v : Int} (h1 : -2147483648 ≤ v) (h2 : v ≤ 2147483647) : int32 v = .ok v := by
  unfold int32
  rw [if_pos ⟨h1, h2⟩]

theorem toLabel_int {l : Int} (h1 : -2147483648 ≤ l) (h2 : l ≤ 2147483647) : toLabel (.fin l) = .ok l := by
  unfold toLabel
  simp only [Int.floor_intCast, Int.ceil_intCast, ite_self, h1, h2, and_self, if_true]

theorem label_ok {m : Mem} {y : Int} {rows : Nat} {L : Nat → Int} (h : LabelsAt m y rows L) {r : Nat} (hr : r < rows) :
    label m y r = .ok (L r) := by
  obtain ⟨h1, h2, h3, h4⟩ := h r hr
  unfold label
  by_cases hy : y = 0
  · rw [if_neg (by simpa using hy), h3 hy]
  · rw [if_pos hy]
    unfold loadD
    rw [h4 hy]
    exact toLabel_int h1 h2

theorem nonzero_iff (v : F64) : nonzero v = true ↔ v ≠ .fin 0 := by
  cases v <;> simp [nonzero]

theorem denseRow_ok {m : Mem} {p : Int} {cols : Nat} {f : Nat → F64} (h : ∀ c < cols, m.dbl (p + 8 * c) = some (f c)) (k j : Nat)
    (hk : j + k = cols) : denseRow m k j (p + 8 * j) =
      .ok ((((List.range' j k).filter fun c => f c ≠ .fin 0).map fun c => (c, f c)).map asFeat) := by
  induction k generalizing j with
  | zero => rfl
  | succ k ih =>
    have e : p + 8 * (j : Int) + 8 = p + 8 * ((j + 1 : Nat) : Int) := by push_cast; ring
    rw [denseRow, e, ih (j + 1) (by omega)]
    unfold loadD
    rw [h j (by omega)]
    simp only [Res.bind_ok, Res.ok.injEq, List.range'_succ, List.filter_cons]
    by_cases hz : f j = .fin 0
    · rw [if_neg (by rw [nonzero_iff]; simpa using hz), if_neg (by simpa using hz)]
    · rw [if_pos ((nonzero_iff _).2 hz), if_pos (by simpa using hz)]
      rfl

theorem dense_next {m : Mem} {x y stride : Int} {rows cols : Nat} {M : Nat → Nat → F64} {L : Nat → Int}
    (hd : DenseAt m x stride rows cols M) (hl : LabelsAt m y rows L) {r : Nat} (hr : r < rows)
    (ho : -2147483648 ≤ r * stride ∧ r * stride ≤ 2147483647) :
    Dense.next m ⟨x, y, rows, cols, stride, r⟩ =
      .ok (.ok, some ⟨L r, (nonzeros cols (M r)).map asFeat⟩, ⟨x, y, rows, cols, stride, ((r + 1 : Nat) : Int)⟩) := by
  unfold Dense.next
  have := denseRow_ok (m := m) (p := x + r * stride) (f := M r) (hd r hr) cols 0 (by omega)
  simp only [Nat.cast_zero, mul_zero, add_zero] at this
  rw [if_neg (by simp; omega)]
  simp only [label_ok hl hr, int32_ok ho.1 ho.2, Res.bind_ok, Int.toNat_natCast, this, List.range_eq_range', nonzeros]
  push_cast
  rfl

/-- `Reads` has at most one outcome. -/
theorem Reads.unique {R : Type} {next : R → Res (Status × Option (Pt F32) × R)} {r : R} {ps qs : List (Pt F32)} {st st' : Status}
    (h : Reads next r ps st) (h' : Reads next r qs st') : ps = qs ∧ st = st' := by
  induction h generalizing qs with
  | stop h =>
    cases h' with
    | stop h2 =>
      rw [h] at h2
      simp only [Res.ok.injEq, Prod.mk.injEq, true_and] at h2
      exact ⟨rfl, h2.1⟩
    | point h2 _ =>
      rw [h] at h2
      simp at h2
  | point h _ ih =>
    cases h' with
    | stop h2 =>
      rw [h] at h2
      simp at h2
    | point h2 t2 =>
      rw [h] at h2
      simp only [Res.ok.injEq, Prod.mk.injEq, Option.some.injEq, true_and] at h2
      obtain ⟨rfl, rfl⟩ := h2
      obtain ⟨rfl, rfl⟩ := ih t2
      exact ⟨rfl, rfl⟩

theorem reads_upto {R : Type} {next : R → Res (Status × Option (Pt F32) × R)} (at' : Nat → R) (rows : Nat) (p : Nat → Pt F32)
    (hn : ∀ r < rows, next (at' r) = .ok (.ok, some (p r), at' (r + 1))) (he : next (at' rows) = .ok (.endOfFile, none, at' rows)) :
    Reads next (at' 0) ((List.range rows).map p) .endOfFile := by
  have : ∀ k r, r + k = rows → Reads next (at' r) ((List.range' r k).map p) .endOfFile := by
    intro k
    induction k with
    | zero => intro r hr; obtain rfl : r = rows := by omega
              exact .stop he
    | succ k ih =>
      intro r hr
      rw [List.range'_succ, List.map_cons]
      exact .point (hn r (by omega)) (ih (r + 1) (by omega))
  rw [List.range_eq_range']
  exact this rows 0 (by omega)

/-! ### Compressed rows -/

theorem csrRow_ok {m : Mem} {ip fp : Int} (row : List (Nat × F64)) (hs : ∀ e ∈ row, e.1 < 2147483647) (o : Nat)
    (h : ∀ (k : Nat) e, row[k]? = some e → m.int (ip + 4 * ((o + k : Nat) : Int)) = some (e.1 : Int) ∧
      m.dbl (fp + 8 * ((o + k : Nat) : Int)) = some e.2) :
    csrRow m row.length (fp + 8 * o) (ip + 4 * o) = .ok (row.map asFeat) := by
  induction row generalizing o with
  | nil => rfl
  | cons e row ih =>
    have h0 := h 0 e (by simp)
    have e1 : fp + 8 * (o : Int) + 8 = fp + 8 * ((o + 1 : Nat) : Int) := by push_cast; ring
    have e2 : ip + 4 * (o : Int) + 4 = ip + 4 * ((o + 1 : Nat) : Int) := by push_cast; ring
    have he := hs e (by simp)
    rw [List.length_cons, csrRow, e1, e2, ih (fun a ha => hs a (by simp [ha])) (o + 1) (fun k a hk => by
      have := h (k + 1) a (by simpa using hk)
      rwa [show o + (k + 1) = o + 1 + k by omega] at this)]
    simp only [Nat.add_zero] at h0
    have en : (((e.1 : Int) + 1) % 4294967296).toNat = e.1 + 1 := by omega
    have l1 : loadI m (ip + 4 * (o : Int)) = .ok (e.1 : Int) := by unfold loadI; rw [h0.1]
    have l2 : loadD m (fp + 8 * (o : Int)) = .ok e.2 := by unfold loadD; rw [h0.2]
    have l3 : int32 ((e.1 : Int) + 1) = .ok ((e.1 : Int) + 1) := int32_ok (by omega) (by omega)
    rw [l1, Res.bind_ok, l3, Res.bind_ok, l2, Res.bind_ok, Res.bind_ok, en, List.map_cons, asFeat]

theorem rowStart_succ (rows : List (List (Nat × F64))) {r : Nat} {row : List (Nat × F64)} (h : rows[r]? = some row) :
    rowStart rows (r + 1) = rowStart rows r + row.length := by
  unfold rowStart
  obtain ⟨hr, rfl⟩ := List.getElem?_eq_some_iff.1 h
  rw [List.take_succ_eq_append_getElem hr, List.map_append, List.sum_append]
  simp only [List.map_cons, List.map_nil, List.sum_cons, List.sum_nil, Nat.add_zero]

theorem rowStart_le (rows : List (List (Nat × F64))) (r : Nat) (hr : r ≤ rows.length) : rowStart rows r ≤ rowStart rows rows.length := by
  induction hr using Nat.decreasingInduction with
  | self => exact le_rfl
  | of_succ k hk ih =>
    have := rowStart_succ rows (List.getElem?_eq_getElem hk)
    omega

/-- `Sort` on features: a permutation, ordered by index. -/
theorem sorted_ok (fs : List (UInt32 × F32)) : ∃ gs, sorted fs = .ok gs ∧ gs.Perm fs ∧ gs.Pairwise fun a b => a.1 ≤ b.1 := by
  obtain ⟨a', b', h1, h2, h3, h4, h5⟩ := Sol.Props.C12_sort_correct (fs.map (·.1)).toArray (fs.map (·.2)).toArray (by simp)
  refine ⟨a'.toList.zip b'.toList, ?_, ?_, ?_⟩
  · unfold sorted
    rw [h1]
    rfl
  · refine h5.trans (List.Perm.of_eq ?_)
    rw [List.zip_map']
    simp
  · have : (a'.toList.zip b'.toList).map Prod.fst = a'.toList := List.map_fst_zip (by simp; omega)
    rw [← this] at h4
    exact List.pairwise_map.1 h4

theorem csr_next {m : Mem} {indices indptr features y base : Int} {rows : List (List (Nat × F64))} {L : Nat → Int}
    (h : CsrAt m indices indptr features base rows) (hl : LabelsAt m y rows.length L) {r : Nat} {row : List (Nat × F64)}
    (hr : rows[r]? = some row) :
    ∃ fs, fs.Perm (row.map asFeat) ∧ (fs.Pairwise fun a b => a.1 ≤ b.1) ∧
      Csr.next m ⟨indices, indptr, features, y, rows.length, r⟩ =
        .ok (.ok, some ⟨L r, fs⟩, ⟨indices, indptr, features, y, rows.length, ((r + 1 : Nat) : Int)⟩) := by
  obtain ⟨hlt, hget⟩ := List.getElem?_eq_some_iff.1 hr
  obtain ⟨fs, h1, h2, h3⟩ := sorted_ok (row.map asFeat)
  refine ⟨fs, h2, h3, ?_⟩
  have b1 := h.bounds r (by omega)
  have b2 := h.bounds (r + 1) (by omega)
  have b0 := h.bounds 0 (by omega)
  have s1 := rowStart_succ rows hr
  have s2 := rowStart_le rows (r + 1) (by omega)
  have s3 := h.few
  have hz : rowStart rows 0 = 0 := by simp [rowStart]
  rw [hz] at b0
  simp only [Nat.cast_zero, mul_zero, add_zero] at b0
  have hrow := csrRow_ok (m := m) (ip := indices) (fp := features) row (h.narrow row (List.mem_of_getElem? hr)) (rowStart rows r)
    (h.entry r row hr)
  unfold Csr.next loadI
  have e1 : (base + (rowStart rows (r + 1) : Nat) - (base + (rowStart rows r : Nat)) : Int) = (row.length : Nat) := by
    rw [s1]; push_cast; ring
  have e2 : (base + (rowStart rows r : Nat) - base : Int) = (rowStart rows r : Nat) := by ring
  have c1 : (((r : Nat) : Int) + 1) = ((r + 1 : Nat) : Int) := by push_cast; ring
  rw [if_neg (by simp; omega)]
  simp only [label_ok hl hlt, c1, b1, b2, b0, Res.bind_ok, e1, e2, int32_ok (v := (row.length : Nat)) (by omega) (by omega),
    int32_ok (v := (rowStart rows r : Nat)) (by omega) (by omega), Int.toNat_natCast, hrow, h1]

/-- Features ordered by index without repetition are determined by the set of features. -/
theorem ordered_unique {fs gs : List (UInt32 × F32)} (hp : fs.Perm gs) (h1 : fs.Pairwise fun a b => a.1 ≤ b.1)
    (h2 : gs.Pairwise fun a b => a.1 < b.1) : fs = gs := by
  have hnd : (gs.map (·.1)).Nodup := by
    rw [List.Nodup, List.pairwise_map]
    exact h2.imp fun h => UInt32.ne_of_lt h
  refine hp.eq_of_pairwise (le := fun a b => a.1 ≤ b.1) ?_ h1 (h2.imp fun h => UInt32.le_of_lt h)
  intro a b ha hb hab hba
  have he : a.1 = b.1 := UInt32.le_antisymm hab hba
  exact List.inj_on_of_nodup_map hnd (hp.mem_iff.1 ha) hb he

theorem nonzeros_ordered {cols : Nat} (hc : cols < 4294967296 - 1) (f : Nat → F64) :
    ((nonzeros cols f).map asFeat).Pairwise fun a b => a.1 < b.1 := by
  unfold nonzeros
  rw [List.map_map, List.pairwise_map]
  have : (List.range cols).Pairwise (· < ·) := List.pairwise_lt_range
  refine List.Pairwise.imp_of_mem ?_ (this.filter _)
  intro a b ha hb hab
  have h1 : b < cols := List.mem_range.1 (List.mem_filter.1 hb).1
  show UInt32.ofNat (a + 1) < UInt32.ofNat (b + 1)
  rw [UInt32.lt_iff_toNat_lt, UInt32.toNat_ofNat', UInt32.toNat_ofNat', Nat.mod_eq_of_lt, Nat.mod_eq_of_lt] <;> omega

end Sol.Arrays
