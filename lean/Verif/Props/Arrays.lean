import Verif.Proofs.Arrays
/-! # C53: in-memory matrices -/

namespace Sol.Props

open Sol.Arrays Sol.Spec Sol.Tools

/-- A value of type `int`. -/
def FitsInt (v : Int) : Prop := -2147483648 ≤ v ∧ v ≤ 2147483647

/-- A pointer value, as a `long long`. -/
def FitsLong (v : Int) : Prop := -9223372036854775808 ≤ v ∧ v ≤ 9223372036854775807

theorem FitsInt.wide {v : Int} (h : FitsInt v) : FitsLong v := by unfold FitsInt at h; unfold FitsLong; omega

/-- **C53** (dense path): opening the generated path gives the addresses and sizes it was generated from. -/
theorem C53_dense_path (x y rows cols stride : Int) (hx : FitsLong x) (hy : FitsLong y) (hr : FitsInt rows) (hc : FitsInt cols)
    (hs : FitsInt stride) : openDense (densePath x y rows cols stride) = .ok (some ⟨x, y, rows, cols, stride, 0⟩) := by
  have h : ∀ v ∈ [x, y, rows, cols, stride], -9223372036854775808 ≤ v ∧ v ≤ 9223372036854775807 := by
    intro v hv
    simp only [List.mem_cons, List.not_mem_nil, or_false] at hv
    rcases hv with rfl | rfl | rfl | rfl | rfl
    exacts [hx, hy, hr.wide, hc.wide, hs.wide]
  unfold openDense densePath
  rw [parsePath_text h rfl]
  simp only [Res.bind_ok, narrowInt_id hr.1 hr.2, narrowInt_id hc.1 hc.2, narrowInt_id hs.1 hs.2]

/-- **C53** (sparse path). -/
theorem C53_csr_path (indices indptr features y n : Int) (hi : FitsLong indices) (hp : FitsLong indptr) (hf : FitsLong features)
    (hy : FitsLong y) (hn : FitsInt n) :
    openCsr (csrPath indices indptr features y n) = .ok (some ⟨indices, indptr, features, y, n, 0⟩) := by
  have h : ∀ v ∈ [indices, indptr, features, y, n], -9223372036854775808 ≤ v ∧ v ≤ 9223372036854775807 := by
    intro v hv
    simp only [List.mem_cons, List.not_mem_nil, or_false] at hv
    rcases hv with rfl | rfl | rfl | rfl | rfl
    exacts [hi, hp, hf, hy, hn.wide]
  unfold openCsr csrPath
  rw [parsePath_text h rfl]
  simp only [Res.bind_ok, narrowInt_id hn.1 hn.2]

/-- **C53** (dense, for matrices whose row offsets fit in an `int`; see `C53_is_violated` for larger ones): reading delivers one
    point per row, with the row's label and exactly its non-zero entries at index column + 1, then the end of the file. -/
theorem C53_dense_partial (m : Mem) (x y stride : Int) (rows cols : Nat) (M : Nat → Nat → F64) (L : Nat → Int)
    (hd : DenseAt m x stride rows cols M) (hl : LabelsAt m y rows L) (h0 : 0 < rows)
    (ho : ∀ r < rows, FitsInt (r * stride)) (ps : List (Pt F32)) (st : Status) :
    Reads (Dense.next m) ⟨x, y, rows, cols, stride, 0⟩ ps st ↔ ps = matrixPoints rows cols M L ∧ st = .endOfFile := by
  have h := reads_upto (next := Dense.next m) (fun r => ⟨x, y, rows, cols, stride, r⟩) rows
    (fun r => ⟨L r, (nonzeros cols (M r)).map asFeat⟩) (fun r hr => dense_next hd hl hr (ho r hr)) (by
      unfold Dense.next
      rw [if_pos rfl, if_pos (by simpa using h0)])
  constructor
  · intro h'
    exact h'.unique h
  · rintro ⟨rfl, rfl⟩
    exact h

/-- **C53** (sparse, whatever is stored): one point per row, with exactly the stored entries of the row at index column + 1,
    ordered by index. -/
theorem C53_csr_stored (m : Mem) (indices indptr features y base : Int) (rows : List (List (Nat × F64))) (L : Nat → Int)
    (hc : CsrAt m indices indptr features base rows) (hl : LabelsAt m y rows.length L) (h0 : rows ≠ []) :
    ∃ ps, Reads (Csr.next m) ⟨indices, indptr, features, y, rows.length, 0⟩ ps .endOfFile ∧ ps.length = rows.length ∧
      ∀ (r : Nat) p row, ps[r]? = some p → rows[r]? = some row →
        p.label = L r ∧ p.feats.Perm (row.map asFeat) ∧ p.feats.Pairwise fun a b => a.1 ≤ b.1 := by
  have key : ∀ r : Nat, ∃ fs, ∀ row, rows[r]? = some row → fs.Perm (row.map asFeat) ∧ (fs.Pairwise fun a b => a.1 ≤ b.1) ∧
      Csr.next m ⟨indices, indptr, features, y, rows.length, r⟩ =
        .ok (.ok, some ⟨L r, fs⟩, ⟨indices, indptr, features, y, rows.length, ((r + 1 : Nat) : Int)⟩) := by
    intro r
    cases hr : rows[r]? with
    | none => exact ⟨[], by simp⟩
    | some row =>
      obtain ⟨fs, h⟩ := csr_next hc hl hr
      exact ⟨fs, by simpa using h⟩
  choose fs hfs using key
  have hlen : 0 < rows.length := List.length_pos_of_ne_nil h0
  refine ⟨_, reads_upto (next := Csr.next m) (fun r => ⟨indices, indptr, features, y, rows.length, r⟩) rows.length
    (fun r => ⟨L r, fs r⟩) (fun r hr => (hfs r _ (List.getElem?_eq_getElem hr)).2.2) (by
      unfold Csr.next
      rw [if_pos rfl, if_pos (by simpa using hlen)]), by simp, ?_⟩
  intro r p row hp hr
  obtain ⟨h1, h2, -⟩ := hfs r row hr
  have hlt := (List.getElem?_eq_some_iff.1 hr).1
  simp only [List.getElem?_map, List.getElem?_range hlt, Option.map_some, Option.some.injEq] at hp
  subst hp
  exact ⟨rfl, h1, h2⟩

/-- **C53** (sparse, when no zeros and no column twice are stored; see `C53_is_violated` for stored zeros): reading delivers one point
    per row, with the row's label and exactly its non-zero entries at index column + 1, in whatever order they are stored. -/
theorem C53_csr_partial (m : Mem) (indices indptr features y base : Int) (rows : List (List (Nat × F64))) (cols : Nat)
    (M : Nat → Nat → F64) (L : Nat → Int) (hc : CsrAt m indices indptr features base rows) (hl : LabelsAt m y rows.length L)
    (h0 : rows ≠ []) (hw : cols < 2147483648) (hM : ∀ (r : Nat) row, rows[r]? = some row → row.Perm (nonzeros cols (M r)))
    (ps : List (Pt F32)) (st : Status) :
    Reads (Csr.next m) ⟨indices, indptr, features, y, rows.length, 0⟩ ps st ↔
      ps = matrixPoints rows.length cols M L ∧ st = .endOfFile := by
  obtain ⟨qs, h1, h2, h3⟩ := C53_csr_stored m indices indptr features y base rows L hc hl h0
  have e : qs = matrixPoints rows.length cols M L := by
    refine List.ext_getElem (by simp [matrixPoints, h2]) fun r hr hr' => ?_
    have hlt : r < rows.length := by omega
    obtain ⟨a, b, c⟩ := h3 r _ _ (List.getElem?_eq_getElem hr) (List.getElem?_eq_getElem hlt)
    have hperm : qs[r].feats.Perm ((nonzeros cols (M r)).map asFeat) :=
      b.trans ((hM r _ (List.getElem?_eq_getElem hlt)).map asFeat)
    have he := ordered_unique hperm c (nonzeros_ordered (by omega) (M r))
    simp only [matrixPoints, List.getElem_map, List.getElem_range]
    cases hq : qs[r] with
    | mk l f =>
      rw [hq] at a he
      simp only at a he
      rw [a, he]
  constructor
  · intro h'
    rw [← e]
    exact h'.unique h1
  · rintro ⟨rfl, rfl⟩
    rw [← e]
    exact h1

/-- **C53** (an empty matrix is an error, not an empty data set). -/
theorem C53_empty (m : Mem) (x y cols stride : Int) :
    Reads (Dense.next m) ⟨x, y, 0, cols, stride, 0⟩ [] .ioError :=
  .stop (r' := ⟨x, y, 0, cols, stride, 0⟩) rfl

/-! ### Violations -/

/-- A matrix of ones, wherever one looks. -/
def ones : Mem := ⟨fun _ => some (.fin 1), fun _ => some 0⟩

/-- Compressed rows with a stored zero: one row, columns 0 and 1, values 0 and 5. -/
def storedZero : Mem where
  dbl a := if a = 800 then some (.fin 0) else if a = 808 then some (.fin 5) else none
  int a := if a = 400 then some 0 else if a = 404 then some 1 else if a = 600 then some 0 else if a = 604 then some 2 else none

/-- **C53** is violated.  Dense: a matrix of 2049 rows of a mebibyte cannot be read, since the offset of the last row is computed
    as an `int`.  Sparse: a stored zero is delivered as a feature. -/
theorem C53_is_violated :
    (DenseAt ones 4096 1048576 2049 131072 (fun _ _ => .fin 1) ∧ LabelsAt ones 0 2049 (fun _ => 0) ∧
      Dense.next ones ⟨4096, 0, 2049, 131072, 1048576, 2048⟩ = .ub .signedOverflow) ∧
    (CsrAt storedZero 400 600 800 0 [[(0, .fin 0), (1, .fin 5)]] ∧
      Reads (Csr.next storedZero) ⟨400, 600, 800, 0, 1, 0⟩ [⟨0, [(1, 0), (2, .fin 5)]⟩] .endOfFile) := by
  refine ⟨⟨fun _ _ _ _ => rfl, fun _ _ => ⟨by norm_num, by norm_num, fun _ => rfl, fun h => absurd rfl h⟩, ?_⟩, ⟨?_, ?_, ?_, ?_⟩, ?_⟩
  · decide +kernel
  · intro r hr
    have : ∀ r ≤ 1, storedZero.int (600 + 4 * (r : Nat)) = some (0 + rowStart [[(0, .fin 0), (1, .fin 5)]] r) := by decide +kernel
    exact this r hr
  · intro r row hr k e he
    obtain ⟨hlt, rfl⟩ := List.getElem?_eq_some_iff.1 hr
    obtain ⟨hlt', rfl⟩ := List.getElem?_eq_some_iff.1 he
    simp only [List.length_cons, List.length_nil, Nat.zero_add, Nat.lt_one_iff] at hlt
    subst hlt
    simp only [List.getElem_cons_zero, List.length_cons, List.length_nil] at hlt'
    have : k = 0 ∨ k = 1 := by omega
    rcases this with rfl | rfl <;> simp only [List.getElem_cons_zero, List.getElem_cons_succ] <;> decide +kernel
  · decide +kernel
  · decide +kernel
  · exact .point (r' := ⟨400, 600, 800, 0, 1, 1⟩) (by decide +kernel) (.stop (r' := ⟨400, 600, 800, 0, 1, 1⟩) (by decide +kernel))

/-! ### Instances: the matrix ((0, 3/2), (-2, 0)) with labels 1, -1, dense with padded rows, and compressed from base 7 with the
entries of a row out of order. -/

def matrix22 : Nat → Nat → F64
  | 0, 1 => .fin (3 / 2)
  | 1, 0 => .fin (-2)
  | _, _ => .fin 0

def dense22 : Mem where
  dbl a := if a = 1000 then some (.fin 0) else if a = 1008 then some (.fin (3 / 2)) else if a = 1024 then some (.fin (-2)) else
    if a = 1032 then some (.fin 0) else if a = 2000 then some (.fin 1) else if a = 2008 then some (.fin (-1)) else none
  int _ := none

theorem C53_instance_dense : DenseAt dense22 1000 24 2 2 matrix22 ∧ LabelsAt dense22 2000 2 (fun r => if r = 0 then 1 else -1) := by
  unfold DenseAt LabelsAt
  decide +kernel

theorem C53_instance_dense_points :
    matrixPoints 2 2 matrix22 (fun r => if r = 0 then 1 else -1) = [⟨1, [(2, .fin (3 / 2))]⟩, ⟨-1, [(1, .fin (-2))]⟩] ∧
    Dense.next dense22 ⟨1000, 2000, 2, 2, 24, 1⟩ = .ok (.ok, some ⟨-1, [(1, .fin (-2))]⟩, ⟨1000, 2000, 2, 2, 24, 2⟩) := by
  decide +kernel

/-- Rows ((2, 4), (0, 1)) out of order, and (); boundaries from 7. -/
def csr23 : Mem where
  dbl a := if a = 800 then some (.fin 4) else if a = 808 then some (.fin 1) else none
  int a := if a = 400 then some 2 else if a = 404 then some 0 else if a = 600 then some 7 else if a = 604 then some 9 else
    if a = 608 then some 9 else none

theorem C53_instance_csr :
    (∀ r ≤ 2, csr23.int (600 + 4 * (r : Nat)) = some (7 + rowStart [[(2, .fin 4), (0, .fin 1)], []] r)) ∧
    Csr.next csr23 ⟨400, 600, 800, 0, 2, 0⟩ = .ok (.ok, some ⟨0, [(1, .fin 1), (3, .fin 4)]⟩, ⟨400, 600, 800, 0, 2, 1⟩) ∧
    Csr.next csr23 ⟨400, 600, 800, 0, 2, 1⟩ = .ok (.ok, some ⟨0, []⟩, ⟨400, 600, 800, 0, 2, 2⟩) := by
  decide +kernel

theorem C53_instance_path : densePath 140737488355328 0 3 (-2) 16 = "140737488355328;0;3;-2;16".toList ∧
    openDense " 7 x;0;3;4;16;".toList = .ok (some ⟨7, 0, 3, 4, 16, 0⟩) ∧ openDense "7;0;3;4".toList = .ok none := by
  decide +kernel

end Sol.Props
