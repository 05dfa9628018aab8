import Verif.Proofs.DataFile
import Verif.Props.Online
/-!
# Property C73: a data set survives being written to a file and read back
-/

namespace Sol.Props
open Sol.DataFile Sol.Spec Sol.FloatText Sol.TextWriters Sol.Tools

/-- **C73 (memory images).** Every `float` and every `int32_t` is what its memory image says. -/
theorem C73_images (v : F32) (hv : IsFloat v) (l : Int) (h1 : -2147483648 ≤ l) (h2 : l < 2147483648) :
    ofBits (toBits v) = v ∧ labelOf (labelBits l) = l := ⟨ofBits_toBits hv, labelOf_labelBits h1 h2⟩

/-- **C73 (binary files).** A binary file delivers exactly the points written, including infinite and undefined values. -/
theorem C73_binary (pw : Int → F32) (extra : Option UInt32) (pts : List (Pt F32)) (h : ∀ p ∈ pts, BinaryPoint p) :
    ∃ f, render .bin ⟨extra, pts⟩ = .ok f ∧ ReadsAs pw "bin".toList f pts .endOfFile := ⟨_, rfl, bin_reads pw h⟩

/-- **C73 (libsvm files), the part that holds.** The points come back with their labels and indexes and with near values.  Missing:
    equal values (`C73_is_violated`), infinite values and the labels and indexes outside `SvmPoint` (C08). -/
theorem C73_svm_partial (pw : Int → F32) (hpw : Powf pw) (extra : Option UInt32) (pts : List (Pt F32)) (h : ∀ p ∈ pts, SvmPoint p) :
    ∃ f qs, render .svm ⟨extra, pts⟩ = .ok f ∧ ReadsAs pw "svm".toList f qs .endOfFile ∧ List.Forall₂ NearPoint pts qs := by
  obtain ⟨qs, h1, h2⟩ := svm_reads hpw h
  exact ⟨_, qs, rfl, h1, h2.imp fun _ _ h => h.near⟩

/-- **C73 (csv files), the part that holds.** The same for a csv file with the columns 1 to `dim - 1`.  Missing: as for libsvm files, and
    zeros, the index 0 and features out of order (C10). -/
theorem C73_csv_partial (pw : Int → F32) (hpw : Powf pw) (dim : UInt32) (h1 : 1 ≤ dim.toNat) (hd : dim.toNat ≤ 2 ^ 25)
    (pts : List (Pt F32)) (h : ∀ p ∈ pts, CsvPoint dim.toNat p) :
    ∃ f qs, render .csv ⟨some dim, pts⟩ = .ok f ∧ ReadsAs pw "csv".toList f qs .endOfFile ∧ List.Forall₂ NearPoint pts qs := by
  obtain ⟨qs, h2, h3⟩ := csv_reads hpw h1 hd h
  exact ⟨_, qs, rfl, h2, h3.imp fun _ _ h => h.near⟩

/-- **C73 (detour through a binary file), the part that holds.** A libsvm file with values outside 0.0001 … 0.01 is read, stored as a
    binary file, read again and written as text: the same bytes.  Missing: the values inside (`C73_rewriting_changes`). -/
theorem C73_svm_detour_partial (pw : Int → F32) (hpw : Powf pw) (pts : List (Pt F32)) (h : ∀ p ∈ pts, SvmPoint p)
    (hp : ∀ p ∈ pts, ∀ f ∈ p.feats, Plainly f.2) :
    ∃ f qs g, render .svm ⟨none, pts⟩ = .ok f ∧ ReadsAs pw "svm".toList f qs .endOfFile ∧
      render .bin ⟨none, qs⟩ = .ok g ∧ ReadsAs pw "bin".toList g qs .endOfFile ∧ render .svm ⟨none, qs⟩ = .ok f := by
  obtain ⟨qs, h1, h2⟩ := svm_reads hpw h
  refine ⟨_, qs, _, rfl, h1, rfl, bin_reads pw ?_, ?_⟩
  · intro q hq
    obtain ⟨p, hpm, hk⟩ : ∃ p ∈ pts, KeptPoint p q := by
      clear h1 h hp
      induction h2 with
      | nil => simp at hq
      | cons a _ ih =>
        rcases List.mem_cons.1 hq with rfl | hq
        · exact ⟨_, List.mem_cons_self .., a⟩
        · obtain ⟨p, b, c⟩ := ih hq
          exact ⟨p, List.mem_cons_of_mem _ b, c⟩
    exact kept_binary hk (h p hpm).label (by have := (h p hpm).count; omega)
  · unfold render
    dsimp only
    rw [flatMap_kept h2 fun p hpm q hk => kept_svmWrite hk (hp p hpm)]

/-- **C73 (csv files written again), the part that holds.** The same for reading a csv file and writing it again. -/
theorem C73_csv_again_partial (pw : Int → F32) (hpw : Powf pw) (dim : UInt32) (h1 : 1 ≤ dim.toNat) (hd : dim.toNat ≤ 2 ^ 25)
    (pts : List (Pt F32)) (h : ∀ p ∈ pts, CsvPoint dim.toNat p) (hp : ∀ p ∈ pts, ∀ f ∈ p.feats, Plainly f.2) :
    ∃ f qs, render .csv ⟨some dim, pts⟩ = .ok f ∧ ReadsAs pw "csv".toList f qs .endOfFile ∧
      render .csv ⟨some dim, qs⟩ = .ok f := by
  obtain ⟨qs, h2, h3⟩ := csv_reads hpw h1 hd h
  refine ⟨_, qs, rfl, h2, ?_⟩
  unfold render
  dsimp only
  rw [flatMap_kept h3 fun p hpm q hk => kept_csvWrite hk (hp p hpm)]

/-- Two points: one with a large and a small value, one without features. -/
def twoPoints : List (Pt F32) := [⟨-1, [(1, .fin (3 / 4)), (7, .fin (-(2 ^ 40)))]⟩, ⟨3, []⟩]

theorem twoPoints_values : ∀ p ∈ twoPoints, ∀ f ∈ p.feats, TextValue f.2 ∧ Plainly f.2 ∧ f.2 ≠ .fin 0 := by
  intro p hp f hf
  simp only [twoPoints, List.mem_cons, List.not_mem_nil, or_false] at hp
  rcases hp with rfl | rfl
  · simp only [List.mem_cons, List.not_mem_nil, or_false] at hf
    rcases hf with rfl | rfl
    · exact ⟨⟨3 / 4, rfl, ⟨3, -2, by norm_num, by norm_num, by norm_num, by norm_num⟩, .inr (by norm_num [abs_of_pos]),
        by norm_num [abs_of_pos]⟩, ⟨_, rfl, .inr (by norm_num [abs_of_pos])⟩, by decide +kernel⟩
    · exact ⟨⟨-(2 ^ 40), rfl, ⟨-1, 40, by norm_num, by norm_num, by norm_num, by norm_num⟩, .inr (by norm_num [abs_of_pos]),
        by norm_num [abs_of_pos]⟩, ⟨_, rfl, .inr (by norm_num [abs_of_pos])⟩, by decide +kernel⟩
  · simp at hf

/-- The hypotheses of the theorems above are met. -/
example : (∀ p ∈ twoPoints, SvmPoint p) ∧ (∀ p ∈ twoPoints, CsvPoint 8 p) ∧ (∀ p ∈ twoPoints, BinaryPoint p) := by
  have hv := twoPoints_values
  have hi : ∀ p ∈ twoPoints, p.label.natAbs ≤ 3 ∧ (p.feats.map (·.1)).Pairwise (· < ·) ∧ p.feats.length ≤ 2 ∧
      ∀ f ∈ p.feats, 1 ≤ f.1.toNat ∧ f.1.toNat < 8 := by decide
  refine ⟨fun p hp => ?_, fun p hp => ?_, fun p hp => ?_⟩ <;> obtain ⟨a, b, c, d⟩ := hi p hp
  · exact ⟨by omega, fun f hf => ⟨by have := d f hf; omega, (hv p hp f hf).1⟩, b, by omega⟩
  · exact ⟨by omega, fun f hf => ⟨(d f hf).1, (d f hf).2, (hv p hp f hf).1, (hv p hp f hf).2.2⟩, b⟩
  · refine ⟨by omega, fun f hf => ?_, by omega⟩
    obtain ⟨⟨q, hq, hs, _⟩, _⟩ := hv p hp f hf
    rw [hq]
    exact hs

/-- `powf` without any error before the rounding. -/
def bestPow (k : Int) : F32 := F32.round ((10 : ℚ) ^ k)

example : Powf bestPow := fun k => ⟨10 ^ k, by rw [sub_self, abs_zero]; positivity, rfl⟩

/-- Binary files also keep infinite and undefined values. -/
example : BinaryPoint ⟨-2147483648, [(0, .ninf), (4294967295, .nan), (5, .fin (1 / 2 ^ 149))]⟩ := by
  refine ⟨by norm_num, ?_, by norm_num⟩
  intro f hf
  simp only [List.mem_cons, List.not_mem_nil, or_false] at hf
  rcases hf with rfl | rfl | rfl
  · trivial
  · trivial
  · exact ⟨1, -149, by norm_num, by norm_num, by norm_num, by norm_num⟩

/-- **C73 is violated** by text: two data sets that differ in a value give the same file, so no reader can deliver both. -/
theorem C73_is_violated :
    ∃ p q : Pt F32, SvmPoint p ∧ SvmPoint q ∧ p ≠ q ∧ render .svm ⟨none, [p]⟩ = render .svm ⟨none, [q]⟩ := by
  refine ⟨⟨1, [(1, .fin (1 + 1 / 2 ^ 23))]⟩, ⟨1, [(1, .fin 1)]⟩, ⟨by decide, ?_, by decide, by decide⟩, ⟨by decide, ?_, by decide, by decide⟩,
    by decide +kernel, by decide +kernel⟩
  · intro f hf
    rw [List.mem_singleton.1 hf]
    exact ⟨by decide, _, rfl, ⟨2 ^ 23 + 1, -23, by norm_num, by norm_num, by norm_num, by norm_num⟩, .inr (by norm_num [abs_of_pos]),
      by norm_num [abs_of_pos]⟩
  · intro f hf
    rw [List.mem_singleton.1 hf]
    exact ⟨by decide, _, rfl, ⟨1, 0, by norm_num, by norm_num, by norm_num, by norm_num⟩, .inr (by norm_num), by norm_num⟩

/-- What becomes of a data set that is written as text and read. -/
def reread (pw : Int → F32) (fmt : Format) (type : List Char) (w : Written F32) : Res (List (Pt F32) × Status) := do
  let f ← render fmt w
  match ← addReader type (some f) with
  | none => .ok ([], .error)
  | some o => contents pw o

/-- **C73: rewriting changes the file** for values between 0.0001 and 0.01: 1/1024 is printed as 0.000976562, read as 0.0009765 and
    then printed as 0.0009765. -/
theorem C73_rewriting_changes :
    ∃ qs, reread bestPow .svm "svm".toList ⟨none, [⟨-3, [(2, .fin (1 / 1024))]⟩]⟩ = .ok (qs, .endOfFile) ∧
      render .svm ⟨none, qs⟩ ≠ render .svm ⟨none, [⟨-3, [(2, .fin (1 / 1024))]⟩]⟩ :=
  ⟨[⟨-3, [(2, .fin (8388071 / 8589934592))]⟩], by decide +kernel, by decide +kernel⟩

/-- Write the points, and read the file. -/
def backFrom (fmt : Format) (dim : Option UInt32) (pts : List (Pt F32)) : Res (List (Pt F32) × Status) := do
  let f ← render fmt ⟨dim, pts⟩
  let o ← addReader (typeName fmt) (some f)
  match o with
  | some o => contents bestPow o
  | none => .ok ([], .error)

/-- Memory images: zero, one, a negative number, the smallest, the smallest normal and the largest number, infinities; labels. -/
theorem C73_instance_images :
    [F32.fin 0, .fin 1, .fin (-(5 / 2)), .fin (2 ^ (-149 : ℤ)), .fin (2 ^ (-126 : ℤ)), .fin ((2 ^ 24 - 1) * 2 ^ (104 : ℤ)), .pinf, .ninf].map toBits =
      [0, 0x3f800000, 0xc0200000, 1, 0x00800000, 0x7f7fffff, 0x7f800000, 0xff800000] ∧
    [0, 0x80000000, 0x3f800000, 0xc0200000, 1, 0x00800000, 0x7f7fffff, 0x7f800000, 0xff800000, 0x7fc00000].map ofBits =
      [F32.fin 0, .fin 0, .fin 1, .fin (-(5 / 2)), .fin (2 ^ (-149 : ℤ)), .fin (2 ^ (-126 : ℤ)), .fin ((2 ^ 24 - 1) * 2 ^ (104 : ℤ)),
        .pinf, .ninf, .nan] ∧
    [0, 7, -1, 2147483647, -2147483648].map labelBits = [0, 7, 0xffffffff, 0x7fffffff, 0x80000000] := by
  decide +kernel

/-- Three points through the three formats; a value of a csv file that is zero is not a feature. -/
theorem C73_instance :
    let odd : List (Pt F32) := [⟨-7, [(3, .fin (-(5 / 2))), (9, .fin 7)]⟩, ⟨2, []⟩, ⟨5, [(1, .fin (1 / 4)), (2, .fin 3)]⟩]
    Yields (backFrom .bin none (odd ++ [⟨1, [(4, .pinf), (2, .nan)]⟩])) (fun r => r = (odd ++ [⟨1, [(4, .pinf), (2, .nan)]⟩], .endOfFile)) ∧
    Yields (backFrom .svm none odd) (fun r => r = (odd, .endOfFile)) ∧
    Yields (backFrom .csv (some 10) odd) (fun r => r = (odd, .endOfFile)) ∧
    Yields (backFrom .csv (some 4) [⟨1, [(1, .fin 0), (2, .fin 5)]⟩]) (fun r => r = ([⟨1, [(2, .fin 5)]⟩], .endOfFile)) ∧
    Yields (render .svm ⟨none, odd⟩) (fun f => f = ofChars "-7 3:-2.5 9:7\n2\n5 1:0.25 2:3\n".toList) := by
  decide +kernel

end Sol.Props
