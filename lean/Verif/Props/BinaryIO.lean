import Verif.Proofs.BinaryIO
/-!
# Properties C02, C03 and the reader part of C04
-/

namespace Sol.Props
open Sol.BinaryIO Sol.Compress

/-- **C02.** Every sequence of storable points survives writing and reading: same labels, indexes and values
    (bit patterns) in the same order, then end of file; no undefined behaviour. -/
theorem C02_binary_roundtrip (ps : List RawPoint) (h : ∀ p ∈ ps, Storable p) :
    readAll (writeAll ps) = .ok (ps, .endOfFile) := by
  have := readAll_pre ps [] h
  rw [List.append_nil, readAll_lt4 (f := []) (by simp)] at this
  simpa using this

/-- An instance: a point without features, and one with unsorted extreme indexes and repeated values. -/
def samplePoints : List RawPoint :=
  [⟨1, [], []⟩, ⟨4294967295, [3, 4294967295, 0], [1065353216, 0, 2143289344]⟩]

theorem samplePoints_storable : ∀ p ∈ samplePoints, Storable p := by
  intro p hp
  simp only [samplePoints, List.mem_cons, List.not_mem_nil, or_false] at hp
  rcases hp with rfl | rfl <;> constructor <;> simp

/-- **C03** (exact behaviour at every cut). The file of `pre ++ p :: post` is cut inside the record of `p`, `c` bytes
    behind its start.  If the cut is before byte 4 or behind the length field, exactly the complete records `pre`
    are delivered and then end of file or a format error is reported.  -/
theorem C03_cut_delivers_complete_records_partial (pre post : List RawPoint) (p : RawPoint) (c : Nat)
    (hpre : ∀ q ∈ pre, Storable q) (hp : Storable p) (hc : c < (write p).length) (hgood : c < 4 ∨ 12 ≤ c) :
    ∃ s, (s = .endOfFile ∨ s = .invalidFormat) ∧
      readAll ((writeAll (pre ++ p :: post)).take ((writeAll pre).length + c)) = .ok (pre, s) := by
  have hsplit : (writeAll (pre ++ p :: post)).take ((writeAll pre).length + c)
      = writeAll pre ++ (write p).take c := by
    simp only [writeAll, List.flatMap_append, List.flatMap_cons]
    rw [List.take_append, List.take_of_length_le (by omega)]
    congr 1
    rw [show (List.flatMap write pre).length + c - (List.flatMap write pre).length = c by omega,
      List.take_append_of_le_length (by omega)]
  rw [hsplit, readAll_pre _ _ hpre]
  rcases hgood with h4 | h12
  · refine ⟨.endOfFile, Or.inl rfl, ?_⟩
    rw [readAll_lt4 (by simp; omega), Res.bind_ok, List.append_nil]
  · obtain ⟨r, h1, h2⟩ := next_cut_body p hp c h12 hc
    refine ⟨.invalidFormat, Or.inr rfl, ?_⟩
    rw [readAll_of_next h1 (by rw [h2]; simp), h2, Res.bind_ok, List.append_nil]

/-- **C03 fails**: if the cut falls into the eight bytes of the length field, the reader delivers one more point,
    with the right label and no features, and reports a regular end of file. -/
theorem C03_cut_in_length_field (pre post : List RawPoint) (p : RawPoint) (c : Nat)
    (hpre : ∀ q ∈ pre, Storable q) (hp : Storable p) (h4 : 4 ≤ c) (h12 : c < 12) :
    readAll ((writeAll (pre ++ p :: post)).take ((writeAll pre).length + c))
      = .ok (pre ++ [⟨p.label, [], []⟩], .endOfFile) := by
  have hlen := write_length p hp
  have hsplit : (writeAll (pre ++ p :: post)).take ((writeAll pre).length + c)
      = writeAll pre ++ (write p).take c := by
    simp only [writeAll, List.flatMap_append, List.flatMap_cons]
    rw [List.take_append, List.take_of_length_le (by omega)]
    congr 1
    rw [show (List.flatMap write pre).length + c - (List.flatMap write pre).length = c by omega,
      List.take_append_of_le_length (by omega)]
  rw [hsplit, readAll_pre _ _ hpre, readAll_of_next_ok (next_cut_length p c h4 h12) rfl]
  simp only
  rw [readAll_lt4 (by simp)]
  rfl

/-- The delivered extra point differs from the written one whenever that one has features:
    the property as stated (only a prefix of the written points is delivered) is false. -/
theorem C03_is_violated : ∃ (ps : List RawPoint) (cut : Nat) (qs : List RawPoint) (s : Status),
    (∀ p ∈ ps, Storable p) ∧ cut ≤ (writeAll ps).length ∧
    readAll ((writeAll ps).take cut) = .ok (qs, s) ∧ ¬ qs <+: ps := by
  refine ⟨[⟨1, [7], [1065353216]⟩], 5, [⟨1, [], []⟩], .endOfFile, ?_, ?_, ?_, ?_⟩
  · intro p hp
    simp only [List.mem_cons, List.not_mem_nil, or_false] at hp
    subst hp; constructor <;> simp
  · decide +kernel
  · have := C03_cut_in_length_field [] [] ⟨1, [7], [1065353216]⟩ 5 (by simp) ⟨rfl, by simp⟩ (by omega) (by omega)
    simpa [writeAll] using this
  · simp [List.cons_prefix_cons]

/-- **C04** (reader). Whatever the file contains, a record delivered with status OK has as many values as
    indexes, and this is the announced number. -/
theorem C04_delivered_point_is_parallel (f : List UInt8) (r : NextResult) (h : next f = .ok r)
    (hs : r.status = .ok) : r.point.indexes.length = r.point.values.length := by
  have hw : ∀ n b, (words n b).length = n := by
    intro n
    induction n with
    | zero => intro b; rfl
    | succ n ih => intro b; simp [words, ih]
  unfold next at h
  rcases h1 : fileRead f 4 with ⟨s1, b1, f1⟩
  simp only [h1] at h
  split at h
  · simp only [Res.ok.injEq] at h; subst h; rfl
  rcases h2 : fileRead f1 8 with ⟨s2, b2, f2⟩
  simp only [h2] at h
  split at h
  · simp only [Res.ok.injEq] at h; subst h; rfl
  split at h
  · rcases h3 : fileRead f2 8 with ⟨s3, b3, f3⟩
    simp only [h3] at h
    split at h
    · simp only [Res.ok.injEq] at h; subst h; rfl
    rcases h4 : fileRead f3 (leVal b3) with ⟨s4, b4, f4⟩
    simp only [h4] at h
    split at h
    · simp only [Res.ok.injEq] at h; subst h; rfl
    rw [Res.bind_eq_ok] at h
    obtain ⟨idx, _, h⟩ := h
    split at h
    · simp only [Res.ok.injEq] at h; subst h; simp at hs
    rename_i hn
    rcases h5 : fileRead f4 (4 * leVal b2 % 2 ^ 64) with ⟨s5, b5, f5⟩
    simp only [h5] at h
    split at h
    · simp only [Res.ok.injEq] at h; subst h; simp at hs
    · simp only [Res.ok.injEq] at h; subst h
      simp only [hw]
      simpa using hn
  · simp only [Res.ok.injEq] at h; subst h; rfl

end Sol.Props
