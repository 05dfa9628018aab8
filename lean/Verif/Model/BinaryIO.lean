import Verif.Model.Compress
/-!
# Model of the binary reader and writer

src/sol/pario/binary_reader.cc, src/sol/pario/binary_writer.cc, and `FileReader::Read`
(src/sol/pario/file_reader.cc:80-91) on a file given as the list of bytes from the read position on.

Simplifications: memory allocation always succeeds; there are no device errors, so a short `fread` means end of
file; the machine is little endian with 8-byte `size_t` (x86-64).  Labels (`int32_t`) and values (`float`) are
kept as 32-bit patterns: they are only copied.
-/

namespace Sol.BinaryIO
open Sol.Compress

/-- A data point as stored (include/sol/pario/data_point.h:84-87): label and two parallel vectors. -/
structure RawPoint where
  label : UInt32
  indexes : List UInt32
  values : List UInt32
deriving DecidableEq, Repr

/-- The memory image of an unsigned number on a little-endian machine, `k` bytes. -/
def leBytes : Nat → Nat → List UInt8
  | 0, _ => []
  | k + 1, n => UInt8.ofNat (n % 256) :: leBytes k (n / 256)

/-- The unsigned number with the given little-endian memory image. -/
def leVal : List UInt8 → Nat
  | [] => 0
  | b :: bs => b.toNat + 256 * leVal bs

/-- Reinterpretation of a byte buffer as an array of `n` four-byte values. -/
def words : Nat → List UInt8 → List UInt32
  | 0, _ => []
  | n + 1, bs => UInt32.ofNat (leVal (bs.take 4)) :: words n (bs.drop 4)

/-- `BinaryWriter::Write` (binary_writer.cc:22-38): the bytes appended to the file. -/
def write (p : RawPoint) : List UInt8 :=
  leBytes 4 p.label.toNat ++
  (leBytes 8 p.indexes.length ++
  (if p.indexes.length > 0 then
    let codes := compIndex p.indexes
    leBytes 8 codes.length ++ (codes ++ p.values.flatMap (fun v => leBytes 4 v.toNat))
  else []))

/-- Writing a sequence of points to a fresh file. -/
def writeAll (ps : List RawPoint) : List UInt8 := ps.flatMap write

/-- `FileReader::Read` (file_reader.cc:80-91): status, bytes obtained, remaining file.
    A short read happens at the end of the file only, and then `feof` holds. -/
def fileRead (f : List UInt8) (len : Nat) : Status × List UInt8 × List UInt8 :=
  if len ≤ f.length then (.ok, f.take len, f.drop len)
  else (.endOfFile, f, [])

/-- The result of a call of `Next`: status, the delivered point and the rest of the file. -/
structure NextResult where
  status : Status
  point : RawPoint
  rest : List UInt8
deriving DecidableEq, Repr

/-- `BinaryReader::Next` (binary_reader.cc:23-65).
    `return false` at line 35 converts to 0, that is `Status_OK`. -/
def next (f : List UInt8) : Res NextResult :=
  -- lines 26-28
  let (ret, buf, f) := fileRead f 4
  if ret ≠ .ok then .ok ⟨ret, ⟨0, [], []⟩, f⟩ else
  let label := UInt32.ofNat (leVal buf)
  -- lines 30-36
  let (ret, buf, f) := fileRead f 8
  if ret ≠ .ok then .ok ⟨.ok, ⟨label, [], []⟩, f⟩ else
  let featNum := leVal buf
  if featNum > 0 then
    -- lines 38-43
    let (ret, buf, f) := fileRead f 8
    if ret ≠ .ok then .ok ⟨.invalidFormat, ⟨label, [], []⟩, f⟩ else
    let codeLen := leVal buf
    -- lines 44-49
    let (ret, codes, f) := fileRead f codeLen
    if ret ≠ .ok then .ok ⟨.invalidFormat, ⟨label, [], []⟩, f⟩ else do
    -- lines 50-55
    let indexes ← decompIndex codes
    if indexes.length ≠ featNum then
      .ok ⟨.invalidFormat, ⟨label, indexes, []⟩, f⟩
    else
      -- lines 57-62; `sizeof(real_t) * feat_num` is computed in `size_t`
      let (ret, buf, f) := fileRead f (4 * featNum % 2 ^ 64)
      if ret ≠ .ok then .ok ⟨.invalidFormat, ⟨label, indexes, []⟩, f⟩
      else .ok ⟨.ok, ⟨label, indexes, words featNum buf⟩, f⟩
  else .ok ⟨.ok, ⟨label, [], []⟩, f⟩

theorem fileRead_ok {f : List UInt8} {len : Nat} {b r : List UInt8}
    (h : fileRead f len = (.ok, b, r)) : b.length = len ∧ f = b ++ r := by
  unfold fileRead at h
  split at h
  · rename_i hl
    simp only [Prod.mk.injEq, true_and] at h
    obtain ⟨rfl, rfl⟩ := h
    exact ⟨by simp [hl], by simp⟩
  · simp at h

theorem fileRead_rest (f : List UInt8) (len : Nat) : (fileRead f len).2.2.length ≤ f.length := by
  unfold fileRead; split <;> simp

theorem next_shorter (f : List UInt8) {r : NextResult} (h : next f = .ok r) (hs : r.status = .ok) :
    r.rest.length < f.length := by
  unfold next at h
  rcases h1 : fileRead f 4 with ⟨s1, b1, f1⟩
  have l1 := fileRead_rest f 4
  simp only [h1] at h l1
  split at h
  · rename_i hne
    simp only [Res.ok.injEq] at h
    subst h
    exact absurd hs hne
  rename_i hok
  have hok : s1 = .ok := by simpa using hok
  subst hok
  obtain ⟨e1, e2⟩ := fileRead_ok h1
  have hf : f.length = 4 + f1.length := by rw [e2, List.length_append, e1]
  rcases h2 : fileRead f1 8 with ⟨s2, b2, f2⟩
  have l2 := fileRead_rest f1 8
  simp only [h2] at h l2
  split at h
  · simp only [Res.ok.injEq] at h
    subst h
    show f2.length < _
    omega
  split at h
  · rcases h3 : fileRead f2 8 with ⟨s3, b3, f3⟩
    have l3 := fileRead_rest f2 8
    simp only [h3] at h l3
    split at h
    · simp only [Res.ok.injEq] at h
      subst h
      show f3.length < _
      omega
    rcases h4 : fileRead f3 (leVal b3) with ⟨s4, b4, f4⟩
    have l4 := fileRead_rest f3 (leVal b3)
    simp only [h4] at h l4
    split at h
    · simp only [Res.ok.injEq] at h
      subst h
      show f4.length < _
      omega
    rw [Res.bind_eq_ok] at h
    obtain ⟨idx, _, h⟩ := h
    split at h
    · simp only [Res.ok.injEq] at h
      subst h
      show f4.length < _
      omega
    rcases h5 : fileRead f4 (4 * leVal b2 % 2 ^ 64) with ⟨s5, b5, f5⟩
    have l5 := fileRead_rest f4 (4 * leVal b2 % 2 ^ 64)
    simp only [h5] at h l5
    split at h <;>
    · simp only [Res.ok.injEq] at h
      subst h
      show f5.length < _
      omega
  · simp only [Res.ok.injEq] at h
    subst h
    show f2.length < _
    omega

/-- Reading a file to the end as `DataReadTask::run` (data_read_task.cc:40-53) and the tools do:
    call `Next` until its status is not OK.  The points delivered with status OK, and the last status. -/
def readAll (f : List UInt8) : Res (List RawPoint × Status) :=
  match h : next f with
  | .ub k => .ub k
  | .ok r =>
    if hs : r.status = .ok then
      have := next_shorter f h hs
      match readAll r.rest with
      | .ub k => .ub k
      | .ok (ps, s) => .ok (r.point :: ps, s)
    else .ok ([], r.status)
termination_by f.length

end Sol.BinaryIO
