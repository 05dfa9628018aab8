import Verif.Base.Outcome
/-!
# Model of `FileReader::ReadLine` (src/sol/pario/file_reader.cc:93-115)

The file is the list of characters from the read position on.  The read buffer is the list of characters written to it,
without the terminator that `fgets` stores behind them; what lies behind that terminator is never looked at.
The buffer's capacity is `dst_len`.  Device errors and failing `realloc` are not modelled.
-/

namespace Sol.ReadLine

/-- What `fgets` takes from the file when it may store `k` characters: up to and including the first newline. -/
def takeLine : Nat → List Char → List Char × List Char
  | 0, f => ([], f)
  | _ + 1, [] => ([], [])
  | k + 1, c :: f =>
    if c = '\n' then ([c], f)
    else ((c :: (takeLine k f).1), (takeLine k f).2)

/-- `fgets(dst, n, file)`: null at the end of the file, otherwise at most `n - 1` characters. -/
def fgets (n : Nat) (f : List Char) : Option (List Char × List Char) :=
  if f = [] then none else some (takeLine (n - 1) f)

/-- The C string in a buffer: up to the first zero byte. -/
def cstr (buf : List Char) : List Char := buf.takeWhile (· ≠ '\x00')

theorem takeLine_append (k : Nat) (f : List Char) : (takeLine k f).1 ++ (takeLine k f).2 = f := by
  induction k generalizing f with
  | zero => rfl
  | succ k ih =>
    cases f with
    | nil => rfl
    | cons c f =>
      rw [takeLine]
      split
      · rfl
      · simp [ih f]

theorem takeLine_shorter (k : Nat) (f : List Char) (hk : 0 < k) (hf : f ≠ []) :
    (takeLine k f).2.length < f.length := by
  cases k with
  | zero => omega
  | succ k =>
    cases f with
    | nil => exact absurd rfl hf
    | cons c f =>
      rw [takeLine]
      split
      · simp
      · have := takeLine_append k f
        have h2 := congrArg List.length this
        rw [List.length_append] at h2
        simp only [List.length_cons]
        omega

/-- The loop `while (strrchr(dst, '\n') == nullptr)` (file_reader.cc:108-113).
    `dst_len *= 2` overflows `int` above 2^30; a call of `fgets` with room for less than one character
    would not make progress (it cannot happen, see `Verif.Props.ReadLine`) and counts as undefined here. -/
def readMore (buf : List Char) (cap : Nat) (f : List Char) : Res (List Char × Nat × List Char) :=
  if '\n' ∈ cstr buf then .ok (buf, cap, f)
  else if 2 * cap > 2147483647 then .ub .signedOverflow
  else
    let len := (cstr buf).length
    if h : 2 * cap < len + 2 then .ub .outOfBounds
    else if hf : f = [] then .ok (buf, 2 * cap, f)
    else
      have := takeLine_shorter (2 * cap - len - 1) f (by omega) hf
      readMore (cstr buf ++ (takeLine (2 * cap - len - 1) f).1) (2 * cap) (takeLine (2 * cap - len - 1) f).2
termination_by f.length

/-- Result of `ReadLine`: status, buffer contents, capacity, rest of the file. -/
structure LineResult where
  status : Status
  buf : List Char
  cap : Nat
  rest : List Char
deriving DecidableEq, Repr

/-- `FileReader::ReadLine` (file_reader.cc:93-115) in text mode. -/
def readLine (cap : Nat) (f : List Char) : Res LineResult :=
  match fgets cap f with
  | none => .ok ⟨.endOfFile, [], cap, f⟩
  | some (chunk, f) => do
    let (buf, cap, f) ← readMore chunk cap f
    .ok ⟨.ok, buf, cap, f⟩

end Sol.ReadLine
