import Verif.Base.Outcome
/-!
# Model of include/sol/pario/compress.h

Variable-length coding of index differences, as used by the binary reader and writer with
`T = index_t = uint32_t` (include/sol/util/types.h).  `math::Vector<char>` is a list of bytes.
-/

namespace Sol.Compress

/-- The loop of `run_len_encode` (compress.h:24-31).  `i` is the `uint64_t` argument as a number. -/
def runLenEncode (i : Nat) : List UInt8 :=
  if i ≥ 128 then
    UInt8.ofNat ((i &&& 127) ||| 128) :: runLenEncode (i >>> 7)
  else
    [UInt8.ofNat (i &&& 127)]
termination_by i
decreasing_by simp [Nat.shiftRight_eq_div_pow]; omega

/-- `v << s` for an `int` value `0 ≤ v` (compress.h:36,37: both operands of `<<` there are an `int` and a `size_t`).
    Undefined if `s ≥ 32`, or if the mathematical result does not fit `unsigned int`
    (C++11 with CWG 1457; later standards define the latter case).  Otherwise the bit pattern of the result. -/
def shlInt (v s : Nat) : Res Nat :=
  if s ≥ 32 then .ub .badShift
  else if v * 2 ^ s ≥ 2 ^ 32 then .ub .badShift
  else .ok (v * 2 ^ s)

/-- Conversion of a 32-bit `int` (given by its bit pattern) to `uint64_t`: sign extension.
    It happens implicitly in `i | (...)` at compress.h:36,37. -/
def intToU64 (v : Nat) : Nat := if v < 2 ^ 31 then v else v + (2 ^ 64 - 2 ^ 32)

/-- `run_len_decode` (compress.h:33-39), started with the loop counter at `count` and the result so far `i`.
    The byte list holds the bytes from `p` to the end of the code vector; reading beyond it is `outOfBounds`.
    Returns the decoded number and the bytes from the new `p` on. -/
def runLenDecode : List UInt8 → (count i : Nat) → Res (Nat × List UInt8)
  | [], _, _ => .ub .outOfBounds
  | b :: p, count, i =>
    if b &&& 128 ≠ 0 then do
      let s ← shlInt (b.toNat &&& 127) (7 * count)
      runLenDecode p (count + 1) (i ||| intToU64 s)
    else do
      let s ← shlInt b.toNat (7 * count)
      .ok (i ||| intToU64 s, p)

/-- The loop of `comp_index` (compress.h:49-58) with `last` as loop state; the difference is taken in `uint32_t`. -/
def compIndexFrom (last : UInt32) : List UInt32 → List UInt8
  | [] => []
  | x :: xs => runLenEncode (x - last).toNat ++ compIndexFrom x xs

/-- `comp_index` (compress.h:49-58) into an empty code vector. -/
def compIndex (xs : List UInt32) : List UInt8 := compIndexFrom 0 xs

theorem runLenDecode_length : ∀ (p : List UInt8) (c i : Nat) {n : Nat} {p' : List UInt8},
    runLenDecode p c i = .ok (n, p') → p'.length < p.length := by
  intro p
  induction p with
  | nil => intro c i n p' h; simp [runLenDecode] at h
  | cons b p ih =>
    intro c i n p' h
    unfold runLenDecode at h
    split at h
    · rw [Res.bind_eq_ok] at h
      obtain ⟨s, _, h⟩ := h
      have := ih _ _ h
      simp only [List.length_cons]; omega
    · rw [Res.bind_eq_ok] at h
      obtain ⟨s, _, h⟩ := h
      simp only [Res.ok.injEq, Prod.mk.injEq] at h
      obtain ⟨_, rfl⟩ := h
      simp

/-- The loop of `decomp_index` (compress.h:66-85): `last` is the `uint64_t` running sum,
    each element is the sum truncated to `uint32_t` (`T(index)`, line 80). -/
def decompFrom (last : UInt64) (codes : List UInt8) : Res (List UInt32) :=
  match codes with
  | [] => .ok []
  | b :: bs =>
    match h : runLenDecode (b :: bs) 0 0 with
    | .ub k => .ub k
    | .ok (n, rest) =>
      have : rest.length < (b :: bs).length := runLenDecode_length _ _ _ h
      let index := UInt64.ofNat n + last
      match decompFrom index rest with
      | .ub k => .ub k
      | .ok xs => .ok (index.toUInt32 :: xs)
termination_by codes.length

/-- `decomp_index` (compress.h:66-85). -/
def decompIndex (codes : List UInt8) : Res (List UInt32) := decompFrom 0 codes

end Sol.Compress
