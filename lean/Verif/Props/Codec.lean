import Verif.Spec.Codec
import Verif.Proofs.Compress
/-!
# Properties C01 and C04 (index codec)
-/

namespace Sol.Props
open Sol.Compress Sol.Spec

/-- **C01.** Compressing any list of 32-bit indexes and decompressing the result gives the list back,
    without undefined behaviour.  No ordering assumption is needed. -/
theorem C01_index_codec_roundtrip (xs : List UInt32) :
    decompIndex (compIndex xs) = .ok xs :=
  decomp_comp_from xs 0 0 rfl

/-- A non-trivial instance: unsorted, with the extreme values. -/
example : compIndex [5, 300, 4294967295, 0, 2147483648] =
    [5, 167, 2, 211, 253, 255, 255, 15, 1, 128, 128, 128, 128, 8] := by
  decide +kernel

theorem encode_group (n : Nat) : ∃ conts last, runLenEncode n = conts ++ [last] ∧
    (∀ b ∈ conts, 128 ≤ b.toNat) ∧ last.toNat < 128 ∧ groupValue (runLenEncode n) = n ∧
    (conts.length ≠ 0 → 0 < last.toNat ∧ 128 ^ conts.length ≤ n) ∧ n < 128 ^ (conts.length + 1) := by
  induction n using Nat.strongRecOn with
  | _ n ih =>
    rw [runLenEncode]
    by_cases h : n ≥ 128
    · rw [if_pos h, byte_and_127, low_or_128, Nat.shiftRight_eq_div_pow]
      obtain ⟨conts, last, h1, h2, h3, h4, h5, h6⟩ := ih (n / 2 ^ 7) (by omega)
      have hb : (UInt8.ofNat (n % 128 + 128)).toNat = n % 128 + 128 := by
        rw [UInt8.toNat_ofNat']; omega
      refine ⟨UInt8.ofNat (n % 128 + 128) :: conts, last, by rw [h1, List.cons_append], ?_, h3, ?_, ?_, ?_⟩
      · intro b hbm
        rcases List.mem_cons.1 hbm with rfl | hbm
        · rw [hb]; omega
        · exact h2 b hbm
      · rw [groupValue, h4, hb]; omega
      · intro _
        by_cases hc : conts.length = 0
        · have hnil := List.length_eq_zero_iff.1 hc
          subst hnil
          simp only [List.nil_append] at h1
          rw [h1] at h4
          simp only [groupValue] at h4
          constructor
          · omega
          · simp only [List.length_cons, List.length_nil, Nat.zero_add, Nat.pow_one]; omega
        · obtain ⟨h7, h8⟩ := h5 hc
          refine ⟨h7, ?_⟩
          rw [List.length_cons, Nat.pow_succ]
          calc 128 ^ conts.length * 128 ≤ n / 2 ^ 7 * 128 := Nat.mul_le_mul_right _ h8
            _ ≤ n := by omega
      · rw [List.length_cons, Nat.pow_succ]
        have : n / 2 ^ 7 + 1 ≤ 128 ^ (conts.length + 1) := h6
        have := Nat.mul_le_mul_right 128 this
        omega
    · rw [if_neg h, byte_and_127]
      have hb : (UInt8.ofNat (n % 128)).toNat = n := by rw [UInt8.toNat_ofNat']; omega
      refine ⟨[], UInt8.ofNat (n % 128), rfl, by simp, by omega, ?_, by simp, by simp; omega⟩
      rw [groupValue, hb, groupValue]; omega

/-- **C01** (format). The code of a list consists of exactly one well-formed group per index, so it
    takes between one and five bytes per index. -/
theorem C01_code_format (xs : List UInt32) : Groups xs.length (compIndex xs) := by
  unfold compIndex
  generalize (0 : UInt32) = last
  induction xs generalizing last with
  | nil => exact ⟨[], rfl, rfl, by simp⟩
  | cons x xs ih =>
    obtain ⟨gs, h1, h2, h3⟩ := ih x
    refine ⟨runLenEncode (x - last).toNat :: gs, by simp [h1], by simp [compIndexFrom, h2], ?_⟩
    intro g hg
    rcases List.mem_cons.1 hg with rfl | hg
    · obtain ⟨conts, l, e1, e2, e3, e4, e5, e6⟩ := encode_group (x - last).toNat
      have hlt := (x - last).toNat_lt
      have hlen : conts.length ≤ 4 := by
        apply Decidable.byContradiction
        intro hcon
        have h7 := (e5 (by omega)).2
        have : 128 ^ 5 ≤ 128 ^ conts.length := Nat.pow_le_pow_right (by omega) (by omega)
        have h8 : (128 : Nat) ^ 5 = 34359738368 := by decide
        omega
      refine ⟨conts, l, e1, e2, e3, hlen, ?_⟩
      intro h4
      match conts, h4 with
      | [a, b, c, d], _ =>
        rw [e1] at e4
        simp only [List.cons_append, List.nil_append, groupValue] at e4
        omega
    · exact h3 g hg

theorem C01_code_length (xs : List UInt32) :
    xs.length ≤ (compIndex xs).length ∧ (compIndex xs).length ≤ 5 * xs.length := by
  obtain ⟨gs, h1, h2, h3⟩ := C01_code_format xs
  rw [h2, ← h1]
  clear h1 h2
  induction gs with
  | nil => simp
  | cons g gs ih =>
    have := ih (fun g hg => h3 g (by simp [hg]))
    obtain ⟨conts, l, rfl, _, _, h4, _⟩ := h3 g (by simp)
    simp only [List.flatten_cons, List.length_append, List.length_cons, List.length_nil]
    omega

/-- **C04** (what is safe). Decoding a byte string is free of out-of-bounds reads and undefined shifts
    exactly when the string is a sequence of well-formed groups; then one index comes out per group. -/
theorem C04_decode_defined_iff (codes : List UInt8) :
    (∃ xs, decompIndex codes = .ok xs) ↔ ∃ n, Groups n codes := by
  constructor
  · rintro ⟨xs, h⟩
    unfold decompIndex at h
    generalize (0 : UInt64) = last at h
    refine ⟨xs.length, ?_⟩
    induction hn : codes.length using Nat.strongRecOn generalizing codes last xs with
    | _ n ih =>
      cases codes with
      | nil =>
        simp only [decompFrom, Res.ok.injEq] at h
        subst h
        exact ⟨[], rfl, rfl, by simp⟩
      | cons b bs =>
        cases hd : runLenDecode (b :: bs) 0 0 with
        | ub k => rw [decompFrom_ub _ _ _ (by simp) hd] at h; simp at h
        | ok v =>
          obtain ⟨r, rest⟩ := v
          rw [decompFrom_step _ _ _ _ (by simp) hd] at h
          have hlen := runLenDecode_length _ _ _ hd
          obtain ⟨init, l, e1, e2, e3, e4, e5⟩ := runLenDecode_defined _ _ _ hd
          cases hrec : decompFrom (UInt64.ofNat r + last) rest with
          | ub k => rw [hrec] at h; simp at h
          | ok ys =>
            rw [hrec] at h
            simp only [Res.ok.injEq] at h
            subst h
            obtain ⟨gs, g1, g2, g3⟩ := ih rest.length (by omega) rest ys _ hrec rfl
            refine ⟨(init ++ [l]) :: gs, by simp [g1], ?_, ?_⟩
            · rw [e1, List.flatten_cons, ← g2]; simp
            · intro g hg
              rcases List.mem_cons.1 hg with rfl | hg
              · exact ⟨init, l, rfl, e2, e3, by omega, fun h => e5 (by omega)⟩
              · exact g3 g hg
  · rintro ⟨n, gs, -, rfl, h⟩
    unfold decompIndex
    generalize (0 : UInt64) = last
    induction gs generalizing last with
    | nil => exact ⟨[], by simp [decompFrom]⟩
    | cons g gs ih =>
      obtain ⟨conts, l, rfl, e2, e3, e4, e5⟩ := h g (by simp)
      obtain ⟨r, hr⟩ := runLenDecode_group conts l gs.flatten 0 e2 e3 e4 e5
      obtain ⟨xs, hxs⟩ := ih (fun g hg => h g (by simp [hg])) (UInt64.ofNat r + last)
      refine ⟨(UInt64.ofNat r + last).toUInt32 :: xs, ?_⟩
      have hflat : ((conts ++ [l]) :: gs).flatten = conts ++ l :: gs.flatten := by simp
      rw [hflat, decompFrom_step _ _ _ _ (by simp) hr, hxs]

/-- Both sides are inhabited, by a three-index code with a five-byte group. -/
example : Groups 3 [5, 167, 2, 211, 253, 255, 255, 15] :=
  ⟨[[5], [167, 2], [211, 253, 255, 255, 15]], rfl, rfl, by
    intro g hg
    simp only [List.mem_cons, List.not_mem_nil, or_false] at hg
    rcases hg with rfl | rfl | rfl
    · exact ⟨[], 5, rfl, by simp, by decide, by simp, by simp⟩
    · exact ⟨[167], 2, rfl, by simp, by decide, by simp, by simp⟩
    · exact ⟨[211, 253, 255, 255], 15, rfl, by simp, by decide, by simp, by decide⟩⟩

/-- **C04 fails**: a code whose last byte announces a continuation makes the decoder read behind the code vector,
    whatever well-formed groups precede it. -/
theorem C04_truncated_code_reads_out_of_bounds (n : Nat) (codes : List UInt8) (b : UInt8)
    (h : Groups n codes) (hb : 128 ≤ b.toNat) :
    decompIndex (codes ++ [b]) = .ub .outOfBounds := by
  obtain ⟨gs, -, rfl, h⟩ := h
  unfold decompIndex
  generalize (0 : UInt64) = last
  induction gs generalizing last with
  | nil =>
    apply decompFrom_ub _ _ _ (by simp)
    simp only [List.flatten_nil, List.nil_append]
    rw [runLenDecode_cont b [] 0 0 hb, shlInt_small _ _ (by omega) (by omega), Res.bind_ok]
    rfl
  | cons g gs ih =>
    obtain ⟨conts, l, rfl, e2, e3, e4, e5⟩ := h g (by simp)
    obtain ⟨r, hr⟩ := runLenDecode_group conts l (gs.flatten ++ [b]) 0 e2 e3 e4 e5
    have hflat : ((conts ++ [l]) :: gs).flatten ++ [b] = conts ++ l :: (gs.flatten ++ [b]) := by simp
    rw [hflat, decompFrom_step _ _ _ _ (by simp) hr, ih (fun g hg => h g (by simp [hg]))]

/-- **C04 fails** also by an undefined shift: five continuation bytes. -/
theorem C04_overlong_code_undefined_shift :
    decompIndex [128, 128, 128, 128, 128, 0] = .ub .badShift := by
  unfold decompIndex
  exact decompFrom_ub _ _ _ (by simp) (by decide)

end Sol.Props
