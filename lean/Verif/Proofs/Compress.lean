import Verif.Model.Compress
/-!
# Lemmas about the index codec
-/

namespace Sol.Compress

theorem byte_and_127 (n : Nat) : n &&& 127 = n % 128 := Nat.and_two_pow_sub_one_eq_mod n 7

theorem low_or_128 (n : Nat) : (n % 128) ||| 128 = n % 128 + 128 := by
  have h := Nat.two_pow_add_eq_or_of_lt (b := n % 128) (i := 7) (by omega) 1
  simp at h
  rw [Nat.or_comm, ← h]; omega

theorem or_shift (a v m : Nat) (h : a < 2 ^ m) : a ||| v * 2 ^ m = a + v * 2 ^ m := by
  have := Nat.two_pow_add_eq_or_of_lt h v
  rw [Nat.or_comm, Nat.mul_comm v, ← this]; omega

theorem intToU64_mul (v m : Nat) (hm : m ≤ 32) (hv : v * 2 ^ m < 2 ^ 32) :
    ∃ v', intToU64 (v * 2 ^ m) = v' * 2 ^ m ∧ v' * 2 ^ m % 2 ^ 32 = v * 2 ^ m ∧ v' * 2 ^ m < 2 ^ 64 := by
  unfold intToU64
  split
  · exact ⟨v, rfl, Nat.mod_eq_of_lt hv, by omega⟩
  · refine ⟨v + (2 ^ 32 - 1) * 2 ^ (32 - m), ?_, ?_, ?_⟩
    · rw [Nat.add_mul, Nat.mul_assoc, ← Nat.pow_add, Nat.sub_add_cancel hm]
    · rw [Nat.add_mul, Nat.mul_assoc, ← Nat.pow_add, Nat.sub_add_cancel hm]
      omega
    · rw [Nat.add_mul, Nat.mul_assoc, ← Nat.pow_add, Nat.sub_add_cancel hm]
      omega

theorem byte_flag (b : UInt8) : (b &&& 128 ≠ 0) ↔ 128 ≤ b.toNat := by
  have key : ∀ n : Fin 256, ((UInt8.ofNat n.val &&& 128) ≠ 0) ↔ 128 ≤ n.val := by decide +kernel
  have h := key ⟨b.toNat, b.toNat_lt⟩
  simpa using h

/-- Decoding the code of `n` at position `c` of a number. -/
theorem runLenDecode_encode (n : Nat) : ∀ (c a : Nat) (rest : List UInt8),
    a < 2 ^ (7 * c) → 7 * c ≤ 28 → n * 2 ^ (7 * c) < 2 ^ 32 →
    ∃ r, runLenDecode (runLenEncode n ++ rest) c a = .ok (r, rest) ∧
      r % 2 ^ 32 = a + n * 2 ^ (7 * c) ∧ r < 2 ^ 64 := by
  induction n using Nat.strongRecOn with
  | _ n ih =>
    intro c a rest ha hc hn
    rw [runLenEncode]
    by_cases h : n ≥ 128
    · rw [if_pos h, byte_and_127, low_or_128, List.cons_append, runLenDecode]
      have hb : (UInt8.ofNat (n % 128 + 128)).toNat = n % 128 + 128 := by
        rw [UInt8.toNat_ofNat']; omega
      rw [if_pos ((byte_flag _).2 (by rw [hb]; omega)), hb, byte_and_127]
      have hv : (n % 128 + 128) % 128 = n % 128 := by omega
      rw [hv]
      have hc' : 7 * c ≤ 21 := by
        apply Decidable.byContradiction
        intro hcon
        have hc4 : c = 4 := by omega
        subst hc4
        omega
      have hpow : 2 ^ (7 * (c + 1)) = 2 ^ (7 * c) * 128 := by
        rw [Nat.mul_add, Nat.pow_add]
      have hle : 2 ^ (7 * c) ≤ 2 ^ 21 := Nat.pow_le_pow_right (by omega) hc'
      have hsmall : n % 128 * 2 ^ (7 * c) < 2 ^ 28 := by
        calc n % 128 * 2 ^ (7 * c) ≤ 127 * 2 ^ 21 := Nat.mul_le_mul (by omega) hle
          _ < 2 ^ 28 := by decide
      unfold shlInt
      rw [if_neg (by omega), if_neg (by omega), Res.bind_ok]
      have hint : intToU64 (n % 128 * 2 ^ (7 * c)) = n % 128 * 2 ^ (7 * c) := by
        unfold intToU64; rw [if_pos (by omega)]
      rw [hint, or_shift a _ _ ha, Nat.shiftRight_eq_div_pow]
      have hdecomp : n = n / 2 ^ 7 * 128 + n % 128 := by omega
      have hn' : n / 2 ^ 7 * 2 ^ (7 * (c + 1)) + n % 128 * 2 ^ (7 * c) = n * 2 ^ (7 * c) := by
        rw [hpow]
        calc n / 2 ^ 7 * (2 ^ (7 * c) * 128) + n % 128 * 2 ^ (7 * c)
            = (n / 2 ^ 7 * 128 + n % 128) * 2 ^ (7 * c) := by
              rw [Nat.add_mul, Nat.mul_comm (2 ^ (7 * c)) 128, Nat.mul_assoc]
          _ = n * 2 ^ (7 * c) := by rw [← hdecomp]
      obtain ⟨r, hr, hmod, hlt⟩ := ih (n / 2 ^ 7) (by omega) (c + 1) (a + n % 128 * 2 ^ (7 * c)) rest
        (by
          rw [hpow]
          have : n % 128 * 2 ^ (7 * c) ≤ 127 * 2 ^ (7 * c) := Nat.mul_le_mul_right _ (by omega)
          omega)
        (by omega) (by omega)
      refine ⟨r, hr, ?_, hlt⟩
      rw [hmod]; omega
    · rw [if_neg h, byte_and_127]
      have hm : n % 128 = n := by omega
      rw [hm, List.cons_append, List.nil_append, runLenDecode]
      have hb : (UInt8.ofNat n).toNat = n := by rw [UInt8.toNat_ofNat']; omega
      rw [if_neg (by rw [byte_flag, hb]; omega), hb]
      unfold shlInt
      rw [if_neg (by omega), if_neg (by omega), Res.bind_ok]
      obtain ⟨v', h1, h2, h3⟩ := intToU64_mul n (7 * c) (by omega) hn
      rw [h1, or_shift a _ _ ha]
      refine ⟨_, rfl, ?_, ?_⟩
      · have hle : 2 ^ (7 * c) ≤ 2 ^ 28 := Nat.pow_le_pow_right (by omega) hc
        have hdvd : n * 2 ^ (7 * c) + 2 ^ (7 * c) ≤ 2 ^ 32 := by
          have hs : 2 ^ 32 = 2 ^ (32 - 7 * c) * 2 ^ (7 * c) := by
            rw [← Nat.pow_add]; congr 1; omega
          rw [hs] at hn ⊢
          have := Nat.lt_of_mul_lt_mul_right hn
          calc n * 2 ^ (7 * c) + 2 ^ (7 * c) = (n + 1) * 2 ^ (7 * c) := by rw [Nat.add_mul]; omega
            _ ≤ _ := Nat.mul_le_mul_right _ (by omega)
        rw [Nat.add_mod, h2, Nat.mod_eq_of_lt (a := a) (by omega)]
        exact Nat.mod_eq_of_lt (by omega)
      · have hs : 2 ^ 64 = 2 ^ (64 - 7 * c) * 2 ^ (7 * c) := by
          rw [← Nat.pow_add]; congr 1; omega
        rw [hs] at h3 ⊢
        have h4 := Nat.lt_of_mul_lt_mul_right h3
        calc a + v' * 2 ^ (7 * c) < 2 ^ (7 * c) + v' * 2 ^ (7 * c) := by omega
          _ = (v' + 1) * 2 ^ (7 * c) := by rw [Nat.add_mul]; omega
          _ ≤ _ := Nat.mul_le_mul_right _ (by omega)

theorem runLenEncode_ne_nil (n : Nat) : runLenEncode n ≠ [] := by
  rw [runLenEncode]; split <;> simp

theorem decompFrom_step (last : UInt64) (codes rest : List UInt8) (n : Nat) (hne : codes ≠ [])
    (h : runLenDecode codes 0 0 = .ok (n, rest)) :
    decompFrom last codes =
      match decompFrom (UInt64.ofNat n + last) rest with
      | .ub k => .ub k
      | .ok xs => .ok ((UInt64.ofNat n + last).toUInt32 :: xs) := by
  cases codes with
  | nil => exact absurd rfl hne
  | cons b bs =>
    rw [decompFrom]
    split
    · rename_i h'
      rw [h] at h'; simp at h'
    · rename_i n' rest' h'
      rw [h] at h'
      simp only [Res.ok.injEq, Prod.mk.injEq] at h'
      obtain ⟨rfl, rfl⟩ := h'
      rfl

theorem decompFrom_ub (last : UInt64) (codes : List UInt8) (k : UB) (hne : codes ≠ [])
    (h : runLenDecode codes 0 0 = .ub k) : decompFrom last codes = .ub k := by
  cases codes with
  | nil => exact absurd rfl hne
  | cons b bs =>
    rw [decompFrom]
    split
    · rename_i h'
      rw [h] at h'; simp only [Res.ub.injEq] at h'; rw [h']
    · rename_i n' rest' h'
      rw [h] at h'; simp at h'

theorem decomp_comp_from (xs : List UInt32) : ∀ (last : UInt32) (last64 : UInt64),
    last64.toUInt32 = last → decompFrom last64 (compIndexFrom last xs) = .ok xs := by
  induction xs with
  | nil => intro last last64 _; simp [compIndexFrom, decompFrom]
  | cons x xs ih =>
    intro last last64 hl
    rw [compIndexFrom]
    have hd : (x - last).toNat * 2 ^ (7 * 0) < 2 ^ 32 := by
      have := (x - last).toNat_lt; simpa using this
    obtain ⟨r, hr, hmod, hlt⟩ := runLenDecode_encode (x - last).toNat 0 0 (compIndexFrom x xs)
      (by simp) (by omega) hd
    rw [decompFrom_step _ _ _ _ (by simp [runLenEncode_ne_nil]) hr]
    have hidx : (UInt64.ofNat r + last64).toUInt32 = x := by
      rw [UInt64.toUInt32_add, hl]
      have : (UInt64.ofNat r).toUInt32 = x - last := by
        apply UInt32.toNat_inj.1
        rw [UInt64.toNat_toUInt32, UInt64.toNat_ofNat', Nat.mod_eq_of_lt hlt, hmod]
        simp
      rw [this]
      exact UInt32.sub_add_cancel x last
    rw [hidx, ih x _ hidx]

/-! ### Which codes are decoded without undefined behaviour -/

/-- A byte with the continuation bit followed by more bytes. -/
theorem runLenDecode_cont (b : UInt8) (p : List UInt8) (c i : Nat) (hb : 128 ≤ b.toNat) :
    runLenDecode (b :: p) c i =
      (shlInt (b.toNat % 128) (7 * c) >>= fun s => runLenDecode p (c + 1) (i ||| intToU64 s)) := by
  rw [runLenDecode, if_pos ((byte_flag b).2 hb), byte_and_127]

theorem runLenDecode_last (b : UInt8) (p : List UInt8) (c i : Nat) (hb : b.toNat < 128) :
    runLenDecode (b :: p) c i =
      (shlInt b.toNat (7 * c) >>= fun s => .ok (i ||| intToU64 s, p)) := by
  rw [runLenDecode, if_neg (by rw [byte_flag]; omega)]

theorem shlInt_small (v s : Nat) (hv : v < 128) (hs : s ≤ 21) : shlInt v s = .ok (v * 2 ^ s) := by
  unfold shlInt
  have hle : 2 ^ s ≤ 2 ^ 21 := Nat.pow_le_pow_right (by omega) hs
  have : v * 2 ^ s ≤ 127 * 2 ^ 21 := Nat.mul_le_mul (by omega) hle
  rw [if_neg (by omega), if_neg (by omega)]

/-- Continuation bytes in front, at most four bytes in all: always defined. -/
theorem runLenDecode_conts (init : List UInt8) : ∀ (p : List UInt8) (c i : Nat),
    (∀ b ∈ init, 128 ≤ b.toNat) → c + init.length ≤ 4 →
    ∃ i', runLenDecode (init ++ p) c i = runLenDecode p (c + init.length) i' := by
  induction init with
  | nil => intro p c i _ _; exact ⟨i, rfl⟩
  | cons b init ih =>
    intro p c i h hlen
    simp only [List.length_cons] at hlen
    rw [List.cons_append, runLenDecode_cont b _ c i (h b (by simp)),
      shlInt_small _ _ (by omega) (by omega), Res.bind_ok]
    obtain ⟨i', hi'⟩ := ih p (c + 1) (i ||| intToU64 (b.toNat % 128 * 2 ^ (7 * c)))
      (fun x hx => h x (by simp [hx])) (by omega)
    refine ⟨i', ?_⟩
    rw [hi', List.length_cons]
    congr 1; omega

/-- Whatever is decoded starting with counter `c` begins with at most `4 - c` continuation bytes and one last byte. -/
theorem runLenDecode_defined (p : List UInt8) : ∀ (c i : Nat) {r rest},
    runLenDecode p c i = .ok (r, rest) →
    ∃ init last, p = init ++ last :: rest ∧ (∀ b ∈ init, 128 ≤ b.toNat) ∧ last.toNat < 128 ∧
      c + init.length ≤ 4 ∧ (c + init.length = 4 → last.toNat < 16) := by
  induction p with
  | nil => intro c i r rest h; simp [runLenDecode] at h
  | cons b p ih =>
    intro c i r rest h
    by_cases hb : 128 ≤ b.toNat
    · rw [runLenDecode_cont b p c i hb, Res.bind_eq_ok] at h
      obtain ⟨s, _, h⟩ := h
      obtain ⟨init, last, rfl, h1, h2, h3, h4⟩ := ih _ _ h
      refine ⟨b :: init, last, by simp, ?_, h2, ?_, ?_⟩
      · intro x hx
        rcases List.mem_cons.1 hx with rfl | hx
        · exact hb
        · exact h1 x hx
      · simp only [List.length_cons]; omega
      · intro h5
        simp only [List.length_cons] at h5
        exact h4 (by omega)
    · rw [runLenDecode_last b p c i (by omega), Res.bind_eq_ok] at h
      obtain ⟨s, hs, h⟩ := h
      simp only [Res.ok.injEq, Prod.mk.injEq] at h
      obtain ⟨_, rfl⟩ := h
      refine ⟨[], b, rfl, by simp, by omega, ?_, ?_⟩
      · unfold shlInt at hs
        split at hs
        · simp at hs
        · simp only [List.length_nil]; omega
      · intro hc
        simp only [List.length_nil, Nat.add_zero] at hc
        subst hc
        unfold shlInt at hs
        split at hs
        · simp at hs
        · split at hs
          · simp at hs
          · simp at *; omega

theorem runLenDecode_group (init : List UInt8) (last : UInt8) (rest : List UInt8) (i : Nat)
    (h1 : ∀ b ∈ init, 128 ≤ b.toNat) (h2 : last.toNat < 128) (h3 : init.length ≤ 4)
    (h4 : init.length = 4 → last.toNat < 16) :
    ∃ r, runLenDecode (init ++ last :: rest) 0 i = .ok (r, rest) := by
  obtain ⟨i', hi'⟩ := runLenDecode_conts init (last :: rest) 0 i h1 (by omega)
  rw [hi', Nat.zero_add, runLenDecode_last last rest _ _ h2]
  by_cases h5 : init.length = 4
  · have := h4 h5
    exact ⟨i' ||| intToU64 (last.toNat * 2 ^ (7 * 4)), by
      rw [h5, shlInt, if_neg (by omega), if_neg (by simp; omega), Res.bind_ok]⟩
  · exact ⟨_, by rw [shlInt_small _ _ h2 (by omega), Res.bind_ok]⟩

end Sol.Compress
