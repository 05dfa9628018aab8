import Mathlib.Tactic.Linarith
import Mathlib.Tactic.Positivity
import Mathlib.Tactic.Ring
import Verif.Model.DataFile
import Verif.Proofs.FloatValue
import Verif.Props.BinaryIO
import Verif.Props.CsvIO
import Verif.Props.SvmIO
import Verif.Spec.DataFile
import Verif.Spec.DataTools
/-!
# Lemmas about data files
-/

namespace Sol.DataFile
open Sol.TextReaders Sol.TextWriters Sol.FloatText Sol.FloatValue Sol.Tools Sol.Spec

/-! ### Memory images -/

/-- The magnitude of a finite value in units of its last bit. -/
theorem mag_form {q : ℚ} (hs : Single q) (h0 : q ≠ 0) :
    ∃ (N : ℕ) (e : ℤ), e = max (Int.log 2 |q|) (-126) ∧ e ≤ 127 ∧ -126 ≤ e ∧ |q| = N * (2 : ℚ) ^ (e - 23) ∧ N < 2 ^ 24 ∧
      (N < 2 ^ 23 → e = -126) := by
  obtain ⟨n, x, hn, hx1, hx2, rfl⟩ := hs
  have hn0 : n ≠ 0 := by rintro rfl; simp at h0
  have habs : |(n : ℚ) * 2 ^ x| = (n.natAbs : ℚ) * 2 ^ x := by
    rw [abs_mul, abs_of_pos (show (0 : ℚ) < 2 ^ x by positivity), Nat.cast_natAbs, Int.cast_abs]
  have hN24 : (n.natAbs : ℚ) < 2 ^ 24 := by
    have : n.natAbs < 2 ^ 24 := by
      have h := abs_lt.1 hn
      omega
    exact_mod_cast this
  have hpos : 0 < (n.natAbs : ℚ) * 2 ^ x := by
    have : 0 < (n.natAbs : ℚ) := by exact_mod_cast Int.natAbs_pos.2 hn0
    positivity
  rw [habs]
  have hlo := Int.zpow_log_le_self (b := 2) (by norm_num) hpos
  have hhi := Int.lt_zpow_succ_log_self (b := 2) (by norm_num) ((n.natAbs : ℚ) * 2 ^ x)
  generalize hL : Int.log 2 ((n.natAbs : ℚ) * 2 ^ x) = L at *
  have hLx : L < 24 + x := by
    have h1 : (2 : ℚ) ^ L < 2 ^ (24 + x) := by
      rw [zpow_add₀ (by norm_num)]
      refine lt_of_le_of_lt (by exact_mod_cast hlo) (mul_lt_mul_of_pos_right (by exact_mod_cast hN24) (by positivity))
    exact (zpow_lt_zpow_iff_right₀ (by norm_num)).1 h1
  obtain ⟨e, he⟩ : ∃ e, e = max L (-126) := ⟨_, rfl⟩
  have hex : e - 23 ≤ x := by omega
  obtain ⟨k, hk⟩ : ∃ k : ℕ, x = e - 23 + k := ⟨(x - (e - 23)).toNat, by omega⟩
  have hform : (n.natAbs : ℚ) * 2 ^ x = ((n.natAbs * 2 ^ k : ℕ) : ℚ) * 2 ^ (e - 23) := by
    rw [hk, zpow_add₀ (by norm_num), zpow_natCast]
    push_cast
    ring
  refine ⟨n.natAbs * 2 ^ k, e, he, by omega, by omega, hform, ?_, ?_⟩
  · have h1 : ((n.natAbs * 2 ^ k : ℕ) : ℚ) * 2 ^ (e - 23) < 2 ^ (24 : ℕ) * 2 ^ (e - 23) := by
      rw [← hform]
      refine lt_of_lt_of_le (by exact_mod_cast hhi) ?_
      rw [← zpow_natCast, ← zpow_add₀ (by norm_num)]
      exact zpow_le_zpow_right₀ (by norm_num) (by push_cast; omega)
    have := lt_of_mul_lt_mul_right h1 (by positivity)
    exact_mod_cast this
  · intro hlt
    by_contra hne
    have heL : e = L := by omega
    have h1 : (2 : ℚ) ^ (23 : ℕ) * 2 ^ (e - 23) ≤ ((n.natAbs * 2 ^ k : ℕ) : ℚ) * 2 ^ (e - 23) := by
      rw [← hform, ← zpow_natCast, ← zpow_add₀ (by norm_num), heL]
      have : ((23 : ℕ) : ℤ) + (L - 23) = L := by push_cast; ring
      rw [this]
      exact_mod_cast hlo
    have h2 := le_of_mul_le_mul_right h1 (by positivity)
    have h3 : 2 ^ 23 ≤ n.natAbs * 2 ^ k := by exact_mod_cast h2
    omega

/-- Exponent and mantissa of the image of a magnitude. -/
theorem magBits_form {q : ℚ} (hs : Single q) :
    ∃ (E M : ℕ), magBits |q| = E * 2 ^ 23 + M ∧ M < 2 ^ 23 ∧ E < 255 ∧
      |q| = if E = 0 then (M : ℚ) * 2 ^ (-149 : ℤ) else (2 ^ 23 + (M : ℚ)) * 2 ^ ((E : ℤ) - 150) := by
  by_cases h0 : q = 0
  · subst h0
    exact ⟨0, 0, by simp [magBits], by norm_num, by norm_num, by simp⟩
  obtain ⟨N, e, he, h1, h2, h3, h4, h5⟩ := mag_form hs h0
  have hfl : ⌊|q| / 2 ^ (e - 23)⌋.toNat = N := by
    rw [h3, mul_div_assoc, div_self (by positivity), mul_one, Int.floor_natCast, Int.toNat_natCast]
  unfold magBits
  rw [if_neg (abs_ne_zero.2 h0)]
  dsimp only
  rw [← he, hfl]
  by_cases hN : N < 2 ^ 23
  · rw [if_pos hN]
    refine ⟨0, N, by simp, hN, by norm_num, ?_⟩
    rw [if_pos rfl, h3, h5 hN]
    norm_num
  · rw [if_neg hN]
    refine ⟨(e + 127).toNat, N - 2 ^ 23, rfl, by omega, by omega, ?_⟩
    rw [if_neg (by omega), h3]
    have e1 : (((e + 127).toNat : ℕ) : ℤ) - 150 = e - 23 := by omega
    have e2 : ((N - 2 ^ 23 : ℕ) : ℚ) = N - 2 ^ 23 := by
      rw [Nat.cast_sub (by omega)]
      norm_num
    rw [e1, e2]
    ring

/-- A value survives as its memory image. -/
theorem ofBits_toBits {v : F32} (h : IsFloat v) : ofBits (toBits v) = v := by
  cases v with
  | pinf => decide +kernel
  | ninf => decide +kernel
  | nan => decide +kernel
  | fin q =>
    obtain ⟨E, M, h1, h2, h3, h4⟩ := magBits_form h
    have key : ∀ s : ℕ, s = 0 ∨ s = 2 ^ 31 →
        ofBits (UInt32.ofNat (E * 2 ^ 23 + M + s)) = .fin (if s = 0 then |q| else -|q|) := by
      intro s hs
      have hn : (UInt32.ofNat (E * 2 ^ 23 + M + s)).toNat = E * 2 ^ 23 + M + s := by
        rw [UInt32.toNat_ofNat']
        exact Nat.mod_eq_of_lt (by omega)
      unfold ofBits
      dsimp only
      rw [hn]
      have e1 : (E * 2 ^ 23 + M + s) % 2 ^ 23 = M := by omega
      have e2 : (E * 2 ^ 23 + M + s) / 2 ^ 23 % 256 = E := by omega
      rw [e1, e2, if_neg (by omega), ← h4]
      rcases hs with rfl | rfl
      · rw [if_neg (by simp; omega), if_pos rfl]
      · rw [if_pos (by simp), if_neg (by norm_num)]
    unfold toBits
    dsimp only
    rw [h1]
    by_cases hq : q < 0
    · rw [if_pos hq, key _ (.inr rfl), if_neg (by norm_num), abs_of_neg hq, neg_neg]
    · rw [if_neg hq, key _ (.inl rfl), if_pos rfl, abs_of_nonneg (not_lt.1 hq)]

/-- A label survives as its memory image. -/
theorem labelOf_labelBits {l : Int} (h1 : -2147483648 ≤ l) (h2 : l < 2147483648) : labelOf (labelBits l) = l := by
  unfold labelOf labelBits
  have hn : (UInt32.ofNat (l % 4294967296).toNat).toNat = (l % 4294967296).toNat := by
    rw [UInt32.toNat_ofNat']
    exact Nat.mod_eq_of_lt (by omega)
  rw [hn]
  split <;> omega

/-! ### Text as bytes -/

/-- Texts of ASCII characters. -/
def Plain7 (t : List Char) : Prop := ∀ c ∈ t, c.toNat < 128

theorem Plain7.append {a b : List Char} (ha : Plain7 a) (hb : Plain7 b) : Plain7 (a ++ b) := by
  intro c hc
  rcases List.mem_append.1 hc with h | h
  · exact ha c h
  · exact hb c h

theorem Plain7.cons {c : Char} {b : List Char} (ha : c.toNat < 128) (hb : Plain7 b) : Plain7 (c :: b) :=
  Plain7.append (a := [c]) (by intro d hd; rw [List.mem_singleton.1 hd]; exact ha) hb

theorem plain7_nil : Plain7 [] := fun c hc => by simp at hc

theorem plain7_flatMap {A : Type} {f : A → List Char} {l : List A} (h : ∀ a ∈ l, Plain7 (f a)) : Plain7 (l.flatMap f) := by
  intro c hc
  obtain ⟨a, ha, hc⟩ := List.mem_flatMap.1 hc
  exact h a ha c hc

theorem plain7_digits {ds : List Char} (h : Digits ds) : Plain7 ds := by
  intro c hc
  have := h c hc
  simp only [Char.isDigit, Bool.and_eq_true, decide_eq_true_eq] at this
  have h2 : c.toNat ≤ 57 := UInt32.le_iff_toNat_le.1 this.2
  omega

theorem chars_ofChars {t : List Char} (h : Plain7 t) : chars (ofChars t) = t := by
  unfold chars ofChars
  rw [List.map_map]
  conv_rhs => rw [← List.map_id t]
  refine List.map_congr_left fun c hc => ?_
  have := h c hc
  simp only [Function.comp, id]
  rw [UInt8.toNat_ofNat', Nat.mod_eq_of_lt (by omega), Char.ofNat_toNat]

theorem plain7_intText (v : Int) : Plain7 (intText v) := by
  unfold intText
  split
  · exact .cons (by decide) (plain7_digits (digits_decText _))
  · exact plain7_digits (digits_decText _)

theorem plain7_frac {fs : List Char} (h : Digits fs) : Plain7 (fracOf fs) := by
  unfold fracOf
  split
  · exact plain7_nil
  · exact .cons (by decide) (plain7_digits (Digits.strip h))

theorem plain7_sign (neg : Bool) : Plain7 (signOf neg) := by cases neg <;> (unfold Plain7; decide)

theorem plain7_gText (v : GVal) : Plain7 (gText v) := by
  cases v with
  | zero neg => exact (plain7_sign neg).append (by unfold Plain7; decide)
  | inf neg => exact (plain7_sign neg).append (by unfold Plain7; decide)
  | nan neg => exact (plain7_sign neg).append (by unfold Plain7; decide)
  | num neg m x =>
    have hdm := digits_decText m
    simp only [gText]
    refine (plain7_sign neg).append ?_
    split
    · refine ((plain7_digits (Digits.take hdm 1)).append (plain7_frac (Digits.drop hdm 1))).append
        (.cons (by decide) (.cons (by split <;> decide) (plain7_digits (pad2_spec x.natAbs).1)))
    · split
      · exact (plain7_digits (Digits.take hdm _)).append (plain7_frac (Digits.drop hdm _))
      · exact .cons (by decide) (plain7_frac (Digits.append (digits_replicate _) hdm))

theorem plain7_svmWrite (p : OutPoint) : Plain7 (svmWrite p) := by
  unfold svmWrite
  refine ((plain7_intText _).append (plain7_flatMap fun f _ => ?_)).append (by unfold Plain7; decide)
  exact .cons (by decide) ((plain7_intText _).append (.cons (by decide) (plain7_gText _)))

theorem plain7_csvCells (n : Nat) : ∀ (j dim : Nat) (feats : List (UInt32 × GVal)), dim - j = n → Plain7 (csvCells feats j dim) := by
  induction n with
  | zero => intro j dim feats hn; rw [csvCells.eq_def, dif_neg (by omega)]; exact plain7_nil
  | succ n ih =>
    intro j dim feats hn
    rw [csvCells.eq_def, dif_pos (by omega)]
    split
    · exact .cons (by decide) (.cons (by decide) (ih _ _ _ (by omega)))
    · split
      · exact .cons (by decide) ((plain7_gText _).append (ih _ _ _ (by omega)))
      · exact .cons (by decide) (.cons (by decide) (ih _ _ _ (by omega)))

theorem plain7_csvWrite (dim : Nat) (p : OutPoint) : Plain7 (csvWrite dim p) :=
  ((plain7_intText _).append (plain7_csvCells _ 1 dim _ rfl)).append (by unfold Plain7; decide)

theorem plain7_csvNames (n : Nat) : ∀ (i dim : Nat), dim - i = n → Plain7 (csvNames i dim) := by
  induction n with
  | zero => intro i dim hn; rw [csvNames, if_neg (by omega)]; exact plain7_nil
  | succ n ih =>
    intro i dim hn
    rw [csvNames, if_pos (by omega)]
    exact .cons (by decide) (.cons (by decide) ((plain7_digits (digits_decText _)).append (ih _ _ (by omega))))

theorem plain7_csvHeader (dim : Nat) : Plain7 (csvHeader dim) :=
  (Plain7.append (by unfold Plain7; decide) (plain7_csvNames _ 1 dim rfl)).append (by unfold Plain7; decide)

/-! ### Lengths of lines -/

theorem length_decText {n k : Nat} (hk : 0 < k) (h : n < 10 ^ k) : (decText n).length ≤ k :=
  (Nat.length_toDigits_le_iff (by decide) hk).2 h

theorem length_frac (fs : List Char) : (fracOf fs).length ≤ fs.length + 1 := by
  obtain ⟨k, hk⟩ := stripZeros_spec fs
  have := congrArg List.length hk
  rw [List.length_append] at this
  unfold fracOf
  split
  · simp
  · rw [List.length_cons]; omega

theorem length_gText {v : GVal} (hv : Printable v) : (gText v).length ≤ 13 := by
  have hs : ∀ neg, (signOf neg).length ≤ 1 := by decide
  cases v with
  | zero neg => have := hs neg; simp only [gText, List.length_append, List.length_cons, List.length_nil]; omega
  | inf neg => exact hv.elim
  | nan neg => exact hv.elim
  | num neg m x =>
    obtain ⟨h1, h2, h3, h4⟩ := hv
    have h6 := length_six h1 h2
    have := hs neg
    have hx := length_decText (n := x.natAbs) (k := 3) (by decide) (by omega)
    have hp : (pad2 (decText x.natAbs)).length ≤ 3 := by
      unfold pad2
      split
      · rw [List.length_cons]; omega
      · exact hx
    simp only [gText]
    split
    · have := length_frac ((decText m).drop 1)
      simp only [List.length_append, List.length_cons, List.length_take, List.length_drop] at *
      omega
    · split
      · have := length_frac ((decText m).drop (x.toNat + 1))
        simp only [List.length_append, List.length_take, List.length_drop] at *
        omega
      · have := length_frac (List.replicate ((-x).toNat - 1) '0' ++ decText m)
        simp only [List.length_append, List.length_cons, List.length_replicate] at *
        omega

theorem length_intText {v : Int} (h : v.natAbs < 10 ^ 10) : (intText v).length ≤ 11 := by
  have := length_decText (n := v.natAbs) (k := 10) (by decide) h
  unfold intText
  split
  · rw [List.length_cons]; omega
  · omega

theorem length_flatMap_le {A : Type} {f : A → List Char} {k : Nat} : ∀ {l : List A}, (∀ a ∈ l, (f a).length ≤ k) →
    (l.flatMap f).length ≤ k * l.length
  | [], _ => by simp
  | a :: l, h => by
    have h1 := h a (List.mem_cons_self ..)
    have h2 := length_flatMap_le (l := l) fun b hb => h b (List.mem_cons_of_mem _ hb)
    rw [List.flatMap_cons, List.length_append, List.length_cons, Nat.mul_succ]
    omega

theorem length_svmWrite {p : OutPoint} (hl : p.label.natAbs ≤ 2147483599) (hw : ∀ f ∈ p.feats, Printable f.2)
    (hn : p.feats.length ≤ 2 ^ 24) : (svmWrite p).length < 2 ^ 29 := by
  have h1 := length_intText (v := p.label) (by omega)
  have h2 := length_flatMap_le (f := svmFeat) (k := 26) (l := p.feats) fun f hf => by
    have a := length_gText (hw f hf)
    have b : (indexText f.1).length ≤ 11 := by
      refine length_intText ?_
      have h1 := Int32.le_toInt (Int32.ofBitVec f.1.toBitVec)
      have h2 := Int32.toInt_lt (Int32.ofBitVec f.1.toBitVec)
      omega
    simp only [svmFeat, List.length_cons, List.length_append]
    omega
  simp only [svmWrite, List.length_append, List.length_cons, List.length_nil]
  omega

theorem length_csvCells (n : Nat) : ∀ (j dim : Nat) (feats : List (UInt32 × GVal)), dim - j = n → (∀ f ∈ feats, Printable f.2) →
    (csvCells feats j dim).length ≤ 14 * n := by
  induction n with
  | zero => intro j dim feats hn _; rw [csvCells.eq_def, dif_neg (by omega)]; simp
  | succ n ih =>
    intro j dim feats hn hw
    rw [csvCells.eq_def, dif_pos (by omega)]
    split
    · have := ih (j + 1) dim [] (by omega) (by simp)
      simp only [List.length_cons]; omega
    · rename_i i v feats
      split
      · have a := length_gText (hw (i, v) (List.mem_cons_self ..))
        have b := ih (j + 1) dim feats (by omega) fun f hf => hw f (List.mem_cons_of_mem _ hf)
        simp only [List.length_cons, List.length_append]
        dsimp only at a
        omega
      · have := ih (j + 1) dim ((i, v) :: feats) (by omega) hw
        simp only [List.length_cons]; omega

theorem length_csvWrite {dim : Nat} (hd : dim ≤ 2 ^ 25) {p : OutPoint} (hl : p.label.natAbs ≤ 2147483599)
    (hw : ∀ f ∈ p.feats, Printable f.2) : (csvWrite dim p).length < 2 ^ 29 := by
  have h1 := length_intText (v := p.label) (by omega)
  have h2 := length_csvCells _ 1 dim p.feats rfl hw
  simp only [csvWrite, List.length_append, List.length_cons, List.length_nil]
  omega

theorem length_csvNames (n : Nat) : ∀ (i dim : Nat), dim - i = n → dim ≤ 2 ^ 25 → (csvNames i dim).length ≤ 10 * n := by
  induction n with
  | zero => intro i dim hn _; rw [csvNames, if_neg (by omega)]; simp
  | succ n ih =>
    intro i dim hn hd
    rw [csvNames, if_pos (by omega)]
    have a := length_decText (n := i) (k := 8) (by decide) (by omega)
    have b := ih (i + 1) dim (by omega) hd
    simp only [List.length_cons, List.length_append]
    omega

theorem length_csvHeader {dim : Nat} (hd : dim ≤ 2 ^ 25) : (csvHeader dim).length < 2 ^ 29 := by
  have := length_csvNames _ 1 dim rfl hd
  simp only [csvHeader, List.length_append, List.length_cons, List.length_nil]
  omega

/-! ### Results of arithmetic are numbers of the format -/

theorem single_neg {q : ℚ} (h : Single q) : Single (-q) := by
  obtain ⟨n, e, h1, h2, h3, hq⟩ := h
  exact ⟨-n, e, by rwa [abs_neg], h2, h3, by rw [hq]; push_cast; ring⟩

theorem roundMag_single {d : ℚ} (h0 : 0 < d) (hlt : F32.roundMag d.num.natAbs d.den < 2 ^ 128) :
    Single (F32.roundMag d.num.natAbs d.den) := by
  have ha : 0 < d.num.natAbs := by
    have := Rat.num_pos.2 h0
    omega
  obtain ⟨n, e1, e2, e3⟩ := F32.roundMag_spec d.num.natAbs d.den d.den_pos
  have hu := F32.ulpExp_spec d.num.natAbs d.den ha d.den_pos
  rw [natAbs_div h0] at e2 e3 hu
  generalize F32.ulpExp d.num.natAbs d.den = u at *
  obtain ⟨u1, u2, u3⟩ := hu
  have hp : (0 : ℚ) < 2 ^ u := by positivity
  rw [e1] at hlt ⊢
  have hpow : ∀ k : ℕ, (2 : ℚ) ^ (u + (k : ℤ)) = 2 ^ k * 2 ^ u := fun k => by
    rw [zpow_add₀ (by norm_num), zpow_natCast, mul_comm]
  have hn : n ≤ 2 ^ 24 := by
    have h1 : d / 2 ^ u < 2 ^ 24 := by
      rw [div_lt_iff₀ hp, ← hpow 24]
      exact_mod_cast u2
    have h2 : (n : ℚ) < 2 ^ 24 + 1 := by linarith
    have h3 : n < 2 ^ 24 + 1 := by exact_mod_cast h2
    omega
  have hbig : ∀ k : ℕ, 2 ^ k ≤ n → u + k < 128 := by
    intro k hk
    have h1 : (2 : ℚ) ^ k ≤ n := by exact_mod_cast hk
    have h2 : (2 : ℚ) ^ (u + (k : ℤ)) < 2 ^ (128 : ℤ) := by
      rw [hpow]
      refine lt_of_le_of_lt (mul_le_mul_of_nonneg_right h1 hp.le) ?_
      exact_mod_cast hlt
    exact (zpow_lt_zpow_iff_right₀ (by norm_num : (1 : ℚ) < 2)).1 h2
  by_cases h24 : n = 2 ^ 24
  · have := hbig 24 h24.ge
    refine ⟨2 ^ 23, u + 1, by norm_num, by omega, by omega, ?_⟩
    rw [h24, zpow_add₀ (by norm_num)]
    push_cast
    ring
  · have hu104 : u ≤ 104 := by
      rcases u3 with h | h
      · omega
      · have h1 : (2 : ℚ) ^ 23 ≤ d / 2 ^ u := by
          rw [le_div_iff₀ hp, ← hpow 23]
          exact_mod_cast h
        have h2 : (2 : ℚ) ^ 23 < n + 1 := by linarith
        have h3 : 2 ^ 23 < n + 1 := by exact_mod_cast h2
        have := hbig 23 (by omega)
        omega
    refine ⟨n, u, ?_, by omega, hu104, by push_cast; rfl⟩
    rw [abs_of_nonneg (by omega)]
    omega

theorem round_isFloat (q : ℚ) : IsFloat (F32.round q) := by
  have h128 : F32.pow2 128 = 2 ^ 128 := by rw [F32.pow2_eq]; norm_cast
  have hz : Single 0 := ⟨0, 0, by norm_num, by norm_num, by norm_num, by norm_num⟩
  have pos : ∀ q : ℚ, 0 < q → IsFloat (F32.round q) := by
    intro q hq
    unfold F32.round
    rw [if_neg hq.ne']
    dsimp only
    rw [h128, if_pos hq, if_pos hq]
    split
    · trivial
    · rename_i hlt
      exact roundMag_single hq (not_le.1 hlt)
  rcases lt_trichotomy q 0 with hq | rfl | hq
  · have h := pos (-q) (by linarith)
    have h2 := F32.round_neg (-q)
    rw [neg_neg] at h2
    rw [h2]
    cases hr : F32.round (-q) with
    | fin r => rw [hr] at h; exact single_neg h
    | pinf => trivial
    | ninf => trivial
    | nan => trivial
  · exact hz
  · exact pos q hq

theorem mul_isFloat (a b : F32) : IsFloat (a * b) := by
  have hi : ∀ s : Int, IsFloat (F32.infOf s) := by
    intro s
    unfold F32.infOf
    split
    · trivial
    · split <;> trivial
  change IsFloat (F32.mul a b)
  cases a <;> cases b <;> first | exact round_isFloat _ | trivial | exact hi _

theorem floatOf_isFloat (pw : Int → F32) (d : NumericParser.Dec) : IsFloat (floatOf pw d) := by
  unfold floatOf
  split
  · exact round_isFloat _
  · exact mul_isFloat _ _

/-! ### Reading what was written -/

/-- What text keeps of a feature; outside 0.0001 … 0.01 the value also prints as before. -/
def Kept (f g : UInt32 × F32) : Prop := g.1 = f.1 ∧ NearValue f.2 g.2 ∧ (Plainly f.2 → put g.2 = put f.2) ∧ IsFloat g.2

theorem fmtG_printable {v : F32} (h : TextValue v) : Printable (fmtG v) := by
  obtain ⟨q, rfl, hs, _⟩ := h
  exact six_printable hs

/-- Whole numbers of at most six digits are printed as they are. -/
theorem six_whole {n : ℤ} (h : |n| < 10 ^ 6) : WholeG (six (n : ℚ)) ∧ gRat (six (n : ℚ)) = n ∧ TextWriters.Short (six (n : ℚ)) := by
  by_cases h0 : (n : ℚ) = 0
  · rw [h0]
    simp [six, WholeG, gRat, TextWriters.Short]
  have hn0 : n ≠ 0 := by exact_mod_cast h0
  have h1 : (1 : ℚ) ≤ |(n : ℚ)| := by exact_mod_cast Int.one_le_abs hn0
  have h6 : |(n : ℚ)| < 10 ^ 6 := by exact_mod_cast h
  have hx0 : 0 ≤ Int.log 10 |(n : ℚ)| := by
    have := Int.log_mono_right (b := 10) one_pos h1
    simpa using this
  have hx6 : Int.log 10 |(n : ℚ)| < 6 := by
    have := (Int.lt_zpow_iff_log_lt (b := 10) (by norm_num) (x := 6) (abs_pos.2 h0)).1 (by exact_mod_cast h6)
    exact this
  obtain ⟨x, hx⟩ := Int.eq_ofNat_of_zero_le hx0
  rw [hx] at hx6
  have hx5 : x ≤ 5 := by omega
  have hlt : |(n : ℚ)| < (10 : ℚ) ^ (x + 1) := by
    have := Int.lt_zpow_succ_log_self (R := ℚ) (b := 10) (by norm_num) |(n : ℚ)|
    rw [hx] at this
    exact_mod_cast this
  have hpow : (10 : ℚ) ^ ((5 : ℤ) - (x : ℤ)) = ((10 ^ (5 - x) : Nat) : ℚ) := by
    rw [show (5 : ℤ) - (x : ℤ) = ((5 - x : Nat) : ℤ) by omega, zpow_natCast]
    push_cast
    rfl
  have hm : nearest (|(n : ℚ)| * (10 : ℚ) ^ ((5 : ℤ) - (x : ℤ))) = n.natAbs * 10 ^ (5 - x) := by
    have e : |(n : ℚ)| * (10 : ℚ) ^ ((5 : ℤ) - (x : ℤ)) = ((n.natAbs * 10 ^ (5 - x) : Nat) : ℚ) := by
      rw [hpow, Nat.cast_mul, Nat.cast_natAbs, Int.cast_abs]
    rw [e]
    exact nearest_eq (by positivity) (by linarith) (by linarith)
  have hm6 : n.natAbs * 10 ^ (5 - x) ≠ 1000000 := by
    have h2 : n.natAbs < 10 ^ (x + 1) := by
      have : ((n.natAbs : Nat) : ℚ) < ((10 ^ (x + 1) : Nat) : ℚ) := by
        rw [Nat.cast_natAbs, Int.cast_abs]
        push_cast
        exact hlt
      exact_mod_cast this
    have h3 : n.natAbs * 10 ^ (5 - x) < 10 ^ (x + 1) * 10 ^ (5 - x) := Nat.mul_lt_mul_of_pos_right h2 (by positivity)
    rw [← pow_add, show x + 1 + (5 - x) = 6 by omega] at h3
    omega
  have hs : six (n : ℚ) = .num (decide ((n : ℚ) < 0)) (n.natAbs * 10 ^ (5 - x)) x := by
    unfold six
    rw [if_neg h0]
    dsimp only
    rw [hx]
    change (if nearest (|(n : ℚ)| * (10 : ℚ) ^ ((5 : ℤ) - (x : ℤ))) = 1000000 then _ else _) = _
    rw [hm, if_neg hm6]
  rw [hs]
  refine ⟨⟨x, rfl, hx5, Nat.mul_mod_left _ _⟩, ?_, by constructor <;> intro hc <;> omega⟩
  rw [gRat_num, show (x : ℤ) - 5 = -((5 : ℤ) - (x : ℤ)) by ring, zpow_neg, hpow]
  have hp : ((10 ^ (5 - x) : Nat) : ℚ) ≠ 0 := by positivity
  rw [Nat.cast_mul, Nat.cast_natAbs, Int.cast_abs]
  by_cases hneg : (n : ℚ) < 0
  · rw [abs_of_neg hneg]
    simp only [hneg, decide_true, if_true]
    field_simp
  · rw [abs_of_nonneg (not_lt.1 hneg)]
    simp only [hneg, decide_false]
    field_simp
    simp

theorem floatOf_whole (pw : Int → F32) {n : ℤ} (h : |n| < 10 ^ 6) {d : NumericParser.Dec} (hd : Close (six (n : ℚ)) d) :
    floatOf pw d = .fin n := by
  obtain ⟨h1, h2, h3⟩ := six_whole h
  obtain ⟨d1, _, _, _, d5⟩ := hd
  have he := d5 h1
  have hv := d1 h3
  rw [h2] at hv
  unfold Props.decRat at hv
  rw [he, zpow_zero, mul_one] at hv
  unfold floatOf
  rw [if_pos he]
  have : (d.mant : F32) = F32.round (d.mant : ℚ) := rfl
  rw [this, hv]
  exact round_single ⟨n, 0, by omega, by norm_num, by norm_num, by simp⟩

theorem kept_of_close {pw : Int → F32} (hpw : Powf pw) {i : UInt32} {v : F32} (h : TextValue v) {d : NumericParser.Dec}
    (hd : Close (fmtG v) d) : Kept (i, v) (i, floatOf pw d) := by
  obtain ⟨q, rfl, hs, hq, hb⟩ := h
  obtain ⟨w, h1, h2, h3, h4, h5⟩ := floatOf_close hpw hs hq hb hd
  refine ⟨rfl, ⟨q, w, rfl, h1, ⟨h2, fun hw => by_contra fun hn => h3 hn hw⟩, ?_, h4⟩, ?_, floatOf_isFloat pw d⟩
  · rintro n hn rfl
    have := floatOf_whole pw hn hd
    rw [h1] at this
    exact F32.fin.inj this
  rintro ⟨q', hq', hp⟩
  cases hq'
  dsimp only
  rw [h1]
  exact h5 hp

theorem kept_all {pw : Int → F32} (hpw : Powf pw) : ∀ {feats : List (UInt32 × F32)} {ds : List NumericParser.Dec},
    (∀ f ∈ feats, TextValue f.2) → List.Forall₂ (fun (f : UInt32 × GVal) d => Close f.2 d) (feats.map fun f => (f.1, fmtG f.2)) ds →
    List.Forall₂ Kept feats (((feats.map fun f => (f.1, fmtG f.2)).map (·.1)).zip (ds.map (floatOf pw)))
  | [], _, _, h => by cases h; exact .nil
  | f :: feats, _, hv, h => by
    cases h with
    | cons h1 h2 =>
      exact .cons (kept_of_close hpw (hv f (List.mem_cons_self ..)) h1)
        (kept_all hpw (fun g hg => hv g (List.mem_cons_of_mem _ hg)) h2)

/-- What text keeps of a point. -/
def KeptPoint (p q : Point) : Prop := q.label = p.label ∧ List.Forall₂ Kept p.feats q.feats

theorem KeptPoint.near {p q : Point} (h : KeptPoint p q) : NearPoint p q :=
  ⟨h.1, h.2.imp fun _ _ h => ⟨h.1, h.2.1⟩⟩

theorem svm_line {pw : Int → F32} (hpw : Powf pw) {p : Point} (h : SvmPoint p) :
    ∃ q, svmLine (svmWrite (toOut p) ++ ['\x00']) = .ok (.ok, q) ∧ KeptPoint p (ofText pw q) := by
  obtain ⟨ds, h1, h2⟩ := svmLine_spec (toOut p) h.label (by
    intro f hf
    obtain ⟨g, hg, rfl⟩ := List.mem_map.1 hf
    exact ⟨(h.values g hg).1, fmtG_printable (h.values g hg).2⟩)
  refine ⟨⟨p.label, (toOut p).feats.map (fun f : UInt32 × GVal => f.1), ds⟩, ?_, rfl, kept_all hpw (fun f hf => (h.values f hf).2) h1⟩
  rw [h2, Props.C12_sort_sorted_unchanged _ _ (by simpa [toOut, Function.comp_def] using h.ascending)]
  rfl

theorem nz_six (i : UInt32) {q : ℚ} (h0 : q ≠ 0) : nz (i, fmtG (.fin q)) = true := by
  have : ∃ neg m x, fmtG (.fin q) = .num neg m x := by
    simp only [fmtG, six, if_neg h0]
    split
    · exact ⟨_, _, _, rfl⟩
    · exact ⟨_, _, _, rfl⟩
  obtain ⟨neg, m, x, h⟩ := this
  rw [h]
  rfl

theorem keepsF_close {pw : Int → F32} (hpw : Powf pw) {v : F32} (h : TextValue v) :
    ∀ d, Close (fmtG v) d → keepsF pw d = nz (0, fmtG v) := by
  obtain ⟨q, rfl, hs, hq, hb⟩ := h
  intro d hd
  obtain ⟨w, h1, h2, h3, _⟩ := floatOf_close hpw hs hq hb hd
  unfold keepsF
  rw [h1]
  by_cases h0 : q = 0
  · rw [h2 h0, h0]
    simp [fmtG, six, nz]
  · have hw := h3 h0
    have hn := nz_six 0 h0
    rw [hn]
    simpa using hw

theorem csv_line {pw : Int → F32} (hpw : Powf pw) {dim : Nat} (hdim : dim ≤ 2 ^ 32) {p : Point} (h : CsvPoint dim p) :
    ∃ q, csvLine (keepsF pw) (csvWrite dim (toOut p) ++ ['\x00']) = .ok (.ok, q) ∧ KeptPoint p (ofText pw q) := by
  have hk0 : keepsF pw ⟨0, 0⟩ = false := by
    have := keepsF_close hpw (v := .fin 0) ⟨0, rfl, ⟨0, 0, by norm_num⟩, .inl rfl, by norm_num⟩ ⟨0, 0⟩
      (by simp [fmtG, six, Close, Props.decRat, gRat])
    rw [this]
    simp [fmtG, six, nz]
  obtain ⟨ds, h1, h2⟩ := csvLine_spec (keepsF pw) hk0 dim hdim (toOut p) h.label
    (by simpa [toOut, Function.comp_def] using h.ascending) (by
      intro f hf
      obtain ⟨g, hg, rfl⟩ := List.mem_map.1 hf
      obtain ⟨a, b, c, _⟩ := h.values g hg
      exact ⟨a, b, fmtG_printable c, keepsF_close hpw c⟩)
  have hfil : (toOut p).feats.filter nz = (toOut p).feats := by
    rw [List.filter_eq_self]
    intro f hf
    obtain ⟨g, hg, rfl⟩ := List.mem_map.1 hf
    obtain ⟨_, _, ⟨q, hq, _⟩, hne⟩ := h.values g hg
    have h0 : q ≠ 0 := by rintro rfl; exact hne hq
    rw [hq]
    exact nz_six _ h0
  rw [hfil] at h1 h2
  exact ⟨_, h2, rfl, kept_all hpw (fun f hf => (h.values f hf).2.2.1) h1⟩

/-- Lines that are read one by one. -/
theorem textAll_lines (pw : Int → F32) (csv : Bool) (put : Point → List Char) :
    ∀ (ps : List Point) (_ : ∀ p ∈ ps, (∀ r, FirstLine (put p) r ∧ '\x00' ∉ put p) ∧ '\n' ∈ put p ∧ (put p).length < 2 ^ 29 ∧
      ∃ q, (if csv then csvLine (keepsF pw) (put p ++ ['\x00']) else svmLine (put p ++ ['\x00'])) = .ok (.ok, q) ∧
        KeptPoint p (ofText pw q)) (cap : Nat), 2 ≤ cap → cap < 2 ^ 30 →
      ∃ qs, textAll pw csv cap (ps.flatMap put) = .ok (qs, .endOfFile) ∧ List.Forall₂ KeptPoint ps qs := by
  intro ps
  induction ps with
  | nil =>
    intro _ cap _ _
    refine ⟨[], ?_, .nil⟩
    rw [textAll.eq_def]
    cases csv <;> rfl
  | cons p ps ih =>
    intro h cap hcap hcap2
    obtain ⟨hl, hnl, hlen, q, hq, hk⟩ := h p (List.mem_cons_self ..)
    obtain ⟨hl, h0⟩ := hl (ps.flatMap put)
    obtain ⟨cap', e1, e2, _, e4, _⟩ := ReadLine.readLine_spec _ _ cap hl h0 hcap hcap2 hlen
    have hpos : 0 < (put p).length := List.length_pos_iff.2 hl.1
    obtain ⟨qs, h1, h2⟩ := ih (fun p hp => h p (List.mem_cons_of_mem _ hp)) cap' (by omega) (e4 hnl)
    refine ⟨ofText pw q :: qs, ?_, .cons hk h2⟩
    have hn : textNext pw csv cap (put p ++ ps.flatMap put) = .ok (.ok, q, cap', ps.flatMap put) := by
      unfold textNext
      cases csv with
      | true =>
        rw [if_pos rfl] at hq ⊢
        unfold csvNext
        rw [e1]
        simp [hq]
      | false =>
        rw [if_neg (by simp)] at hq ⊢
        unfold svmNext
        rw [e1]
        simp [hq]
    rw [List.flatMap_cons, textAll.eq_def, hn]
    dsimp only
    rw [if_pos rfl, dif_pos (by rw [List.length_append]; omega), h1]

/-! ### Files -/

theorem toRaw_storable {p : Point} (h : BinaryPoint p) : BinaryIO.Storable (toRaw p) := by
  refine ⟨by simp [toRaw], ?_⟩
  simpa [toRaw] using h.count

theorem zip_back : ∀ {l : List (UInt32 × F32)}, (∀ f ∈ l, IsFloat f.2) →
    (l.map (·.1)).zip ((l.map fun f => toBits f.2).map ofBits) = l
  | [], _ => rfl
  | f :: l, h => by
    have h1 := ofBits_toBits (h f (List.mem_cons_self ..))
    have h2 := zip_back (l := l) fun g hg => h g (List.mem_cons_of_mem _ hg)
    simp only [List.map_cons, List.zip_cons_cons, h1]
    rw [h2]

theorem ofRaw_toRaw {p : Point} (h : BinaryPoint p) : ofRaw (toRaw p) = p := by
  unfold ofRaw toRaw
  dsimp only
  rw [labelOf_labelBits h.label.1 h.label.2, zip_back h.values]

theorem bin_reads (pw : Int → F32) {pts : List Point} (h : ∀ p ∈ pts, BinaryPoint p) :
    ReadsAs pw "bin".toList (BinaryIO.writeAll (pts.map toRaw)) pts .endOfFile := by
  refine ⟨⟨.bin, 4096, _⟩, rfl, ?_⟩
  unfold contents
  dsimp only
  rw [Props.C02_binary_roundtrip _ (by
    intro r hr
    obtain ⟨p, hp, rfl⟩ := List.mem_map.1 hr
    exact toRaw_storable (h p hp)), Res.bind_ok]
  dsimp only
  rw [List.map_map]
  have : pts.map (ofRaw ∘ toRaw) = pts := by
    conv_rhs => rw [← List.map_id pts]
    exact List.map_congr_left fun p hp => ofRaw_toRaw (h p hp)
  rw [this]

theorem svm_reads {pw : Int → F32} (hpw : Powf pw) {pts : List Point} (h : ∀ p ∈ pts, SvmPoint p) :
    ∃ qs, ReadsAs pw "svm".toList (ofChars (pts.flatMap fun p => svmWrite (toOut p))) qs .endOfFile ∧
      List.Forall₂ KeptPoint pts qs := by
  obtain ⟨qs, h1, h2⟩ := textAll_lines pw false (fun p => svmWrite (toOut p)) pts (by
    intro p hp
    refine ⟨fun r => svmWrite_line _ r, by simp [svmWrite], length_svmWrite (h p hp).label ?_ ?_, by simpa using svm_line hpw (h p hp)⟩
    · intro f hf
      obtain ⟨g, hg, rfl⟩ := List.mem_map.1 hf
      exact fmtG_printable ((h p hp).values g hg).2
    · simpa [toOut] using (h p hp).count) 4096 (by norm_num) (by norm_num)
  refine ⟨qs, ⟨⟨.svm, 4096, _⟩, rfl, ?_⟩, h2⟩
  unfold contents
  dsimp only
  rw [chars_ofChars (plain7_flatMap fun p _ => plain7_svmWrite _)]
  exact h1

theorem csv_reads {pw : Int → F32} (hpw : Powf pw) {dim : Nat} (h1 : 1 ≤ dim) (hd : dim ≤ 2 ^ 25) {pts : List Point}
    (h : ∀ p ∈ pts, CsvPoint dim p) :
    ∃ qs, ReadsAs pw "csv".toList (ofChars (csvHeader dim ++ pts.flatMap fun p => csvWrite dim (toOut p))) qs .endOfFile ∧
      List.Forall₂ KeptPoint pts qs := by
  have hpl : Plain7 (pts.flatMap fun p => csvWrite dim (toOut p)) := plain7_flatMap fun p _ => plain7_csvWrite _ _
  obtain ⟨hl, h0, hc⟩ := csvHeader_line dim (pts.flatMap fun p => csvWrite dim (toOut p))
  obtain ⟨cap', e1, e2, _, e4, _⟩ := ReadLine.readLine_spec _ _ 4096 hl h0 (by norm_num) (by norm_num) (length_csvHeader hd)
  have hpos : 0 < (csvHeader dim).length := List.length_pos_iff.2 hl.1
  obtain ⟨qs, h2, h3⟩ := textAll_lines pw true (fun p => csvWrite dim (toOut p)) pts (by
    intro p hp
    refine ⟨fun r => csvWrite_line dim _ r, by simp [csvWrite], length_csvWrite hd (h p hp).label ?_,
      by simpa using csv_line hpw (by omega) (h p hp)⟩
    intro f hf
    obtain ⟨g, hg, rfl⟩ := List.mem_map.1 hf
    exact fmtG_printable ((h p hp).values g hg).2.2.1) cap' (by omega) (e4 (by simp [csvHeader]))
  refine ⟨qs, ⟨⟨.csv, cap', ofChars (pts.flatMap fun p => csvWrite dim (toOut p))⟩, ?_, ?_⟩, h3⟩
  · unfold addReader
    rw [if_neg (by decide)]
    have hf : formatNamed "csv".toList = some .csv := by decide
    rw [hf]
    dsimp only
    rw [chars_ofChars ((plain7_csvHeader dim).append hpl)]
    unfold csvOpen
    rw [e1, Res.bind_ok]
    dsimp only
    rw [if_neg (by simp), Res.bind_ok]
    rfl
  · unfold contents
    dsimp only
    rw [chars_ofChars hpl]
    exact h2

/-! ### Writing what was read -/

theorem kept_svmFeat {f g : UInt32 × F32} (h : Kept f g) (hp : Plainly f.2) :
    svmFeat (g.1, fmtG g.2) = svmFeat (f.1, fmtG f.2) := by
  have := h.2.2.1 hp
  unfold put at this
  simp only [svmFeat, h.1, this]

theorem kept_svmWrite {p q : Point} (h : KeptPoint p q) (hp : ∀ f ∈ p.feats, Plainly f.2) :
    svmWrite (toOut q) = svmWrite (toOut p) := by
  obtain ⟨hl, hf⟩ := h
  have : ∀ {a b : List (UInt32 × F32)}, List.Forall₂ Kept a b → (∀ f ∈ a, Plainly f.2) →
      (b.map fun f => (f.1, fmtG f.2)).flatMap svmFeat = (a.map fun f => (f.1, fmtG f.2)).flatMap svmFeat := by
    intro a b h
    induction h with
    | nil => intro _; rfl
    | cons h1 _ ih =>
      intro hp
      simp only [List.map_cons, List.flatMap_cons]
      rw [kept_svmFeat h1 (hp _ (List.mem_cons_self ..)), ih fun f hf => hp f (List.mem_cons_of_mem _ hf)]
  simp only [svmWrite, toOut, hl]
  rw [this hf hp]

theorem kept_csvCells (n : Nat) : ∀ (j dim : Nat) {a b : List (UInt32 × F32)}, dim - j = n → List.Forall₂ Kept a b →
    (∀ f ∈ a, Plainly f.2) →
    csvCells (b.map fun f => (f.1, fmtG f.2)) j dim = csvCells (a.map fun f => (f.1, fmtG f.2)) j dim := by
  induction n with
  | zero =>
    intro j dim a b hn _ _
    rw [csvCells.eq_def, dif_neg (by omega), csvCells.eq_def, dif_neg (by omega)]
  | succ n ih =>
    intro j dim a b hn h hp
    rw [csvCells.eq_def, csvCells.eq_def (a.map _), dif_pos (by omega), dif_pos (by omega)]
    cases h with
    | nil => rfl
    | @cons f g as bs h1 h2 =>
      have e := h1.2.2.1 (hp _ (List.mem_cons_self ..))
      unfold put at e
      have i1 := ih (j + 1) dim (by omega) h2 fun f hf => hp f (List.mem_cons_of_mem _ hf)
      have i2 := ih (j + 1) dim (by omega) (List.Forall₂.cons h1 h2) hp
      simp only [List.map_cons] at i2 ⊢
      rw [h1.1] at i2 ⊢
      rw [i1, i2, e]

theorem kept_csvWrite {dim : Nat} {p q : Point} (h : KeptPoint p q) (hp : ∀ f ∈ p.feats, Plainly f.2) :
    csvWrite dim (toOut q) = csvWrite dim (toOut p) := by
  simp only [csvWrite, toOut, h.1]
  rw [kept_csvCells _ 1 dim rfl h.2 hp]

theorem flatMap_kept {put : Point → List Char} {ps qs : List Point} (h : List.Forall₂ KeptPoint ps qs)
    (he : ∀ p ∈ ps, ∀ q, KeptPoint p q → put q = put p) : qs.flatMap put = ps.flatMap put := by
  induction h with
  | nil => rfl
  | cons h1 _ ih =>
    rw [List.flatMap_cons, List.flatMap_cons, he _ (List.mem_cons_self ..) _ h1,
      ih fun p hp => he p (List.mem_cons_of_mem _ hp)]

theorem kept_binary {p q : Point} (h : KeptPoint p q) (hl : p.label.natAbs ≤ 2147483599) (hn : p.feats.length ≤ 2 ^ 25) :
    BinaryPoint q := by
  have hlen := h.2.length_eq
  refine ⟨by rw [h.1]; omega, ?_, by omega⟩
  have : ∀ {a b : List (UInt32 × F32)}, List.Forall₂ Kept a b → ∀ g ∈ b, IsFloat g.2 := by
    intro a b h
    induction h with
    | nil => simp
    | cons h1 _ ih =>
      intro g hg
      rcases List.mem_cons.1 hg with rfl | hg
      · exact h1.2.2.2
      · exact ih g hg
  exact this h.2

end Sol.DataFile
