import Verif.Proofs.Remember
/-!
# C105: a repeated experiment uses the value that the cross validation found

`choose` is given the file of an earlier run.
-/

namespace Sol.Props

open Sol.Remember Sol.Spec

/-- The first run, or one that shall search again, uses the value found; each later run uses the same, whatever a search would find then,
    if it is the `double` of a number with at most six digits behind the point.  Missing: other values. -/
theorem C105_repeated_partial (name : List Char) (hn : Plain name) (v : ℚ) (hv : SixDecimals v) (retrain : Bool) (file : Option (List Char))
    (h : file = none ∨ retrain = true) :
    ∃ text, choose name retrain file v = some (v, text) ∧ ∀ w, choose name false (some text) w = some (v, text) := by
  obtain ⟨k, hk, hr⟩ := hv
  refine ⟨resultLine name v, ?_, fun w => ?_⟩
  · rcases h with rfl | rfl
    · cases retrain <;> rfl
    · cases file <;> rfl
  · rw [choose_later hn, (digits_again hk hr).2, hr]
    rfl

/-- No other value below `2^32` is used again unchanged. -/
theorem C105_only_partial (name : List Char) (hn : Plain name) (v : ℚ) (h0 : 0 ≤ v) (h1 : v < 2 ^ 32) (text : List Char)
    (h : choose name false none v = some (v, text)) : (∀ w, choose name false (some text) w = some (v, text)) ↔ SixDecimals v := by
  obtain rfl : resultLine name v = text := (Prod.mk.inj (Option.some.inj h)).2
  constructor
  · intro h2
    have h3 := h2 0
    rw [choose_later hn, Option.map_eq_some_iff] at h3
    obtain ⟨r, hr, he⟩ := h3
    obtain rfl := (Prod.mk.inj he).1
    refine ⟨_, ?_, hr⟩
    have hle : F32.divRound (r.num.natAbs * 1000000) r.den ≤ 2 ^ 32 * 1000000 := by
      have h4 : (F32.divRound (r.num.natAbs * 1000000) r.den : ℚ) < 2 ^ 32 * 1000000 + 1 := by linarith [(abs_le.1 (near h0)).2]
      have h5 : F32.divRound (r.num.natAbs * 1000000) r.den < 2 ^ 32 * 1000000 + 1 := by exact_mod_cast h4
      omega
    rcases hle.eq_or_lt with h6 | h6
    · rw [h6] at hr
      have h7 : F64.round (((2 ^ 32 * 1000000 : Nat) : ℚ) / 1000000) = some (2 ^ 32) := by decide +kernel
      rw [h7] at hr
      exact absurd (Option.some.inj hr) h1.ne'
    · exact h6
  · intro hv w
    obtain ⟨t, h2, h3⟩ := C105_repeated_partial name hn v hv false none (.inl rfl)
    obtain rfl : resultLine name v = t := (Prod.mk.inj (Option.some.inj h2)).2
    exact h3 w

/-- Every value is used again up to a millionth. -/
theorem C105_close_partial (name : List Char) (hn : Plain name) (v : ℚ) (h0 : 0 ≤ v) (h1 : v ≤ 2 ^ 32) (w : ℚ) :
    ∃ r text, choose name false none v = some (v, text) ∧ choose name false (some text) w = some (r, text) ∧ |r - v| ≤ 1 / 1000000 := by
  have hn' := abs_le.1 (near h0)
  have hk : F32.divRound (v.num.natAbs * 1000000) v.den ≤ 2 ^ 32 * 1000000 + 1 := by
    have : (F32.divRound (v.num.natAbs * 1000000) v.den : ℚ) ≤ 2 ^ 32 * 1000000 + 1 := by linarith [hn'.2]
    exact_mod_cast this
  obtain ⟨r, hr, -, he⟩ := round_millionths _ hk
  refine ⟨r, _, rfl, by rw [choose_later hn, hr]; rfl, ?_⟩
  have he := abs_le.1 he
  have hk' : (F32.divRound (v.num.natAbs * 1000000) v.den : ℚ) ≤ 2 ^ 32 * 1000000 + 1 := by exact_mod_cast hk
  have hb : (F32.divRound (v.num.natAbs * 1000000) v.den / 1000000 : ℚ) / 2 ^ 53 ≤ 1 / 2000000 := by linarith
  rw [abs_le]
  constructor <;> linarith [hn'.1, hn'.2, he.1, he.2]

/-- Two values for which a repeated experiment uses another one: 2^-7 has seven digits, and 2^-21 becomes 0. -/
theorem C105_is_violated :
    (∃ r text, choose ['C'] false none (1 / 2 ^ 7) = some (1 / 2 ^ 7, text) ∧ choose ['C'] false (some text) 0 = some (r, text) ∧ r ≠ 1 / 2 ^ 7) ∧
    ∃ text, choose ['C'] false none (1 / 2 ^ 21) = some (1 / 2 ^ 21, text) ∧ text = "Best Result: C=0.000000".toList ∧
      choose ['C'] false (some text) 0 = some (0, text) := by
  constructor
  · exact ⟨(F64.round (7812 / 1000000)).getD 0, _, rfl, by decide +kernel, by decide +kernel⟩
  · exact ⟨_, rfl, by decide +kernel, by decide +kernel⟩

/-- All values of the searches in experiments/opts (rcv1.py:62, 65), the powers of 2 from -5 to 7, have at most six digits. -/
theorem C105_hypotheses : (∀ i < 13, SixDecimals (2 ^ i / 2 ^ 5)) ∧ Plain ['C'] ∧ Plain ['l'] := by
  refine ⟨fun i hi => ⟨2 ^ i * 31250, ?_, ?_⟩, ?_, ?_⟩
  · have : 2 ^ i ≤ 2 ^ 12 := Nat.pow_le_pow_right (by decide) (by omega)
    omega
  · have h : ∀ i < 13, F64.round (((2 ^ i * 31250 : Nat) : ℚ) / 1000000) = some (2 ^ i / 2 ^ 5) := by decide +kernel
    exact h i hi
  all_goals intro d hd; rw [List.mem_singleton.1 hd]; decide

/-- A tenth, which is no `double`, is written and read as the nearest one. -/
theorem C105_instance : choose ['l'] false none (3602879701896397 / 2 ^ 55) = some (3602879701896397 / 2 ^ 55, "Best Result: l=0.100000".toList) ∧
    choose ['l'] false (some "Best Result: l=0.100000".toList) 7 = some (3602879701896397 / 2 ^ 55, "Best Result: l=0.100000".toList) ∧
    choose ['l'] true (some "Best Result: l=0.100000".toList) 12 = some (12, "Best Result: l=12.000000".toList) := by
  decide +kernel

end Sol.Props
