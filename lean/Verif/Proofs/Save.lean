import Verif.Proofs.Took
import Verif.Proofs.FloatText
import Verif.Proofs.Arrays
import Verif.Spec.Save
/-!
# Saving and loading
-/

namespace Sol.Params
open Sol.Text Sol.FloatText Sol.PreProcess Sol.Spec Sol.TextWriters

variable {files : List Char → Option (List Char)}

/-- A value after it was printed and read. -/
def back : F32 → F32
  | .fin q => F32.round (gRat (six q))
  | x => x

theorem printed_back {x : F32} (h : Finite x) : Printed x (back x) := by
  obtain ⟨q, rfl, _⟩ := h
  exact ⟨q, _, rfl, six_digits q, rfl⟩

/-! ### The vectors -/

theorem readNums_text (vs old : List F32) (hv : ∀ x ∈ vs, Finite x) (hl : old.length = vs.length) (tail : List Char) :
    readNums old (some (' ' :: (vs.flatMap (fun x => put x ++ [' ']) ++ tail))) = (vs.map back, some (' ' :: tail)) := by
  induction vs generalizing old with
  | nil =>
    cases old with
    | nil => rfl
    | cons a l => simp at hl
  | cons x vs ih =>
    cases old with
    | nil => simp at hl
    | cons a l =>
      obtain ⟨q, rfl, hq⟩ := hv x List.mem_cons_self
      have hr := readFloat_put hq (sp := [' ']) (rest := ' ' :: (vs.flatMap (fun x => put x ++ [' ']) ++ tail)) (by decide)
        (by intro c hc; simp at hc; subst hc; decide)
      have e : ' ' :: ((F32.fin q :: vs).flatMap (fun x => put x ++ [' ']) ++ tail) =
          [' '] ++ (put (.fin q) ++ ' ' :: (vs.flatMap (fun x => put x ++ [' ']) ++ tail)) := by simp
      rw [e, readNums, hr]
      dsimp only
      rw [ih l (fun y hy => hv y (List.mem_cons_of_mem _ hy)) (by simpa using hl)]
      rfl

theorem ignoreTo_at {c : Char} {a b : List Char} (h : c ∉ a) : ignoreTo c (some (a ++ c :: b)) = some b := by
  unfold ignoreTo
  simp only [Option.some.injEq]
  rw [dropWhile_app (fun d hd => by simp only [bne_iff_ne, ne_eq]; rintro rfl; exact h hd) (by simp)]
  rfl

theorem readVec_text {v old : List F32} (hv : ∀ x ∈ v, Finite x) (hl : old.length = v.length) {pre : List Char} (hp : '[' ∉ pre)
    (more : List Char) :
    readVec old (some (pre ++ '[' :: ' ' :: (v.flatMap (fun x => put x ++ [' ']) ++ ']' :: '\n' :: more))) =
      (v.map back, some more) := by
  unfold readVec
  rw [ignoreTo_at hp, readNums_text v old hv hl]
  dsimp only
  rw [show ' ' :: ']' :: '\n' :: more = [' '] ++ ']' :: ('\n' :: more) by rfl, ignoreTo_at (by decide),
    show '\n' :: more = [] ++ '\n' :: more by rfl, ignoreTo_at (by decide)]

theorem readWord_text {word t : List Char} (hw : ∀ c ∈ word, isSpace c = false) (hne : word ≠ [])
    (ht : ∀ c ∈ t.head?, isSpace c = true) : readWord (some (word ++ t)) = some t := by
  have h1 : (word ++ t).dropWhile isSpace = word ++ t := by
    cases word with
    | nil => exact absurd rfl hne
    | cons c l => simp [hw c List.mem_cons_self]
  unfold readWord
  simp only [h1]
  rw [if_neg (by simp [hne])]
  rw [dropWhile_app (fun c hc => by simp [hw c hc]) (fun c hc => by simp [ht c hc])]

theorem showInt_nat (c : Nat) : showInt c = decText c := by
  have : ¬ ((c : Int) < 0) := by omega
  simp [showInt, this]

theorem vecText_eq {v : List F32} (h : v ≠ []) (more : List Char) :
    vecText v ++ "\n".toList ++ more = '\n' :: '[' :: ' ' :: (v.flatMap (fun x => put x ++ [' ']) ++ ']' :: '\n' :: more) := by
  have e1 : "\n[ ".toList = ['\n', '[', ' '] := by decide
  have e2 : "]".toList = [']'] := by decide
  have e3 : "\n".toList = ['\n'] := by decide
  rw [vecText, if_neg h, e1, e2, e3]
  simp

/-- A vector with its label. -/
theorem readOne {v old : List F32} (hv : ∀ x ∈ v, Finite x) (hl : old.length = v.length) (h0 : v ≠ [])
    {word sp : List Char} (hw : ∀ c ∈ word, isSpace c = false) (hne : word ≠ []) (hsp : sp = [] ∨ sp = [' ']) (more : List Char) :
    readVec old (readWord (some (word ++ (sp ++ (vecText v ++ "\n".toList ++ more))))) = (v.map back, some more) := by
  rw [vecText_eq h0, readWord_text hw hne (by rcases hsp with rfl | rfl <;> simp [isSpace])]
  have := readVec_text hv hl (pre := sp ++ ['\n']) (by rcases hsp with rfl | rfl <;> decide) more
  rw [List.append_assoc] at this
  exact this

theorem readVecs_text {name sep : String} (hn : ∀ c ∈ name.toList, isSpace c = false) {sp : List Char}
    (hs : sep.toList = ':' :: sp) (hsp : sp = [] ∨ sp = [' ']) (vs old : List (List F32)) (c : Nat)
    (hv : ∀ v ∈ vs, (∀ x ∈ v, Finite x) ∧ v ≠ []) (hl : old.map List.length = vs.map List.length) (more : List Char) :
    readVecs old (some (vecsText name sep c vs ++ more)) = (vs.map (List.map back), some more) := by
  induction vs generalizing old c with
  | nil =>
    cases old with
    | nil => rfl
    | cons a l => simp at hl
  | cons v vs ih =>
    cases old with
    | nil => simp at hl
    | cons a l =>
      simp only [List.map_cons, List.cons.injEq] at hl
      have hw : ∀ d ∈ name.toList ++ "[".toList ++ showInt c ++ "]:".toList, isSpace d = false := by
        intro d hd
        simp only [List.mem_append] at hd
        rcases hd with ((hd | hd) | hd) | hd
        · exact hn d hd
        · revert hd d
          decide
        · rw [showInt_nat] at hd
          exact (digit_plain (digits_decText c d hd)).1
        · revert hd d
          decide
      have hone := readOne (old := a) (hv v List.mem_cons_self).1 hl.1 (hv v List.mem_cons_self).2 hw (by simp) hsp
        (vecsText name sep (c + 1) vs ++ more)
      have e : vecsText name sep c (v :: vs) ++ more = (name.toList ++ "[".toList ++ showInt c ++ "]:".toList) ++
          (sp ++ (vecText v ++ "\n".toList ++ (vecsText name sep (c + 1) vs ++ more))) := by
        have e1 : "]:".toList = "]".toList ++ [':'] := by decide
        rw [vecsText, hs, e1]
        simp
      rw [readVecs, e, hone]
      dsimp only
      rw [ih l (c + 1) (fun u hu => hv u (List.mem_cons_of_mem _ hu)) hl.2]
      rfl

theorem ne_nil_of_map {vs : List (List F32)} {n d : Nat} (h : vs.map List.length = List.replicate n d) (hd : 1 ≤ d) :
    ∀ v ∈ vs, v ≠ [] := by
  rintro v hv rfl
  have : (List.length ([] : List F32)) ∈ vs.map List.length := List.mem_map_of_mem hv
  rw [h, List.mem_replicate] at this
  simp at this
  omega

/-- The vectors are read as they were written, up to printing. -/
theorem readParams_text {m m0 : M} (hm : Savable m) (hs : Shaped m0) (hc : m0.cls = m.cls) (hn : m0.classNum = m.classNum)
    (hd : m0.dim = m.dim) :
    readParams m0 (some (paramText m)) =
      { m0 with w := m.w.map (List.map back), scale := m.scale.map (List.map back), sum := m.sum.map (List.map back),
                X := m.X.map back } := by
  obtain ⟨v1, v2, v3, v4⟩ := hm.vectors
  have hs1 := hm.shape
  have lw : m0.w.map List.length = m.w.map List.length := by rw [hs.w, hs1.w, hn, hd]
  have lsc : m0.scale.map List.length = m.scale.map List.length := by rw [hs.scale, hs1.scale, hn, hd, hc]
  have lsu : m0.sum.map List.length = m.sum.map List.length := by rw [hs.sum, hs1.sum, hn, hd, hc]
  have lX : m0.X.length = m.X.length := by rw [hs.X, hs1.X, hd, hc]
  have e1 := readVecs_text (name := "weight") (sep := ":") (by decide) (sp := []) (by decide) (.inl rfl) m.w m0.w 0
    (fun v hv => ⟨v1 v hv, ne_nil_of_map hs1.w hs1.dim v hv⟩) lw
  have e2 : ∀ more, (if hasScale m.cls then readVecs m0.scale (some ((if hasScale m.cls then
      vecsText (scaleName m.cls) ": " 0 m.scale else []) ++ more)) else (m0.scale, some ((if hasScale m.cls then
      vecsText (scaleName m.cls) ": " 0 m.scale else []) ++ more))) = (m.scale.map (List.map back), some more) := by
    intro more
    by_cases h : hasScale m.cls = true
    · rw [if_pos h, if_pos h]
      have hsc := hs1.scale
      rw [if_pos h] at hsc
      exact readVecs_text (by cases m.cls <;> decide) (sp := [' ']) (by decide) (.inr rfl) m.scale m0.scale 0
        (fun v hv => ⟨v2 v hv, ne_nil_of_map hsc hs1.dim v hv⟩) lsc more
    · rw [if_neg h, if_neg h]
      have hsc := hs1.scale
      rw [if_neg h, List.map_eq_nil_iff] at hsc
      have hsc0 := hs.scale
      rw [hc, if_neg h, List.map_eq_nil_iff] at hsc0
      rw [hsc, hsc0]
      rfl
  have e3 : ∀ more, (if m.cls = .sop then readVec m0.X (readWord (some ((if m.cls = .sop then
      "X: ".toList ++ vecText m.X ++ "\n".toList else []) ++ more))) else (m0.X, some ((if m.cls = .sop then
      "X: ".toList ++ vecText m.X ++ "\n".toList else []) ++ more))) = (m.X.map back, some more) := by
    intro more
    by_cases h : m.cls = .sop
    · rw [if_pos h, if_pos h]
      have hX := hs1.X
      rw [if_pos h] at hX
      have hX0 : m.X ≠ [] := by
        intro h0
        rw [h0] at hX
        have := hs1.dim
        simp at hX
        omega
      have := readOne (old := m0.X) v4 lX hX0 (word := "X:".toList) (sp := [' ']) (by decide) (by decide) (.inr rfl) more
      have e : "X: ".toList ++ vecText m.X ++ "\n".toList ++ more =
          "X:".toList ++ ([' '] ++ (vecText m.X ++ "\n".toList ++ more)) := by
        rw [show "X: ".toList = "X:".toList ++ [' '] by decide]
        simp
      rw [e]
      exact this
    · rw [if_neg h, if_neg h]
      have hX := hs1.X
      rw [if_neg h, List.length_eq_zero_iff] at hX
      have hX0 := hs.X
      rw [hc, if_neg h, List.length_eq_zero_iff] at hX0
      rw [hX, hX0]
      rfl
  have e4 : (if hasSum m.cls then readVecs m0.sum (some (if hasSum m.cls then
      vecsText (if m.cls = .sop then "v" else "ut") ": " 0 m.sum else [])) else (m0.sum, some (if hasSum m.cls then
      vecsText (if m.cls = .sop then "v" else "ut") ": " 0 m.sum else []))) = (m.sum.map (List.map back), some []) := by
    by_cases h : hasSum m.cls = true
    · rw [if_pos h, if_pos h]
      have hsu := hs1.sum
      rw [if_pos h] at hsu
      have := readVecs_text (name := if m.cls = .sop then "v" else "ut") (sep := ": ") (by split_ifs <;> decide) (sp := [' '])
        (by decide) (.inr rfl) m.sum m0.sum 0 (fun v hv => ⟨v3 v hv, ne_nil_of_map hsu hs1.dim v hv⟩) lsu []
      rwa [List.append_nil] at this
    · rw [if_neg h, if_neg h]
      have hsu := hs1.sum
      rw [if_neg h, List.map_eq_nil_iff] at hsu
      have hsu0 := hs.sum
      rw [hc, if_neg h, List.map_eq_nil_iff] at hsu0
      rw [hsu, hsu0]
      rfl
  unfold readParams paramText
  rw [e1]
  dsimp only
  rw [hc, e2]
  dsimp only
  rw [e3]
  dsimp only
  rw [e4]

/-! ### The settings -/

/-- A setting after it was printed and read. -/
def Tok.back : Tok → Tok
  | .real x => .real (Params.back x)
  | x => x

theorem num_ok {m : M} {v : List Char} {x : F32} {f : F32 → M × End} (h : stof v = .ok x) : num m v f = f x := by
  simp only [num, h]

theorem int_ok {m : M} {v r : List Char} {n : Int} {f : Int → M × End} (h : stoi v = .ok (n, r)) : int m v f = f n := by
  simp only [int, h]

theorem stoi_showInt {n : Int} (h1 : -2147483648 ≤ n) (h2 : n ≤ 2147483647) : stoi (showInt n) = .ok (n, []) :=
  Arrays.stoInt_int h1 h2

theorem stof_showInt {n : Nat} (h : n ≤ 2147483647) : ∃ x, stof (showInt n) = .ok x := by
  obtain ⟨c, ds, h1, h2⟩ := decText_cons n
  have hd : (decText n).dropWhile isSpace = decText n := by
    rw [h1, List.dropWhile_cons_of_neg (by rw [(digit_plain h2).1]; simp)]
  have hs := scanDec_literal (sgn := []) (ds := decText n) (ft := []) (fs := []) (et := []) (es := []) (rest := []) (s := 1)
    (sx := 1) .none (digits_decText n) (by rw [h1]; simp) .none .none (by simp [Stop])
  simp only [List.nil_append, List.append_nil] at hs
  have hv : Props.literalValue 1 (decText n) [] 1 [] = n := by
    have := decVal_decText n
    rw [Props.literalValue]
    simp only [List.append_nil, this, List.length_nil]
    simp [show decVal [] = 0 from rfl]
  rw [hv] at hs
  rw [showInt_nat]
  unfold stof
  rw [hd]
  simp only [hs]
  by_cases h0 : n = 0
  · subst h0
    refine ⟨.fin 0, ?_⟩
    rw [Nat.cast_zero, F32.round_zero]
    simp
  · have hp : (1 : ℚ) ≤ n := by exact_mod_cast Nat.one_le_iff_ne_zero.2 h0
    have hle : (n : ℚ) ≤ 2147483647 := by exact_mod_cast h
    obtain ⟨r, hr, _⟩ := round_facts (d := (n : ℚ)) (by linarith) (by linarith)
    refine ⟨.fin r, ?_⟩
    rw [hr, abs_of_nonneg (by linarith)]
    have : ¬ ((n : ℚ) < 1 / 2 ^ 126) := by
      have : (1 : ℚ) / 2 ^ 126 ≤ 1 := by norm_num
      linarith
    simp only [reduceCtorEq, or_self, if_false, this, false_and]

theorem ordinary_stof {x : F32} (h : Ordinary x) : ∃ v, (Tok.real x).text = some v ∧ stof v = .ok (back x) := by
  obtain ⟨q, rfl, h1, h2⟩ := h
  exact ⟨_, rfl, stof_put h1 h2⟩

theorem fin_le {a b : ℚ} : (F32.fin a ≤? F32.fin b) = true ↔ a ≤ b := by
  change (F32.lt (.fin a) (.fin b) || F32.eq (.fin a) (.fin b)) = true ↔ _
  simp [F32.lt, F32.eq, le_iff_lt_or_eq]

theorem fin_lt {a b : ℚ} : (F32.fin a <? F32.fin b) = true ↔ a < b := by
  change decide (a < b) = true ↔ _
  simp

theorem ordinary_nonneg {x : F32} (h : Ordinary x) (h0 : (0 : F32) ≤? x) : (0 : F32) ≤? back x := by
  obtain ⟨q, rfl, h1, h2⟩ := h
  obtain ⟨r, hr, e, _⟩ := reread_facts h1
  rw [back, hr]
  exact fin_le.2 (e (fin_le.1 h0))

theorem ordinary_pos {x : F32} (h : Ordinary x) (h0 : (0 : F32) <? x) : (0 : F32) <? back x := by
  obtain ⟨q, rfl, h1, h2⟩ := h
  obtain ⟨r, hr, _, e, _⟩ := reread_facts h1
  have h0' : 0 < q := fin_lt.1 h0
  rw [abs_of_pos h0'] at h2
  rw [back, hr]
  exact fin_lt.2 (e (h2.resolve_left h0'.ne'))

theorem ordinary_le_one {x : F32} (h : Ordinary x) (h0 : (0 : F32) <? x) (h1 : x ≤? (1 : F32)) : back x ≤? (1 : F32) := by
  obtain ⟨q, rfl, h1', h2⟩ := h
  obtain ⟨r, hr, _, _, e, _⟩ := reread_facts h1'
  have h0' : 0 < q := fin_lt.1 h0
  rw [back, hr]
  exact fin_le.2 (e h0'.le (fin_le.1 h1))

theorem ordinary_one_le {x : F32} (h : Ordinary x) (h0 : (1 : F32) ≤? x) : (1 : F32) ≤? back x ∧ (0 : F32) <? back x := by
  obtain ⟨q, rfl, h1, h2⟩ := h
  obtain ⟨r, hr, _, _, _, e⟩ := reread_facts h1
  have := e (fin_le.1 h0)
  rw [back, hr]
  exact ⟨fin_le.2 this, fin_lt.2 (by linarith)⟩

section accept
variable {m : M} {v r : List Char} {x : F32} {n : Int}

local macro "each_class" hc:ident "[" es:Lean.Parser.Tactic.simpLemma,* "]" : tactic =>
  `(tactic| (cases hm : Params.M.cls m <;> simp [own, hm] at $hc:ident <;> (simp [set, hm, ogdSet, stgSet, paSet, almaSet, arowSet, cwSet, rdaSet, erdaSet, sopSet, adaSet, fofsSet, ofB, check, $es,*])))

theorem acc_C (hc : (own m "C").isSome) (h : stof v = .ok x) : (set files m "C" v).2 = .accepted := by
  each_class hc [num_ok h]
theorem acc_a (hc : (own m "a").isSome) (h : stof v = .ok x) : (set files m "a" v).2 = .accepted := by
  each_class hc [num_ok h]
theorem acc_r (hc : (own m "r").isSome) (h : stof v = .ok x) : (set files m "r" v).2 = .accepted := by
  each_class hc [num_ok h]
theorem acc_phi (hc : (own m "phi").isSome) (h : stof v = .ok x) : (set files m "phi" v).2 = .accepted := by
  each_class hc [num_ok h]
theorem acc_alpha (hc : (own m "alpha").isSome) (h : stof v = .ok x) (h0 : (0 : F32) <? x) (h1 : x ≤? (1 : F32)) :
    (set files m "alpha" v).2 = .accepted := by
  each_class hc [num_ok h, h0, h1]
theorem acc_delta (hc : (own m "delta").isSome) (h : stof v = .ok x) (h0 : (0 : F32) <? x) :
    (set files m "delta" v).2 = .accepted := by
  each_class hc [num_ok h, h0]
theorem acc_eta (hc : (own m "eta").isSome) (h : stof v = .ok x) (h0 : (0 : F32) ≤? x) :
    (set files m "eta" v).2 = .accepted := by
  each_class hc [num_ok h, h0]
theorem acc_powerT (hc : (own m "power_t").isSome) (h : stof v = .ok x) (h0 : (0 : F32) ≤? x) :
    (set files m "power_t" v).2 = .accepted := by
  each_class hc [num_ok h, h0]
theorem acc_rou (hc : (own m "rou").isSome) (h : stof v = .ok x) (h0 : (0 : F32) ≤? x) :
    (set files m "rou" v).2 = .accepted := by
  each_class hc [num_ok h, h0]
theorem acc_lambda (hc : (own m "lambda").isSome) (h : stof v = .ok x) (h0 : (0 : F32) ≤? x) :
    (set files m "lambda" v).2 = .accepted := by
  each_class hc [num_ok h, h0]
theorem acc_sigma (hc : (own m "sigma").isSome) (h : stof v = .ok x) (h0 : (0 : F32) <? x) :
    (set files m "sigma" v).2 = .accepted := by
  each_class hc [num_ok h, h0]
theorem acc_k (hc : (own m "k").isSome) (h : stoi v = .ok (n, r)) (h0 : 0 < n) : (set files m "k" v).2 = .accepted := by
  each_class hc [int_ok h, h0]
theorem acc_p (hc : (own m "p").isSome) (h : stoi v = .ok (n, r)) (h0 : n ≠ -2147483648) : (set files m "p" v).2 = .accepted := by
  each_class hc [int_ok h, h0]
theorem acc_B (hc : (own m "B").isSome) (h : stoi v = .ok (n, r)) (h0 : 0 < (n % 4294967296).toNat) :
    (set files m "B" v).2 = .accepted := by
  simp only [Int.lt_toNat, Nat.cast_zero] at h0
  each_class hc [int_ok h, h0]

/-- Names that only `OnlineModel` handles. -/
theorem set_common (files : List Char → Option (List Char)) (m : M) (v : List Char) {k : String}
    (hk : k ∈ ["t", "dim", "lazy_update", "active_smoothness", "cost_margin"]) :
    set files m k v = onlineSet files m k v := by
  have hne : ∀ j ∈ ["power_t", "eta", "k", "C", "p", "alpha", "loss", "norm", "r", "a", "phi", "bias_eta", "sigma", "rou", "delta",
      "lambda", "B"], k ≠ j := by
    rintro j hj rfl
    simp only [List.mem_cons, List.not_mem_nil, or_false] at hk
    rcases hk with rfl | rfl | rfl | rfl | rfl <;> revert hj <;> decide
  simp only [List.forall_mem_cons, List.not_mem_nil, false_implies, implies_true, and_true] at hne
  obtain ⟨h1, h2, h3, h4, h5, h6, h7, h8, h9, h10, h11, h12, h13, h14, h15, h16, h17⟩ := hne
  unfold set
  split <;> simp only [perceptronSet, ogdSet, stgSet, paSet, almaSet, arowSet, cwSet, rdaSet, erdaSet, sopSet, adaSet, fofsSet, ofB,
    h1, h2, h3, h4, h5, h6, h7, h8, h9, h10, h11, h12, h13, h14, h15, h16, h17, if_false]

theorem acc_bias (h : stof v = .ok x) (h0 : (0 : F32) ≤? x) : (set files m "bias_eta" v).2 = .accepted := by
  have ho : (onlineSet files m "bias_eta" v).2 = .accepted := by
    rw [online_bias, num_ok h]
    simp [check, h0]
  unfold set
  split <;> simp [perceptronSet, ogdSet, stgSet, paSet, almaSet, arowSet, cwSet, rdaSet, erdaSet, sopSet, adaSet, fofsSet, ofB,
    andThen, ho]

theorem acc_t (h : stoi v = .ok (n, r)) (h0 : 0 ≤ n) (hx : ∃ y, stof v = .ok y) : (set files m "t" v).2 = .accepted := by
  obtain ⟨y, hy⟩ := hx
  rw [set_common files m v (by decide), online_t, int_ok h, if_pos h0, regSet_t0_eq]
  by_cases hl : regOf m.cls = .lazyL1
  · rw [if_pos hl]
    dsimp only
    rw [num_ok hy]
  · rw [if_neg hl]

theorem acc_dim (h : stoi v = .ok (n, r)) : (set files m "dim" v).2 = .accepted := by
  rw [set_common files m v (by decide), online_dim, int_ok h]

theorem acc_lazy : (set files m "lazy_update" v).2 = .accepted := by
  rw [set_common files m v (by decide), online_lazy]

theorem acc_smooth (h : stof v = .ok x) (h0 : (0 : F32) <? x) : (set files m "active_smoothness" v).2 = .accepted := by
  rw [set_common files m v (by decide), online_smooth, num_ok h]
  simp [check, h0]

theorem acc_cost (hn : m.classNum = 2) (h : stof v = .ok x) (h0 : (0 : F32) <? x) :
    (set files m "cost_margin" v).2 = .accepted := by
  rw [set_common files m v (by decide), online_cost, if_neg (by simp [M.clf, hn]), num_ok h]
  simp [h0]

end accept

/-! ### One setting -/

theorem own_isSome {m m0 : M} (hc : m0.cls = m.cls) {k : String} (h : (own m k).isSome) : (own m0 k).isSome := by
  unfold own at h ⊢
  rw [hc]
  split at h <;> first | (cases h; done) | (split_ifs at h ⊢ <;> first | rfl | cases h)

/-- Names that the classes add. -/
def ownNames : List String := ["B", "C", "a", "alpha", "delta", "eta", "k", "lambda", "p", "phi", "power_t", "r", "rou", "sigma"]

theorem online_own {m : M} {k : String} (h : k ∈ ownNames) : online m k = own m k := by
  have hne : ∀ j ∈ ["bias_eta", "t", "dim", "lazy_update", "active_smoothness", "cost_margin"], k ≠ j := by
    rintro j hj rfl
    revert hj h
    simp only [ownNames, List.mem_cons, List.not_mem_nil, or_false]
    rintro (rfl | rfl | rfl | rfl | rfl | rfl | rfl | rfl | rfl | rfl | rfl | rfl | rfl | rfl) <;> decide
  simp only [List.forall_mem_cons, List.not_mem_nil, false_implies, implies_true, and_true] at hne
  obtain ⟨h1, h2, h3, h4, h5, h6⟩ := hne
  simp only [online, common, h1, h2, h3, h4, h5, h6, if_false]

theorem own_none {m : M} {k : String} (h : k ∉ ownNames) : own m k = none := by
  simp only [ownNames, List.mem_cons, List.not_mem_nil, or_false, not_or] at h
  obtain ⟨h1, h2, h3, h4, h5, h6, h7, h8, h9, h10, h11, h12, h13, h14⟩ := h
  unfold own
  split <;> simp only [h1, h2, h3, h4, h5, h6, h7, h8, h9, h10, h11, h12, h13, h14, if_false]

/-- What `info` reports is what `online` holds, but for the weight of the regularizer. -/
theorem info_online {m : M} {k : String} (hk : k ∈ keys) (h : k = "lambda" → regOf m.cls = .none) : info m k = online m k := by
  have hne : ∀ j ∈ ["model", "cls_num", "clf_num", "loss", "norm"], k ≠ j := by
    rintro j hj rfl
    revert hj hk
    simp only [keys, List.mem_cons, List.not_mem_nil, or_false]
    rintro (rfl | rfl | rfl | rfl | rfl | rfl | rfl | rfl | rfl | rfl | rfl | rfl | rfl | rfl | rfl | rfl | rfl | rfl | rfl | rfl) <;>
      decide
  simp only [List.forall_mem_cons, List.not_mem_nil, false_implies, implies_true, and_true] at hne
  obtain ⟨h1, h2, h3, h4, h5⟩ := hne
  have h6 : ¬ (k = "lambda" ∧ regOf m.cls ≠ .none) := by
    rintro ⟨h6, h7⟩
    exact h7 (h h6)
  simp only [info, h1, h2, h3, h4, h5, h6, if_false]

theorem online_lambda {m : M} {x : Tok} (h : online m "lambda" = some x) : m.cls = .fofs := by
  rw [online_own (by decide)] at h
  cases hc : m.cls <;> simp [own, hc] at h
  rfl

theorem info_of_online {m : M} {k : String} {x : Tok} (hk : k ∈ keys) (h : online m k = some x) : info m k = some x := by
  rw [info_online hk, h]
  rintro rfl
  rw [online_lambda h]
  rfl

theorem own_B {m : M} (h : (own m "B").isSome) : m.cls = .fofs := by
  cases hc : m.cls <;> simp [own, hc] at h
  rfl

theorem target_self {m : M} {k : String} (h : k = "B" → m.cls = .fofs) : target m.cls k = k := by
  unfold target
  rw [if_neg]
  rintro ⟨h1, h2⟩
  rw [h h2] at h1
  simp at h1

section step
variable {m m0 : M}

/-- Setting the printed value is accepted and gives the value that the text stands for. -/
def Step (files : List Char → Option (List Char)) (m0 : M) (k : String) (x : Tok) : Prop :=
  ∃ v, x.text = some v ∧ (set files m0 k v).2 = .accepted ∧ Took m0 v k (set files m0 k v).1 ∧
    info (set files m0 k v).1 k = some x.back

theorem step_real {k : String} {y : F32} (hr : k ∈ realNames) (hy : Ordinary y)
    (ha : ∀ v, stof v = .ok (back y) → (set files m0 k v).2 = .accepted) : Step files m0 k (.real y) := by
  obtain ⟨v, h1, h2⟩ := ordinary_stof hy
  have hs := set_took (ha v h2)
  rw [target_self (by rintro rfl; exact absurd hr (by decide))] at hs
  obtain ⟨x, h3, h4⟩ := took_real hs hr
  rw [h2] at h3
  cases h3
  exact ⟨v, h1, ha v h2, hs, h4⟩

theorem step_int {k : String} {n : Int} (hr : k ∈ ["t", "k", "p"]) (h1 : -2147483648 ≤ n) (h2 : n ≤ 2147483647)
    (ha : stoi (showInt n) = .ok (n, []) → (set files m0 k (showInt n)).2 = .accepted) : Step files m0 k (.int n) := by
  have hi := stoi_showInt h1 h2
  have hs := set_took (ha hi)
  rw [target_self (by rintro rfl; exact absurd hr (by decide))] at hs
  obtain ⟨x, r, h3, h4⟩ := took_int hs hr
  rw [hi] at h3
  cases h3
  exact ⟨_, rfl, ha hi, hs, h4⟩

theorem own_vals {k : String} {x : Tok} (h : own m k = some x) :
    (k = "C" → x = .real m.C) ∧ (k = "a" → x = .real m.a) ∧ (k = "alpha" → x = .real m.alpha) ∧ (k = "delta" → x = .real m.delta) ∧
    (k = "eta" → x = .real m.eta) ∧ (k = "k" → x = .int m.k) ∧ (k = "lambda" → x = .real m.fofsLambda) ∧ (k = "p" → x = .int m.p) ∧
    (k = "phi" → x = .real m.phi) ∧ (k = "power_t" → x = .real m.powerT) ∧ (k = "r" → x = .real m.r) ∧
    (k = "rou" → x = .real m.rou) ∧ (k = "sigma" → x = .real m.sigma) ∧ (k = "B" → x = .int m.fofsB) := by
  unfold own at h
  split at h <;> first | (cases h; done) | (split_ifs at h <;> (cases h; subst_vars; simp))

theorem own_step (hm : Savable m) (hc : m0.cls = m.cls) {k : String} (hk : k ∈ ownNames) {x : Tok} (hx : online m k = some x) :
    Step files m0 k x := by
  have hi := info_of_online (by revert hk; simp only [ownNames, keys, List.mem_cons, List.not_mem_nil, or_false]; tauto) hx
  rw [online_own hk] at hx
  have ho : (own m0 k).isSome := own_isSome hc (by rw [hx]; rfl)
  have hv := own_vals hx
  simp only [ownNames, List.mem_cons, List.not_mem_nil, or_false] at hk
  rcases hk with rfl | rfl | rfl | rfl | rfl | rfl | rfl | rfl | rfl | rfl | rfl | rfl | rfl | rfl
  · obtain rfl := hv.2.2.2.2.2.2.2.2.2.2.2.2.2 rfl
    obtain ⟨h1, h2⟩ := hm.fofsB (by rw [← hc]; exact own_B ho)
    have hi := stoi_showInt (n := (m.fofsB : Int)) (by omega) (by omega)
    have ha := acc_B (files := files) ho hi (by omega)
    have hs := set_took ha
    rw [target_self (fun _ => own_B ho)] at hs
    obtain ⟨x, r, h3, h4⟩ := took_B hs rfl
    rw [hi] at h3
    cases h3
    rw [Int.emod_eq_of_lt (by omega) (by omega)] at h4
    exact ⟨_, rfl, ha, hs, h4⟩
  · obtain rfl := hv.1 rfl
    exact step_real (by decide) (hm.ordinary _ _ hi) fun v h => acc_C ho h
  · obtain rfl := hv.2.1 rfl
    exact step_real (by decide) (hm.ordinary _ _ hi) fun v h => acc_a ho h
  · obtain rfl := hv.2.2.1 rfl
    have := hm.ordinary _ _ hi
    exact step_real (by decide) this fun v h =>
      acc_alpha ho h (ordinary_pos this hm.alpha.1) (ordinary_le_one this hm.alpha.1 hm.alpha.2)
  · obtain rfl := hv.2.2.2.1 rfl
    have := hm.ordinary _ _ hi
    exact step_real (by decide) this fun v h => acc_delta ho h (ordinary_pos this hm.delta)
  · obtain rfl := hv.2.2.2.2.1 rfl
    have := hm.ordinary _ _ hi
    exact step_real (by decide) this fun v h => acc_eta ho h (ordinary_nonneg this hm.eta)
  · obtain rfl := hv.2.2.2.2.2.1 rfl
    have := hm.k
    exact step_int (by decide) (by omega) this.2 fun h => acc_k ho h this.1
  · obtain rfl := hv.2.2.2.2.2.2.1 rfl
    have := hm.ordinary _ _ hi
    exact step_real (by decide) this fun v h => acc_lambda ho h (ordinary_nonneg this hm.fofsLambda)
  · obtain rfl := hv.2.2.2.2.2.2.2.1 rfl
    have := hm.p
    exact step_int (by decide) (by omega) this.2 fun h => acc_p ho h (by omega)
  · obtain rfl := hv.2.2.2.2.2.2.2.2.1 rfl
    exact step_real (by decide) (hm.ordinary _ _ hi) fun v h => acc_phi ho h
  · obtain rfl := hv.2.2.2.2.2.2.2.2.2.1 rfl
    have := hm.ordinary _ _ hi
    exact step_real (by decide) this fun v h => acc_powerT ho h (ordinary_nonneg this hm.powerT)
  · obtain rfl := hv.2.2.2.2.2.2.2.2.2.2.1 rfl
    exact step_real (by decide) (hm.ordinary _ _ hi) fun v h => acc_r ho h
  · obtain rfl := hv.2.2.2.2.2.2.2.2.2.2.2.1 rfl
    have := hm.ordinary _ _ hi
    exact step_real (by decide) this fun v h => acc_rou ho h (ordinary_nonneg this hm.rou)
  · obtain rfl := hv.2.2.2.2.2.2.2.2.2.2.2.2.1 rfl
    have := hm.ordinary _ _ hi
    exact step_real (by decide) this fun v h => acc_sigma ho h (ordinary_pos this hm.sigma)

theorem info_lazy (m : M) : info m "lazy_update" = some (.str (if m.lazy then "true".toList else "false".toList)) := by
  simp [info, online, common]

theorem info_smooth (m : M) : info m "active_smoothness" = if (1 : F32) ≤? m.smooth then some (.real m.smooth) else none := by
  have h : own m "active_smoothness" = none := own_none (by decide)
  have hc : common m "active_smoothness" = if (1 : F32) ≤? m.smooth then some (.real m.smooth) else none := by
    unfold common
    rw [if_neg (by decide), if_neg (by decide), if_neg (by decide), if_neg (by decide), if_pos rfl]
  rw [info_online (by decide) (fun h => absurd h (by decide)), online, hc]
  generalize ((1 : F32) ≤? m.smooth) = b
  cases b
  · exact h
  · rfl

theorem key_step (hm : Savable m) (hc : m0.cls = m.cls) (hn : m0.classNum = m.classNum) (hd : m0.dim ≤ m.dim) {k : String}
    (hk : k ∈ keys) {x : Tok} (hx : online m k = some x) : Step files m0 k x := by
  by_cases hown : k ∈ ownNames
  · exact own_step hm hc hown hx
  have hi := info_of_online hk hx
  have hcase : k = "bias_eta" ∨ k = "t" ∨ k = "dim" ∨ k = "lazy_update" ∨ k = "active_smoothness" ∨ k = "cost_margin" := by
    revert hk hown
    simp only [ownNames, keys, List.mem_cons, List.not_mem_nil, or_false]
    tauto
  have hx' : common m k = some x := by
    unfold online at hx
    rw [own_none hown] at hx
    cases hcm : common m k with
    | none => rw [hcm] at hx; cases hx
    | some y => rw [hcm] at hx; exact hx
  have ht : ∀ {v}, (set files m0 k v).2 = .accepted → Took m0 v k (set files m0 k v).1 := fun h => by
    have := set_took h
    rwa [target_self (by rintro rfl; exact absurd hown (by decide))] at this
  rcases hcase with rfl | rfl | rfl | rfl | rfl | rfl
  · simp [common] at hx'
    subst hx'
    have := hm.ordinary _ _ hi
    exact step_real (by decide) this fun v h => acc_bias h (ordinary_nonneg this hm.bias)
  · simp [common] at hx'
    subst hx'
    have := hm.t
    refine step_int (by decide) (by omega) this.2 fun h => acc_t h this.1 ?_
    have := stof_showInt (n := m.t.toNat) (by omega)
    rwa [Int.toNat_of_nonneg hm.t.1] at this
  · simp [common] at hx'
    subst hx'
    have hdim := hm.dim
    have hi := stoi_showInt (n := (m.dim : Int)) (by omega) (by omega)
    have ha := acc_dim (m := m0) (files := files) hi
    have hs := ht ha
    obtain ⟨n, r, h3, h4⟩ := took_dim hs rfl
    rw [hi] at h3
    cases h3
    refine ⟨_, rfl, ha, hs, ?_⟩
    rw [Int.emod_eq_of_lt (by omega) (by omega), Int.toNat_natCast, max_eq_right hd] at h4
    simp [info, online, common, h4, Tok.back]
  · simp only [common, String.reduceEq, if_false, if_true, Option.some.injEq] at hx'
    subst hx'
    have ha := acc_lazy (m := m0) (files := files) (v := if m.lazy then "true".toList else "false".toList)
    have hs := ht ha
    exact ⟨_, rfl, ha, hs, by rw [info_lazy, took_lazy hs rfl]; cases m.lazy <;> decide⟩
  · have hx'' : (1 : F32) ≤? m.smooth ∧ x = .real m.smooth := by
      simp only [common, String.reduceEq, if_false, if_true] at hx'
      split_ifs at hx' with h1
      cases hx'
      exact ⟨h1, rfl⟩
    obtain ⟨h1, rfl⟩ := hx''
    have ho := hm.ordinary _ _ hi
    obtain ⟨v, e1, e2⟩ := ordinary_stof ho
    have hb := ordinary_one_le ho h1
    have ha := acc_smooth (m := m0) (files := files) e2 hb.2
    have hs := ht ha
    have h4 := took_smooth hs rfl
    rw [e2] at h4
    have h4 := Except.ok.inj h4
    refine ⟨v, e1, ha, hs, ?_⟩
    rw [info_smooth, ← h4, if_pos hb.1]
    rfl
  · simp [common] at hx'
    obtain ⟨h1, rfl⟩ := hx'
    have ho := hm.ordinary _ _ hi
    have hcost := hm.cost h1
    exact step_real (by decide) ho fun v h => acc_cost (by rw [hn]; exact hcost.1) h (ordinary_pos ho hcost.2)

end step

/-! ### All settings -/

theorem map_length_grow (vs : List (List F32)) (c d n : Nat) (x : F32) (h : vs.map List.length = List.replicate c d) (hd : d ≤ n) :
    (vs.map (growTo n x)).map List.length = List.replicate c n := by
  rw [List.map_map]
  have : ∀ v ∈ vs, v.length = d := fun v hv => by
    have : v.length ∈ vs.map List.length := List.mem_map_of_mem hv
    rw [h] at this
    exact (List.mem_replicate.1 this).2
  have hl : vs.length = c := by
    have := congrArg List.length h
    simpa using this
  rw [List.eq_replicate_iff]
  refine ⟨by simpa using hl, fun b hb => ?_⟩
  rw [List.mem_map] at hb
  obtain ⟨v, hv, rfl⟩ := hb
  have := this v hv
  simp [growTo]
  omega

theorem fill_length (x : F32) (vs : List (List F32)) : (fill x vs).map List.length = vs.map List.length := by
  simp [fill, Function.comp_def]

theorem took_shaped {m m' : M} {v : List Char} {name : String} (h : Took m v name m') (hs : Shaped m) : Shaped m' := by
  cases h with
  | dim n r h =>
    unfold updateDim
    by_cases hd : m.dim < (n % 4294967296).toNat
    · rw [if_pos hd]
      refine ⟨by have := hs.dim; dsimp only; omega, map_length_grow _ _ _ _ _ hs.w hd.le, ?_, ?_, ?_⟩
      · have := hs.scale
        dsimp only
        split_ifs at this ⊢
        · exact map_length_grow _ _ _ _ _ this hd.le
        · rw [List.map_eq_nil_iff] at this
          rw [this]
          rfl
      · have := hs.sum
        dsimp only
        split_ifs at this ⊢
        · exact map_length_grow _ _ _ _ _ this hd.le
        · rw [List.map_eq_nil_iff] at this
          rw [this]
          rfl
      · have := hs.X
        have h1 := hs.dim
        dsimp only
        by_cases hc : m.cls = .sop
        · rw [if_pos hc] at this ⊢
          rw [if_neg (by intro h0; rw [h0] at this; simp at this; omega)]
          simp [growTo]
          omega
        · rw [if_neg hc] at this ⊢
          rw [if_pos (List.length_eq_zero_iff.1 this)]
          rfl
    · rw [if_neg hd]
      exact hs
  | aCw x h hc => exact ⟨hs.dim, hs.w, (fill_length _ _).trans hs.scale, hs.sum, hs.X⟩
  | delta x h _ hc => exact ⟨hs.dim, hs.w, (fill_length _ _).trans hs.scale, hs.sum, hs.X⟩
  | _ => exact ⟨hs.dim, hs.w, hs.scale, hs.sum, hs.X⟩

theorem info_dim (m : M) : info m "dim" = some (.int m.dim) := by
  simp [info, online, common]

theorem setAll_keys {m : M} (hm : Savable m) (ks : List String) (hks : ∀ k ∈ ks, k ∈ keys) (hnd : ks.Nodup) (m0 : M)
    (hc : m0.cls = m.cls) (hn : m0.classNum = m.classNum) (hd : m0.dim ≤ m.dim) (hs : Shaped m0) :
    ∃ vs m1, texts (ks.filterMap fun k => (online m k).map fun x => (k, x)) = some vs ∧ setAll files m0 vs = (m1, .accepted) ∧
      m1.cls = m.cls ∧ m1.classNum = m.classNum ∧ m1.dim ≤ m.dim ∧ Shaped m1 ∧
      (∀ k ∈ ks, ∀ x, online m k = some x → info m1 k = some x.back) ∧
      (∀ j, j ∉ ks ∨ online m j = none → info m1 j = info m0 j) := by
  induction ks generalizing m0 with
  | nil => exact ⟨[], m0, rfl, rfl, hc, hn, hd, hs, by simp, fun _ _ => rfl⟩
  | cons k ks ih =>
    rw [List.nodup_cons] at hnd
    have hks' : ∀ j ∈ ks, j ∈ keys := fun j hj => hks j (List.mem_cons_of_mem _ hj)
    cases hx : online m k with
    | none =>
      obtain ⟨vs, m1, e1, e2, e3, e4, e5, e6, e7, e8⟩ := ih hks' hnd.2 m0 hc hn hd hs
      refine ⟨vs, m1, by rw [List.filterMap_cons, hx]; exact e1, e2, e3, e4, e5, e6, ?_, ?_⟩
      · intro j hj x hjx
        rcases List.mem_cons.1 hj with rfl | hj
        · rw [hx] at hjx
          cases hjx
        · exact e7 j hj x hjx
      · rintro j (hj | hj)
        · exact e8 j (.inl fun h => hj (List.mem_cons_of_mem _ h))
        · exact e8 j (.inr hj)
    | some x =>
      obtain ⟨v, h1, h2, h3, h4⟩ := key_step (files := files) hm hc hn hd (hks k List.mem_cons_self) hx
      obtain ⟨hcls, hnum⟩ := took_cls h3
      have hdim : (set files m0 k v).1.dim ≤ m.dim := by
        by_cases hk : k = "dim"
        · subst hk
          rw [info_dim] at h4
          simp [online, common] at hx
          subst hx
          simp [Tok.back] at h4
          omega
        · have := took_info h3 (j := "dim") (Ne.symm hk)
          rw [info_dim, info_dim] at this
          simp at this
          omega
      obtain ⟨vs, m1, e1, e2, e3, e4, e5, e6, e7, e8⟩ := ih hks' hnd.2 (set files m0 k v).1 (hcls.trans hc) (hnum.trans hn) hdim
        (took_shaped h3 hs)
      refine ⟨(k, v) :: vs, m1, ?_, ?_, e3, e4, e5, e6, ?_, ?_⟩
      · rw [List.filterMap_cons, hx]
        simp only [Option.map_some, texts, h1, e1]
      · rw [setAll, andThen, if_pos h2, e2]
      · intro j hj y hjy
        rcases List.mem_cons.1 hj with rfl | hj
        · rw [e8 j (.inl hnd.1), h4]
          rw [hx] at hjy
          cases hjy
          rfl
        · exact e7 j hj y hjy
      · rintro j hj
        have hjk : j ≠ k := by
          rintro rfl
          rcases hj with hj | hj
          · exact hj List.mem_cons_self
          · rw [hx] at hj
            cases hj
        rw [e8 j (hj.imp (fun h h' => h (List.mem_cons_of_mem _ h')) id), took_info h3 hjk]

/-! ### The whole file -/

theorem shaped_fresh (c : Cls) (n : Int) : Shaped (fresh c n) := by
  refine ⟨Nat.le_refl 1, ?_, ?_, ?_, ?_⟩
  · simp [fresh]
  · simp only [fresh]
    split_ifs with h <;> simp [h]
  · simp only [fresh]
    split_ifs with h <;> simp [h]
  · simp only [fresh]
    split_ifs with h <;> simp [h]

theorem classNamed_modelName (c : Cls) : classNamed (modelName c).toList = some c := by
  cases c <;> decide

theorem lossNamed_lossName (k : Loss.Kind) : lossNamed (lossName k).toList = some k := by
  cases k <;> decide

theorem lossName_inj {k k' : Loss.Kind} (h : (lossName k).toList = (lossName k').toList) : k = k' := by
  have := lossNamed_lossName k
  rw [h, lossNamed_lossName] at this
  cases this
  rfl

theorem acc_loss {m : M} {k : Loss.Kind} (hn : 1 < m.classNum) (h : Admits m.cls m.classNum k) :
    (set files m "loss" (lossName k).toList).2 = .accepted := by
  obtain ⟨h1, h2, h3⟩ := h
  have ho : onlineSet files m "loss" (lossName k).toList = ({ m with loss := some k, hinge := false, reinit := true }, .accepted) := by
    rw [online_loss, lossNamed_lossName]
    dsimp only
    rw [if_pos]
    by_cases h : m.classNum = 2
    · rw [if_pos (by simp [M.clf, h])]
      rwa [if_pos h] at h1
    · rw [if_neg (by simp [M.clf, h]; omega)]
      rwa [if_neg h] at h1
  unfold set
  split <;> rename_i hc <;> rw [hc] at h2 h3
  all_goals simp only [List.mem_cons, List.not_mem_nil, or_false, reduceCtorEq, or_self, or_true, true_or, true_implies,
    false_implies, or_self] at h2 h3
  all_goals simp [perceptronSet, ogdSet, stgSet, paSet, almaSet, arowSet, cwSet, rdaSet, erdaSet, sopSet, adaSet, fofsSet, ofB,
    hingeLoss, boolLoss, andThen, ho, h2, h3]

theorem normVal_show (n : Norm) : normVal (showInt (normNum n)) = some (normNum n) := by
  cases n <;> decide

theorem acc_norm {m : M} {n : Norm} (h : m.cls = .alma2 → n = .l2) : (set files m "norm" (showInt (normNum n))).2 = .accepted := by
  have ho : onlineSet files m "norm" (showInt (normNum n)) = ({ m with norm := n }, .accepted) := by
    rw [online_norm, normVal_show]
    cases n
    · rfl
    · dsimp only
      rw [if_neg (by decide), if_pos (by decide)]
    · dsimp only
      rw [if_neg (by decide), if_neg (by decide), if_pos (by decide)]
  unfold set
  split <;> rename_i hc <;> rw [hc] at h
  all_goals simp [perceptronSet, ogdSet, stgSet, paSet, almaSet, arowSet, cwSet, rdaSet, erdaSet, sopSet, adaSet, fofsSet, ofB,
    andThen, ho, check]
  rw [if_pos (h rfl)]

theorem norm_of_text {n n' : Norm} (h : NormText (showInt (normNum n)) n') : n' = n := by
  revert h
  unfold NormText
  cases n <;> cases n' <;> decide

/-- How a state relates to another one that settings were put into. -/
structure Kept (m0 m1 : M) : Prop where
  cls : m1.cls = m0.cls
  classNum : m1.classNum = m0.classNum
  dim : m1.dim = m0.dim
  shaped : Shaped m0 → Shaped m1

theorem took_kept {m m' : M} {v : List Char} {name : String} (h : Took m v name m') (hn : name ≠ "dim") : Kept m m' := by
  refine ⟨(took_cls h).1, (took_cls h).2, ?_, took_shaped h⟩
  have := took_info h (j := "dim") (Ne.symm hn)
  rw [info_dim, info_dim] at this
  simpa using this

theorem target_other {c : Cls} {k : String} (h : k ≠ "B") : target c k = k := by
  simp [target, h]

theorem setModelInfo_ok {m : M} (hm : Savable m) : ∃ m1, setModelInfo files (fresh m.cls m.classNum) (save m)
    (((save m).lambda.map Tok.text).join) = (m1, .accepted) ∧ Kept (fresh m.cls m.classNum) m1 ∧ m1.loss = m.loss ∧
    m1.norm = m.norm ∧ (regOf m.cls ≠ .none → m1.lambda = back m.lambda) ∧
    (∀ j, j ≠ "loss" → j ≠ "norm" → (regOf m.cls ≠ .none → j ≠ "lambda") → info m1 j = info (fresh m.cls m.classNum) j) := by
  obtain ⟨k, hk, hadm⟩ := hm.loss
  -- the loss
  have s1 : ∃ m1, (if (fresh m.cls m.classNum).loss = none ∨ (save m).loss ≠ lossText (fresh m.cls m.classNum) then
      set files (fresh m.cls m.classNum) "loss" (save m).loss else (fresh m.cls m.classNum, .accepted)) = (m1, .accepted) ∧
      Kept (fresh m.cls m.classNum) m1 ∧ m1.loss = m.loss ∧ ∀ j, j ≠ "loss" → info m1 j = info (fresh m.cls m.classNum) j := by
    have hl : (save m).loss = (lossName k).toList := by simp [save, lossText, hk]
    split_ifs with h
    · have ha := acc_loss (files := files) (m := fresh m.cls m.classNum) hm.classNum hadm
      rw [hl]
      have ht := set_took ha
      rw [target_other (by decide)] at ht
      refine ⟨_, Prod.ext rfl ha, took_kept ht (by decide), ?_, fun j hj => took_info ht hj⟩
      obtain ⟨k', e1, e2⟩ := took_loss ht rfl
      rw [lossNamed_lossName] at e1
      cases e1
      rw [e2, hk]
    · refine ⟨_, rfl, ⟨rfl, rfl, rfl, id⟩, ?_, fun _ _ => rfl⟩
      push Not at h
      have h2 := h.2
      rw [hl] at h2
      rw [hk, lossName_inj (k := k) h2]
      rfl
  obtain ⟨m1, e1, k1, l1, i1⟩ := s1
  -- the norm
  have ha := acc_norm (files := files) (m := m1) (n := m.norm) (fun h => hm.norm (by rw [k1.cls] at h; exact h))
  have ht := set_took ha
  rw [target_other (by decide)] at ht
  have hnorm := norm_of_text (took_norm ht rfl)
  have k2 := took_kept ht (by decide)
  have l2 : (set files m1 "norm" (showInt (normNum m.norm))).1.loss = m1.loss := by
    generalize hnm : "norm" = name at ht
    generalize (set files m1 name (showInt (normNum m.norm))).1 = m2 at ht ⊢
    cases ht with
    | loss => exact absurd hnm (by decide)
    | dim => exact absurd hnm (by decide)
    | _ => rfl
  have i2 : ∀ j, j ≠ "norm" → info (set files m1 "norm" (showInt (normNum m.norm))).1 j = info m1 j := fun j hj => took_info ht hj
  generalize hm2 : (set files m1 "norm" (showInt (normNum m.norm))).1 = m2 at ha ht hnorm k2 l2 i2
  have hset : set files m1 "norm" (showInt (save m).norm) = (m2, .accepted) := Prod.ext hm2 ha
  have hcls : m2.cls = m.cls := k2.cls.trans k1.cls
  unfold setModelInfo
  rw [if_pos ⟨rfl, rfl, rfl⟩, e1]
  simp only [andThen, if_true, hset]
  by_cases hr : regOf m.cls = .none
  · refine ⟨m2, by simp [save, hr], ⟨k2.cls.trans k1.cls, k2.classNum.trans k1.classNum, k2.dim.trans k1.dim,
      fun h => k2.shaped (k1.shaped h)⟩, l2.trans l1, hnorm, fun h => absurd hr h, fun j h1 h2 _ => (i2 j h2).trans (i1 j h1)⟩
  · have hord : Ordinary m.lambda := hm.ordinary "lambda" m.lambda (by simp [info, hr])
    obtain ⟨v, h1, h2⟩ := ordinary_stof hord
    have hreg : regSet m2 "lambda" v = some ({ m2 with lambda := back m.lambda }, .accepted) := by
      rw [regSet_lambda, hcls, if_neg hr, num_ok h2]
    have htook : Took m2 v "lambda" { m2 with lambda := back m.lambda } := .lambda _ h2 (by rw [hcls]; exact hr)
    have k3 := took_kept htook (by decide)
    refine ⟨{ m2 with lambda := back m.lambda }, ?_, ⟨k3.cls.trans (k2.cls.trans k1.cls),
      k3.classNum.trans (k2.classNum.trans k1.classNum), k3.dim.trans (k2.dim.trans k1.dim),
      fun h => k3.shaped (k2.shaped (k1.shaped h))⟩, l2.trans l1, hnorm, fun _ => rfl,
      fun j h1 h2 h3 => (took_info htook (h3 hr)).trans ((i2 j h2).trans (i1 j h1))⟩
    have : ((save m).lambda.map Tok.text).join = some v := by
      simp only [save, hr, if_false, Option.map_some, h1, Option.join_some]
    rw [this]
    dsimp only
    rw [hreg]
    rfl

theorem info_none {m : M} {k : String} (hk : k ∉ keys) (h : k ∉ ["model", "cls_num", "clf_num", "loss", "norm"]) :
    info m k = none := by
  have hown : own m k = none := own_none fun h => hk (by
    revert h
    simp only [ownNames, keys, List.mem_cons, List.not_mem_nil, or_false]
    tauto)
  simp only [keys, List.mem_cons, List.not_mem_nil, or_false, not_or] at hk
  obtain ⟨a1, a2, a3, a4, a5, a6, a7, a8, a9, a10, a11, a12, a13, a14, a15, a16, a17, a18, a19, a20⟩ := hk
  simp only [List.mem_cons, List.not_mem_nil, or_false, not_or] at h
  obtain ⟨h1, h2, h3, h4, h5⟩ := h
  simp only [info, online, common, h1, h2, h3, h4, h5, a4, a6, a7, a9, a12, a13, a20, if_false, false_and, hown]

/-- What a model does not report, a new model of the class does not report either. -/
theorem info_fresh_none {m : M} {k : String} (hk : k ∈ keys) (h : online m k = none) (hl : k = "lambda" → regOf m.cls = .none) :
    info (fresh m.cls m.classNum) k = none := by
  by_cases hown : k ∈ ownNames
  · rw [info_online (m := fresh m.cls m.classNum) hk hl, online_own hown]
    rw [online_own hown] at h
    cases ho : own (fresh m.cls m.classNum) k with
    | none => rfl
    | some x =>
      have := own_isSome (m := fresh m.cls m.classNum) (m0 := m) rfl (k := k) (by rw [ho]; rfl)
      rw [h] at this
      cases this
  · have hcase : k = "bias_eta" ∨ k = "t" ∨ k = "dim" ∨ k = "lazy_update" ∨ k = "active_smoothness" ∨ k = "cost_margin" := by
      revert hk hown
      simp only [ownNames, keys, List.mem_cons, List.not_mem_nil, or_false]
      tauto
    rcases hcase with rfl | rfl | rfl | rfl | rfl | rfl
    · simp [online, common] at h
    · simp [online, common] at h
    · simp [online, common] at h
    · simp [online, common] at h
    · rw [info_smooth]
      rfl
    · rw [info_online (m := fresh m.cls m.classNum) hk hl]
      simp only [online, common, String.reduceEq, if_false, if_true, own_none hown]
      rfl

/-- A saved model is loaded with the same settings and vectors, up to printing. -/
theorem load_save {m : M} (hm : Savable m) : ∃ m', load files (save m) = .model m' ∧ m'.cls = m.cls ∧ m'.classNum = m.classNum ∧
    m'.dim = m.dim ∧ m'.loss = m.loss ∧ m'.norm = m.norm ∧ (∀ k, info m' k = (info m k).map Tok.back) ∧
    m'.w = m.w.map (List.map back) ∧ m'.scale = m.scale.map (List.map back) ∧ m'.sum = m.sum.map (List.map back) ∧
    m'.X = m.X.map back := by
  obtain ⟨m1, e1, k1, l1, n1, r1, i1⟩ := setModelInfo_ok (files := files) hm
  obtain ⟨vs, m2, t1, s1, c2, cn2, d2, sh2, v2, o2⟩ := setAll_keys (files := files) hm keys (fun _ h => h) (by decide) m1 k1.cls k1.classNum
    (by rw [k1.dim]; exact hm.shape.dim) (k1.shaped (shaped_fresh _ _))
  have hdim : m2.dim = m.dim := by
    have := v2 "dim" (by decide) (.int m.dim) (by simp [online, common])
    rw [info_dim] at this
    simpa [Tok.back] using this
  have hnot : ∀ j, j ∉ keys → info m2 j = info m1 j := fun j hj => o2 j (.inl hj)
  have hloss : m2.loss = m.loss := by
    rw [← l1]
    have := hnot "loss" (by decide)
    simp only [info, String.reduceEq, if_false, if_true, Option.some.injEq, Tok.str.injEq, lossText] at this
    obtain ⟨k, hk, _⟩ := hm.loss
    rw [l1, hk] at this ⊢
    cases hl : m2.loss with
    | none =>
      rw [hl] at this
      revert this
      cases k <;> decide
    | some k' =>
      rw [hl] at this
      rw [lossName_inj this]
  have hnorm : m2.norm = m.norm := by
    rw [← n1]
    have := hnot "norm" (by decide)
    simp only [info, String.reduceEq, if_false, if_true, Option.some.injEq, Tok.int.injEq] at this
    revert this
    cases m2.norm <;> cases m1.norm <;> simp [normNum]
  have hread := readParams_text hm sh2 c2 cn2 hdim
  refine ⟨readParams m2 (some (paramText m)), ?_, ?_⟩
  · unfold load
    have ht : texts (save m).online = some vs := t1
    have hcls : classNamed (save m).model = some m.cls := classNamed_modelName m.cls
    have hcr : create m.cls (save m).clsNum = some (fresh m.cls m.classNum) := by
      simp [create, save, hm.classNum]
    have hcomb : (andThen (setModelInfo files (fresh m.cls m.classNum) (save m) ((save m).lambda.map Tok.text).join) fun m =>
        setAll files m vs) = (m2, .accepted) := by
      rw [e1, andThen, if_pos rfl]
      exact s1
    have hlam : (save m).lambda.map Tok.text ≠ some none := by
      by_cases hr : regOf m.cls = .none
      · simp [save, hr]
      · have hord : Ordinary m.lambda := hm.ordinary "lambda" m.lambda (by simp [info, hr])
        obtain ⟨v, h1, h2⟩ := ordinary_stof hord
        simp [save, hr, h1]
    rw [ht]
    generalize (save m).lambda.map Tok.text = lam at hlam hcomb
    rcases lam with _ | (_ | v)
    · simp only [hcls, hcr, hcomb]
      rfl
    · exact absurd rfl hlam
    · simp only [hcls, hcr, hcomb]
      rfl
  · rw [hread]
    refine ⟨c2, cn2, hdim, hloss, hnorm, ?_, rfl, rfl, rfl, rfl⟩
    intro k
    change info m2 k = _
    by_cases hk : k ∈ keys
    · cases hx : online m k with
      | some x =>
        rw [v2 k hk x hx, info_of_online hk hx]
        rfl
      | none =>
        rw [o2 k (.inr hx)]
        by_cases hl : k = "lambda" ∧ regOf m.cls ≠ .none
        · obtain ⟨rfl, hr⟩ := hl
          have hr1 : regOf m1.cls ≠ .none := by
            rw [k1.cls]
            exact hr
          simp [info, hr, hr1, r1 hr, Tok.back]
        · have hl' : k = "lambda" → regOf m.cls = .none := fun h => by
            by_contra hc
            exact hl ⟨h, hc⟩
          have hne : k ≠ "loss" ∧ k ≠ "norm" := by
            constructor <;> (rintro rfl; exact absurd hk (by decide))
          rw [i1 k hne.1 hne.2 (fun hr h => hr (hl' h)), info_fresh_none hk hx hl', info_online hk hl', hx]
          rfl
    · by_cases hs : k ∈ ["model", "cls_num", "clf_num", "loss", "norm"]
      · simp only [List.mem_cons, List.not_mem_nil, or_false] at hs
        rcases hs with rfl | rfl | rfl | rfl | rfl
        · simp [info, c2, Tok.back]
        · simp [info, cn2, Tok.back]
        · simp [info, M.clf, cn2, Tok.back]
        · simp [info, lossText, hloss, Tok.back]
        · simp [info, hnorm, Tok.back]
      · rw [info_none hk hs, info_none hk hs]
        rfl

end Sol.Params
