import Verif.Model.PreProcess
import Verif.Spec.PreProcess
import Verif.Spec.Online
import Verif.Proofs.Exact
/-! Pre-processing of examples. -/

set_option linter.unusedSectionVars false

namespace Sol.PreProcess

open Sol.Online Sol.Sparse Sol.Text Sol.Spec Sol.Olm

/-! ### Reading the list -/

theorem lines_cons {c : Char} (hc : c ≠ '\n') {f : List Char} : lines (c :: f) = match lines f with
    | [] => [[c]]
    | l :: ls => (c :: l) :: ls := by
  rw [lines, if_neg hc]
  rfl

theorem lines_line (l : List Char) (hl : '\n' ∉ l) (f : List Char) : lines (l ++ '\n' :: f) = l :: lines f := by
  induction l with
  | nil => simp [lines]
  | cons c l ih =>
    simp only [List.mem_cons, not_or] at hl
    rw [List.cons_append, lines_cons (Ne.symm hl.1), ih hl.2]

theorem isDigit_eq (c : Char) : isDigit c = c.isDigit := by
  simp only [isDigit, Char.isDigit, Char.le_def]

theorem space_of_blank {c : Char} (h : c = ' ' ∨ c = '\t') : isSpace c = true := by
  rcases h with rfl | rfl <;> rfl

theorem digitsVal_eq (ds : List Char) : digitsVal ds = decVal ds := by
  unfold digitsVal decVal
  rw [Nat.ofDigitChars_eq_foldl]
  rfl

theorem dropWhile_app {p : Char → Bool} {a b : List Char} (ha : ∀ c ∈ a, p c = true) (hb : ∀ c ∈ b.head?, p c = false) :
    (a ++ b).dropWhile p = b := by
  rw [List.dropWhile_append_of_pos ha]
  cases b with
  | nil => rfl
  | cons c b => simp only [List.dropWhile_cons, hb c (by simp)]; rfl

theorem takeWhile_app {p : Char → Bool} {a b : List Char} (ha : ∀ c ∈ a, p c = true) (hb : ∀ c ∈ b.head?, p c = false) :
    (a ++ b).takeWhile p = a := by
  rw [List.takeWhile_append_of_pos ha]
  cases b with
  | nil => simp
  | cons c b => simp [hb c (by simp)]

theorem decText_cons (n : Nat) : ∃ c ds, decText n = c :: ds ∧ c.isDigit = true := by
  cases h : decText n with
  | nil => exact absurd h Nat.toDigits_ne_nil
  | cons c ds => exact ⟨c, ds, rfl, digits_decText n c (h ▸ List.mem_cons_self)⟩

theorem digit_plain {c : Char} (h : c.isDigit = true) : isSpace c = false ∧ c ≠ '-' ∧ c ≠ '+' ∧ c ≠ '#' ∧ c ≠ ' ' ∧ c ≠ '\t' ∧
    c ≠ '\n' := by
  refine ⟨?_, ?_, ?_, ?_, ?_, ?_, ?_⟩
  · by_contra hs
    simp only [Bool.not_eq_false, isSpace, Bool.or_eq_true, beq_iff_eq] at hs
    rcases hs with ((((rfl | rfl) | rfl) | rfl) | rfl) | rfl <;> exact absurd h (by decide)
  all_goals rintro rfl; exact absurd h (by decide)

theorem stoi_text {sp t : List Char} {i : Nat} (hs : ∀ c ∈ sp, isSpace c = true) (hi : i < 2147483648)
    (ht : ∀ c ∈ t.head?, c.isDigit = false) : stoi (sp ++ decText i ++ t) = .ok ((i : Int), t) := by
  obtain ⟨c, ds, h1, h2⟩ := decText_cons i
  have h3 := digit_plain h2
  have hd : ∀ a ∈ c :: ds, isDigit a = true := fun a ha => by rw [isDigit_eq]; exact digits_decText i a (h1 ▸ ha)
  have ht' : ∀ a ∈ t.head?, isDigit a = false := fun a ha => by rw [isDigit_eq]; exact ht a ha
  have e1 : (sp ++ decText i ++ t).dropWhile isSpace = (c :: ds) ++ t := by
    rw [List.append_assoc, h1]
    exact dropWhile_app hs (by simpa using h3.1)
  have e2 : takeSign ((c :: ds) ++ t) = (false, (c :: ds) ++ t) := by
    rw [List.cons_append, takeSign]
    · intro s e; exact h3.2.1 (List.cons.inj e).1
    · intro s e; exact h3.2.2.1 (List.cons.inj e).1
  have e3 : (digitsVal (c :: ds) : Int) = i := by rw [digitsVal_eq, ← h1, decVal_decText]
  unfold stoi stoInt
  rw [e1, e2]
  simp only [takeWhile_app hd ht', dropWhile_app hd ht', e3]
  rw [if_neg (by simp), if_neg (by simp; omega)]
  rfl

theorem comment_text {sp t : List Char} (hs : Indent sp) : isComment (sp ++ '#' :: t) = true := by
  unfold isComment
  rw [dropWhile_app (fun c hc => by rcases hs c hc with rfl | rfl <;> rfl) (by simp)]
  rfl

theorem entry_text {sp t : List Char} (hs : Indent sp) (i : Nat) : isComment (sp ++ decText i ++ t) = false := by
  obtain ⟨c, ds, h1, h2⟩ := decText_cons i
  have h3 := digit_plain h2
  unfold isComment
  rw [List.append_assoc, dropWhile_app (fun c hc => by rcases hs c hc with rfl | rfl <;> rfl)]
  · rw [h1]
    simpa using h3.2.2.2.1
  · rw [h1]
    simpa using ⟨h3.2.2.2.2.1, h3.2.2.2.2.2.1⟩

theorem loadLoop_listing {ls : List (List Char)} {is : List Nat} (h : Listing ls is) (js : List Nat) :
    loadLoop ls js = (.ok, js ++ is) := by
  induction h generalizing js with
  | nil => simp [loadLoop]
  | comment hs _ _ ih => rw [loadLoop, if_pos (comment_text hs), ih]
  | @entry sp t ls is i hs h1 h2 ht _ _ ih =>
    have e : ((i : Int) % 4294967296).toNat = i := by omega
    rw [loadLoop, if_neg (by rw [entry_text hs]; simp), stoi_text (fun c hc => space_of_blank (hs c hc)) h2 ht]
    simp only [e, if_neg (show ¬ i = 0 by omega), ih, List.append_assoc, List.singleton_append]

theorem lines_listing {ls : List (List Char)} {is : List Nat} (h : Listing ls is) : lines (unlines ls) = ls := by
  have hb : ∀ {sp : List Char}, Indent sp → '\n' ∉ sp := fun hs hc => by rcases hs _ hc with h | h <;> exact absurd h (by decide)
  induction h with
  | nil => rfl
  | @comment sp t ls is hs ht _ ih =>
    show lines ((sp ++ '#' :: t ++ ['\n']) ++ unlines ls) = _
    rw [List.append_assoc, List.singleton_append, lines_line _ _ _, ih]
    simp only [List.mem_append, List.mem_cons, not_or]
    exact ⟨hb hs, by decide, ht⟩
  | @entry sp t ls is i hs h1 h2 _ ht _ ih =>
    show lines ((sp ++ decText i ++ t ++ ['\n']) ++ unlines ls) = _
    rw [List.append_assoc, List.singleton_append, lines_line _ _ _, ih]
    simp only [List.mem_append, not_or]
    exact ⟨⟨hb hs, fun hc => (digit_plain (digits_decText i _ hc)).2.2.2.2.2.2 rfl⟩, ht⟩

theorem listing_range {ls : List (List Char)} {is : List Nat} (h : Listing ls is) : ∀ i ∈ is, 1 ≤ i ∧ i < 2147483648 := by
  induction h with
  | nil => simp
  | comment _ _ _ ih => exact ih
  | entry _ h1 h2 _ _ _ ih =>
    intro j hj
    rcases List.mem_cons.1 hj with rfl | hj
    · exact ⟨h1, h2⟩
    · exact ih j hj

theorem setFlags_ok (is : List Nat) (f : List Bool) (h : ∀ i ∈ is, i < f.length) :
    ∃ f', setFlags is f = .ok f' ∧ f'.length = f.length ∧
      ∀ i : Nat, i < f.length → f'[i]? = some (decide (i ∈ is) || f.getD i false) := by
  induction is generalizing f with
  | nil =>
    refine ⟨f, rfl, rfl, fun i hi => ?_⟩
    simp [List.getD_eq_getElem?_getD, List.getElem?_eq_getElem hi]
  | cons j is ih =>
    have hj := h j List.mem_cons_self
    obtain ⟨f', h1, h2, h3⟩ := ih (f.set j true) (fun i hi => by rw [List.length_set]; exact h i (List.mem_cons_of_mem _ hi))
    rw [List.length_set] at h2 h3
    refine ⟨f', ?_, h2, fun i hi => ?_⟩
    · rw [setFlags, show lset f j true = .ok (f.set j true) by simp [lset, hj], Res.bind_ok, h1]
    · rw [h3 i hi]
      by_cases e : i = j
      · subst e
        simp [List.getD_eq_getElem?_getD, hj]
      · have : ¬ j = i := fun h => e h.symm
        simp [List.getD_eq_getElem?_getD, e, this, List.getElem?_set]

theorem foldl_max (l : List Nat) (a : Nat) : a ≤ l.foldl max a ∧ (∀ i ∈ l, i ≤ l.foldl max a) ∧
    (l.foldl max a = a ∨ l.foldl max a ∈ l) := by
  induction l generalizing a with
  | nil => simp
  | cons b l ih =>
    obtain ⟨h1, h2, h3⟩ := ih (max a b)
    simp only [List.foldl_cons, List.mem_cons, forall_eq_or_imp]
    refine ⟨by omega, ⟨by omega, h2⟩, ?_⟩
    rcases h3 with h3 | h3
    · rw [h3]; omega
    · exact .inr (.inr h3)

theorem filterLoop_ok {α : Type} [Zero α] {s : Sel} {is : List Nat} (h1 : ∀ i ∈ is, i ≤ s.maxIndex)
    (h2 : ∀ i : Nat, i ≤ s.maxIndex → s.flags[i]? = some (decide (i ∈ is))) (x : SVec α) :
    filterLoop s x = .ok (x.map fun p => (p.1, if p.1 ∈ is then p.2 else 0)) := by
  induction x with
  | nil => rfl
  | cons p x ih =>
    obtain ⟨i, y⟩ := p
    rw [filterLoop, ih]
    by_cases h : s.maxIndex < i
    · have : i ∉ is := fun hi => by have := h1 i hi; omega
      simp [h, this]
    · rw [if_neg h, show lget s.flags i = .ok (decide (i ∈ is)) from by simp [lget, h2 i (by omega)]]
      by_cases hi : i ∈ is <;> simp [hi]

theorem load_filter {ls : List (List Char)} {is : List Nat} (h : Listing ls is) (hne : is ≠ []) :
    ∃ s, loadPreSel (some (unlines ls)) = .ok (.ok, s) ∧
      ∀ {α : Type} [Zero α] (x : SVec α), filterFeatures s x = .ok (x.map fun p => (p.1, if p.1 ∈ is then p.2 else 0)) := by
  have hr := listing_range h
  cases is with
  | nil => exact absurd rfl hne
  | cons a l =>
    obtain ⟨m1, m2, m3⟩ := foldl_max l a
    have hm : l.foldl max a < 2147483648 := by
      rcases m3 with e | e
      · rw [e]; exact (hr a List.mem_cons_self).2
      · exact (hr _ (List.mem_cons_of_mem _ e)).2
    have hle : ∀ i ∈ a :: l, i ≤ l.foldl max a := by
      intro i hi
      rcases List.mem_cons.1 hi with rfl | hi
      · exact m1
      · exact m2 i hi
    have e0 : (l.foldl max a + 1) % 4294967296 = l.foldl max a + 1 := by omega
    obtain ⟨f, f1, f2, f3⟩ := setFlags_ok (a :: l) (List.replicate (l.foldl max a + 1) false)
      (fun i hi => by rw [List.length_replicate]; have := hle i hi; omega)
    rw [List.length_replicate] at f3
    refine ⟨⟨l.foldl max a, f⟩, ?_, fun x => ?_⟩
    · rw [loadPreSel]
      simp only [lines_listing h, loadLoop_listing h, List.nil_append, maxOf, Res.bind_ok, e0, f1]
    · unfold filterFeatures
      rw [if_neg (by have := (hr a List.mem_cons_self).1; show ¬ l.foldl max a = 0; omega)]
      exact filterLoop_ok (s := ⟨l.foldl max a, f⟩) hle (fun i hi => by
        rw [f3 i (by show i < l.foldl max a + 1; have : i ≤ l.foldl max a := hi; omega)]
        by_cases hi' : i < l.foldl max a + 1 <;> simp [List.getD_eq_getElem?_getD, List.getElem?_replicate, hi']) x

/-! ### Sums over the features -/

section
variable {α : Type} [Field α]

theorem sum_feat {x : SVec α} (hx : Ascending x) {D : Nat} (hD : ∀ p ∈ x, p.1 < D) (f : Nat → α → α) (hf : ∀ i, f i 0 = 0) :
    (x.map fun p => f p.1 p.2).sum = ∑ i ∈ Finset.range D, f i (feat x i) := by
  have e : (x.map fun p => f p.1 p.2).sum = linear (fun i => f i (feat x i)) (x.map fun p => (p.1, (1 : α))) := by
    unfold linear
    rw [List.map_map]
    congr 1
    apply List.map_congr_left
    rintro ⟨i, y⟩ hp
    simp [feat_of_mem hx hp]
  have hx1 : Ascending (x.map fun p => (p.1, (1 : α))) := by
    unfold Ascending
    rw [List.pairwise_map]
    exact hx
  rw [e, linear_sum hx1 (D := D)]
  · apply Finset.sum_congr rfl
    intro i _
    by_cases h : ∃ y, (i, y) ∈ x
    · obtain ⟨y, hy⟩ := h
      rw [feat_of_mem hx1 (y := 1) (List.mem_map.2 ⟨_, hy, rfl⟩), mul_one]
    · have h0 : ∀ p ∈ x, p.1 ≠ i := by
        rintro ⟨j, y⟩ hp rfl
        exact h ⟨y, hp⟩
      rw [feat_eq_zero h0, hf, zero_mul]
  · intro p hp
    obtain ⟨q, hq, rfl⟩ := List.mem_map.1 hp
    exact hD q hq

/-- The sums over two examples with the same feature values agree. -/
theorem sum_same {x y : SVec α} (hx : Ascending x) (hy : Ascending y) (h : ∀ i, feat x i = feat y i) (f : Nat → α → α)
    (hf : ∀ i, f i 0 = 0) : (x.map fun p => f p.1 p.2).sum = (y.map fun p => f p.1 p.2).sum := by
  have hb : ∀ z : SVec α, ∃ D, ∀ p ∈ z, p.1 < D := by
    intro z
    induction z with
    | nil => exact ⟨0, by simp⟩
    | cons q z ih =>
      obtain ⟨D, hD⟩ := ih
      refine ⟨max D (q.1 + 1), fun p hp => ?_⟩
      rcases List.mem_cons.1 hp with rfl | hp
      · omega
      · have := hD p hp; omega
  obtain ⟨D1, h1⟩ := hb x
  obtain ⟨D2, h2⟩ := hb y
  rw [sum_feat hx (D := max D1 D2) (fun p hp => by have := h1 p hp; omega) f hf,
    sum_feat hy (D := max D1 D2) (fun p hp => by have := h2 p hp; omega) f hf]
  exact Finset.sum_congr rfl fun i _ => by rw [h i]

theorem feat_map (x : SVec α) (f : Nat → α → α) (hf : ∀ i, f i 0 = 0) (i : Nat) :
    feat (x.map fun p => (p.1, f p.1 p.2)) i = f i (feat x i) := by
  induction x with
  | nil => simp [feat, featureAt, hf]
  | cons p x ih =>
    by_cases h : p.1 = i
    · simp [feat, featureAt, h]
    · simpa [feat, featureAt, h] using ih

theorem asc_map {x : SVec α} (hx : Ascending x) (f : Nat → α → α) : Ascending (x.map fun p => (p.1, f p.1 p.2)) := by
  unfold Ascending
  rw [List.pairwise_map]
  exact hx

end

section
variable {α : Type} [Field α] [LinearOrder α] [IsStrictOrderedRing α]

theorem norm1_eq (x : SVec α) : norm1 x = absnorm x := by
  unfold norm1 reduceSum absnorm
  have e : ∀ a : α, (if (0 : α) <? a then a else -a) = |a| := by
    intro a
    by_cases h : 0 < a
    · rw [if_pos (by simpa using h), abs_of_pos h]
    · rw [if_neg (by simpa using h), abs_of_nonpos (not_lt.1 h)]
  simp only [e]
  suffices ∀ v : α, x.foldl (fun v p => v + |p.2|) v = v + (x.map fun p => |p.2|).sum by simpa using this 0
  induction x with
  | nil => simp
  | cons p x ih => intro v; simp [ih, add_assoc]

end

section
variable {α : Type} [Field α] [LinearOrder α] [IsStrictOrderedRing α] [FSqrt α]

/-- The factor of the normalisation. -/
def normOf (n : Norm) (x : SVec α) : α :=
  match n with
  | .none => 1
  | .l1 => absnorm x
  | .l2 => FSqrt.sqrt (sqnorm x)

theorem normalise_eq (n : Norm) (x : SVec α) : normalise n x = x.map fun p => (p.1, p.2 / normOf n x) := by
  cases n
  · simp [normalise, normOf]
  · rw [normalise, norm1_eq]; rfl
  · rw [normalise, norm2_eq]; rfl

theorem normOf_same {x y : SVec α} (hx : Ascending x) (hy : Ascending y) (h : ∀ i, feat x i = feat y i) (n : Norm) :
    normOf n x = normOf n y := by
  cases n
  · rfl
  · exact sum_same hx hy h (fun _ a => |a|) (by simp)
  · show FSqrt.sqrt _ = FSqrt.sqrt _
    congr 1
    exact sum_same hx hy h (fun _ a => a * a) (by simp)

theorem normalise_asc {x : SVec α} (hx : Ascending x) (n : Norm) : Ascending (normalise n x) := by
  rw [normalise_eq]
  exact asc_map hx fun _ a => a / normOf n x

theorem normalise_feat (n : Norm) (x : SVec α) (i : Nat) : feat (normalise n x) i = feat x i / normOf n x := by
  rw [normalise_eq]
  exact feat_map x (fun _ a => a / normOf n x) (by simp) i

end

end Sol.PreProcess
