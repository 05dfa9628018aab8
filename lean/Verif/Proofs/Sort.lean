import Verif.Model.Sort
/-!
# Lemmas about sorting a data point
-/

namespace Sol.Sort

variable {V : Type}

theorem zip_set (a : Array UInt32) (b : Array V) (i : Nat) (x : UInt32) (y : V) (ha : i < a.size) (hb : i < b.size) :
    (a.set i x).zip (b.set i y) = (a.zip b).set i (x, y) (by simp [Array.size_zip]; omega) := by
  apply Array.ext
  · simp
  · intro k h1 h2
    simp only [Array.getElem_zip, Array.getElem_set]
    by_cases h : i = k <;> simp [h]

theorem hole_move {α : Type} (Z : Array α) (i j : Nat) (t : α) (hi : i < Z.size) (hj : j < Z.size) :
    ((Z.set i Z[j]).set j t (by simpa using hj)).Perm (Z.set i t) := by
  by_cases h : i = j
  · subst h
    simp
  · have h1 : (Z.set i Z[j]).set j t (by simpa using hj)
        = (Z.set i t).swap i j (by simpa using hi) (by simpa using hj) := by
      rw [Array.swap_def]
      simp [Array.getElem_set, h]
    rw [h1]
    exact Array.swap_perm _ _

/-- The facts that do not depend on which position is the hole. -/
structure Inv (A : Array UInt32) (B : Array V) (low high : Nat) (temp : UInt32) (ti : V)
    (s : PState V) (hole : Nat) : Prop where
  sa : s.a.size = A.size
  sb : s.b.size = A.size
  lo : low ≤ s.i
  ij : s.i ≤ s.j
  hi : s.j ≤ high
  hn : high < A.size
  left : ∀ k x, low ≤ k → k < s.i → s.a[k]? = some x → x ≤ temp
  right : ∀ k x, s.j < k → k ≤ high → s.a[k]? = some x → temp ≤ x
  outa : ∀ k, k < low ∨ high < k → s.a[k]? = A[k]?
  outb : ∀ k, k < low ∨ high < k → s.b[k]? = B[k]?
  hole_lo : s.i ≤ hole
  hole_hi : hole ≤ s.j
  perm : ∀ (h1 : hole < s.a.size) (h2 : hole < s.b.size),
    ((s.a.set hole temp).zip (s.b.set hole ti)).Perm (A.zip B)
  quant : ∀ Q : UInt32 → Prop, (∀ k x, low ≤ k → k ≤ high → A[k]? = some x → Q x) →
    ∀ k x, low ≤ k → k ≤ high → s.a[k]? = some x → Q x

theorem scanRight_spec (a : Array UInt32) (temp : UInt32) (i j : Nat) (hij : i ≤ j) (hj : j < a.size) :
    ∃ r, scanRight a temp i j = .ok r ∧ i ≤ r ∧ r ≤ j ∧
      (∀ k x, r < k → k ≤ j → a[k]? = some x → temp ≤ x) ∧
      (i < r → ∀ x, a[r]? = some x → x ≤ temp) := by
  induction j using Nat.strongRecOn with
  | _ j ih =>
    unfold scanRight
    split
    · rename_i hlt
      rw [rd_ok hj, Res.bind_ok]
      split
      · rename_i hcmp
        obtain ⟨r, h1, h2, h3, h4, h5⟩ := ih (j - 1) (by omega) (by omega) (by omega)
        refine ⟨r, h1, h2, by omega, ?_, h5⟩
        intro k x hk1 hk2 hkx
        by_cases hkj : k = j
        · subst hkj
          rw [Array.getElem?_eq_getElem hj] at hkx
          simp only [Option.some.injEq] at hkx
          subst hkx
          exact UInt32.le_of_lt hcmp
        · exact h4 k x hk1 (by omega) hkx
      · rename_i hcmp
        refine ⟨j, rfl, hij, Nat.le_refl _, ?_, ?_⟩
        · intro k x h1 h2; omega
        · intro _ x hx
          rw [Array.getElem?_eq_getElem hj] at hx
          simp only [Option.some.injEq] at hx
          subst hx
          exact UInt32.not_lt.1 hcmp
    · refine ⟨j, rfl, hij, Nat.le_refl _, ?_, ?_⟩
      · intro k x h1 h2; omega
      · intro h; omega

theorem scanLeft_spec (a : Array UInt32) (temp : UInt32) (i j : Nat) (hij : i ≤ j) (hj : j < a.size) :
    ∃ r, scanLeft a temp i j = .ok r ∧ i ≤ r ∧ r ≤ j ∧
      (∀ k x, i ≤ k → k < r → a[k]? = some x → x ≤ temp) ∧
      (r < j → ∀ x, a[r]? = some x → temp ≤ x) := by
  induction hn : j - i using Nat.strongRecOn generalizing i with
  | _ n ih =>
    unfold scanLeft
    split
    · rename_i hlt
      have hi : i < a.size := by omega
      rw [rd_ok hi, Res.bind_ok]
      split
      · rename_i hcmp
        obtain ⟨r, h1, h2, h3, h4, h5⟩ := ih (j - (i + 1)) (by omega) (i + 1) (by omega) rfl
        refine ⟨r, h1, by omega, h3, ?_, h5⟩
        intro k x hk1 hk2 hkx
        by_cases hkj : k = i
        · subst hkj
          rw [Array.getElem?_eq_getElem hi] at hkx
          simp only [Option.some.injEq] at hkx
          subst hkx
          exact UInt32.le_of_lt hcmp
        · exact h4 k x (by omega) hk2 hkx
      · rename_i hcmp
        refine ⟨i, rfl, Nat.le_refl _, hij, ?_, ?_⟩
        · intro k x h1 h2; omega
        · intro _ x hx
          rw [Array.getElem?_eq_getElem hi] at hx
          simp only [Option.some.injEq] at hx
          subst hx
          exact UInt32.not_lt.1 hcmp
    · refine ⟨i, rfl, Nat.le_refl _, hij, ?_, ?_⟩
      · intro k x h1 h2; omega
      · intro h; omega

theorem fillLeft_spec {A : Array UInt32} {B : Array V} {low high : Nat} {temp : UInt32} {ti : V} {s : PState V}
    (h : Inv A B low high temp ti s s.i) (hx : s.i < s.j → ∀ x, s.a[s.j]? = some x → x ≤ temp) :
    ∃ s', fillLeft s = .ok s' ∧ Inv A B low high temp ti s' s'.j ∧ s.i ≤ s'.i ∧ s'.j = s.j := by
  obtain ⟨sa, sb, lo, ij, hi, hn, left, right, outa, outb, _, _, perm, quant⟩ := h
  unfold fillLeft
  split
  · rename_i hlt
    have hja : s.j < s.a.size := by omega
    have hjb : s.j < s.b.size := by omega
    have hia : s.i < s.a.size := by omega
    have hib : s.i < s.b.size := by omega
    rw [rd_ok hja, Res.bind_ok, wr_ok _ hia, Res.bind_ok, rd_ok hjb, Res.bind_ok, wr_ok _ hib, Res.bind_ok]
    refine ⟨_, rfl, ?_, by dsimp only; omega, rfl⟩
    constructor <;> (try dsimp only)
    · simpa using sa
    · simpa using sb
    · omega
    · omega
    · omega
    · omega
    · intro k x h1 h2 hk
      rw [Array.getElem?_set] at hk
      split at hk
      · rename_i heq
        simp only [Option.some.injEq] at hk
        subst hk
        exact hx hlt _ (Array.getElem?_eq_getElem hja)
      · exact left k x h1 (by omega) hk
    · intro k x h1 h2 hk
      rw [Array.getElem?_set] at hk
      rw [if_neg (by omega)] at hk
      exact right k x h1 h2 hk
    · intro k hk
      rw [Array.getElem?_set, if_neg (by omega)]
      exact outa k hk
    · intro k hk
      rw [Array.getElem?_set, if_neg (by omega)]
      exact outb k hk
    · omega
    · omega
    · intro h1 h2
      refine Array.Perm.trans ?_ (perm hia hib)
      simp only [zip_set _ _ _ _ _ h1 h2, zip_set _ _ _ _ _ hia hib]
      have := hole_move (s.a.zip s.b) s.i s.j (temp, ti) (by simp [Array.size_zip]; omega)
        (by simp [Array.size_zip]; omega)
      simpa [Array.getElem_zip] using this
    · intro Q hQ k x h1 h2 hk
      rw [Array.getElem?_set] at hk
      split at hk
      · simp only [Option.some.injEq] at hk
        subst hk
        exact quant Q hQ s.j _ (by omega) (by omega) (Array.getElem?_eq_getElem hja)
      · exact quant Q hQ k x h1 h2 hk
  · refine ⟨s, rfl, ?_, Nat.le_refl _, rfl⟩
    have : s.i = s.j := by omega
    exact ⟨sa, sb, lo, ij, hi, hn, left, right, outa, outb, by omega, by omega, by rw [← this]; exact perm, quant⟩

theorem fillRight_spec {A : Array UInt32} {B : Array V} {low high : Nat} {temp : UInt32} {ti : V} {s : PState V}
    (h : Inv A B low high temp ti s s.j) (hx : s.i < s.j → ∀ x, s.a[s.i]? = some x → temp ≤ x) :
    ∃ s', fillRight s = .ok s' ∧ Inv A B low high temp ti s' s'.i := by
  obtain ⟨sa, sb, lo, ij, hi, hn, left, right, outa, outb, _, _, perm, quant⟩ := h
  unfold fillRight
  split
  · rename_i hlt
    have hja : s.j < s.a.size := by omega
    have hjb : s.j < s.b.size := by omega
    have hia : s.i < s.a.size := by omega
    have hib : s.i < s.b.size := by omega
    rw [rd_ok hia, Res.bind_ok, wr_ok _ hja, Res.bind_ok, rd_ok hib, Res.bind_ok, wr_ok _ hjb, Res.bind_ok]
    refine ⟨_, rfl, ?_⟩
    constructor <;> (try dsimp only)
    · simpa using sa
    · simpa using sb
    · omega
    · omega
    · omega
    · omega
    · intro k x h1 h2 hk
      rw [Array.getElem?_set] at hk
      rw [if_neg (by omega)] at hk
      exact left k x h1 h2 hk
    · intro k x h1 h2 hk
      rw [Array.getElem?_set] at hk
      split at hk
      · rename_i heq
        simp only [Option.some.injEq] at hk
        subst hk
        exact hx hlt _ (Array.getElem?_eq_getElem hia)
      · exact right k x (by omega) h2 hk
    · intro k hk
      rw [Array.getElem?_set, if_neg (by omega)]
      exact outa k hk
    · intro k hk
      rw [Array.getElem?_set, if_neg (by omega)]
      exact outb k hk
    · omega
    · omega
    · intro h1 h2
      refine Array.Perm.trans ?_ (perm hja hjb)
      simp only [zip_set _ _ _ _ _ h1 h2, zip_set _ _ _ _ _ hja hjb]
      have := hole_move (s.a.zip s.b) s.j s.i (temp, ti) (by simp [Array.size_zip]; omega)
        (by simp [Array.size_zip]; omega)
      simpa [Array.getElem_zip] using this
    · intro Q hQ k x h1 h2 hk
      rw [Array.getElem?_set] at hk
      split at hk
      · simp only [Option.some.injEq] at hk
        subst hk
        exact quant Q hQ s.i _ (by omega) (by omega) (Array.getElem?_eq_getElem hia)
      · exact quant Q hQ k x h1 h2 hk
  · refine ⟨s, rfl, ?_⟩
    have : s.i = s.j := by omega
    exact ⟨sa, sb, lo, ij, hi, hn, left, right, outa, outb, by omega, by omega, by rw [this]; exact perm, quant⟩

theorem round_spec {A : Array UInt32} {B : Array V} {low high : Nat} {temp : UInt32} {ti : V} {s : PState V}
    (h : Inv A B low high temp ti s s.i) :
    ∃ s', round temp s = .ok s' ∧ Inv A B low high temp ti s' s'.i := by
  have hij := h.ij
  have hhi := h.hi
  have hn := h.hn
  have hsa := h.sa
  obtain ⟨j, hj, b1, b2, b3, b4⟩ := scanRight_spec s.a temp s.i s.j hij (by omega)
  unfold round
  rw [hj, Res.bind_ok]
  have hinv1 : Inv A B low high temp ti { s with j := j } s.i := by
    obtain ⟨sa, sb, lo, ij, hi, hn, left, right, outa, outb, _, _, perm, quant⟩ := h
    refine ⟨sa, sb, lo, b1, by dsimp only; omega, hn, left, ?_, outa, outb, Nat.le_refl _, b1, perm, quant⟩
    intro k x h1 h2 hk
    by_cases hkj : s.j < k
    · exact right k x hkj h2 hk
    · exact b3 k x h1 (by omega) hk
  obtain ⟨s1, hs1, hinv2, hge, hje⟩ := fillLeft_spec hinv1 b4
  rw [hs1, Res.bind_ok]
  have hhi1 := hinv2.hi
  have hsa1 := hinv2.sa
  obtain ⟨i, hi, c1, c2, c3, c4⟩ := scanLeft_spec s1.a temp s1.i s1.j hinv2.ij (by omega)
  rw [hi, Res.bind_ok]
  have hinv3 : Inv A B low high temp ti { s1 with i := i } s1.j := by
    obtain ⟨sa, sb, lo, ij, hi, hn, left, right, outa, outb, _, _, perm, quant⟩ := hinv2
    refine ⟨sa, sb, by dsimp only; omega, c2, hi, hn, ?_, right, outa, outb, c2, Nat.le_refl _, perm, quant⟩
    intro k x h1 h2 hk
    by_cases hkj : k < s1.i
    · exact left k x h1 hkj hk
    · exact c3 k x (by omega) h2 hk
  exact fillRight_spec hinv3 c4

theorem loop_spec {A : Array UInt32} {B : Array V} {low high : Nat} {temp : UInt32} {ti : V} {s : PState V}
    (h : Inv A B low high temp ti s s.i) :
    ∃ s', loop temp s = .ok s' ∧ Inv A B low high temp ti s' s'.i ∧ s'.i = s'.j := by
  induction hn : s.j - s.i using Nat.strongRecOn generalizing s with
  | _ n ih =>
    unfold loop
    split
    · rename_i hlt
      obtain ⟨s1, hs1, hinv⟩ := round_spec h
      have p := round_progress temp s s1 hlt hs1
      obtain ⟨s2, h2, h3⟩ := ih (s1.j - s1.i) (by omega) hinv rfl
      refine ⟨s2, ?_, h3⟩
      split
      · rename_i heq; rw [hs1] at heq; simp at heq
      · rename_i s1' heq
        rw [hs1] at heq
        simp only [Res.ok.injEq] at heq
        subst heq
        exact h2
    · have := h.ij
      exact ⟨s, rfl, h, by omega⟩

/-- What partitioning achieves. -/
theorem partition_spec (A : Array UInt32) (B : Array V) (low high : Nat) (hlh : low ≤ high)
    (hh : high < A.size) (hs : B.size = A.size) :
    ∃ s temp, partition A B low high = .ok s ∧ low ≤ s.i ∧ s.i ≤ high ∧ s.i = s.j ∧
      s.a.size = A.size ∧ s.b.size = A.size ∧ s.a[s.i]? = some temp ∧
      (∀ k x, low ≤ k → k < s.i → s.a[k]? = some x → x ≤ temp) ∧
      (∀ k x, s.i < k → k ≤ high → s.a[k]? = some x → temp ≤ x) ∧
      (∀ k, k < low ∨ high < k → s.a[k]? = A[k]? ∧ s.b[k]? = B[k]?) ∧
      (s.a.zip s.b).Perm (A.zip B) ∧
      (∀ Q : UInt32 → Prop, (∀ k x, low ≤ k → k ≤ high → A[k]? = some x → Q x) →
        ∀ k x, low ≤ k → k ≤ high → s.a[k]? = some x → Q x) := by
  have hla : low < A.size := by omega
  have hlb : low < B.size := by omega
  unfold partition
  rw [rd_ok hla, Res.bind_ok, rd_ok hlb, Res.bind_ok]
  have hinit : Inv A B low high A[low] B[low] (⟨A, B, low, high⟩ : PState V) low := by
    constructor <;> (try dsimp only)
    · exact hs
    · omega
    · exact hlh
    · omega
    · exact hh
    · intro k x h1 h2; omega
    · intro k x h1 h2; omega
    · simp
    · simp
    · omega
    · exact hlh
    · intro h1 h2
      simp
    · intro Q hQ; exact hQ
  obtain ⟨s, hs1, hinv, hij⟩ := loop_spec hinit
  rw [hs1, Res.bind_ok]
  obtain ⟨sa, sb, lo, ij, hi, hn, left, right, outa, outb, _, _, perm, quant⟩ := hinv
  have hia : s.i < s.a.size := by omega
  have hib : s.i < s.b.size := by omega
  rw [wr_ok _ hia, Res.bind_ok, wr_ok _ hib, Res.bind_ok]
  refine ⟨_, A[low], rfl, lo, by dsimp only; omega, hij, by simpa using sa, by simpa using sb, ?_, ?_, ?_, ?_, ?_, ?_⟩
  · simp [hia]
  · dsimp only
    intro k x h1 h2 hk
    rw [Array.getElem?_set, if_neg (by omega)] at hk
    exact left k x h1 h2 hk
  · dsimp only
    intro k x h1 h2 hk
    rw [Array.getElem?_set, if_neg (by omega)] at hk
    exact right k x (by omega) h2 hk
  · dsimp only
    intro k hk
    rw [Array.getElem?_set, if_neg (by omega), Array.getElem?_set, if_neg (by omega)]
    exact ⟨outa k hk, outb k hk⟩
  · exact perm hia hib
  · dsimp only
    intro Q hQ k x h1 h2 hk
    rw [Array.getElem?_set] at hk
    split at hk
    · simp only [Option.some.injEq] at hk
      subst hk
      exact hQ low _ (Nat.le_refl _) hlh (Array.getElem?_eq_getElem hla)
    · exact quant Q hQ k x h1 h2 hk

/-- Correctness of the recursive sort on a range. -/
theorem quickSort_spec (n : Nat) : ∀ (A : Array UInt32) (B : Array V) (low high : Nat) (hlh : low ≤ high),
    high - low = n → high < A.size → B.size = A.size →
    ∃ a b, quickSort A B low high hlh = .ok (a, b) ∧ a.size = A.size ∧ b.size = A.size ∧
      (∀ k, k < low ∨ high < k → a[k]? = A[k]? ∧ b[k]? = B[k]?) ∧
      (a.zip b).Perm (A.zip B) ∧
      (∀ k l x y, low ≤ k → k ≤ l → l ≤ high → a[k]? = some x → a[l]? = some y → x ≤ y) ∧
      (∀ Q : UInt32 → Prop, (∀ k x, low ≤ k → k ≤ high → A[k]? = some x → Q x) →
        ∀ k x, low ≤ k → k ≤ high → a[k]? = some x → Q x) := by
  induction n using Nat.strongRecOn with
  | _ n ih =>
    intro A B low high hlh hn hh hs
    obtain ⟨s, temp, hp, p1, p2, p3, sa, sb, pt, pl, pr, pout, pperm, pq⟩ := partition_spec A B low high hlh hh hs
    -- the left recursive call
    have hleft : ∃ a b, (if h : low < s.i then quickSort s.a s.b low (s.i - 1) (by omega) else .ok (s.a, s.b))
        = .ok (a, b) ∧ a.size = A.size ∧ b.size = A.size ∧
        (∀ k, k < low ∨ s.i ≤ k → a[k]? = s.a[k]? ∧ b[k]? = s.b[k]?) ∧ (a.zip b).Perm (A.zip B) ∧
        (∀ k l x y, low ≤ k → k ≤ l → l < s.i → a[k]? = some x → a[l]? = some y → x ≤ y) ∧
        (∀ Q : UInt32 → Prop, (∀ k x, low ≤ k → k < s.i → s.a[k]? = some x → Q x) →
          ∀ k x, low ≤ k → k < s.i → a[k]? = some x → Q x) := by
      by_cases h : low < s.i
      · rw [dif_pos h]
        obtain ⟨a, b, h1, h2, h3, h4, h5, h6, h7⟩ := ih (s.i - 1 - low) (by omega) s.a s.b low (s.i - 1)
          (by omega) rfl (by omega) (by omega)
        refine ⟨a, b, h1, by omega, by omega, ?_, h5.trans pperm, ?_, ?_⟩
        · intro k hk; exact h4 k (by omega)
        · intro k l x y e1 e2 e3 e4 e5; exact h6 k l x y e1 e2 (by omega) e4 e5
        · intro Q hQ k x e1 e2 e3
          exact h7 Q (fun k x f1 f2 f3 => hQ k x f1 (by omega) f3) k x e1 (by omega) e3
      · rw [dif_neg h]
        refine ⟨s.a, s.b, rfl, sa, sb, by simp, pperm, ?_, ?_⟩
        · intro k l x y e1 e2 e3; omega
        · intro Q hQ k x e1 e2; omega
    obtain ⟨a1, b1, hl, sa1, sb1, out1, perm1, sort1, q1⟩ := hleft
    have hpt1 : a1[s.i]? = some temp := by rw [(out1 s.i (by omega)).1]; exact pt
    have hright : ∃ a b, (if h : s.i < high then quickSort a1 b1 (s.j + 1) high (by omega) else .ok (a1, b1))
        = .ok (a, b) ∧ a.size = A.size ∧ b.size = A.size ∧
        (∀ k, k ≤ s.i ∨ high < k → a[k]? = a1[k]? ∧ b[k]? = b1[k]?) ∧ (a.zip b).Perm (A.zip B) ∧
        (∀ k l x y, s.i < k → k ≤ l → l ≤ high → a[k]? = some x → a[l]? = some y → x ≤ y) ∧
        (∀ Q : UInt32 → Prop, (∀ k x, s.i < k → k ≤ high → a1[k]? = some x → Q x) →
          ∀ k x, s.i < k → k ≤ high → a[k]? = some x → Q x) := by
      by_cases h : s.i < high
      · rw [dif_pos h]
        obtain ⟨a, b, h1, h2, h3, h4, h5, h6, h7⟩ := ih (high - (s.j + 1)) (by omega) a1 b1 (s.j + 1) high
          (by omega) rfl (by omega) (by omega)
        refine ⟨a, b, h1, by omega, by omega, ?_, h5.trans perm1, ?_, ?_⟩
        · intro k hk; exact h4 k (by omega)
        · intro k l x y e1 e2 e3 e4 e5; exact h6 k l x y (by omega) e2 e3 e4 e5
        · intro Q hQ k x e1 e2 e3
          exact h7 Q (fun k x f1 f2 f3 => hQ k x (by omega) f2 f3) k x (by omega) e2 e3
      · rw [dif_neg h]
        refine ⟨a1, b1, rfl, sa1, sb1, by simp, perm1, ?_, ?_⟩
        · intro k l x y e1 e2 e3; omega
        · intro Q hQ k x e1 e2; omega
    obtain ⟨a2, b2, hr, sa2, sb2, out2, perm2, sort2, q2⟩ := hright
    refine ⟨a2, b2, ?_, sa2, sb2, ?_, perm2, ?_, ?_⟩
    · unfold quickSort
      split
      · rename_i heq; rw [hp] at heq; simp at heq
      · rename_i s' heq
        rw [hp] at heq
        simp only [Res.ok.injEq] at heq
        subst heq
        simp only [hl]
        exact hr
    · intro k hk
      rw [(out2 k (by omega)).1, (out2 k (by omega)).2, (out1 k (by omega)).1, (out1 k (by omega)).2]
      exact pout k hk
    · -- sorted
      have hlow : ∀ k x, low ≤ k → k < s.i → a2[k]? = some x → x ≤ temp := by
        intro k x e1 e2 e3
        rw [(out2 k (by omega)).1] at e3
        exact q1 (· ≤ temp) pl k x e1 e2 e3
      have hhigh : ∀ k x, s.i < k → k ≤ high → a2[k]? = some x → temp ≤ x := by
        refine q2 (temp ≤ ·) ?_
        intro k x e1 e2 e3
        rw [(out1 k (by omega)).1] at e3
        exact pr k x e1 e2 e3
      have hmid : a2[s.i]? = some temp := by rw [(out2 s.i (by omega)).1]; exact hpt1
      intro k l x y e1 e2 e3 hx hy
      rcases Nat.lt_trichotomy l s.i with hl' | hl' | hl'
      · rw [(out2 k (by omega)).1] at hx
        rw [(out2 l (by omega)).1] at hy
        exact sort1 k l x y e1 e2 hl' hx hy
      · subst hl'
        rw [hmid] at hy
        simp only [Option.some.injEq] at hy
        subst hy
        by_cases hk : k = s.i
        · subst hk
          rw [hmid] at hx
          simp only [Option.some.injEq] at hx
          subst hx
          exact UInt32.le_refl _
        · exact hlow k x e1 (by omega) hx
      · have hty : temp ≤ y := hhigh l y hl' e3 hy
        rcases Nat.lt_trichotomy k s.i with hk | hk | hk
        · exact UInt32.le_trans (hlow k x e1 hk hx) hty
        · subst hk
          rw [hmid] at hx
          simp only [Option.some.injEq] at hx
          subst hx
          exact hty
        · exact sort2 k l x y hk e2 e3 hx hy
    · intro Q hQ k x e1 e2 hk
      have hs' := pq Q hQ
      have h1 : ∀ k x, low ≤ k → k ≤ high → a1[k]? = some x → Q x := by
        intro k x f1 f2 f3
        by_cases hk : k < s.i
        · exact q1 Q (fun k x g1 g2 g3 => hs' k x g1 (by omega) g3) k x f1 hk f3
        · rw [(out1 k (by omega)).1] at f3
          exact hs' k x f1 f2 f3
      by_cases hki : s.i < k
      · exact q2 Q (fun k x g1 g2 g3 => h1 k x (by omega) g2 g3) k x hki e2 hk
      · rw [(out2 k (by omega)).1] at hk
        exact h1 k x e1 e2 hk

theorem isSorted_iff (l : List UInt32) : isSorted l = true ↔ l.Pairwise (· < ·) := by
  match l with
  | [] => simp [isSorted]
  | [x] => simp [isSorted]
  | x :: y :: l =>
    have ih := isSorted_iff (y :: l)
    rw [isSorted]
    by_cases h : y ≤ x
    · rw [if_pos h]
      simp only [Bool.false_eq_true, List.pairwise_cons, false_iff]
      intro hc
      have := hc.1 y (by simp)
      exact absurd h (UInt32.not_le.2 this)
    · rw [if_neg h, ih]
      have hlt : x < y := UInt32.not_le.1 h
      constructor
      · intro hp
        refine List.pairwise_cons.2 ⟨?_, hp⟩
        intro z hz
        rcases List.mem_cons.1 hz with rfl | hz
        · exact hlt
        · exact UInt32.lt_trans hlt ((List.pairwise_cons.1 hp).1 z hz)
      · intro hp
        exact (List.pairwise_cons.1 hp).2

end Sol.Sort
