import Verif.Model.StrUtil
import Verif.Spec.StrUtil
import Verif.Proofs.PreProcess
/-! String helpers and the class registry. -/

namespace Sol.StrUtil

open Sol.Spec Sol.PreProcess

/-! ### Splitting -/

theorem split_gap {d : Char} {g : List Char} (hg : ∀ c ∈ g, c = d) : split d g = [] := by
  have h : g.dropWhile (· == d) = [] := by
    have := dropWhile_app (p := (· == d)) (a := g) (b := []) (fun c hc => by simpa using hg c hc) (by simp)
    simpa using this
  rw [split.eq_def]
  split
  · rfl
  · rename_i h'
    exact absurd (h.symm.trans h') (by simp)

theorem split_piece {d : Char} {g p t : List Char} (hg : ∀ c ∈ g, c = d) (hp : p ≠ []) (hd : d ∉ p) (ht : ∀ c ∈ t.head?, c = d) :
    split d (g ++ p ++ t) = p :: split d t := by
  have hn : ∀ c ∈ p, (c != d) = true := fun c hc => by
    have : c ≠ d := fun e => hd (e ▸ hc)
    simpa [bne] using this
  have h : (g ++ p ++ t).dropWhile (· == d) = p ++ t := by
    rw [List.append_assoc]
    refine dropWhile_app (fun c hc => by simpa using hg c hc) ?_
    obtain ⟨c, q, rfl⟩ := List.exists_cons_of_ne_nil hp
    intro a ha
    simp only [List.cons_append, List.head?_cons, Option.mem_def, Option.some.injEq] at ha
    subst ha
    simpa [bne] using hn c (by simp)
  have hh : ∀ c ∈ t.head?, (c != d) = false := fun c hc => by simpa [bne] using ht c hc
  rw [split.eq_def]
  split
  · rename_i h'
    rw [h] at h'
    exact absurd (List.append_eq_nil_iff.1 h').1 hp
  · rename_i c q h'
    rw [← h', h, takeWhile_app hn hh, dropWhile_app hn hh]

theorem split_sep (d : Char) (t : List Char) : split d (d :: t) = split d t := by
  have h : (d :: t).dropWhile (· == d) = t.dropWhile (· == d) := by simp only [List.dropWhile_cons, beq_self_eq_true, if_true]
  rw [split.eq_def, split.eq_def (s := t)]
  split <;> rename_i h1 <;> split <;> rename_i h2 <;> rw [h] at h1
  · exact absurd (h1.symm.trans h2) (by simp)
  · exact absurd (h1.symm.trans h2) (by simp)
  · have := h1.symm.trans h2
    injection this with e1 e2
    subst e1 e2
    rfl

theorem split_of_pieces {d : Char} {s : List Char} {ps : List (List Char)} (h : Pieces d s ps) : split d s = ps := by
  induction h with
  | done g hg => exact split_gap hg
  | last g p hg hp hd =>
    have := split_piece (t := []) hg hp hd (by simp)
    rw [List.append_nil] at this
    rw [this, split_gap (by simp)]
  | more g p t ps hg hp hd _ ih =>
    rw [split_piece hg hp hd (by simp), split_sep, ih]

theorem pieces_split (d : Char) : ∀ (n : Nat) (s : List Char), s.length ≤ n → Pieces d s (split d s) := by
  intro n
  induction n with
  | zero =>
    intro s hs
    have : s = [] := List.length_eq_zero_iff.1 (by omega)
    subst this
    rw [split_gap (by simp)]
    exact .done _ (by simp)
  | succ n ih =>
    intro s hs
    have hsplit := List.takeWhile_append_dropWhile (p := (· == d)) (l := s)
    generalize hg' : s.takeWhile (· == d) = g at hsplit
    generalize hr' : s.dropWhile (· == d) = r at hsplit
    have hg : ∀ c ∈ g, c = d := fun c hc => by
      have := List.all_eq_true.1 (List.all_takeWhile (p := (· == d)) (l := s)) c (hg' ▸ hc)
      simpa using this
    have hr : ∀ c ∈ r.head?, c ≠ d := fun c hc => by
      have := List.head?_dropWhile_not (· == d) s
      rw [hr'] at this
      cases r with
      | nil => simp at hc
      | cons a r =>
        simp only [List.head?_cons, Option.mem_def, Option.some.injEq] at hc
        subst hc
        simpa using this
    have hsplit2 := List.takeWhile_append_dropWhile (p := (· != d)) (l := r)
    generalize hp' : r.takeWhile (· != d) = p at hsplit2
    generalize ht' : r.dropWhile (· != d) = t at hsplit2
    have hd : d ∉ p := fun hc => by
      have := List.all_eq_true.1 (List.all_takeWhile (p := (· != d)) (l := r)) d (hp' ▸ hc)
      simp at this
    have hpne : r ≠ [] → p ≠ [] := fun hne e => by
      obtain ⟨c, q, rfl⟩ := List.exists_cons_of_ne_nil hne
      have hc := hr c (by simp)
      rw [← hp', List.takeWhile_cons, if_pos (by simpa [bne] using hc)] at e
      exact List.cons_ne_nil _ _ e
    have hth : ∀ c ∈ t.head?, c = d := fun c hc => by
      have := List.head?_dropWhile_not (· != d) r
      rw [ht'] at this
      cases t with
      | nil => simp at hc
      | cons a t =>
        simp only [List.head?_cons, Option.mem_def, Option.some.injEq] at hc
        subst hc
        simpa [bne] using this
    by_cases hne : r = []
    · have e : s = g := by rw [← hsplit, hne, List.append_nil]
      rw [e, split_gap hg]
      exact .done _ hg
    · have hp := hpne hne
      cases t with
      | nil =>
        have e : s = g ++ p := by rw [← hsplit, ← hsplit2]; simp
        have := split_piece (t := []) hg hp hd (by simp)
        rw [List.append_nil, split_gap (g := []) (by simp)] at this
        rw [e, this]
        exact .last g p hg hp hd
      | cons c t =>
        have hc := hth c (by simp)
        subst hc
        have e : s = g ++ p ++ c :: t := by rw [← hsplit, ← hsplit2, List.append_assoc]
        rw [e, split_piece hg hp hd (by simp), split_sep]
        refine .more g p t _ hg hp hd (ih t ?_)
        have := congrArg List.length e
        simp only [List.length_append, List.length_cons] at this
        omega

/-! ### Lower case -/

theorem tolower_ascii {c : Char} (hc : c.toNat < 128) : tolower c = .ok c.toLower := by
  unfold tolower
  rw [if_neg (by omega)]
  have key : ∀ n, n < 128 → (if 'A' ≤ Char.ofNat n ∧ Char.ofNat n ≤ 'Z' then Res.ok (Char.ofNat ((Char.ofNat n).toNat + 32))
      else .ok (Char.ofNat n)) = Res.ok (Char.ofNat n).toLower := by decide +kernel
  have := key c.toNat hc
  rwa [Char.ofNat_toNat] at this

theorem lower_ascii {s : List Char} (hs : Ascii s) : lower s = .ok (s.map Char.toLower) := by
  induction s with
  | nil => rfl
  | cons c s ih =>
    rw [lower, tolower_ascii (hs c (by simp)), ih fun a ha => hs a (by simp [ha])]
    rfl

theorem toLower_ascii {c : Char} (hc : c.toNat < 128) : c.toLower.toNat < 128 ∧ c.toLower.toLower = c.toLower := by
  have key : ∀ n, n < 128 → (Char.ofNat n).toLower.toNat < 128 ∧ (Char.ofNat n).toLower.toLower = (Char.ofNat n).toLower := by
    decide +kernel
  have := key c.toNat hc
  rwa [Char.ofNat_toNat] at this

/-! ### The registry -/

variable {I : Type}

theorem find_cons (e : List Char × I) (m : Registry I) (k : List Char) :
    find (e :: m) k = if e.1 = k then some e.2 else find m k := by
  unfold find
  rw [List.find?_cons]
  cases h : e.1 == k
  · rw [if_neg (by simpa using h)]
  · rw [if_pos (by simpa using h)]; rfl

/-- Registering distinct names succeeds, and every name is then found under its lower-case text. -/
theorem registerAll_ok (rs : List (List Char × I)) (ha : ∀ r ∈ rs, Ascii r.1) (hd : rs.Pairwise fun a b => ¬ SameWord a.1 b.1) :
    ∀ m : Registry I, (∀ r ∈ rs, find m (r.1.map Char.toLower) = none) →
      ∃ m', registerAll m rs = .ok (some m') ∧
        ∀ k, find m' k = ((rs.find? fun r => r.1.map Char.toLower == k).map (·.2)).or (find m k) := by
  induction rs with
  | nil => intro m _; exact ⟨m, rfl, fun k => by simp⟩
  | cons r rs ih =>
    intro m hm
    have hr : register m r.1 r.2 = .ok (some ((r.1.map Char.toLower, r.2) :: m)) := by
      unfold register
      rw [lower_ascii (ha r (by simp))]
      simp only [Res.bind_ok, hm r (by simp)]
    obtain ⟨m', h1, h2⟩ := ih (fun a h => ha a (by simp [h])) hd.tail ((r.1.map Char.toLower, r.2) :: m) (by
      intro a h
      rw [find_cons, if_neg, hm a (by simp [h])]
      exact (List.pairwise_cons.1 hd).1 a h)
    refine ⟨m', ?_, ?_⟩
    · rw [registerAll, hr, Res.bind_ok]
      exact h1
    · intro k
      rw [h2 k, find_cons, List.find?_cons]
      by_cases e : r.1.map Char.toLower = k
      · have hnone : rs.find? (fun r => r.1.map Char.toLower == k) = none := by
          rw [List.find?_eq_none]
          intro a h
          simp only [beq_iff_eq]
          intro e'
          exact (List.pairwise_cons.1 hd).1 a h (e.trans e'.symm)
        simp [e, hnone]
      · have : (r.1.map Char.toLower == k) = false := by simpa using e
        simp only [this, if_neg e]

end Sol.StrUtil
