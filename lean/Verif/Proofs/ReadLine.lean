import Verif.Model.ReadLine
import Verif.Spec.Lines
/-!
# Lemmas about `ReadLine`
-/

namespace Sol.ReadLine
open Sol.Spec

/-- The rest of a line, possibly empty. -/
def LineRest (l r : List Char) : Prop := (∃ t, l = t ++ ['\n'] ∧ '\n' ∉ t) ∨ ('\n' ∉ l ∧ r = [])

theorem cstr_eq {buf : List Char} (h : '\x00' ∉ buf) : cstr buf = buf := by
  unfold cstr
  induction buf with
  | nil => rfl
  | cons c buf ih =>
    have hc : c ≠ '\x00' := fun hc => h (by rw [hc]; simp)
    rw [List.takeWhile_cons, if_pos (by simpa using hc), ih (fun hm => h (List.mem_cons_of_mem _ hm))]

theorem takeLine_whole {l r : List Char} (h : LineRest l r) (k : Nat) (hk : l.length ≤ k) :
    takeLine k (l ++ r) = (l, r) := by
  induction l generalizing k with
  | nil =>
    rcases h with ⟨t, h, _⟩ | ⟨_, rfl⟩
    · exact absurd h (by simp)
    · cases k <;> rfl
  | cons c l ih =>
    cases k with
    | zero => simp at hk
    | succ k =>
      rw [List.cons_append, takeLine]
      by_cases hc : c = '\n'
      · rw [if_pos hc]
        rcases h with ⟨t, h, ht⟩ | ⟨h, _⟩
        · cases t with
          | nil => simp at h; simp [h]
          | cons d t =>
            simp only [List.cons_append, List.cons.injEq] at h
            exact absurd (by rw [← h.1, hc]; simp) ht
        · exact absurd (by rw [hc]; simp) h
      · rw [if_neg hc, ih]
        · rcases h with ⟨t, h, ht⟩ | ⟨h, h'⟩
          · cases t with
            | nil => simp at h; exact absurd h.1 hc
            | cons d t =>
              simp only [List.cons_append, List.cons.injEq] at h
              exact .inl ⟨t, h.2, fun hm => ht (List.mem_cons_of_mem _ hm)⟩
          · exact .inr ⟨fun hm => h (List.mem_cons_of_mem _ hm), h'⟩
        · simp at hk; omega

theorem LineRest.drop {l r : List Char} (h : LineRest l r) (k : Nat) (hk : k < l.length) :
    LineRest (l.drop k) r ∧ '\n' ∉ l.take k := by
  rcases h with ⟨t, rfl, ht⟩ | ⟨h, h'⟩
  · simp at hk
    constructor
    · exact .inl ⟨t.drop k, by rw [List.drop_append_of_le_length (by omega)], fun hm => ht (List.mem_of_mem_drop hm)⟩
    · rw [List.take_append_of_le_length (by omega)]
      exact fun hm => ht (List.mem_of_mem_take hm)
  · exact ⟨.inr ⟨fun hm => h (List.mem_of_mem_drop hm), h'⟩, fun hm => h (List.mem_of_mem_take hm)⟩

theorem takeLine_part {l r : List Char} (h : LineRest l r) (k : Nat) (hk : k < l.length) :
    takeLine k (l ++ r) = (l.take k, l.drop k ++ r) := by
  induction l generalizing k with
  | nil => simp at hk
  | cons c l ih =>
    cases k with
    | zero => rfl
    | succ k =>
      have hk' : k < l.length := by simpa using hk
      have hc : c ≠ '\n' := by
        have := (h.drop 1 (by simp; omega)).2
        simp at this
        exact fun h => this h.symm
      have hl : LineRest l r := (h.drop 1 (by simp; omega)).1
      rw [List.cons_append, takeLine, if_neg hc, ih hl k hk']
      rfl

/-- One run of the doubling loop on the rest of a line. -/
theorem readMore_spec (buf l r : List Char) (cap : Nat) (hl : LineRest l r) (hb : '\n' ∉ buf)
    (h0 : '\x00' ∉ buf) (h1 : '\x00' ∉ l) (hcap : buf.length < cap) (hcap2 : cap < 2 ^ 30)
    (htot : (buf ++ l).length < 2 ^ 29) (hfull : l ≠ [] → buf.length + 1 = cap) :
    ∃ cap', readMore buf cap (l ++ r) = .ok (buf ++ l, cap', r) ∧ (buf ++ l).length < cap' ∧ cap' < 2 ^ 31 ∧
      ('\n' ∈ l → cap' < 2 ^ 30) ∧ (l = [] → cap' = 2 * cap) := by
  generalize hn : l.length = n
  induction n using Nat.strongRecOn generalizing buf l cap with
  | ind n ih =>
    have hcs := cstr_eq h0
    rw [readMore, if_neg (by rw [hcs]; exact hb), if_neg (by omega)]
    dsimp only
    rw [hcs, dif_neg (by omega)]
    rw [List.length_append] at htot
    by_cases hle : l = []
    · subst hle
      have hr : r = [] := by
        rcases hl with ⟨t, h, _⟩ | ⟨_, h⟩
        · exact absurd h (by simp)
        · exact h
      subst hr
      refine ⟨2 * cap, by simp, by simp; omega, by omega, by simp, fun _ => rfl⟩
    · have hf := hfull hle
      have hlp : 0 < l.length := List.length_pos_iff.2 hle
      rw [dif_neg (by simp [hle])]
      have hk : 2 * cap - buf.length - 1 = cap := by omega
      rw [hk]
      by_cases hfit : l.length ≤ cap
      · rw [takeLine_whole hl cap hfit]
        dsimp only
        have h0' : '\x00' ∉ buf ++ l := by simp [h0, h1]
        by_cases hnl : '\n' ∈ l
        · refine ⟨2 * cap, ?_, by simp; omega, by omega, fun _ => by omega, fun h => absurd h hle⟩
          rw [readMore, if_pos]
          rw [cstr_eq h0']
          simp [hnl]
        · have hr : r = [] := by
            rcases hl with ⟨t, h, _⟩ | ⟨_, h⟩
            · exact absurd (by rw [h]; simp) hnl
            · exact h
          subst hr
          obtain ⟨cap', e1, e2, e3, _, _⟩ := ih 0 (by omega) (buf ++ l) [] (2 * cap) (.inr ⟨by simp, rfl⟩)
            (by simp [hb, hnl]) h0' (by simp) (by simp; omega) (by omega) (by simp; omega)
            (fun h => absurd rfl h) rfl
          exact ⟨cap', by simpa using e1, by simpa using e2, e3, fun h => absurd h hnl, fun h => absurd h hle⟩
      · have hlt : cap < l.length := by omega
        rw [takeLine_part hl cap hlt]
        dsimp only
        have hd := hl.drop cap hlt
        obtain ⟨cap', e1, e2, e3, e4, _⟩ := ih (l.drop cap).length (by rw [List.length_drop]; omega)
          (buf ++ l.take cap) (l.drop cap) (2 * cap)
          hd.1 (by simp [hb, hd.2]) (by simp only [List.mem_append, not_or]; exact ⟨h0, fun h => h1 (List.mem_of_mem_take h)⟩)
          (fun h => h1 (List.mem_of_mem_drop h)) (by simp; omega) (by omega) (by simp; omega)
          (fun _ => by simp; omega) rfl
        refine ⟨cap', ?_, ?_, e3, fun hnl => e4 ?_, fun h => absurd h hle⟩
        · rw [e1]; simp
        · simpa using e2
        · rw [← List.take_append_drop cap l, List.mem_append] at hnl
          exact hnl.resolve_left hd.2

theorem readLine_spec (l r : List Char) (cap : Nat) (hl : FirstLine l r) (h0 : '\x00' ∉ l) (hcap : 2 ≤ cap)
    (hcap2 : cap < 2 ^ 30) (hlen : l.length < 2 ^ 29) :
    ∃ cap', readLine cap (l ++ r) = .ok ⟨.ok, l, cap', r⟩ ∧ l.length < cap' ∧ cap' < 2 ^ 31 ∧
      ('\n' ∈ l → cap' < 2 ^ 30) ∧ ('\n' ∈ l → l.length < cap → cap' = cap) ∧
      ('\n' ∉ l → l.length < cap → cap' = 2 * cap) := by
  obtain ⟨hne, hl⟩ := hl
  change LineRest l r at hl
  unfold readLine fgets
  rw [if_neg (by simp [hne])]
  by_cases hfit : l.length ≤ cap - 1
  · rw [takeLine_whole hl _ hfit]
    dsimp only
    by_cases hnl : '\n' ∈ l
    · refine ⟨cap, ?_, by omega, by omega, fun _ => hcap2, fun _ _ => rfl, fun h => absurd hnl h⟩
      rw [readMore, if_pos (by rw [cstr_eq h0]; exact hnl)]
      rfl
    · have hr : r = [] := by
        rcases hl with ⟨t, h, _⟩ | ⟨_, h⟩
        · exact absurd (by rw [h]; simp) hnl
        · exact h
      subst hr
      obtain ⟨cap', e1, e2, e3, _, e5⟩ := readMore_spec l [] [] cap (.inr ⟨by simp, rfl⟩) hnl h0 (by simp)
        (by omega) hcap2 (by simpa using hlen) (fun h => absurd rfl h)
      refine ⟨cap', ?_, by simpa using e2, e3, fun h => absurd h hnl, fun h => absurd h hnl, fun _ _ => e5 rfl⟩
      simp only [List.append_nil] at e1
      rw [e1]
      rfl
  · have hlt : cap - 1 < l.length := by omega
    rw [takeLine_part hl _ hlt]
    dsimp only
    have hd := hl.drop (cap - 1) hlt
    obtain ⟨cap', e1, e2, e3, e4, _⟩ := readMore_spec (l.take (cap - 1)) (l.drop (cap - 1)) r cap hd.1 hd.2
      (fun h => h0 (List.mem_of_mem_take h)) (fun h => h0 (List.mem_of_mem_drop h)) (by simp; omega) hcap2
      (by simp; omega) (fun _ => by simp; omega)
    rw [List.take_append_drop] at e1 e2
    refine ⟨cap', ?_, e2, e3, fun hnl => e4 ?_, fun _ h => by omega, fun _ h => by omega⟩
    · rw [e1]; rfl
    · rw [← List.take_append_drop (cap - 1) l, List.mem_append] at hnl
      exact hnl.resolve_left hd.2

/-- The loop at the end of a file whose last line has no newline. -/
theorem readMore_eof (buf : List Char) (cap : Nat) (hb : '\n' ∉ buf) (h0 : '\x00' ∉ buf) (hc : buf.length < cap)
    (h2 : 2 ≤ cap) :
    readMore buf cap [] = if 2 * cap > 2147483647 then .ub .signedOverflow else .ok (buf, 2 * cap, []) := by
  have hcs := cstr_eq h0
  rw [readMore, if_neg (by rw [hcs]; exact hb)]
  by_cases h : 2 * cap > 2147483647
  · rw [if_pos h, if_pos h]
  · rw [if_neg h, if_neg h]
    dsimp only
    rw [dif_neg (by rw [hcs]; omega), dif_pos rfl]

/-- `ReadLine` on a file that is one line without newline and fits the buffer. -/
theorem readLine_unterminated (f : List Char) (cap : Nat) (hf : f ≠ []) (hnl : '\n' ∉ f) (h0 : '\x00' ∉ f)
    (hfit : f.length < cap) (h2 : 2 ≤ cap) :
    readLine cap f =
      if 2 * cap > 2147483647 then .ub .signedOverflow else .ok ⟨.ok, f, 2 * cap, []⟩ := by
  unfold readLine fgets
  rw [if_neg hf]
  have := takeLine_whole (l := f) (r := []) (.inr ⟨hnl, rfl⟩) (cap - 1) (by omega)
  rw [List.append_nil] at this
  rw [this]
  dsimp only
  rw [readMore_eof f cap hnl h0 hfit h2]
  split <;> rfl

end Sol.ReadLine
