import Verif.Proofs.ReadLine
/-!
# Property C11: lines of any length are read whole
-/

namespace Sol.Props
open Sol.ReadLine Sol.Spec

/-- Repeated calls of `ReadLine` with the same buffer, until the end of the file: the lines delivered and the final
    capacity of the buffer. -/
inductive ReadsLines : Nat → List Char → List (List Char) → Nat → Prop
  | eof {cap f buf cap' f'} (h : readLine cap f = .ok ⟨.endOfFile, buf, cap', f'⟩) : ReadsLines cap f [] cap'
  | line {cap f l cap' f' L cap''} (h : readLine cap f = .ok ⟨.ok, l, cap', f'⟩)
      (hrest : ReadsLines cap' f' L cap'') : ReadsLines cap f (l :: L) cap''

/-- **C11 (one line).** Whatever the buffer's capacity (from 2 to 2^30) and whatever the line's length (below 2^29),
    `ReadLine` delivers the first line of the rest of the file, whole, in a buffer with room for the terminator, and
    leaves the file behind that line. -/
theorem C11_line_is_whole (cap : Nat) (l r : List Char) (hl : FirstLine l r) (h0 : '\x00' ∉ l) (hcap : 2 ≤ cap)
    (hcap2 : cap < 2 ^ 30) (hlen : l.length < 2 ^ 29) :
    ∃ cap', readLine cap (l ++ r) = .ok ⟨.ok, l, cap', r⟩ ∧ l.length < cap' := by
  obtain ⟨cap', h1, h2, _⟩ := readLine_spec l r cap hl h0 hcap hcap2 hlen
  exact ⟨cap', h1, h2⟩

/-- **C11 (whole file), the part that holds.** Reading a text file without zero bytes, line by line, delivers exactly
    its lines and then end-of-file.  Missing: buffers whose capacity has reached 2^30, and longer lines
    (`C11_is_violated`). -/
theorem C11_reads_all_lines_partial (L : List (List Char)) (f : List Char) (hL : Lines L f) (h0 : '\x00' ∉ f)
    (hlen : ∀ l ∈ L, l.length < 2 ^ 29) (cap : Nat) (hcap : 2 ≤ cap) (hcap2 : cap < 2 ^ 30) :
    ∃ cap', ReadsLines cap f L cap' := by
  induction L generalizing f cap with
  | nil =>
    change f = [] at hL
    subst hL
    exact ⟨cap, .eof (by rfl)⟩
  | cons l L ih =>
    obtain ⟨r, rfl, hl, hL⟩ := hL
    simp only [List.mem_append, not_or] at h0
    obtain ⟨cap', h1, h2, h3, h4, _⟩ := readLine_spec l r cap hl h0.1 hcap hcap2 (hlen l (List.mem_cons_self ..))
    have hlp : 0 < l.length := List.length_pos_iff.2 hl.1
    rcases hl.2 with ⟨t, ht, _⟩ | ⟨_, hr⟩
    · obtain ⟨cap'', h⟩ := ih r hL h0.2 (fun x hx => hlen x (List.mem_cons_of_mem _ hx)) cap' (by omega)
        (h4 (by rw [ht]; simp))
      exact ⟨cap'', .line h1 h⟩
    · subst hr
      cases L with
      | nil => exact ⟨cap', .line h1 (.eof rfl)⟩
      | cons l' L =>
        obtain ⟨r', hr', hl', _⟩ := hL
        have := hl'.1
        simp at hr'
        exact absurd hr'.1 this

/-- The lines delivered, put together, are the file. -/
theorem C11_lines_make_the_file (L : List (List Char)) (f : List Char) (hL : Lines L f) : L.flatten = f := by
  induction L generalizing f with
  | nil => exact hL.symm
  | cons l L ih =>
    obtain ⟨r, rfl, _, hL⟩ := hL
    rw [List.flatten_cons, ih r hL]

/-- A file of three lines: an empty one, one that does not fit a two-byte buffer and one without newline. -/
example : Lines [['\n'], ['a', 'b', 'c', '\n'], ['d']] ['\n', 'a', 'b', 'c', '\n', 'd'] :=
  ⟨_, rfl, ⟨by decide, .inl ⟨[], rfl, by decide⟩⟩, _, rfl, ⟨by decide, .inl ⟨['a', 'b', 'c'], rfl, by decide⟩⟩,
    _, rfl, ⟨by decide, .inr ⟨by decide, rfl⟩⟩, rfl⟩

/-! ## A last line without newline doubles the buffer on every pass -/

/-- Passes over one text file with the same reader (`Rewind` keeps the buffer): the capacity afterwards. -/
inductive Passes (f : List Char) : Nat → Nat → Nat → Prop
  | zero {cap} : Passes f cap 0 cap
  | succ {cap n cap' cap'' L} (h : ReadsLines cap f L cap') (hrest : Passes f cap' n cap'') : Passes f cap (n + 1) cap''

/-- A pass over a one-line file without final newline doubles the buffer although the line fits. -/
theorem ReadsLines.doubles {f : List Char} {cap cap' : Nat} {L : List (List Char)} (hf : f ≠ [])
    (hnl : '\n' ∉ f) (h0 : '\x00' ∉ f) (hfit : f.length < cap) (h2 : 2 ≤ cap) (h : ReadsLines cap f L cap') :
    cap' = 2 * cap ∧ cap' < 2 ^ 31 := by
  have key := readLine_unterminated f cap hf hnl h0 hfit h2
  by_cases hov : 2 * cap > 2147483647
  · rw [if_pos hov] at key
    cases h with
    | eof h => rw [key] at h; cases h
    | line h _ => rw [key] at h; cases h
  · rw [if_neg hov] at key
    cases h with
    | eof h => rw [key] at h; cases h
    | line h hrest =>
      rw [key] at h
      cases h
      cases hrest with
      | eof h => cases h; omega
      | line h _ => cases h

/-- **C11 is violated** for files whose last line has no newline: with the initial buffer of 4096 bytes
    (data_reader.cc:29) nineteen passes over such a file are impossible, `dst_len` overflows at the latest in the
    nineteenth. -/
theorem C11_is_violated (f : List Char) (hf : f ≠ []) (hnl : '\n' ∉ f) (h0 : '\x00' ∉ f)
    (hfit : f.length < 4096) : ¬ ∃ cap', Passes f 4096 19 cap' := by
  have gen : ∀ n cap cap', f.length < cap → 2 ≤ cap → Passes f cap n cap' →
      cap' = cap * 2 ^ n ∧ (0 < n → cap' < 2 ^ 31) := by
    intro n
    induction n with
    | zero => intro cap cap' _ _ h; cases h; simp
    | succ n ih =>
      intro cap cap' hc h2 h
      cases h with
      | succ h hrest =>
        obtain ⟨rfl, hlt⟩ := h.doubles hf hnl h0 hc h2
        obtain ⟨h1, h2⟩ := ih _ _ (by omega) (by omega) hrest
        refine ⟨by rw [h1, Nat.pow_succ]; ac_rfl, fun _ => ?_⟩
        cases n with
        | zero => omega
        | succ n => exact h2 (by omega)
  rintro ⟨cap', h⟩
  obtain ⟨h1, h2⟩ := gen 19 4096 cap' (by omega) (by omega) h
  have := h2 (by omega)
  omega

/-- Eighteen passes do succeed on such a file, so the statement above is not about an impossible first pass. -/
theorem C11_eighteen_passes (f : List Char) (hf : f ≠ []) (hnl : '\n' ∉ f) (h0 : '\x00' ∉ f)
    (hfit : f.length < 4096) : Passes f 4096 18 (2 ^ 30) := by
  have gen : ∀ n cap, f.length < cap → 2 ≤ cap → cap * 2 ^ n ≤ 2 ^ 30 → Passes f cap n (cap * 2 ^ n) := by
    intro n
    induction n with
    | zero => intro cap _ _ _; simpa using Passes.zero
    | succ n ih =>
      intro cap hc h2 hb
      have h2n : 1 ≤ 2 ^ n := Nat.one_le_two_pow
      have e : cap * 2 ^ (n + 1) = 2 * cap * 2 ^ n := by rw [Nat.pow_succ]; ac_rfl
      have hle : 2 * cap ≤ 2 * cap * 2 ^ n := Nat.le_mul_of_pos_right _ h2n
      rw [e] at hb ⊢
      have key := readLine_unterminated f cap hf hnl h0 hc h2
      rw [if_neg (by omega)] at key
      exact .succ (.line key (.eof rfl)) (ih _ (by omega) (by omega) hb)
  exact gen 18 4096 hfit (by omega) (by decide)

example : (['1', ' ', '1', ':', '2'] : List Char) ≠ [] ∧ '\n' ∉ ['1', ' ', '1', ':', '2'] ∧
    '\x00' ∉ ['1', ' ', '1', ':', '2'] := by decide

end Sol.Props
