import Verif.Proofs.TextIO
import Verif.Props.ReadLine
import Verif.Props.Sort
/-!
# Properties C08, C09: libsvm data sets
-/

namespace Sol.Props
open Sol.TextReaders Sol.TextWriters Sol.NumericParser Sol.Spec Sol.ReadLine

/-- Repeated calls of `SVMReader::Next` until the first status other than OK: the points delivered and that status. -/
inductive SvmReads : Nat → List Char → List TextPoint → Status → Prop
  | stop {cap f s p cap' f'} (h : svmNext cap f = .ok (s, p, cap', f')) (hs : s ≠ .ok) : SvmReads cap f [] s
  | point {cap f p cap' f' ps s} (h : svmNext cap f = .ok (.ok, p, cap', f')) (hrest : SvmReads cap' f' ps s) :
      SvmReads cap f (p :: ps) s

/-- The point read is the point written: same label, same indexes, and every value is the number the writer printed
    (cut after the seventh decimal, so exact when `%g` printed at most seven decimals). -/
def SameText (p : OutPoint) (q : TextPoint) : Prop :=
  q.label = p.label ∧ q.indexes = p.feats.map (·.1) ∧ List.Forall₂ Close (p.feats.map (·.2)) q.values

/-- A point that survives being written as text: the label is not among the 48 largest magnitudes, indexes are ascending
    and below 2^31, values are finite. -/
structure SvmStorable (p : OutPoint) : Prop where
  label : p.label.natAbs ≤ 2147483599
  feats : ∀ f ∈ p.feats, Writable f
  ascending : (p.feats.map (·.1)).Pairwise (· < ·)
  length : (svmWrite p).length < 2 ^ 29

theorem forall₂_snd {feats : List (UInt32 × GVal)} {ds : List Dec}
    (h : List.Forall₂ (fun f d => Close f.2 d) feats ds) : List.Forall₂ Close (feats.map (·.2)) ds := by
  induction h with
  | nil => exact .nil
  | cons h _ ih => exact .cons h ih

/-- **C08 (one line).** -/
theorem C08_line_roundtrip (p : OutPoint) (h : SvmStorable p) :
    ∃ q, svmLine (svmWrite p ++ ['\x00']) = .ok (.ok, q) ∧ SameText p q := by
  obtain ⟨ds, h1, h2⟩ := svmLine_spec p h.label h.feats
  refine ⟨⟨p.label, p.feats.map (·.1), ds⟩, ?_, rfl, rfl, forall₂_snd h1⟩
  rw [h2, C12_sort_sorted_unchanged _ _ (by simpa using h.ascending)]
  rfl

/-- **C08 (data set), the part that holds.** The file made by writing points one after the other is read back as
    the same points, and then end-of-file. Missing: labels and indexes outside the ranges of `SvmStorable` and
    infinite values (`C08_is_violated`), decimals after the seventh (`C08_digits_are_lost`). -/
theorem C08_svm_roundtrip_partial (ps : List OutPoint) (h : ∀ p ∈ ps, SvmStorable p) (cap : Nat) (hcap : 2 ≤ cap)
    (hcap2 : cap < 2 ^ 30) :
    ∃ qs, SvmReads cap (ps.flatMap svmWrite) qs .endOfFile ∧ List.Forall₂ SameText ps qs := by
  induction ps generalizing cap with
  | nil => exact ⟨[], .stop (p := ⟨0, [], []⟩) (cap' := cap) (f' := []) (by rfl) (by decide), .nil⟩
  | cons p ps ih =>
    have hp := h p (List.mem_cons_self ..)
    obtain ⟨hl, h0⟩ := svmWrite_line p (ps.flatMap svmWrite)
    obtain ⟨cap', e1, e2, _, e4, _⟩ := readLine_spec _ _ cap hl h0 hcap hcap2 hp.length
    obtain ⟨q, hq, hs⟩ := C08_line_roundtrip p hp
    have hpos : 0 < (svmWrite p).length := List.length_pos_iff.2 hl.1
    obtain ⟨qs, h1, h2⟩ := ih (fun p hp => h p (List.mem_cons_of_mem _ hp)) cap' (by omega)
      (e4 (by simp [svmWrite]))
    refine ⟨q :: qs, .point (p := q) (cap' := cap') (f' := ps.flatMap svmWrite) ?_ h1, .cons hs h2⟩
    rw [List.flatMap_cons]
    unfold svmNext
    rw [e1]
    simp [hq]

/-- **C08, unsorted points.** Without the order hypothesis the same pairs come back, in index order. -/
theorem C08_unsorted_line (p : OutPoint) (hl : p.label.natAbs ≤ 2147483599) (hw : ∀ f ∈ p.feats, Writable f) :
    ∃ q ds, svmLine (svmWrite p ++ ['\x00']) = .ok (.ok, q) ∧ q.label = p.label ∧
      List.Forall₂ Close (p.feats.map (·.2)) ds ∧ q.indexes.Pairwise (· ≤ ·) ∧
      (q.indexes.zip q.values).Perm ((p.feats.map (·.1)).zip ds) := by
  obtain ⟨ds, h1, h2⟩ := svmLine_spec p hl hw
  obtain ⟨a, b, h3, _, _, h4, h5⟩ := C12_sort_correct (p.feats.map (·.1)).toArray ds.toArray
    (by simp [h1.length_eq])
  refine ⟨⟨p.label, a.toList, b.toList⟩, ds, ?_, rfl, forall₂_snd h1, h4, by simpa using h5⟩
  rw [h2, h3]
  rfl

/-- Points storable as text: three features, one with a long fraction, and an empty point. -/
example : ∀ p ∈ [(⟨-1, [(1, .num false 500000 (-1)), (7, .num true 123456 (-3)), (2147483647, .num false 100000 30)]⟩ : OutPoint),
    ⟨3, []⟩], SvmStorable p := by
  intro p hp
  simp only [List.mem_cons, List.not_mem_nil, or_false] at hp
  rcases hp with rfl | rfl
  · refine ⟨by decide, ?_, by decide, by decide +kernel⟩
    intro f hf
    simp only [List.mem_cons, List.not_mem_nil, or_false] at hf
    rcases hf with rfl | rfl | rfl <;> exact ⟨by decide, by simp [Printable]⟩
  · exact ⟨by decide, by simp, by decide, by decide⟩

/-- **C08 is violated** for every point with an index of 2^31 or more (printed with `%d` as a negative number,
    svm_writer.cc:20) or an infinite or undefined value: the reader refuses the line the writer wrote. -/
theorem C08_is_violated (p : OutPoint) (pre post : List (UInt32 × GVal)) (f : UInt32 × GVal)
    (hf : p.feats = pre ++ f :: post) (hl : p.label.natAbs ≤ 2147483599) (hw : ∀ f ∈ pre, Writable f)
    (hu : Unreadable f) :
    svmLine (svmWrite p ++ ['\x00']) = .ok (.invalidFormat, ⟨p.label, [], []⟩) := by
  obtain ⟨K, hK⟩ : ∃ K, K = svmFeat f ++ (post.flatMap svmFeat ++ ['\n', '\x00']) := ⟨_, rfl⟩
  have hK0 : '\x00' ∈ K := by rw [hK]; simp
  have hKe : EndsNumber K := by rw [hK]; exact ⟨' ', _, rfl, by decide⟩
  have he : svmWrite p ++ ['\x00'] = intText p.label ++ (pre.flatMap svmFeat ++ K) := by
    rw [hK]; simp [svmWrite, hf]
  obtain ⟨T, hT⟩ : ∃ T, T = pre.flatMap svmFeat ++ K := ⟨_, rfl⟩
  have hT0 : '\x00' ∈ T := by rw [hT]; simp [hK0]
  have hTe : EndsNumber T := by
    rw [hT]
    cases pre with
    | nil => exact hKe
    | cons g gs => exact ⟨' ', _, rfl, by decide⟩
  obtain ⟨ds, h1, _⟩ := svmFeats_prefix pre hw K hKe hK0 [] []
  rw [← hT] at h1
  have h2 := svmFeats_unreadable f hu (post.flatMap svmFeat ++ ['\n', '\x00']) (by simp) ([] ++ pre.map (·.1))
    ([] ++ ds)
  rw [← hK, ← h1] at h2
  rw [he, ← hT]
  obtain ⟨c, t, hct, hc0⟩ := intText_head p.label T
  have hp := C06_label_parses_partial [] T p.label hl (by simp) hTe hT0
  rw [List.nil_append] at hp
  unfold svmLine
  rw [show peek (intText p.label ++ T) = .ok c by rw [hct]; rfl, Res.bind_ok, if_neg hc0, hp, Res.bind_ok]
  dsimp only
  rw [if_neg, h2, Res.bind_ok]
  · have h1 := (List.dropWhile_suffix blank (l := T)).length_le
    have h2 := List.length_pos_iff.2 (intText_ne_nil p.label)
    rw [List.length_append]
    omega

/-- Instances: the first index beyond, and an infinite value. -/
example : Unreadable (2147483648, .num false 500000 0) ∧ Unreadable (3, .inf true) :=
  ⟨.inl (by decide), .inr (.inl ⟨true, rfl⟩)⟩

/-- **C08: digits are lost** although `%g` printed them: 0.00123456 is read as 0.0012345. -/
theorem C08_digits_are_lost :
    ∃ p q, SvmStorable p ∧ p.feats = [(1, .num false 123456 (-3))] ∧
      svmLine (svmWrite p ++ ['\x00']) = .ok (.ok, q) ∧ q.values = [⟨12345, -7⟩] := by
  refine ⟨⟨1, [(1, .num false 123456 (-3))]⟩, ⟨1, [1], [⟨12345, -7⟩]⟩, ⟨by decide, ?_, by decide, by decide +kernel⟩,
    rfl, by decide +kernel, rfl⟩
  intro f hf
  simp only [List.mem_cons, List.not_mem_nil, or_false] at hf
  rw [hf]; exact ⟨by decide, by simp [Printable]⟩

/-! ## C09: what the reader accepts -/

/-- **C09 (accepted lines).** A line is accepted only if it is a label followed by features `index:value` (in the
    grammar of `Verif.Spec.SvmGrammar`) up to the terminator; the point delivered has the label on the line, its indexes
    are in non-decreasing order, and its (index, value) pairs are exactly those on the line. -/
theorem C09_accepted_lines (line : List Char) (p : TextPoint) (h : svmLine line = .ok (.ok, p)) :
    ∃ lt ft rest pairs, line = lt ++ (ft ++ '\x00' :: rest) ∧ lt ≠ [] ∧ IntTok lt p.label ∧ FeatsTok ft pairs ∧
      p.indexes.Pairwise (· ≤ ·) ∧ p.indexes.length = p.values.length ∧ (p.indexes.zip p.values).Perm pairs := by
  unfold svmLine at h
  obtain ⟨c, hc, h⟩ := Res.bind_eq_ok.1 h
  split at h
  · simp at h
  · obtain ⟨⟨label, e⟩, hl, h⟩ := Res.bind_eq_ok.1 h
    dsimp only at h
    split at h
    · simp at h
    · rename_i hlen
      obtain ⟨r, hr, h⟩ := Res.bind_eq_ok.1 h
      split at h
      · simp at h
      · rename_i idx vals
        obtain ⟨⟨a, b⟩, hs, h⟩ := Res.bind_eq_ok.1 h
        simp only [Res.ok.injEq, Prod.mk.injEq, true_and] at h
        subst h
        obtain ⟨lt, hlt, hli⟩ := parseInt_inv hl hlen
        obtain ⟨ft, rest, pairs, h1, h2, h3, h4⟩ := svmFeats_inv _ e [] [] idx vals rfl hr
        rw [List.nil_append] at h3 h4
        obtain ⟨a', b', h5, hsa, hsb, h6, h7⟩ := C12_sort_correct idx.toArray vals.toArray (by simp [h3, h4])
        rw [hs] at h5
        cases h5
        refine ⟨lt, ft, rest, pairs, by rw [hlt, h1], ?_, hli, h2, h6, by simp [hsa, hsb], ?_⟩
        · rintro rfl; exact hlen (by rw [hlt]; rfl)
        · refine h7.trans (List.Perm.of_eq ?_)
          simp only [h3, h4]
          exact (List.zip_of_prod rfl rfl).symm

theorem svmFeats_safe (n : Nat) : ∀ (iter : Ptr) (idx : List UInt32) (vals : List Dec), iter.length = n →
    '\x00' ∈ iter → svmFeats iter idx vals ≠ .ub .outOfBounds := by
  induction n using Nat.strongRecOn with
  | ind n ih =>
    intro iter idx vals hn h0 h
    rw [svmFeats.eq_def] at h
    split at h
    · simp at h0
    · rename_i c iter'
      split at h
      · simp at h
      · split at h
        · rename_i k hk
          simp only [Res.ub.injEq] at h
          subst h
          exact (parseUint_adv _).2 h0 hk
        · rename_i i e hu
          obtain ⟨u, hue, hu0⟩ := (parseUint_adv _).1 _ hu
          dsimp only at hue
          have he0 : '\x00' ∈ e := by rw [hue] at h0; simpa [hu0] using h0
          split at h
          · simp at h
          · split at h
            · simp at he0
            · rename_i d e' _ _
              split at h
              · simp at h
              · rename_i hd
                have hd : d = ':' := Decidable.not_not.1 hd
                have he0' : '\x00' ∈ e' := by rw [hd] at he0; simpa using he0
                split at h
                · rename_i k hk
                  simp only [Res.ub.injEq] at h
                  subst h
                  exact (parseFloat_adv _).2 he0' hk
                · rename_i feat e'' hf
                  obtain ⟨v, hve, hv0⟩ := (parseFloat_adv _).1 _ hf
                  dsimp only at hve
                  split at h
                  · simp at h
                  · have hl1 := congrArg List.length hue
                    have hl2 := congrArg List.length hve
                    simp only [List.length_append, List.length_cons] at hl1 hl2 hn
                    refine ih e''.length (by omega) e'' _ _ rfl ?_ h
                    rw [hve] at he0'; simpa [hv0] using he0'

theorem svmFeats_sizes {iter : Ptr} {idx' : List UInt32} {vals' : List Dec}
    (h : svmFeats iter [] [] = .ok (some (idx', vals'))) : idx'.length = vals'.length := by
  obtain ⟨_, _, pairs, _, _, h3, h4⟩ := svmFeats_inv _ iter [] [] idx' vals' rfl h
  simp [h3, h4]

/-- **C09 (every line).** On every zero-terminated line the reader stays inside the line and inside the point it builds;
    if it returns, the status is OK or Invalid_Format. -/
theorem C09_every_line (line : List Char) (h0 : '\x00' ∈ line) :
    svmLine line ≠ .ub .outOfBounds ∧
      ∀ s p, svmLine line = .ok (s, p) → s = .ok ∨ (s = .invalidFormat ∧ p.indexes = [] ∧ p.values = []) := by
  constructor
  · intro h
    unfold svmLine at h
    cases line with
    | nil => simp at h0
    | cons c t =>
      simp only [peek, Res.bind_ok] at h
      split at h
      · simp at h
      · cases hp : parseInt (c :: t) with
        | ub k =>
          rw [hp] at h
          simp only [Res.bind_ub, Res.ub.injEq] at h
          subst h
          exact (parseInt_adv _).2 h0 hp
        | ok r =>
          obtain ⟨label, e⟩ := r
          obtain ⟨u, hue, hu0⟩ := (parseInt_adv _).1 _ hp
          dsimp only at hue
          have he0 : '\x00' ∈ e := by rw [hue] at h0; simpa [hu0] using h0
          rw [hp] at h
          simp only [Res.bind_ok] at h
          split at h
          · simp at h
          · cases hf : svmFeats e [] [] with
            | ub k =>
              rw [hf] at h
              simp only [Res.bind_ub, Res.ub.injEq] at h
              subst h
              exact svmFeats_safe _ e [] [] rfl he0 hf
            | ok r =>
              rw [hf] at h
              simp only [Res.bind_ok] at h
              split at h
              · simp at h
              · rename_i idx vals
                obtain ⟨a', b', h5, _⟩ := C12_sort_correct idx.toArray vals.toArray (by simp [svmFeats_sizes hf])
                rw [h5] at h
                simp at h
  · intro s p h
    unfold svmLine at h
    obtain ⟨c, hc, h⟩ := Res.bind_eq_ok.1 h
    split at h
    · simp at h; right; rw [← h.1, ← h.2]; simp
    · obtain ⟨⟨label, e⟩, hl, h⟩ := Res.bind_eq_ok.1 h
      dsimp only at h
      split at h
      · simp at h; right; rw [← h.1, ← h.2]; simp
      · obtain ⟨r, hr, h⟩ := Res.bind_eq_ok.1 h
        split at h
        · simp at h; right; rw [← h.1, ← h.2]; simp
        · obtain ⟨⟨a, b⟩, hs, h⟩ := Res.bind_eq_ok.1 h
          simp at h; left; exact h.1.symm

/-- An accepted, unsorted line with odd spacing, and stale bytes behind the terminator. -/
example : svmLine [' ', '-', '1', ' ', '3', ' ', ':', '.', '5', ' ', '2', ':', '1', 'e', '-', '1', '\r', '\n', '\x00', '7'] =
    .ok (.ok, ⟨-1, [2, 3], [⟨1, -1⟩, ⟨5, -1⟩]⟩) := by decide +kernel

/-- **C09 is violated**: digits may be missing. `+ .:e` is accepted as label 0 with the feature 0:0. -/
theorem C09_is_violated :
    svmLine ['+', ' ', '.', ':', 'e', '\n', '\x00'] = .ok (.ok, ⟨0, [0], [⟨0, 0⟩]⟩) := by decide +kernel

end Sol.Props
