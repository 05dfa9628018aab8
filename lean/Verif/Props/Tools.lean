import Verif.Proofs.Tools
import Verif.Props.DataIter
import Verif.Props.CsvIO
import Verif.Props.BinaryIO
import Verif.Props.Online
/-!
# C49-C51: splitting, shuffling, converting and analysing data sets

A tool reads through a data iterator: `Got pts batches` says that the batches are what `Next` returned, under any schedule of the
reading thread, until it returned null, for a file with the points `pts` (followed by the end of file or by a read error).
-/

set_option linter.unusedSectionVars false
set_option linter.unusedVariables false

namespace Sol.Props

open Sol.Tools Sol.Spec Sol.DataIter Sol.TextWriters Sol.TextReaders

variable {V : Type}

/-- The batches of one pass over a file. -/
def Got (pts : List (Pt V)) (batches : List (List (Pt V))) : Prop :=
  ∃ (bad : Bool) (s : State (Pt V)), IterReach 256 2 [(pts, bad, 1)] s ∧ s.ended = true ∧ s.delivered = batches

theorem once (pts : List (Pt V)) (bad : Bool) : allPoints [(pts, bad, 1)] = pts := by
  cases bad <;> simp [allPoints, filePoints]

theorem Got.flatten {pts : List (Pt V)} {batches : List (List (Pt V))} (h : Got pts batches) : batches.flatten = pts := by
  obtain ⟨bad, s, h1, h2, rfl⟩ := h
  rw [C23_null_after_everything 256 2 (by omega) (by omega) _ s h1 h2, once]

/-- The batches of two passes over the same files with one iterator: `AddReader` again after the first null. -/
def GotTwice (files : List (List (Pt V))) (first second : List (List (Pt V))) : Prop :=
  ∃ (bads : List Bool) (s s' : State (Pt V)), bads.length = files.length ∧
    IterReach 256 2 (files.zipWith (fun p b => (p, b, 1)) bads) s ∧ s.ended = true ∧
    IterReach 256 2 (files.zipWith (fun p b => (p, b, 1)) bads ++ files.zipWith (fun p b => (p, b, 1)) bads) s' ∧ s'.ended = true ∧
    s.delivered = first ∧ s'.delivered = first ++ second

theorem all_once (files : List (List (Pt V))) (bads : List Bool) (h : bads.length = files.length) :
    allPoints (files.zipWith (fun p b => (p, b, 1)) bads) = files.flatten := by
  induction files generalizing bads with
  | nil => simp [allPoints]
  | cons f fs ih =>
    cases bads with
    | nil => simp at h
    | cons b bads =>
      have := ih bads (by simpa using h)
      have h1 := once f b
      simp only [allPoints, List.flatMap_cons, List.flatMap_nil, List.append_nil, List.zipWith_cons_cons, List.flatten_cons] at *
      rw [this, h1]

theorem GotTwice.flatten {files first second : List (List (Pt V))} (h : GotTwice files first second) :
    first.flatten = files.flatten ∧ second.flatten = files.flatten := by
  obtain ⟨bads, s, s', h0, h1, h2, h3, h4, rfl, h5⟩ := h
  have e1 := C23_null_after_everything 256 2 (by omega) (by omega) _ s h1 h2
  have e2 := C23_null_after_everything 256 2 (by omega) (by omega) _ s' h3 h4
  rw [all_once files bads h0] at e1
  refine ⟨e1, ?_⟩
  rw [h5, List.flatten_append, e1] at e2
  have : allPoints (files.zipWith (fun p b => (p, b, 1)) bads ++ files.zipWith (fun p b => (p, b, 1)) bads) =
      files.flatten ++ files.flatten := by
    rw [allPoints, List.flatMap_append]
    exact congrArg₂ _ (all_once files bads h0) (all_once files bads h0)
  rw [this] at e2
  exact List.append_cancel_left e2

/-! ### C49 -/

theorem split_blocks (pts : List (Pt V)) (batches : List (List (Pt V))) (h : batches.flatten = pts) (hn : 1 ≤ pts.length)
    (hn2 : pts.length ≤ 2 ^ 24) (k : Nat) (hk : 1 ≤ k) (hk2 : k < 2 ^ 31) (choice : Option (Nat → Nat)) :
    ∃ l folds, split batches k choice = .ok folds ∧ (choice = none → l = pts) ∧ l.Perm pts ∧ (∀ f ∈ folds, f.1 = pts.foldl widen 0) ∧
      folds.map (·.2) = blocks l ((pts.length + k - 1) / k) k ∧ (folds.map (·.2)).flatten = l := by
  obtain ⟨l, hl⟩ : ∃ l : List (Pt V), l = (match choice with | none => pts | some c => shuffled c pts) := ⟨_, rfl⟩
  have hperm : l.Perm pts := by
    rw [hl]
    cases choice with
    | none => exact .refl _
    | some c => exact shuffled_perm c pts
  have hlen : l.length = pts.length := hperm.length_eq
  have e : split batches k choice = .ok ((foldLoop l ((pts.length + k - 1) / k) k 0 ((pts.length + k - 1) / k)).map
      fun f => (pts.foldl widen 0, f)) := by
    unfold split
    simp only [load_eq, h, List.nil_append]
    rw [if_neg (by omega)]
    cases choice with
    | none =>
      subst hl
      rw [foldSize_eq _ k hn hn2 hk hk2]
      rfl
    | some c =>
      subst hl
      dsimp only at hlen ⊢
      rw [hlen, foldSize_eq pts.length k hn hn2 hk hk2]
      rfl
  have hb := foldLoop_eq l ((pts.length + k - 1) / k) k 0
  simp only [Nat.zero_mul, Nat.zero_add, Nat.one_mul, Nat.zero_min] at hb
  have e2 : ((foldLoop l ((pts.length + k - 1) / k) k 0 ((pts.length + k - 1) / k)).map
      fun f => (pts.foldl widen 0, f)).map (·.2) = blocks l ((pts.length + k - 1) / k) k := by
    rw [hb, List.map_map]
    unfold blocks
    exact List.map_id'' (fun _ => rfl) _
  refine ⟨l, _, e, fun hc => by rw [hl, hc], hperm, ?_, e2, ?_⟩
  · intro f hf
    obtain ⟨g, _, rfl⟩ := List.mem_map.1 hf
    rfl
  rw [e2, blocks_flatten, List.take_of_length_le]
  rw [hlen]
  have h3 := Nat.div_add_mod (pts.length + k - 1) k
  have h4 := Nat.mod_lt (pts.length + k - 1) (show 0 < k by omega)
  omega

/-- Up to 2^24 points: `k` folds, contiguous blocks of `⌈n / k⌉` points (the last ones shorter or empty) that make up the data set;
    shuffled before if asked for. -/
theorem C49_split_partial (pts : List (Pt V)) (batches : List (List (Pt V))) (h : Got pts batches) (hn : 1 ≤ pts.length)
    (hn2 : pts.length ≤ 2 ^ 24) (k : Nat) (hk : 1 ≤ k) (hk2 : k < 2 ^ 31) (choice : Option (Nat → Nat)) :
    ∃ l folds, split batches k choice = .ok folds ∧ (choice = none → l = pts) ∧ l.Perm pts ∧
      folds.map (·.2) = blocks l ((pts.length + k - 1) / k) k ∧ (folds.map (·.2)).flatten = l := by
  obtain ⟨l, folds, h1, h2, h3, _, h4, h5⟩ := split_blocks pts batches h.flatten hn hn2 k hk hk2 choice
  exact ⟨l, folds, h1, h2, h3, h4, h5⟩

/-- A block followed by a non-empty one is full: only the last non-empty fold can be shorter. -/
theorem C49_equal_sizes {P : Type} (l : List P) (size k i : Nat) (b b' : List P) (h : (blocks l size k)[i]? = some b)
    (h' : (blocks l size k)[i + 1]? = some b') (hne : b' ≠ []) : b.length = size := by
  unfold blocks at h h'
  rw [List.getElem?_map] at h h'
  obtain ⟨j, hj, rfl⟩ := Option.map_eq_some_iff.1 h
  obtain ⟨j', hj', rfl⟩ := Option.map_eq_some_iff.1 h'
  obtain ⟨h1, h2⟩ := List.getElem?_eq_some_iff.1 hj
  obtain ⟨h3, h4⟩ := List.getElem?_eq_some_iff.1 hj'
  rw [List.getElem_range] at h2 h4
  subst h2 h4
  have : (i + 1) * size < l.length := by
    by_contra hlt
    exact hne (by rw [List.drop_eq_nil_of_le (by omega)]; simp)
  rw [Nat.add_mul, Nat.one_mul] at this
  rw [List.length_take, List.length_drop]
  omega

/-- Whatever the rounding does, no point is written twice or out of order: the folds make up a first part of the data. -/
theorem C49_prefix (batches : List (List (Pt V))) (k : Nat) (folds : List (UInt32 × List (Pt V)))
    (h : split batches k none = .ok folds) : (folds.map (·.2)).flatten <+: batches.flatten := by
  unfold split at h
  simp only [load_eq, List.nil_append] at h
  split at h
  · have := Res.ok.inj h
    subst this
    exact ⟨_, List.nil_append _⟩
  · obtain ⟨size, -, h2⟩ := Res.bind_eq_ok.1 h
    have := Res.ok.inj h2
    subst this
    have hb := foldLoop_eq batches.flatten size k 0
    simp only [Nat.zero_mul, Nat.zero_add, Nat.one_mul, Nat.zero_min] at hb
    rw [show (k : Int).toNat = k from rfl, hb, List.map_map,
      show (Prod.snd ∘ fun f => (List.foldl widen 0 batches.flatten, f)) = (id : List (Pt V) → List (Pt V)) from rfl, List.map_id]
    have := blocks_flatten batches.flatten size k
    unfold blocks at this
    rw [this]
    exact List.take_prefix _ _

/-- Seven points in three folds: 3, 3 and 1. -/
theorem C49_instance :
    let pts : List (Pt Rat) := (List.range 7).map fun i => ⟨i, []⟩
    Yields (split [pts.take 4, pts.drop 4] 3 none) fun r => r.map (fun f => f.2.map (·.label)) = [[0, 1, 2], [3, 4, 5], [6]] := by
  decide +kernel

/-- A file of one batch, read by a schedule. -/
theorem C49_hypotheses : Got [(⟨1, []⟩ : Pt Rat)] [[⟨1, []⟩]] := by
  have r0 := IterReach.init (size := 256) (num := 2) [([(⟨1, []⟩ : Pt Rat)], false, 1)]
  have r1 := r0.step (Or.inr (.call _ rfl))
  have r2 := r1.step (Or.inr (.null _ [] rfl rfl))
  have r3 := r2.step (Or.inr (.next _ _ rfl rfl))
  have r4 := r3.step (Or.inl ⟨0, .take _ 0 _ [true] rfl rfl (by decide) rfl⟩)
  have r5 := r4.step (Or.inl ⟨0, .fill _ 0 _ rfl rfl⟩)
  have r6 := r5.step (Or.inl ⟨0, .put _ 0 _ [⟨1, []⟩] true rfl rfl (by decide)⟩)
  have r7 := r6.step (Or.inr (.batch _ [⟨1, []⟩] [] rfl rfl))
  have r8 := r7.step (Or.inl ⟨0, .leave _ 0 _ rfl rfl rfl⟩)
  have r9 := r8.step (Or.inl ⟨0, .last _ 0 _ rfl rfl (by decide)⟩)
  have r10 := r9.step (Or.inr (.call _ rfl))
  have r11 := r10.step (Or.inr (.giveBack _ [⟨1, []⟩] rfl rfl (by decide)))
  have r12 := r11.step (Or.inr (.null _ [] rfl rfl))
  have r13 := r12.step (Or.inr (.noMore _ rfl (by decide)))
  have r14 := r13.step (Or.inr (.putNull _ rfl (by decide)))
  exact ⟨false, _, r14, rfl, rfl⟩

/-- The property as stated does not hold: 2^24 + 1 points "split" into one fold lose the last point, because the number of points
    is rounded to single precision. -/
theorem C49_is_violated (pts : List (Pt V)) (batches : List (List (Pt V))) (h : Got pts batches) (hn : pts.length = 2 ^ 24 + 1) :
    ∃ d, split batches 1 none = .ok [(d, pts.take (2 ^ 24))] ∧ (pts.take (2 ^ 24)).length < pts.length := by
  have hs : foldSize (2 ^ 24 + 1) 1 = .ok (2 ^ 24) := by decide +kernel
  refine ⟨pts.foldl widen 0, ?_, by rw [List.length_take]; omega⟩
  unfold split
  simp only [load_eq, h.flatten, List.nil_append]
  rw [if_neg (by omega), hn, hs, Res.bind_ok]
  have hb := foldLoop_eq pts (2 ^ 24) 1 0
  simp only [Nat.zero_mul, Nat.zero_add, Nat.one_mul, Nat.zero_min] at hb
  rw [show (1 : Int).toNat = 1 from rfl, hb]
  rfl

/-! ### C50 -/

/-- Shuffling writes a permutation of the points, with the dimension of the whole input. -/
theorem C50_shuffle (pts : List (Pt V)) (batches : List (List (Pt V))) (h : Got pts batches) (choice : Nat → Nat) :
    (Tools.shuffle batches choice).2.Perm pts ∧ ∀ p ∈ pts, (dim p).toNat ≤ (Tools.shuffle batches choice).1.toNat := by
  unfold Tools.shuffle
  simp only [load_eq, h.flatten, List.nil_append]
  exact ⟨shuffled_perm choice pts, fun p hp => dim_le_foldl 0 pts p hp⟩

section
variable [One V] [Neg V] [FCmp V]

/-- Conversion hands the points to the writer in order, with their labels and features. -/
theorem C50_convert (pts : List (Pt V)) (first second : List (List (Pt V))) (h : GotTwice [pts] first second)
    (hf : ∃ p ∈ pts, dim p ≠ 0) :
    convert true none first second = (.ok, ⟨some (pts.foldl widen 0), pts⟩) ∧
    ∀ batches, Got pts batches → convert false none [] batches = (.ok, ⟨none, pts⟩) := by
  obtain ⟨e1, e2⟩ := h.flatten
  simp only [List.flatten_cons, List.flatten_nil, List.append_nil] at e1 e2
  constructor
  · unfold convert
    rw [if_pos rfl]
    dsimp only
    rw [dimLoop_eq, e1, writeLoop_eq, e2, if_neg]
    · rfl
    · intro h0
      obtain ⟨p, hp, hne⟩ := hf
      have := dim_le_foldl 0 pts p hp
      rw [h0] at this
      exact hne (UInt32.toNat_inj.1 (by simpa using this))
  · intro batches hb
    unfold convert
    rw [if_neg (by simp), writeLoop_eq, hb.flatten]
    rfl

/-- With a threshold every value becomes 1 or -1, and nothing else changes. -/
theorem C50_binarise (t : V) (pts : List (Pt V)) (batches : List (List (Pt V))) (h : Got pts batches) :
    ∃ qs, convert false (some t) [] batches = (.ok, ⟨none, qs⟩) ∧ List.Forall₂ (fun p q : Pt V => q.label = p.label ∧
      List.Forall₂ (fun f g : UInt32 × V => g.1 = f.1 ∧ ((t <? f.2) = true → g.2 = 1) ∧ ((t <? f.2) = false → g.2 = -1))
        p.feats q.feats) pts qs := by
  refine ⟨pts.map (binarise t), ?_, ?_⟩
  · unfold convert
    rw [if_neg (by simp), writeLoop_eq, h.flatten]
    rfl
  · rw [List.forall₂_map_right_iff, List.forall₂_same]
    intro p _
    refine ⟨rfl, ?_⟩
    unfold binarise
    dsimp only
    rw [List.forall₂_map_right_iff, List.forall₂_same]
    intro f _
    exact ⟨rfl, fun h => by rw [if_pos h], fun h => by rw [if_neg (by simp [h])]⟩

/-- Concatenation writes the points of all files one file after the other. -/
theorem C50_concat (files first second : List (List (Pt V))) (h : GotTwice files first second) :
    concat true first second = (.ok, ⟨some (files.flatten.foldl widen 0), files.flatten⟩) := by
  obtain ⟨e1, e2⟩ := h.flatten
  unfold concat
  rw [if_pos rfl, dimLoop_eq, e1, writeLoop_eq, e2]
  rfl

end

/-- The dimension given to the csv writer is one more than the largest index, for points with ascending indexes. -/
theorem C50_dimension (pts : List (Pt V)) (ha : ∀ p ∈ pts, (p.feats.map (·.1)).Pairwise (· < ·))
    (hm : ∀ p ∈ pts, ∀ f ∈ p.feats, f.1.toNat < 2 ^ 32 - 1) :
    (∀ p ∈ pts, ∀ f ∈ p.feats, f.1.toNat < (pts.foldl widen 0).toNat) ∧
    ((pts.foldl widen 0).toNat = 0 ∨ ∃ p ∈ pts, ∃ f ∈ p.feats, (pts.foldl widen 0).toNat = f.1.toNat + 1) := by
  have hdim : ∀ p ∈ pts, ∀ f, p.feats.getLast? = some f → (dim p).toNat = f.1.toNat + 1 := by
    intro p hp f hf
    have h1 := hm p hp f (List.mem_of_getLast? hf)
    unfold dim
    rw [hf]
    show (f.1 + 1).toNat = _
    rw [UInt32.toNat_add, UInt32.toNat_one]
    omega
  constructor
  · intro p hp f hf
    refine lt_of_lt_of_le ?_ (dim_le_foldl 0 pts p hp)
    obtain ⟨g, hg⟩ : ∃ g, p.feats.getLast? = some g := by
      cases hl : p.feats.getLast? with
      | none => rw [List.getLast?_eq_none_iff] at hl; rw [hl] at hf; simp at hf
      | some g => exact ⟨g, rfl⟩
    rw [hdim p hp g hg]
    obtain ⟨ys, hys⟩ := List.getLast?_eq_some_iff.1 hg
    have hasc := ha p hp
    rw [hys, List.map_append, List.pairwise_append] at hasc
    rw [hys] at hf
    rcases List.mem_append.1 hf with h1 | h1
    · have : f.1 < g.1 := hasc.2.2 f.1 (List.mem_map_of_mem h1) g.1 (by simp)
      have : f.1.toNat < g.1.toNat := this
      omega
    · obtain rfl : f = g := by simpa using h1
      omega
  · rcases foldl_widen_mem 0 pts with h | ⟨p, hp, h⟩
    · exact .inl (by rw [h]; rfl)
    · rw [h]
      cases hl : p.feats.getLast? with
      | none => exact .inl (by unfold dim; rw [hl]; rfl)
      | some g => exact .inr ⟨p, hp, g, List.mem_of_getLast? hl, hdim p hp g hl⟩

/-- A point as the text writers see it. -/
def asText (p : Pt GVal) : OutPoint := ⟨p.label, p.feats⟩

/-- A point that survives being written as csv, whatever the number of columns. -/
structure CsvReady (dim : Nat) (p : Pt GVal) : Prop where
  label : p.label.natAbs ≤ 2147483599
  ascending : (p.feats.map (·.1)).Pairwise (· < ·)
  columns : ∀ f ∈ p.feats, 1 ≤ f.1.toNat ∧ f.1.toNat < 2 ^ 32 - 1
  values : ∀ f ∈ p.feats, Printable f.2 ∧ ∀ neg, f.2 ≠ .zero neg
  length : (csvWrite dim (asText p)).length < 2 ^ 29

/-- Converting to csv and reading the file gives the points back: labels, indexes, and the printed values. -/
theorem C50_csv_partial [One GVal] [Neg GVal] [FCmp GVal] (pts : List (Pt GVal)) (first second : List (List (Pt GVal)))
    (h : GotTwice [pts] first second) (hf : ∃ p ∈ pts, p.feats ≠ []) (d : Nat) (hd : d = (pts.foldl widen 0).toNat)
    (hr : ∀ p ∈ pts, CsvReady d p) (hh : (csvHeader d).length < 2 ^ 29) (cap : Nat) (hcap : 2 ≤ cap) (hcap2 : cap < 2 ^ 30) :
    ∃ out cap' rest qs, convert true none first second = (.ok, ⟨some out, pts⟩) ∧ out.toNat = d ∧
      csvOpen cap (csvHeader d ++ (pts.map asText).flatMap (csvWrite d)) = .ok (.ok, d, cap', rest) ∧
      CsvReads cap' rest qs .endOfFile ∧ List.Forall₂ SameText (pts.map asText) qs := by
  obtain ⟨g1, g2⟩ := C50_dimension pts (fun p hp => (hr p hp).ascending) (fun p hp f hf => ((hr p hp).columns f hf).2)
  obtain ⟨p, hp, hne⟩ := hf
  obtain ⟨f, hf⟩ := List.exists_mem_of_ne_nil _ hne
  have hpos := g1 p hp f hf
  have hdne : dim p ≠ 0 := by
    intro h0
    unfold dim at h0
    cases hl : p.feats.getLast? with
    | none => rw [List.getLast?_eq_none_iff] at hl; exact hne hl
    | some g =>
      rw [hl] at h0
      have h1 := ((hr p hp).columns g (List.mem_of_getLast? hl)).2
      have h2 := congrArg UInt32.toNat h0
      simp only [UInt32.toNat_add, UInt32.toNat_one, UInt32.toNat_zero] at h2
      omega
  have hlt := (pts.foldl widen 0).toNat_lt
  obtain ⟨cap', rest, qs, h1, h2, h3⟩ := C10_csv_roundtrip_partial d (by omega) (by omega) hh (pts.map asText) (by
    intro q hq
    obtain ⟨p, hp, rfl⟩ := List.mem_map.1 hq
    have hrp := hr p hp
    exact ⟨hrp.label, hrp.ascending, fun f hf => ⟨(hrp.columns f hf).1, by rw [hd]; exact g1 p hp f hf⟩, hrp.values, hrp.length⟩)
    cap hcap hcap2
  exact ⟨_, cap', rest, qs, (C50_convert pts first second h ⟨p, hp, hdne⟩).1, hd.symm, h1, h2, h3⟩

/-- Two points with columns 1 to 7. -/
theorem C50_hypotheses : let pts : List (Pt GVal) := [⟨-1, [(1, .num false 500000 (-1)), (7, .num true 123456 (-3))]⟩, ⟨3, []⟩]
    (pts.foldl widen 0).toNat = 8 ∧ (∀ p ∈ pts, CsvReady 8 p) ∧ (csvHeader 8).length < 2 ^ 29 := by
  refine ⟨by decide, ?_, by decide +kernel⟩
  intro p hp
  simp only [List.mem_cons, List.not_mem_nil, or_false] at hp
  rcases hp with rfl | rfl
  · refine ⟨by decide, by decide, by decide, ?_, by decide +kernel⟩
    intro f hf
    simp only [List.mem_cons, List.not_mem_nil, or_false] at hf
    rcases hf with rfl | rfl <;> exact ⟨by simp [Printable], by simp⟩
  · exact ⟨by decide, by decide, by simp, by simp, by decide +kernel⟩

/-- A point as the binary writer sees it. -/
def asBits (p : Pt UInt32) : BinaryIO.RawPoint := ⟨UInt32.ofInt p.label, p.feats.map (·.1), p.feats.map (·.2)⟩

/-- Converting to the binary format and reading the file gives exactly the same points. -/
theorem C50_bin [One UInt32] [Neg UInt32] [FCmp UInt32] (pts : List (Pt UInt32)) (batches : List (List (Pt UInt32)))
    (h : Got pts batches) (hs : ∀ p ∈ pts, 5 * p.feats.length < 2 ^ 64) :
    ∃ w, convert false none [] batches = (.ok, w) ∧ w.points = pts ∧
      BinaryIO.readAll (BinaryIO.writeAll (w.points.map asBits)) = .ok (pts.map asBits, .endOfFile) := by
  refine ⟨⟨none, pts⟩, ?_, rfl, ?_⟩
  · unfold convert
    rw [if_neg (by simp), writeLoop_eq, h.flatten]
    rfl
  · apply C02_binary_roundtrip
    intro q hq
    obtain ⟨p, hp, rfl⟩ := List.mem_map.1 hq
    exact ⟨by simp [asBits], by simpa [asBits] using hs p hp⟩

/-- Converting to libsvm text and reading the file gives the points back: labels, indexes, and the printed values. -/
theorem C50_svm_partial [One GVal] [Neg GVal] [FCmp GVal] (pts : List (Pt GVal)) (batches : List (List (Pt GVal)))
    (h : Got pts batches) (hr : ∀ p ∈ pts, SvmStorable (asText p)) (cap : Nat) (hcap : 2 ≤ cap) (hcap2 : cap < 2 ^ 30) :
    ∃ w qs, convert false none [] batches = (.ok, w) ∧ w.points = pts ∧
      SvmReads cap ((w.points.map asText).flatMap svmWrite) qs .endOfFile ∧ List.Forall₂ SameText (pts.map asText) qs := by
  obtain ⟨qs, h1, h2⟩ := C08_svm_roundtrip_partial (pts.map asText) (by
    intro q hq
    obtain ⟨p, hp, rfl⟩ := List.mem_map.1 hq
    exact hr p hp) cap hcap hcap2
  refine ⟨⟨none, pts⟩, qs, ?_, rfl, h1, h2⟩
  unfold convert
  rw [if_neg (by simp), writeLoop_eq, h.flatten]
  rfl

instance : One GVal := ⟨.num false 100000 0⟩
instance : Neg GVal := ⟨id⟩

/-- The order of these values is not looked at. -/
@[instance_reducible] def anyOrder : FCmp GVal := ⟨fun _ _ => false, fun _ _ => false, fun _ _ => false⟩

/-- Two batches, conversion, shuffling and binarisation evaluated. -/
theorem C50_instance :
    let pts : List (Pt Rat) := [⟨1, [(2, 5)]⟩, ⟨-1, [(1, -3), (4, 1 / 2)]⟩, ⟨2, []⟩]
    convert true none [pts.take 2, pts.drop 2] [pts.take 1, pts.drop 1] = (.ok, ⟨some 5, pts⟩) ∧
    convert true none ([[⟨1, []⟩]] : List (List (Pt Rat))) [[⟨1, []⟩]] = (.invalidFormat, ⟨some 0, []⟩) ∧
    convert false (some 1) [] [pts.take 1, pts.drop 1] = (.ok, ⟨none, [⟨1, [(2, 1)]⟩, ⟨-1, [(1, -1), (4, -1)]⟩, ⟨2, []⟩]⟩) ∧
    concat true [pts, pts] [pts, pts.take 1] = (.ok, ⟨some 5, pts ++ pts.take 1⟩) ∧
    Tools.shuffle [pts.take 2, pts.drop 2] (fun _ => 0) = (5, [⟨2, []⟩, ⟨1, [(2, 5)]⟩, ⟨-1, [(1, -3), (4, 1 / 2)]⟩]) := by
  decide +kernel

/-- The property as stated does not hold: the dimension is taken from the last index, which is not the largest one when the
    features of a point are not sorted (the binary format and reader allow this). The csv file then has no value of the point. -/
theorem C50_is_violated :
    letI : FCmp GVal := anyOrder
    let p : Pt GVal := ⟨1, [(5, .num false 100000 0), (2, .num false 100000 0)]⟩
    convert true none [[p]] [[p]] = (.ok, ⟨some 3, [p]⟩) ∧ csvWrite 3 (asText p) = "1,0,0\n".toList := by
  decide +kernel

/-! ### C51 -/

/-- Features of all points. -/
def indexes (pts : List (Pt V)) : List Nat := pts.flatMap fun p => p.feats.map (·.1.toNat)

/-- The report on points whose last index is the largest one (as for sorted points), not 2^32 - 1. -/
theorem C51_counts_partial (pts : List (Pt V)) (batches : List (List (Pt V))) (h : Got pts batches) (ho : ∀ p ∈ pts, Ordered p) :
    ∃ r, analyze batches = .ok r ∧ r.num = pts.length ∧ r.featNum = (indexes pts).length ∧
      r.nonzero = distinct (indexes pts) ∧ Histogram (pts.map (·.label)) r.classes ∧
      ∀ m ∈ indexes pts, (∀ i ∈ indexes pts, i ≤ m) → r.dim.toNat = m := by
  have hmem : ∀ b ∈ batches, ∀ p ∈ b, Ordered p := by
    intro b hb p hp
    refine ho p ?_
    rw [← h.flatten]
    exact List.mem_flatten.2 ⟨b, hb, hp⟩
  obtain ⟨a, h1, h2, h3⟩ := tallyLoop_ok ⟨0, 0, 0, [], []⟩ [] batches tallied_nil rfl hmem
  rw [List.nil_append, h.flatten] at h2 h3
  refine ⟨_, by unfold analyze; rw [h1]; rfl, h3, ?_, ?_, ?_, ?_⟩
  · show a.featNum = _
    rw [h2.featNum, indexes, List.length_flatMap]
    simp
  · exact count_flags a.flags (indexes pts) h2.marked
  · exact ⟨h2.sorted, fun l n => by rw [← h2.counts l]; exact entry_mem a.classes h2.sorted h2.pos l n⟩
  · intro m hm hmax
    show (UInt64.ofNat a.dim - 1).toNat = m
    obtain ⟨p, hp, hm'⟩ := List.mem_flatMap.1 hm
    obtain ⟨f, hf, rfl⟩ := List.mem_map.1 hm'
    have g1 : f.1.toNat < (pts.foldl widen 0).toNat := lt_of_lt_of_le (ho p hp f hf) (dim_le_foldl 0 pts p hp)
    have g2 : (pts.foldl widen 0).toNat ≤ f.1.toNat + 1 := by
      rcases foldl_widen_mem 0 pts with hz | ⟨q, hq, hz⟩
      · rw [hz] at g1; simp at g1
      · rw [hz] at g1 ⊢
        unfold dim at g1 ⊢
        cases hl : q.feats.getLast? with
        | none => rw [hl] at g1; simp at g1
        | some g =>
          rw [hl] at g1
          have := hmax g.1.toNat (List.mem_flatMap.2 ⟨q, hq, List.mem_map.2 ⟨g, List.mem_of_getLast? hl, rfl⟩⟩)
          show (g.1 + 1).toNat ≤ _
          rw [UInt32.toNat_add, UInt32.toNat_one]
          omega
    rw [h2.dim]
    have e : (pts.foldl widen 0).toNat = f.1.toNat + 1 := by omega
    have hlt := (pts.foldl widen 0).toNat_lt
    rw [e, UInt64.toNat_sub_of_le _ _ (by
      rw [UInt64.le_iff_toNat_le, UInt64.toNat_ofNat_of_lt' (by rw [UInt64.size]; omega)]
      simp)]
    rw [UInt64.toNat_ofNat_of_lt' (by rw [UInt64.size]; omega)]
    simp

/-- Points with ascending indexes below 2^32 - 1 qualify. -/
theorem C51_sorted (p : Pt V) (ha : (p.feats.map (·.1)).Pairwise (· < ·)) (hm : ∀ f ∈ p.feats, f.1.toNat < 2 ^ 32 - 1) :
    Ordered p := by
  have h := (C50_dimension [p] (by simpa using ha) (by simpa using hm)).1 p (by simp)
  intro f hf
  have := h f hf
  rw [List.foldl_cons, List.foldl_nil, widen_toNat] at this
  simpa using this

/-- Three points. -/
theorem C51_instance : Yields (analyze [[(⟨1, [(2, 5), (3, 1)]⟩ : Pt Rat), ⟨-1, [(2, 1), (9, 1)]⟩], [⟨1, []⟩]]) fun r =>
    r = ⟨3, 4, 9, 3, [(-1, 1), (1, 2)]⟩ := by
  decide +kernel

/-- The property as stated does not hold: without any feature the largest index is reported as 2^64 - 1, and a point whose last
    index is not the largest one (possible in binary files) is written outside of the array of flags. -/
theorem C51_is_violated :
    (Yields (analyze ([[⟨1, []⟩]] : List (List (Pt Rat)))) fun r => r.dim.toNat = 2 ^ 64 - 1) ∧
    Fails (analyze [[(⟨1, [(5, 1), (2, 1)]⟩ : Pt Rat)]]) .outOfBounds := by
  decide +kernel

end Sol.Props
