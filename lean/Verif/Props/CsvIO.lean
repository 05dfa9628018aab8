import Verif.Proofs.CsvIO
import Verif.Props.SvmIO
/-!
# Property C10: csv data sets
-/

namespace Sol.Props
open Sol.TextReaders Sol.TextWriters Sol.NumericParser Sol.Spec Sol.ReadLine

/-- Repeated calls of `CSVReader::Next` until the first status other than OK. -/
inductive CsvReads : Nat → List Char → List TextPoint → Status → Prop
  | stop {cap f s p cap' f'} (h : csvNext nonzero cap f = .ok (s, p, cap', f')) (hs : s ≠ .ok) : CsvReads cap f [] s
  | point {cap f p cap' f' ps s} (h : csvNext nonzero cap f = .ok (.ok, p, cap', f')) (hrest : CsvReads cap' f' ps s) :
      CsvReads cap f (p :: ps) s

/-- A point that survives being written as csv with columns 1 to `dim - 1`. -/
structure CsvStorable (dim : Nat) (p : OutPoint) : Prop where
  label : p.label.natAbs ≤ 2147483599
  ascending : (p.feats.map (·.1)).Pairwise (· < ·)
  columns : ∀ f ∈ p.feats, 1 ≤ f.1.toNat ∧ f.1.toNat < dim
  values : ∀ f ∈ p.feats, Printable f.2 ∧ ∀ neg, f.2 ≠ .zero neg
  length : (csvWrite dim p).length < 2 ^ 29

theorem filter_nz {p : OutPoint} (h : ∀ f ∈ p.feats, Printable f.2 ∧ ∀ neg, f.2 ≠ .zero neg) :
    p.feats.filter nz = p.feats := by
  rw [List.filter_eq_self]
  intro f hf
  obtain ⟨_, h⟩ := h f hf
  unfold nz
  split
  · rename_i neg hn; exact absurd hn (h neg)
  · rfl

/-- **C10 (one line).** -/
theorem C10_line_roundtrip (dim : Nat) (hdim : dim ≤ 2 ^ 32) (p : OutPoint) (h : CsvStorable dim p) :
    ∃ q, csvLine nonzero (csvWrite dim p ++ ['\x00']) = .ok (.ok, q) ∧ SameText p q := by
  obtain ⟨ds, h1, h2⟩ := csvLine_spec nonzero rfl dim hdim p h.label h.ascending
    (fun f hf => ⟨(h.columns f hf).1, (h.columns f hf).2, (h.values f hf).1, keeps_nonzero (h.values f hf).1⟩)
  rw [filter_nz h.values] at h1 h2
  exact ⟨_, h2, rfl, rfl, forall₂_snd h1⟩

/-- **C10 (data set).** The file made of the header and the lines of the points is opened with the declared dimension
    and read back as the same points, and then end-of-file. Missing: the labels excluded by `CsvStorable`, and points
    with a feature 0 or features out of order (`C10_is_violated`). -/
theorem C10_csv_roundtrip_partial (dim : Nat) (hdim : dim ≤ 2 ^ 32) (h1 : 1 ≤ dim)
    (hh : (csvHeader dim).length < 2 ^ 29) (ps : List OutPoint) (h : ∀ p ∈ ps, CsvStorable dim p) (cap : Nat)
    (hcap : 2 ≤ cap) (hcap2 : cap < 2 ^ 30) :
    ∃ cap' rest qs, csvOpen cap (csvHeader dim ++ ps.flatMap (csvWrite dim)) = .ok (.ok, dim, cap', rest) ∧
      CsvReads cap' rest qs .endOfFile ∧ List.Forall₂ SameText ps qs := by
  have reads : ∀ (ps : List OutPoint), (∀ p ∈ ps, CsvStorable dim p) → ∀ cap, 2 ≤ cap → cap < 2 ^ 30 →
      ∃ qs, CsvReads cap (ps.flatMap (csvWrite dim)) qs .endOfFile ∧ List.Forall₂ SameText ps qs := by
    intro ps h
    induction ps with
    | nil =>
      intro cap _ _
      exact ⟨[], .stop (p := ⟨0, [], []⟩) (cap' := cap) (f' := []) (by rfl) (by decide), .nil⟩
    | cons p ps ih =>
      intro cap hcap hcap2
      have hp := h p (List.mem_cons_self ..)
      obtain ⟨hl, h0⟩ := csvWrite_line dim p (ps.flatMap (csvWrite dim))
      obtain ⟨cap', e1, e2, _, e4, _⟩ := readLine_spec _ _ cap hl h0 hcap hcap2 hp.length
      obtain ⟨q, hq, hs⟩ := C10_line_roundtrip dim hdim p hp
      have hpos : 0 < (csvWrite dim p).length := List.length_pos_iff.2 hl.1
      obtain ⟨qs, h1, h2⟩ := ih (fun p hp => h p (List.mem_cons_of_mem _ hp)) cap' (by omega)
        (e4 (by simp [csvWrite]))
      refine ⟨q :: qs, .point (p := q) (cap' := cap') (f' := ps.flatMap (csvWrite dim)) ?_ h1, .cons hs h2⟩
      rw [List.flatMap_cons]
      unfold csvNext
      rw [e1]
      simp [hq]
  obtain ⟨hl, h0, hc⟩ := csvHeader_line dim (ps.flatMap (csvWrite dim))
  obtain ⟨cap', e1, e2, _, e4, _⟩ := readLine_spec _ _ cap hl h0 hcap hcap2 hh
  have hpos : 0 < (csvHeader dim).length := List.length_pos_iff.2 hl.1
  obtain ⟨qs, h2, h3⟩ := reads ps h cap' (by omega) (e4 (by simp [csvHeader]))
  refine ⟨cap', _, qs, ?_, h2, h3⟩
  unfold csvOpen
  rw [e1, Res.bind_ok]
  dsimp only
  rw [if_neg (by simp), cstr_eq h0, hc]
  congr 3
  omega

/-- Points storable as csv with columns 1 to 7. -/
example : ∀ p ∈ [(⟨-1, [(1, .num false 500000 (-1)), (7, .num true 123456 (-3))]⟩ : OutPoint), ⟨3, []⟩],
    CsvStorable 8 p := by
  intro p hp
  simp only [List.mem_cons, List.not_mem_nil, or_false] at hp
  rcases hp with rfl | rfl
  · refine ⟨by decide, by decide, by decide, ?_, by decide +kernel⟩
    intro f hf
    simp only [List.mem_cons, List.not_mem_nil, or_false] at hf
    rcases hf with rfl | rfl <;> exact ⟨by simp [Printable], by simp⟩
  · exact ⟨by decide, by decide, by decide, by simp, by decide +kernel⟩

example : (csvHeader 8).length < 2 ^ 29 := by decide +kernel

/-- **C10, zero values.** A feature written with value zero is not delivered; everything else is. -/
theorem C10_zero_values_are_dropped (dim : Nat) (hdim : dim ≤ 2 ^ 32) (p : OutPoint)
    (hl : p.label.natAbs ≤ 2147483599) (hs : (p.feats.map (·.1)).Pairwise (· < ·))
    (hc : ∀ f ∈ p.feats, 1 ≤ f.1.toNat ∧ f.1.toNat < dim) (hv : ∀ f ∈ p.feats, Printable f.2) :
    ∃ q, csvLine nonzero (csvWrite dim p ++ ['\x00']) = .ok (.ok, q) ∧
      SameText ⟨p.label, p.feats.filter fun f => match f.2 with | .zero _ => false | _ => true⟩ q := by
  obtain ⟨ds, h1, h2⟩ := csvLine_spec nonzero rfl dim hdim p hl hs (fun f hf => ⟨(hc f hf).1, (hc f hf).2, hv f hf, keeps_nonzero (hv f hf)⟩)
  exact ⟨_, h2, rfl, rfl, forall₂_snd h1⟩

/-- **C10 is violated.** A feature that is not behind its predecessor (or, as first feature, has index 0) hides
    itself and every later feature: the point is written, and read back, as if it ended before that feature
    (csv_writer.cc:20-28). -/
theorem C10_is_violated (dim : Nat) (hdim : dim ≤ 2 ^ 32) (l : Int) (pre : List (UInt32 × GVal)) (i : UInt32) (v : GVal)
    (post : List (UInt32 × GVal)) (h : CsvStorable dim ⟨l, pre⟩) (hi : ∀ f ∈ pre.getLast?, i ≤ f.1)
    (h0 : pre = [] → i = 0) :
    ∃ q, csvLine nonzero (csvWrite dim ⟨l, pre ++ (i, v) :: post⟩ ++ ['\x00']) = .ok (.ok, q) ∧ SameText ⟨l, pre⟩ q := by
  have e : csvWrite dim ⟨l, pre ++ (i, v) :: post⟩ = csvWrite dim ⟨l, pre⟩ := by
    unfold csvWrite
    dsimp only
    rw [csvCells_prefix pre i v post _ 1 dim rfl h.ascending (fun f hf => (h.columns f hf).1) hi
      (fun hp => by rw [h0 hp]; decide)]
  rw [e]
  exact C10_line_roundtrip dim hdim _ h

/-- An instance: index 0 in front of two other features. -/
example : CsvStorable 8 ⟨1, []⟩ ∧ ((0 : UInt32), GVal.num false 100000 0) :: [(1, .num false 100000 0), (2, .num false 100000 0)] ≠ [] :=
  ⟨⟨by decide, by decide, by decide, by simp, by decide +kernel⟩, by simp⟩

end Sol.Props
