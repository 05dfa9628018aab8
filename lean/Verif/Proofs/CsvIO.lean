import Verif.Proofs.TextIO
/-!
# Lemmas about the csv reader and writer
-/

namespace Sol.TextReaders
open Sol.TextWriters Sol.NumericParser Sol.Spec Sol.ReadLine

/-- The value is not zero. -/
def nz (f : UInt32 × GVal) : Bool := match f.2 with
  | .zero _ => false
  | _ => true

theorem csvFeats_end (keep : Dec → Bool) (r : Ptr) (index : UInt32) (idx : List UInt32) (vals : List Dec) :
    csvFeats keep ('\x00' :: r) index idx vals = .ok (some (idx, vals)) := by
  rw [csvFeats, if_pos rfl]

theorem csvFeats_step (keep : Dec → Bool) {iter' e : Ptr} {d : Dec} (index : UInt32) (idx : List UInt32) (vals : List Dec)
    (hf : parseFloat iter' = .ok (d, e)) (hl : e.length ≠ iter'.length) :
    csvFeats keep (',' :: iter') index idx vals =
      if keep d then csvFeats keep e (index + 1) (idx ++ [index]) (vals ++ [d])
      else csvFeats keep e (index + 1) idx vals := by
  rw [csvFeats, if_neg (by decide), if_neg (by decide)]
  split
  · rename_i h; rw [hf] at h; cases h
  · rename_i h; rw [hf] at h
    simp only [Res.ok.injEq, Prod.mk.injEq] at h
    obtain ⟨rfl, rfl⟩ := h
    rw [if_neg hl]

theorem csvCells_ends (feats : List (UInt32 × GVal)) (j dim : Nat) :
    EndsNumber (csvCells feats j dim ++ ['\n', '\x00']) := by
  rw [csvCells.eq_def]
  split
  · split
    · exact ⟨',', _, rfl, by decide⟩
    · split <;> exact ⟨',', _, rfl, by decide⟩
  · exact ⟨'\n', _, rfl, by decide⟩

theorem csvCells_done {feats : List (UInt32 × GVal)} {j dim : Nat} (h : dim ≤ j) : csvCells feats j dim = [] := by
  rw [csvCells.eq_def, dif_neg (by omega)]

theorem csvCells_nil {j dim : Nat} (h : j < dim) : csvCells [] j dim = ',' :: '0' :: csvCells [] (j + 1) dim := by
  rw [csvCells.eq_def, dif_pos h]

theorem csvCells_hit {i : UInt32} {v : GVal} {feats : List (UInt32 × GVal)} {j dim : Nat} (h : j < dim)
    (hi : i.toNat = j) : csvCells ((i, v) :: feats) j dim = ',' :: (gText v ++ csvCells feats (j + 1) dim) := by
  rw [csvCells.eq_def, dif_pos h]; exact if_pos hi

theorem csvCells_miss {i : UInt32} {v : GVal} {feats : List (UInt32 × GVal)} {j dim : Nat} (h : j < dim)
    (hi : i.toNat ≠ j) : csvCells ((i, v) :: feats) j dim = ',' :: '0' :: csvCells ((i, v) :: feats) (j + 1) dim := by
  rw [csvCells.eq_def, dif_pos h]; exact if_neg hi

/-- One cell. -/
theorem csvFeats_cell (keep : Dec → Bool) (v : GVal) (hv : Printable v) (hk : ∀ d, Close v d → keep d = nz (0, v)) (T : List Char) (hT : EndsNumber T) (hT0 : '\x00' ∈ T)
    (index : UInt32) (idx : List UInt32) (vals : List Dec) :
    ∃ d, Close v d ∧ csvFeats keep (',' :: (gText v ++ T)) index idx vals =
      if nz (index, v) = true then csvFeats keep (T.dropWhile blank) (index + 1) (idx ++ [index]) (vals ++ [d])
      else csvFeats keep (T.dropWhile blank) (index + 1) idx vals := by
  obtain ⟨d, hd, hcl⟩ := parseFloat_gText v hv T hT hT0
  refine ⟨d, hcl, ?_⟩
  rw [csvFeats_step keep index idx vals hd]
  · rw [hk d hcl]
    rfl
  · have h1 := (List.dropWhile_suffix blank (l := T)).length_le
    have h2 := List.length_pos_iff.2 (gText_ne_nil v)
    rw [List.length_append]
    omega

theorem keep_zero {keep : Dec → Bool} (hk0 : keep ⟨0, 0⟩ = false) {neg : Bool} : ∀ d, Close (.zero neg) d → keep d = nz (0, .zero neg) := by
  intro d hcl
  have h1 := (hcl.mant_eq_zero (v := .zero neg) trivial).2 ⟨neg, rfl⟩
  have h2 := hcl.2.2.2.1 h1
  obtain ⟨m, e⟩ := d
  subst h1 h2
  exact hk0

theorem dropWhile_comma (t : List Char) : (',' :: t).dropWhile blank = ',' :: t := by
  rw [List.dropWhile_cons, if_neg (by decide)]

/-- Reading back the cells of a point with ascending indexes from `j` on. -/
theorem keeps_nonzero {v : GVal} (hv : Printable v) : ∀ d, Close v d → nonzero d = nz (0, v) := by
  intro d hcl
  have := hcl.mant_eq_zero hv
  unfold nonzero
  by_cases hz : d.mant = 0
  · obtain ⟨neg, rfl⟩ := this.1 hz
    simp [hz, nz]
  · rw [decide_eq_true hz]
    cases v with
    | zero neg => exact absurd (this.2 ⟨neg, rfl⟩) hz
    | _ => rfl

theorem csvFeats_spec (keep : Dec → Bool) (hk0 : keep ⟨0, 0⟩ = false) (n : Nat) : ∀ (j dim : Nat) (feats : List (UInt32 × GVal)) (idx : List UInt32) (vals : List Dec),
    dim - j = n → dim ≤ 2 ^ 32 → (feats.map (·.1)).Pairwise (· < ·) →
    (∀ f ∈ feats, j ≤ f.1.toNat ∧ f.1.toNat < dim ∧ Printable f.2 ∧ ∀ d, Close f.2 d → keep d = nz (0, f.2)) →
    ∃ ds, csvFeats keep ((csvCells feats j dim ++ ['\n', '\x00']).dropWhile blank) (UInt32.ofNat j) idx vals =
        .ok (some (idx ++ (feats.filter nz).map (·.1), vals ++ ds)) ∧
      List.Forall₂ (fun f d => Close f.2 d) (feats.filter nz) ds := by
  induction n with
  | zero =>
    intro j dim feats idx vals hn hd hs hf
    have : feats = [] := by
      cases feats with
      | nil => rfl
      | cons f feats => have := hf f (List.mem_cons_self ..); omega
    subst this
    refine ⟨[], ?_, .nil⟩
    rw [csvCells, dif_neg (by omega)]
    have : ([] ++ ['\n', '\x00'] : List Char).dropWhile blank = ['\x00'] := by decide
    rw [this, csvFeats_end]
    simp
  | succ n ih =>
    intro j dim feats idx vals hn hd hs hf
    have hnext : UInt32.ofNat j + 1 = UInt32.ofNat (j + 1) := by
      rw [UInt32.ofNat_add]; rfl
    have hzero : ∀ feats, gText (.zero false) ++ (csvCells feats (j + 1) dim ++ ['\n', '\x00']) =
        '0' :: (csvCells feats (j + 1) dim ++ ['\n', '\x00']) := fun _ => rfl
    have skip : ∀ feats : List (UInt32 × GVal), csvCells feats j dim = ',' :: '0' :: csvCells feats (j + 1) dim →
        (feats.map (·.1)).Pairwise (· < ·) → (∀ f ∈ feats, j + 1 ≤ f.1.toNat ∧ f.1.toNat < dim ∧ Printable f.2 ∧ ∀ d, Close f.2 d → keep d = nz (0, f.2)) →
        ∃ ds, csvFeats keep ((csvCells feats j dim ++ ['\n', '\x00']).dropWhile blank) (UInt32.ofNat j) idx vals =
            .ok (some (idx ++ (feats.filter nz).map (·.1), vals ++ ds)) ∧
          List.Forall₂ (fun f d => Close f.2 d) (feats.filter nz) ds := by
      intro feats hc hs hf
      obtain ⟨d, _, hd'⟩ := csvFeats_cell keep (.zero false) trivial (keep_zero hk0) (csvCells feats (j + 1) dim ++ ['\n', '\x00'])
        (csvCells_ends ..) (by simp) (UInt32.ofNat j) idx vals
      rw [hzero, if_neg (by simp [nz]), hnext] at hd'
      obtain ⟨ds, h1, h2⟩ := ih (j + 1) dim feats idx vals (by omega) hd hs hf
      refine ⟨ds, ?_, h2⟩
      rw [hc, List.cons_append, List.cons_append, dropWhile_comma, hd', h1]
    cases feats with
    | nil => exact skip [] (by rw [csvCells, dif_pos (by omega)]) (by simp) (by simp)
    | cons f feats =>
      obtain ⟨i, v⟩ := f
      obtain ⟨hi1, hi2, hv, hkv⟩ := hf _ (List.mem_cons_self ..)
      dsimp only at hi1 hi2 hv hkv
      rw [List.map_cons, List.pairwise_cons] at hs
      by_cases hij : i.toNat = j
      · have hc : csvCells ((i, v) :: feats) j dim = ',' :: (gText v ++ csvCells feats (j + 1) dim) := by
          rw [csvCells, dif_pos (by omega)]; exact if_pos hij
        have hi : UInt32.ofNat j = i := by rw [← hij]; simp
        obtain ⟨d, hcl, hd'⟩ := csvFeats_cell keep v hv hkv (csvCells feats (j + 1) dim ++ ['\n', '\x00'])
          (csvCells_ends ..) (by simp) (UInt32.ofNat j) idx vals
        have hf' : ∀ f ∈ feats, j + 1 ≤ f.1.toNat ∧ f.1.toNat < dim ∧ Printable f.2 ∧ ∀ d, Close f.2 d → keep d = nz (0, f.2) := by
          intro f hm
          obtain ⟨_, h2, h3⟩ := hf f (List.mem_cons_of_mem _ hm)
          have : i < f.1 := hs.1 _ (List.mem_map.2 ⟨f, hm, rfl⟩)
          rw [UInt32.lt_iff_toNat_lt] at this
          exact ⟨by omega, h2, h3⟩
        rw [hnext] at hd'
        rw [hc, List.cons_append, List.append_assoc, dropWhile_comma, hd', hi]
        by_cases hz : nz (i, v) = true
        · obtain ⟨ds, h1, h2⟩ := ih (j + 1) dim feats (idx ++ [i]) (vals ++ [d]) (by omega) hd hs.2 hf'
          refine ⟨d :: ds, ?_, ?_⟩
          · rw [if_pos hz, h1, List.filter_cons, if_pos hz]; simp
          · rw [List.filter_cons, if_pos hz]; exact .cons hcl h2
        · obtain ⟨ds, h1, h2⟩ := ih (j + 1) dim feats idx vals (by omega) hd hs.2 hf'
          refine ⟨ds, ?_, ?_⟩
          · rw [if_neg hz, h1, List.filter_cons, if_neg hz]
          · rw [List.filter_cons, if_neg hz]; exact h2
      · refine skip _ ?_ (by rw [List.map_cons, List.pairwise_cons]; exact hs) ?_
        · rw [csvCells, dif_pos (by omega)]; exact if_neg hij
        · intro f hm
          obtain ⟨h1, h2, h3⟩ := hf f hm
          refine ⟨?_, h2, h3⟩
          rcases List.mem_cons.1 hm with rfl | hm
          · dsimp only at h1 ⊢; omega
          · have : i < f.1 := hs.1 _ (List.mem_map.2 ⟨f, hm, rfl⟩)
            rw [UInt32.lt_iff_toNat_lt] at this
            omega

/-- Cells written when the next feature's column is already behind: all zero. -/
theorem csvCells_blocked (i : UInt32) (v : GVal) (feats : List (UInt32 × GVal)) (n : Nat) :
    ∀ j dim, dim - j = n → i.toNat < j → csvCells ((i, v) :: feats) j dim = csvCells [] j dim := by
  induction n with
  | zero =>
    intro j dim hn _
    rw [csvCells_done (by omega), csvCells_done (by omega)]
  | succ n ih =>
    intro j dim hn hi
    rw [csvCells_miss (by omega) (by omega), csvCells_nil (by omega), ih (j + 1) dim (by omega) (by omega)]

/-- A feature out of order hides all later ones. -/
theorem csvCells_prefix (pre : List (UInt32 × GVal)) (i : UInt32) (v : GVal) (post : List (UInt32 × GVal)) (n : Nat) :
    ∀ j dim, dim - j = n → (pre.map (·.1)).Pairwise (· < ·) → (∀ f ∈ pre, j ≤ f.1.toNat) →
      (∀ f ∈ pre.getLast?, i ≤ f.1) → (pre = [] → i.toNat < j) →
      csvCells (pre ++ (i, v) :: post) j dim = csvCells pre j dim := by
  induction n generalizing pre with
  | zero =>
    intro j dim hn _ _ _ _
    rw [csvCells_done (by omega), csvCells_done (by omega)]
  | succ n ih =>
    intro j dim hn hs hj hl he
    cases pre with
    | nil => exact csvCells_blocked i v post (n + 1) j dim hn (he rfl)
    | cons f pre =>
      obtain ⟨k, w⟩ := f
      rw [List.map_cons, List.pairwise_cons] at hs
      have hk := hj _ (List.mem_cons_self ..)
      dsimp only at hk
      by_cases hkj : k.toNat = j
      · rw [List.cons_append, csvCells_hit (by omega) hkj, csvCells_hit (by omega) hkj, ih pre (j + 1) dim (by omega) hs.2]
        · intro f hf
          have : k < f.1 := hs.1 _ (List.mem_map.2 ⟨f, hf, rfl⟩)
          rw [UInt32.lt_iff_toNat_lt] at this
          omega
        · intro f hf
          cases pre with
          | nil => simp at hf
          | cons g pre => exact hl f (by rw [List.getLast?_cons_cons]; exact hf)
        · rintro rfl
          have := hl (k, w) (by simp)
          rw [UInt32.le_iff_toNat_le] at this
          dsimp only at this
          omega
      · rw [List.cons_append, csvCells_miss (by omega) hkj, csvCells_miss (by omega) hkj, ← List.cons_append, ih ((k, w) :: pre) (j + 1) dim (by omega)]
        · rw [List.map_cons, List.pairwise_cons]; exact hs
        · intro f hf
          rcases List.mem_cons.1 hf with rfl | hf
          · dsimp only; omega
          · have : k < f.1 := hs.1 _ (List.mem_map.2 ⟨f, hf, rfl⟩)
            rw [UInt32.lt_iff_toNat_lt] at this
            omega
        · exact hl
        · simp

theorem csvCells_clean (n : Nat) : ∀ (j dim : Nat) (feats : List (UInt32 × GVal)), dim - j = n →
    '\n' ∉ csvCells feats j dim ∧ '\x00' ∉ csvCells feats j dim := by
  induction n with
  | zero => intro j dim feats hn; rw [csvCells_done (by omega)]; simp
  | succ n ih =>
    intro j dim feats hn
    rw [csvCells.eq_def, dif_pos (by omega)]
    have := fun feats => ih (j + 1) dim feats (by omega)
    split
    · simp [this]
    · rename_i i v feats
      have hg := gText_clean v
      split <;> simp [this, hg]

theorem csvWrite_line (dim : Nat) (p : OutPoint) (r : List Char) :
    FirstLine (csvWrite dim p) r ∧ '\x00' ∉ csvWrite dim p := by
  have h1 := intText_clean p.label
  have h2 := csvCells_clean _ 1 dim p.feats rfl
  refine ⟨⟨by simp [csvWrite], .inl ⟨_, rfl, by simp [h1, h2]⟩⟩, by simp [csvWrite, h1, h2]⟩

theorem csvNames_spec (n : Nat) : ∀ (i dim : Nat), dim - i = n →
    '\n' ∉ csvNames i dim ∧ '\x00' ∉ csvNames i dim ∧ (csvNames i dim).count ',' = n := by
  induction n with
  | zero => intro i dim hn; rw [csvNames, if_neg (by omega)]; simp
  | succ n ih =>
    intro i dim hn
    obtain ⟨h1, h2, h3⟩ := ih (i + 1) dim (by omega)
    obtain ⟨h4, h5, h6⟩ := digits_no_nl (digits_decText i)
    rw [csvNames, if_pos (by omega)]
    refine ⟨by simp [h1, h4], by simp [h2, h5], ?_⟩
    rw [List.count_cons_self, List.count_cons_of_ne (by decide), List.count_append, List.count_eq_zero.2 h6, h3]
    omega

theorem csvHeader_line (dim : Nat) (r : List Char) :
    FirstLine (csvHeader dim) r ∧ '\x00' ∉ csvHeader dim ∧ (csvHeader dim).count ',' = dim - 1 := by
  obtain ⟨h1, h2, h3⟩ := csvNames_spec _ 1 dim rfl
  refine ⟨⟨by simp [csvHeader], .inl ⟨_, rfl, by simp [h1]⟩⟩, by simp [csvHeader, h2], ?_⟩
  simp [csvHeader, h3]

theorem csvLine_spec (keep : Dec → Bool) (hk0 : keep ⟨0, 0⟩ = false) (dim : Nat) (hdim : dim ≤ 2 ^ 32) (p : OutPoint) (hl : p.label.natAbs ≤ 2147483599)
    (hs : (p.feats.map (·.1)).Pairwise (· < ·))
    (hf : ∀ f ∈ p.feats, 1 ≤ f.1.toNat ∧ f.1.toNat < dim ∧ Printable f.2 ∧ ∀ d, Close f.2 d → keep d = nz (0, f.2)) :
    ∃ ds, List.Forall₂ (fun f d => Close f.2 d) (p.feats.filter nz) ds ∧
      csvLine keep (csvWrite dim p ++ ['\x00']) = .ok (.ok, ⟨p.label, (p.feats.filter nz).map (·.1), ds⟩) := by
  obtain ⟨ds, h1, h2⟩ := csvFeats_spec keep hk0 _ 1 dim p.feats [] [] rfl hdim hs hf
  refine ⟨ds, h2, ?_⟩
  obtain ⟨T, hT⟩ : ∃ T, T = csvCells p.feats 1 dim ++ ['\n', '\x00'] := ⟨_, rfl⟩
  have he : csvWrite dim p ++ ['\x00'] = intText p.label ++ T := by rw [hT]; simp [csvWrite]
  have hTe : EndsNumber T := by rw [hT]; exact csvCells_ends ..
  have hT0 : '\x00' ∈ T := by rw [hT]; simp
  obtain ⟨c, t, hct, hc0⟩ := intText_head p.label T
  have hp := Props.C06_label_parses_partial [] T p.label hl (by simp) hTe hT0
  rw [List.nil_append] at hp
  rw [← hT] at h1
  unfold csvLine
  rw [he, show peek (intText p.label ++ T) = .ok c by rw [hct]; rfl, Res.bind_ok, if_neg hc0, hp, Res.bind_ok]
  dsimp only
  rw [if_neg, show (1 : UInt32) = UInt32.ofNat 1 from rfl, h1, Res.bind_ok]
  · simp
  · have h1 := (List.dropWhile_suffix blank (l := T)).length_le
    have h2 := List.length_pos_iff.2 (intText_ne_nil p.label)
    rw [List.length_append]
    omega

end Sol.TextReaders
