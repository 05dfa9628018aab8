import Verif.Proofs.DataFile
import Verif.Props.Tools
/-!
# Lemmas about the data tools
-/

namespace Sol.DataFile
open Sol.Tools Sol.Spec

theorem batches_flatten {P : Type} (size : Nat) (n : Nat) : ∀ pts : List P, pts.length = n → (batches size pts).flatten = pts := by
  induction n using Nat.strongRecOn with
  | ind n ih =>
    intro pts hn
    rw [batches]
    split
    · simp
    · rename_i h
      rw [List.flatten_cons, ih (pts.drop size).length (by rw [List.length_drop]; omega) _ rfl, List.take_append_drop]

theorem typeName_format (fmt : Format) : formatNamed (typeName fmt) = some fmt := by cases fmt <;> decide

theorem typeName_csv (fmt : Format) : typeName fmt = "csv".toList ↔ fmt = .csv := by cases fmt <;> decide

/-- A data set that a format can hold when `d` is given to the writer. -/
def Fits (d : UInt32) : Format → List Point → Prop
  | .bin, pts => ∀ p ∈ pts, BinaryPoint p
  | .svm, pts => ∀ p ∈ pts, SvmPoint p
  | .csv, pts => (∀ p ∈ pts, CsvPoint d.toNat p) ∧ 1 ≤ d.toNat ∧ d.toNat ≤ 2 ^ 25

theorem Fits.sub {d : UInt32} {fmt : Format} {pts l : List Point} (h : Fits d fmt pts) (hl : ∀ p ∈ l, p ∈ pts) : Fits d fmt l := by
  cases fmt with
  | bin => exact fun p hp => h p (hl p hp)
  | svm => exact fun p hp => h p (hl p hp)
  | csv => exact ⟨fun p hp => h.1 p (hl p hp), h.2⟩

theorem saved_of_fits {pw : Int → F32} (hpw : Powf pw) {d : UInt32} {fmt : Format} {pts : List Point} (h : Fits d fmt pts)
    {e : Option UInt32} (he : fmt = .csv → e = some d) : ∃ f, render fmt ⟨e, pts⟩ = .ok f ∧ Saved pw fmt pts f := by
  cases fmt with
  | bin => exact ⟨_, rfl, pts, bin_reads pw h, List.forall₂_same.2 fun _ _ => rfl⟩
  | svm =>
    obtain ⟨qs, h1, h2⟩ := svm_reads hpw h
    exact ⟨_, rfl, qs, h1, h2.imp fun _ _ h => h.near⟩
  | csv =>
    obtain ⟨qs, h1, h2⟩ := csv_reads hpw h.2.1 h.2.2 h.1
    rw [he rfl]
    exact ⟨_, rfl, qs, h1, h2.imp fun _ _ h => h.near⟩

theorem fits_of_suits {fmt : Format} {pts : List Point} (h : Suits fmt pts) :
    Fits (pts.foldl widen 0) fmt pts ∧ (fmt = .csv → pts.foldl widen 0 ≠ 0) := by
  cases fmt with
  | bin => exact ⟨h, by simp⟩
  | svm => exact ⟨h, by simp⟩
  | csv =>
    obtain ⟨h, p, hp, hne⟩ := h
    obtain ⟨g1, g2⟩ := Props.C50_dimension pts (fun p hp => (h p hp).ascending) fun p hp f hf => by
      have := ((h p hp).values f hf).2.1
      omega
    obtain ⟨f, hf⟩ := List.exists_mem_of_ne_nil _ hne
    have hpos := g1 p hp f hf
    refine ⟨⟨fun q hq => ⟨(h q hq).label, fun f hf => ?_, (h q hq).ascending⟩, by omega, ?_⟩, fun _ h0 => by
      rw [h0] at hpos; simp at hpos⟩
    · obtain ⟨a, _, c, e⟩ := (h q hq).values f hf
      exact ⟨a, g1 q hq f hf, c, e⟩
    · rcases g2 with g2 | ⟨q, hq, f, hf, g2⟩
      · omega
      · have := ((h q hq).values f hf).2.1
        omega

/-- Files of the folds. -/
theorem foldFiles_ok {pw : Int → F32} (hpw : Powf pw) (m : Machine) (pre : List Char) (fmt : Format) (d : UInt32) :
    ∀ (fs : List (UInt32 × List Point)) (i : Nat) (acc : List (List Char × File)),
      (∀ f ∈ fs, f.1 = d ∧ Fits d fmt f.2) → (∀ j, i ≤ j → j < i + fs.length → m.writes (foldName pre (typeName fmt) j) = true) →
      ∃ out, foldFiles m pre (typeName fmt) fmt i fs acc = .ok ⟨0, acc ++ out⟩ ∧
        out.map (·.1) = (List.range' i fs.length).map (foldName pre (typeName fmt)) ∧
        List.Forall₂ (Saved pw fmt) (fs.map (·.2)) (out.map (·.2))
  | [], i, acc, _, _ => ⟨[], by simp [foldFiles, code], rfl, .nil⟩
  | (d', l) :: fs, i, acc, h, hw => by
    obtain ⟨h1, h2⟩ := h (d', l) (List.mem_cons_self ..)
    dsimp only at h1 h2
    subst h1
    obtain ⟨f, hf, hs⟩ := saved_of_fits hpw h2 (e := some d') fun _ => rfl
    obtain ⟨out, o1, o2, o3⟩ := foldFiles_ok hpw m pre fmt d' fs (i + 1) (acc ++ [(foldName pre (typeName fmt) i, f)])
      (fun g hg => h g (List.mem_cons_of_mem _ hg)) fun j h1 h2 => hw j (by omega) (by rw [List.length_cons]; omega)
    refine ⟨(foldName pre (typeName fmt) i, f) :: out, ?_, ?_, ?_⟩
    · rw [foldFiles, if_neg (by rw [hw i (by omega) (by rw [List.length_cons]; omega)]; simp), hf, Res.bind_ok, o1]
      simp
    · rw [List.map_cons, o2]
      simp [List.range'_succ]
    · exact .cons hs o3

/-- Opening and reading several files. -/
theorem readers_ok {pw : Int → F32} {type : List Char} {files : List File} {sets : List (List Point)}
    (h : List.Forall₂ (fun f pts => ∃ s, ReadsAs pw type f pts s) files sets) :
    ∃ os b, addReaders type (files.map some) = .ok (some os) ∧ contentsAll pw os = .ok b ∧ b.flatten = sets.flatten := by
  induction h with
  | nil => exact ⟨[], [], rfl, rfl, rfl⟩
  | @cons f pts _ _ h1 _ ih =>
    obtain ⟨s, o, ho, hc⟩ := h1
    obtain ⟨os, b, i1, i2, i3⟩ := ih
    refine ⟨o :: os, batches 256 pts ++ b, ?_, ?_, ?_⟩
    · rw [List.map_cons, addReaders, ho, Res.bind_ok]
      dsimp only
      rw [i1, Res.bind_ok]
      rfl
    · rw [contentsAll, hc, Res.bind_ok]
      dsimp only
      rw [i2, Res.bind_ok]
    · rw [List.flatten_append, batches_flatten _ _ _ rfl, i3, List.flatten_cons]

/-! ### Threshold -/

theorem above_iff (t v : F32) : Exceeds t v ↔ (t <? v) = true := by
  cases t <;> cases v <;> simp [Exceeds, FCmp.lt, F32.lt]

theorem cut_value (t v : F32) : ∃ q : ℚ, (if t <? v then (1 : F32) else -1) = .fin q ∧ (Exceeds t v → q = 1) ∧ (¬ Exceeds t v → q = -1) := by
  by_cases h : (t <? v) = true
  · exact ⟨1, by rw [if_pos h]; rfl, fun _ => rfl, fun h2 => absurd ((above_iff t v).2 h) h2⟩
  · exact ⟨-1, by rw [if_neg h]; rfl, fun h2 => absurd ((above_iff t v).1 h2) h, fun _ => rfl⟩

theorem cut_abs (t v : F32) : ∃ n : ℤ, (if t <? v then (1 : F32) else -1) = .fin n ∧ |n| = 1 := by
  by_cases h : (t <? v) = true
  · exact ⟨1, by rw [if_pos h]; norm_num; rfl, by simp⟩
  · exact ⟨-1, by rw [if_neg h]; norm_num; rfl, by simp⟩

theorem cut_single (t v : F32) : IsFloat (if t <? v then (1 : F32) else -1) := by
  obtain ⟨n, h, hn⟩ := cut_abs t v
  rw [h]
  exact ⟨n, 0, by rw [hn]; norm_num, by norm_num, by norm_num, by simp⟩

theorem cut_text (t v : F32) : TextValue (if t <? v then (1 : F32) else -1) ∧ (if t <? v then (1 : F32) else -1) ≠ .fin 0 := by
  obtain ⟨n, h, hn⟩ := cut_abs t v
  have h1 := cut_single t v
  rw [h] at h1 ⊢
  have hq : |(n : ℚ)| = 1 := by exact_mod_cast hn
  refine ⟨⟨n, rfl, h1, .inr (by rw [hq]; norm_num), by rw [hq]; norm_num⟩, fun h0 => ?_⟩
  rw [F32.fin.inj h0] at hq
  simp at hq

theorem suits_cut {fmt : Format} {pts : List Point} (t : F32) (h : Suits fmt (pts.map allOnes)) : Suits fmt (pts.map (binarise t)) := by
  have hi : ∀ p : Point, (binarise t p).feats.map (·.1) = (allOnes p).feats.map (·.1) := by
    intro p
    simp [binarise, allOnes, Function.comp_def]
  have hl : ∀ p : Point, (binarise t p).feats.length = (allOnes p).feats.length := by
    intro p
    simp [binarise, allOnes]
  have hf : ∀ p : Point, ∀ f ∈ (binarise t p).feats, (f.1, F32.fin 1) ∈ (allOnes p).feats ∧ ∃ v, f.2 = if t <? v then (1 : F32) else -1 := by
    intro p f hf
    obtain ⟨g, hg, rfl⟩ := List.mem_map.1 hf
    exact ⟨List.mem_map.2 ⟨g, hg, rfl⟩, g.2, rfl⟩
  cases fmt with
  | bin =>
    intro q hq
    obtain ⟨p, hp, rfl⟩ := List.mem_map.1 hq
    have := h _ (List.mem_map_of_mem hp)
    refine ⟨this.label, fun f hx => ?_, by rw [hl]; exact this.count⟩
    obtain ⟨_, v, e⟩ := hf p f hx
    rw [e]
    exact cut_single t v
  | svm =>
    intro q hq
    obtain ⟨p, hp, rfl⟩ := List.mem_map.1 hq
    have := h _ (List.mem_map_of_mem hp)
    refine ⟨this.label, fun f hx => ?_, by rw [hi]; exact this.ascending, by rw [hl]; exact this.count⟩
    obtain ⟨e1, v, e⟩ := hf p f hx
    rw [e]
    exact ⟨(this.values _ e1).1, (cut_text t v).1⟩
  | csv =>
    obtain ⟨h, q, hq, hne⟩ := h
    refine ⟨fun q hq => ?_, ?_⟩
    · obtain ⟨p, hp, rfl⟩ := List.mem_map.1 hq
      have := h _ (List.mem_map_of_mem hp)
      refine ⟨this.label, fun f hx => ?_, by rw [hi]; exact this.ascending⟩
      obtain ⟨e1, v, e⟩ := hf p f hx
      rw [e]
      exact ⟨(this.values _ e1).1, (this.values _ e1).2.1, cut_text t v⟩
    · obtain ⟨p, hp, rfl⟩ := List.mem_map.1 hq
      refine ⟨_, List.mem_map_of_mem hp, fun h0 => hne ?_⟩
      rw [← List.length_eq_zero_iff, ← hl, h0, List.length_nil]

theorem cut_of_keeps {fmt : Format} {t : F32} {p q : Point} (h : Keeps fmt (binarise t p) q) : CutAt t p q := by
  have key : q.label = p.label ∧ List.Forall₂ (fun f g => g.1 = f.1 ∧ g.2 = if t <? f.2 then (1 : F32) else -1) p.feats q.feats := by
    have hn : NearPoint (binarise t p) q →
        q.label = p.label ∧ List.Forall₂ (fun f g => g.1 = f.1 ∧ g.2 = if t <? f.2 then (1 : F32) else -1) p.feats q.feats := by
      rintro ⟨h1, h2⟩
      refine ⟨h1, (List.forall₂_map_left_iff.1 h2).imp fun f g hfg => ⟨hfg.1, ?_⟩⟩
      obtain ⟨x, y, e1, e2, _, h4, _⟩ := hfg.2
      obtain ⟨n, h5, h6⟩ := cut_abs t f.2
      dsimp only at e1
      rw [h5] at e1
      have e3 := F32.fin.inj e1
      rw [h5, e2, h4 n (by rw [h6]; norm_num) e3.symm, e3]
    cases fmt with
    | bin =>
      cases h
      refine ⟨rfl, ?_⟩
      unfold binarise
      dsimp only
      rw [List.forall₂_map_right_iff, List.forall₂_same]
      exact fun _ _ => ⟨rfl, rfl⟩
    | svm => exact hn h
    | csv => exact hn h
  refine ⟨key.1, key.2.imp fun f g h => ⟨h.1, ?_⟩⟩
  obtain ⟨x, h1, h2, h3⟩ := cut_value t f.2
  rw [h.2, h1]
  exact ⟨fun ha => by rw [h2 ha], fun ha => by rw [h3 ha]⟩

end Sol.DataFile
