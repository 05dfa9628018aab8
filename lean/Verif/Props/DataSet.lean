import Verif.Proofs.DataSet
import Verif.Props.ToolMains
/-! Data sets with a cache directory (python/dataset.py). -/

namespace Sol.Props
open Sol.Spec Sol.DataSet Sol.DataFile
open Sol.Tools (Pt)

/-- What changes when one file of the cache directory is written. -/
theorem coherent_write {pw : Int → F32} {t : F32} {pts : List (Pt F32)} {writes : List Char → Bool} {ds : DataSet} {fs : Files}
    (ha : Aside writes ds) (h : Coherent pw t pts ds fs) (s : Slot) (f : File) (hs : ∀ fmt i, s ≠ .fold fmt i)
    (hc : ∀ fmt, s = .conv fmt → Saved pw fmt pts f)
    (hb : ∀ fmt, s = .bin fmt → ∃ qs, ReadsAs pw (typeName fmt) f qs .endOfFile ∧ List.Forall₂ (CutAt t) pts qs)
    (hf : ∀ fmt, s = .shuf fmt → ∃ l, l.Perm pts ∧ Saved pw fmt l f)
    (hi : s = .info → Reports (· + 1) pts (chars f)) : Coherent pw t pts ds (fs.after [(s.at ds, f)]) := by
  have hdata : fs.after [(s.at ds, f)] ds.dataPath = fs ds.dataPath := after_other (by
    simp only [List.map_cons, List.map_nil, List.mem_singleton]
    exact ha.data _)
  have hslot : ∀ u : Slot, u ≠ s → fs.after [(s.at ds, f)] (u.at ds) = fs (u.at ds) := fun u hu => after_other (by
    simp only [List.map_cons, List.map_nil, List.mem_singleton]
    exact fun e => hu (at_inj ha.name e))
  have hself : fs.after [(s.at ds, f)] (s.at ds) = some f := after_written (by simp) (by simp)
  have hfold : ∀ fmt i, fs.after [(s.at ds, f)] (foldAt ds.foldPrefix fmt i) = fs (foldAt ds.foldPrefix fmt i) := by
    intro fmt i
    rw [fold_cached]
    exact hslot (.fold fmt i) fun e => hs fmt i e.symm
  refine ⟨by rw [hdata]; exact h.data, ?_, ?_, ?_, ?_, ?_⟩
  · intro fmt n hn h1 h2
    obtain ⟨parts, p1, p2, p3⟩ := h.folds fmt n hn (fun i hi => by rw [← hfold]; exact h1 i hi) (by rw [← hfold]; exact h2)
    exact ⟨parts, p1, p2, fun i p hp => by rw [hfold]; exact p3 i p hp⟩
  · intro fmt g hg
    by_cases e : s = .conv fmt
    · subst e
      obtain rfl := Option.some.inj (hself.symm.trans hg)
      exact hc fmt rfl
    · refine h.converted fmt g ?_
      rw [← hg]
      exact (hslot (.conv fmt) fun e' => e e'.symm).symm
  · intro fmt g hg
    rw [binary_cached] at hg
    by_cases e : s = .bin fmt
    · subst e
      obtain rfl := Option.some.inj (hself.symm.trans hg)
      exact hb fmt rfl
    · refine h.binary fmt g ?_
      rw [← hg, binary_cached]
      exact (hslot (.bin fmt) fun e' => e e'.symm).symm
  · intro fmt g hg
    rw [shuffle_cached] at hg
    by_cases e : s = .shuf fmt
    · subst e
      obtain rfl := Option.some.inj (hself.symm.trans hg)
      exact hf fmt rfl
    · refine h.shuffled fmt g ?_
      rw [← hg, shuffle_cached]
      exact (hslot (.shuf fmt) fun e' => e e'.symm).symm
  · intro g hg
    by_cases e : s = .info
    · subst e
      obtain rfl := Option.some.inj (hself.symm.trans hg)
      exact hi rfl
    · refine h.info g ?_
      rw [← hg]
      exact (hslot .info fun e' => e e'.symm).symm

section
variable (pw : Int → F32) (hpw : Powf pw) (writes : List Char → Bool) (t : F32) (pts : List (Pt F32)) (ds : DataSet) (fs : Files)
  (ha : Aside writes ds) (h : Coherent pw t pts ds fs)

include hpw ha h

/-- **C84 (conversion), the part that holds.** `convert` returns the path of a file that holds the data set, whatever was done with the
    cache before. -/
theorem C84_convert_partial (fmt : Format) (hs : Suits fmt pts) :
    ∃ p fs' f qs, ds.convert pw writes (typeName fmt) fs = .ok (.gives p fs') ∧ Coherent pw t pts ds fs' ∧ fs' p = some f ∧
      ReadsAs pw (typeName fmt) f qs .endOfFile ∧ (qs = pts ∨ List.Forall₂ (Keeps fmt) pts qs) := by
  unfold DataSet.convert
  obtain ⟨file, hd, hr⟩ := h.data
  by_cases h1 : ds.dtype = typeName fmt
  · rw [if_pos h1]
    rw [h1] at hr
    exact ⟨_, _, file, pts, rfl, h, hd, hr, .inl rfl⟩
  · rw [if_neg h1]
    cases h2 : fs (ds.convertPath (typeName fmt)) with
    | some f =>
      obtain ⟨qs, q1, q2⟩ := h.converted fmt f h2
      exact ⟨_, _, f, qs, rfl, h, h2, q1, .inr q2⟩
    | none =>
      obtain ⟨f, f1, f2⟩ := C74_convert_partial pw hpw (seen writes fs) ds.dataPath ds.dtype (ds.convertPath (typeName fmt)) fmt file
        ⟨hd, hd, ha.writes _⟩ pts hr hs
      obtain ⟨qs, q1, q2⟩ := id f2
      refine ⟨ds.convertPath (typeName fmt), fs.after [(ds.convertPath (typeName fmt), f)], f, qs, ?_, ?_, ?_, q1, .inr q2⟩
      · rw [if_neg (by simp), f1]
        rfl
      · exact coherent_write ha h (.conv fmt) f (fun _ _ e => by cases e) (fun g e => by cases e; exact f2) (fun _ e => by cases e)
          (fun _ e => by cases e) fun e => by cases e
      · exact after_written (by simp) (by simp)

/-- **C84 (threshold), the part that holds.** `binarize` returns the path of a file with the values 1 and -1, if all calls give the same
    threshold (`C84_is_violated`). -/
theorem C84_binarize_partial (fmt : Format) (hs : Suits fmt (pts.map allOnes)) :
    ∃ p fs' f qs, ds.binarize pw writes (typeName fmt) t fs = .ok (.gives p fs') ∧ Coherent pw t pts ds fs' ∧ fs' p = some f ∧
      ReadsAs pw (typeName fmt) f qs .endOfFile ∧ List.Forall₂ (CutAt t) pts qs := by
  unfold DataSet.binarize
  obtain ⟨file, hd, hr⟩ := h.data
  cases h2 : fs (ds.binaryPath (typeName fmt)) with
  | some f =>
    obtain ⟨qs, q1, q2⟩ := h.binary fmt f h2
    exact ⟨_, _, f, qs, rfl, h, h2, q1, q2⟩
  | none =>
    have hw : writes (ds.binaryPath (typeName fmt)) = true := by
      rw [binary_cached]
      exact ha.writes _
    obtain ⟨f, qs, f1, q1, q2⟩ := C74_threshold_partial pw hpw (seen writes fs) ds.dataPath ds.dtype (ds.binaryPath (typeName fmt)) fmt t file
      ⟨hd, hd, hw⟩ pts hr hs
    refine ⟨ds.binaryPath (typeName fmt), fs.after [(ds.binaryPath (typeName fmt), f)], f, qs, ?_, ?_, ?_, q1, q2⟩
    · rw [if_neg (by simp), f1]
      rfl
    · rw [binary_cached]
      exact coherent_write ha h (.bin fmt) f (fun _ _ e => by cases e) (fun _ e => by cases e) (fun g e => by cases e; exact ⟨qs, q1, q2⟩)
        (fun _ e => by cases e) fun e => by cases e
    · exact after_written (by simp) (by simp)

/-- **C84 (shuffling), the part that holds.** `rand_path` returns the path of a file that holds the points in some order. -/
theorem C84_shuffle_partial (fmt : Format) (hs : Suits fmt pts) (force : Bool) (choice : Nat → Nat) :
    ∃ p fs' f l, ds.randPath pw writes (some (typeName fmt)) force choice fs = .ok (.gives p fs') ∧ Coherent pw t pts ds fs' ∧
      fs' p = some f ∧ l.Perm pts ∧ Saved pw fmt l f := by
  unfold DataSet.randPath
  obtain ⟨file, hd, hr⟩ := h.data
  dsimp only [Option.getD_some]
  by_cases h2 : ((fs (ds.shufflePath (typeName fmt))).isSome && !force) = true
  · rw [if_pos h2]
    obtain ⟨f, h3⟩ := Option.isSome_iff_exists.1 (by simp at h2; exact h2.1)
    obtain ⟨l, q1, q2⟩ := h.shuffled fmt f h3
    exact ⟨_, _, f, l, rfl, h, h3, q1, q2⟩
  · have hw : writes (ds.shufflePath (typeName fmt)) = true := by
      rw [shuffle_cached]
      exact ha.writes _
    obtain ⟨f, l, f1, q1, q2⟩ := C74_shuffle_partial pw hpw (seen writes fs) choice ds.dataPath ds.dtype (ds.shufflePath (typeName fmt)) fmt file
      ⟨hd, hd, hw⟩ pts hr hs
    refine ⟨ds.shufflePath (typeName fmt), fs.after [(ds.shufflePath (typeName fmt), f)], f, l, ?_, ?_, ?_, q1, q2⟩
    · rw [if_neg h2, f1]
      rfl
    · rw [shuffle_cached]
      exact coherent_write ha h (.shuf fmt) f (fun _ _ e => by cases e) (fun _ e => by cases e) (fun _ e => by cases e)
        (fun g e => by cases e; exact ⟨l, q1, q2⟩) fun e => by cases e
    · exact after_written (by simp) (by simp)

/-- **C84 (splitting), the part that holds.** After `split_file(n, type)` the first `n` files of folds hold the data set, every point in
    one of them, whether they were made now or before, and there is no fold `n`; so `split_path` gives the paths of these files, and
    raises for others.  Missing: calls without a type (`C84_is_violated`). -/
theorem C84_split_partial (hw : Workable pts) (fmt : Format) (hs : Suits fmt pts) (n : Nat) (hn : 1 ≤ n) (hn2 : n < 2 ^ 31)
    (choice : Nat → Nat) :
    ∃ fs', ds.splitFile pw writes n (some (typeName fmt)) choice fs = .ok (.gives { ds with sliceType := typeName fmt } fs') ∧
      Coherent pw t pts ds fs' ∧ Folded pw ds.foldPrefix fmt pts n fs' ∧
      (∀ i < n, ∃ f, ({ ds with sliceType := typeName fmt } : DataSet).splitPath i fs' = .gives (foldAt ds.foldPrefix fmt i) fs' ∧
        fs' (foldAt ds.foldPrefix fmt i) = some f) ∧
      ({ ds with sliceType := typeName fmt } : DataSet).splitPath n fs' = .raises fs' := by
  have hpath : ∀ fs' : Files, Folded pw ds.foldPrefix fmt pts n fs' → fs' (foldAt ds.foldPrefix fmt n) = none →
      (∀ i < n, ∃ f, ({ ds with sliceType := typeName fmt } : DataSet).splitPath i fs' = .gives (foldAt ds.foldPrefix fmt i) fs' ∧
        fs' (foldAt ds.foldPrefix fmt i) = some f) ∧
      ({ ds with sliceType := typeName fmt } : DataSet).splitPath n fs' = .raises fs' := by
    rintro fs' ⟨parts, p1, p2, p3⟩ hnone
    constructor
    · intro i hi
      obtain ⟨f, hf, -⟩ := p3 i _ (List.getElem?_eq_getElem (by omega))
      refine ⟨f, ?_, hf⟩
      show (if (fs' (foldAt ds.foldPrefix fmt i)).isNone then _ else _) = _
      rw [hf]
      rfl
    · show (if (fs' (foldAt ds.foldPrefix fmt n)).isNone then _ else _) = _
      rw [hnone]
      rfl
  unfold DataSet.splitFile
  obtain ⟨file, hd, hr⟩ := h.data
  dsimp only [Option.getD_some]
  change ∃ fs', (if ((List.range n).all fun i => (fs (foldAt ds.foldPrefix fmt i)).isSome) && (fs (foldAt ds.foldPrefix fmt n)).isNone
    then _ else _) = _ ∧ _
  by_cases hk : (((List.range n).all fun i => (fs (foldAt ds.foldPrefix fmt i)).isSome) && (fs (foldAt ds.foldPrefix fmt n)).isNone) = true
  · rw [if_pos hk]
    rw [Bool.and_eq_true, List.all_eq_true] at hk
    have hnone : fs (foldAt ds.foldPrefix fmt n) = none := Option.isNone_iff_eq_none.1 hk.2
    have hF := h.folds fmt n hn (fun i hi e => by
      have := hk.1 i (List.mem_range.2 hi)
      rw [e] at this
      cases this) hnone
    refine ⟨fs, ?_, h, hF, hpath fs hF hnone⟩
    rw [if_neg (by
      change ¬ (fs (foldAt ds.foldPrefix fmt n)).isSome = true
      rw [hnone]
      simp)]
  · rw [if_neg hk]
    generalize hfs1 : (if (fs (foldName ds.foldPrefix (typeName fmt) n)).isSome = true then fs.without (foldName ds.foldPrefix (typeName fmt) n)
      else fs) = fs1
    have hne : ∀ p, p ≠ foldAt ds.foldPrefix fmt n → fs1 p = fs p := by
      intro p hp
      rw [← hfs1]
      split_ifs
      · exact if_neg hp
      · rfl
    have hnone : fs1 (foldAt ds.foldPrefix fmt n) = none := by
      rw [← hfs1]
      split_ifs with hx
      · exact if_pos rfl
      · exact Option.not_isSome_iff_eq_none.1 hx
    have hfold : ∀ g i, foldAt ds.foldPrefix g i = (Slot.fold g i).at ds := fun g i => fold_cached ds g i
    have hdata : ∀ g i, ds.dataPath ≠ foldAt ds.foldPrefix g i := fun g i => by
      rw [hfold]
      exact ha.data _
    obtain ⟨l, out, o1, o2, -, o3, o4, o5⟩ := C74_split_partial pw hpw (seen writes fs1) (some choice) ds.dataPath ds.dtype ds.foldPrefix fmt file
      ((hne _ (hdata fmt n)).trans hd) n hn hn2 (fun j _ => by
        show writes (foldAt ds.foldPrefix fmt j) = true
        rw [hfold]
        exact ha.writes _) pts hr hs hw.some hw.few
    have hnames : out.map (·.1) = (List.range n).map (foldAt ds.foldPrefix fmt) := o3
    have hinj : ∀ g i g' i', foldAt ds.foldPrefix g i = foldAt ds.foldPrefix g' i' → g = g' ∧ i = i' := by
      intro g i g' i' e
      rw [hfold, hfold] at e
      have := at_inj ha.name e
      cases this
      exact ⟨rfl, rfl⟩
    have hnd : (out.map (·.1)).Nodup := by
      rw [hnames]
      exact List.Nodup.map (fun i j e => (hinj _ _ _ _ e).2) List.nodup_range
    have hlen : out.length = n := by simpa using congrArg List.length hnames
    have hget : ∀ i (hi : i < out.length), fs1.after out (foldAt ds.foldPrefix fmt i) = some out[i].2 := by
      intro i hi
      refine after_written hnd ?_
      have : out[i].1 = foldAt ds.foldPrefix fmt i := by
        have h1 : (out.map (·.1))[i]? = some out[i].1 := by simp [hi]
        rw [hnames] at h1
        simpa [show i < n by omega] using h1.symm
      rw [← this]
      exact List.getElem_mem hi
    have hother : ∀ p, (∀ i < n, p ≠ foldAt ds.foldPrefix fmt i) → fs1.after out p = fs1 p := by
      intro p hp
      refine after_other ?_
      rw [hnames]
      simp only [List.mem_map, List.mem_range, not_exists, not_and]
      exact fun i hi e => hp i hi e.symm
    have hend : fs1.after out (foldAt ds.foldPrefix fmt n) = none := by
      rw [hother _ fun i hi e => by have := (hinj _ _ _ _ e).2; omega, hnone]
    have hplen : (blocks l ((pts.length + n - 1) / n) n).length = n := by simp [blocks]
    have hF : Folded pw ds.foldPrefix fmt pts n (fs1.after out) := by
      refine ⟨blocks l ((pts.length + n - 1) / n) n, hplen, by rw [o5]; exact o2, fun i p hp => ?_⟩
      have hi : i < n := by
        have := (List.getElem?_eq_some_iff.1 hp).1
        omega
      refine ⟨out[i].2, hget i (by omega), ?_⟩
      have h2 := List.forall₂_iff_get.1 o4
      have h3 := h2.2 i (by rw [hplen]; exact hi) (by simp; omega)
      have h4 : (blocks l ((pts.length + n - 1) / n) n)[i]'(by rw [hplen]; exact hi) = p := by
        have := (List.getElem?_eq_some_iff.1 hp).2
        exact this
      simpa [h4] using h3
    have hsame : ∀ p, (∀ i, p ≠ foldAt ds.foldPrefix fmt i) → fs1.after out p = fs p := fun p hp => by
      rw [hother p fun i _ => hp i, hne p (hp n)]
    have hslot : ∀ u : Slot, (∀ i, u ≠ .fold fmt i) → fs1.after out (u.at ds) = fs (u.at ds) := fun u hu => hsame _ fun i e => by
      rw [hfold] at e
      exact hu i (at_inj ha.name e)
    refine ⟨fs1.after out, ?_, ⟨⟨file, ?_, hr⟩, ?_, ?_, ?_, ?_, ?_⟩, hF, hpath _ hF hend⟩
    · subst hfs1
      exact congrArg (fun r : Res Done => r.bind fun d => .ok (finish _ d { ds with sliceType := typeName fmt })) o1
    · rw [hsame _ (hdata fmt), hd]
    · intro g n' hn' h1 h2
      by_cases hg : g = fmt
      · subst hg
        obtain rfl : n' = n := by
          rcases Nat.lt_trichotomy n' n with hlt | heq | hgt
          · rw [hget n' (by omega)] at h2
            cases h2
          · exact heq
          · exact absurd hend (h1 n hgt)
        exact hF
      · have hs2 : ∀ i, fs1.after out (foldAt ds.foldPrefix g i) = fs (foldAt ds.foldPrefix g i) := fun i =>
          hsame _ fun j e => hg (hinj _ _ _ _ e).1
        obtain ⟨parts, p1, p2, p3⟩ := h.folds g n' hn' (fun i hi => by rw [← hs2]; exact h1 i hi) (by rw [← hs2]; exact h2)
        exact ⟨parts, p1, p2, fun i p hp => by rw [hs2]; exact p3 i p hp⟩
    · intro g f hf
      refine h.converted g f ?_
      rw [← hf]
      exact (hslot (.conv g) fun i e => by cases e).symm
    · intro g f hf
      refine h.binary g f ?_
      rw [← hf, binary_cached]
      exact (hslot (.bin g) fun i e => by cases e).symm
    · intro g f hf
      refine h.shuffled g f ?_
      rw [← hf, shuffle_cached]
      exact (hslot (.shuf g) fun i e => by cases e).symm
    · intro f hf
      refine h.info f ?_
      rw [← hf]
      exact (hslot .info fun i e => by cases e).symm

end

/-- Objects for the same file. -/
structure SameFile (ds ds' : DataSet) : Prop where
  path : ds'.dataPath = ds.dataPath
  dtype : ds'.dtype = ds.dtype
  dir : ds'.workDir = ds.workDir
  name : ds'.dataName = ds.dataName

theorem SameFile.coherent {pw : Int → F32} {t : F32} {pts : List (Pt F32)} {ds ds' : DataSet} (e : SameFile ds ds') {fs : Files}
    (h : Coherent pw t pts ds fs) : Coherent pw t pts ds' fs := by
  obtain ⟨a, b, c, d, e1, e2, e3, e4⟩ := ds'
  obtain ⟨rfl, rfl, rfl, rfl⟩ := e
  exact ⟨h.data, h.folds, h.converted, h.binary, h.shuffled, h.info⟩

theorem coherent_same {pw : Int → F32} {t : F32} {pts : List (Pt F32)} {ds : DataSet} {fs : Files} (sl : List Char) (n d c : Nat)
    (h : Coherent pw t pts ds fs) : Coherent pw t pts { ds with sliceType := sl, dataNum := n, dim := d, classNum := c } fs :=
  ⟨h.data, h.folds, h.converted, h.binary, h.shuffled, h.info⟩

theorem SameFile.aside {writes : List Char → Bool} {ds ds' : DataSet} (e : SameFile ds ds') (h : Aside writes ds) : Aside writes ds' := by
  obtain ⟨a, b, c, d, e1, e2, e3, e4⟩ := ds'
  obtain ⟨rfl, rfl, rfl, rfl⟩ := e
  exact ⟨h.name, h.writes, h.data⟩

/-- **C84 (numbers), the part that holds.** A new object has the number of points, the largest index and the number of labels of the data
    set, whether the report was made now or before. -/
theorem C84_numbers_partial (pw : Int → F32) (writes : List Char → Bool) (pct : Nat → Nat → List Char)
    (hpct : ∀ v d : Nat, v ≤ d → 1 ≤ d → d ≤ 2 ^ 32 → Percent (100 - 100 * v / d) (pct v d)) (t : F32) (pts : List (Pt F32)) (hw : Workable pts)
    (name path dtype : List Char) (fs : Files) (ha : Aside writes (unread name path dtype)) (h : Coherent pw t pts (unread name path dtype) fs) :
    ∃ ds fs', DataSet.new pw writes pct name path dtype fs = .ok (.gives ds fs') ∧ SameFile (unread name path dtype) ds ∧
      Coherent pw t pts ds fs' ∧ Counted pts ds := by
  obtain ⟨file, hd, hr⟩ := h.data
  generalize hds : unread name path dtype = ds at *
  have key : ∀ (fs' : Files) (f : File), Coherent pw t pts ds fs' → fs' ds.infoPath = some f → ∃ n d c,
      parse (chars f) = some (n, d, c) ∧ Counted pts { ds with dataNum := n, dim := d, classNum := c } := by
    intro fs' f hc hf
    obtain ⟨m, table, s, m1, m2, m3, m4, m5⟩ := hc.info f hf
    refine ⟨_, _, _, by rw [m5]; exact parse_report m4, rfl, ⟨m1, m2⟩, ?_⟩
    exact histogram_length m3
  have hnew : DataSet.new pw writes pct name path dtype fs = ds.info pw writes pct fs := by
    unfold DataSet.new
    rw [hds, if_neg]
    have : pathOf name path = ds.dataPath := by rw [← hds]; rfl
    rw [this, hd]
    simp
  rw [hnew]
  unfold DataSet.info
  cases hi : fs ds.infoPath with
  | some f =>
    obtain ⟨n, d, c, k1, k2⟩ := key fs f h hi
    refine ⟨{ ds with dataNum := n, dim := d, classNum := c }, fs, ?_, ⟨rfl, rfl, rfl, rfl⟩, coherent_same ds.sliceType n d c h, k2⟩
    rw [if_pos (by simp)]
    unfold DataSet.numbers
    rw [hi]
    dsimp only
    rw [k1]
  | none =>
    obtain ⟨text, a1, a2⟩ := analyze_reports pw pct hpct (seen writes fs) ds.dataPath ds.dtype ds.infoPath file hd (ha.writes _) pts _ hr
      hw.ascending hw.small hw.feats
    have hself : fs.after [(ds.infoPath, ofChars text)] ds.infoPath = some (ofChars text) := after_written (by simp) (by simp)
    have hc : Coherent pw t pts ds (fs.after [(ds.infoPath, ofChars text)]) :=
      coherent_write ha h .info (ofChars text) (fun _ _ e => by cases e) (fun _ e => by cases e) (fun _ e => by cases e) (fun _ e => by cases e)
        fun _ => by
          obtain ⟨m, table, s, m1, m2, m3, m4, rfl⟩ := a2
          rw [chars_ofChars (plain7_report m4)]
          exact ⟨m, table, s, m1, m2, m3, m4, rfl⟩
    obtain ⟨n, d, c, k1, k2⟩ := key _ _ hc hself
    refine ⟨{ ds with dataNum := n, dim := d, classNum := c }, _, ?_, ⟨rfl, rfl, rfl, rfl⟩, coherent_same ds.sliceType n d c hc, k2⟩
    rw [if_neg (by simp), a1]
    show Res.ok (ds.numbers (fs.after [(ds.infoPath, ofChars text)])) = _
    unfold DataSet.numbers
    rw [hself]
    dsimp only
    rw [k1]

/-- A data set with an empty cache directory. -/
theorem coherent_new {pw : Int → F32} {t : F32} {pts : List (Pt F32)} {name path dtype : List Char} {fs : Files} {file : File}
    (hf : fs (pathOf name path) = some file) (hr : ReadsAs pw dtype file pts .endOfFile)
    (hnone : ∀ s, fs (join (unread name path dtype).workDir ((unread name path dtype).dataName ++ s)) = none) :
    Coherent pw t pts (unread name path dtype) fs := by
  have hslot : ∀ u : Slot, fs (u.at (unread name path dtype)) = none := fun u => hnone _
  refine ⟨⟨file, hf, hr⟩, ?_, ?_, ?_, ?_, ?_⟩
  · intro fmt n hn h1 _
    refine absurd ?_ (h1 0 hn)
    rw [fold_cached]
    exact hnone _
  · intro fmt f hf
    exact absurd ((hslot (.conv fmt)).symm.trans hf) (by simp)
  · intro fmt f hf
    rw [binary_cached] at hf
    exact absurd ((hslot (.bin fmt)).symm.trans hf) (by simp)
  · intro fmt f hf
    rw [shuffle_cached] at hf
    exact absurd ((hslot (.shuf fmt)).symm.trans hf) (by simp)
  · intro f hf
    exact absurd ((hslot .info).symm.trans hf) (by simp)

/-- **C84 (histories), the part that holds.** Beginning with an empty cache directory, whatever methods are called in whatever order and
    number, and how often the object is created again, all calls return, and what is in the directory belongs to the data set; so the
    theorems above say what each further call returns.  Missing: splitting without a type, more than one threshold. -/
theorem C84_history_partial (pw : Int → F32) (hpw : Powf pw) (writes : List Char → Bool) (pct : Nat → Nat → List Char)
    (hpct : ∀ v d : Nat, v ≤ d → 1 ≤ d → d ≤ 2 ^ 32 → Percent (100 - 100 * v / d) (pct v d)) (t : F32) (pts : List (Pt F32)) (hw : Workable pts)
    (name path dtype : List Char) (fs : Files) (ha : Aside writes (unread name path dtype)) (file : File)
    (hf : fs (pathOf name path) = some file) (hr : ReadsAs pw dtype file pts .endOfFile)
    (hnone : ∀ s, fs (join (unread name path dtype).workDir ((unread name path dtype).dataName ++ s)) = none)
    (cs : List Call) (hcs : ∀ c ∈ cs, c.Apt pts) :
    ∃ ds₁ fs₁ ds fs', DataSet.new pw writes pct name path dtype fs = .ok (.gives ds₁ fs₁) ∧
      Return pw writes pct name path dtype t cs ds₁ fs₁ ds fs' ∧ SameFile (unread name path dtype) ds ∧ Aside writes ds ∧
      Coherent pw t pts ds fs' ∧ Counted pts ds := by
  have h0 : Coherent pw t pts (unread name path dtype) fs := coherent_new hf hr hnone
  obtain ⟨ds₁, fs₁, n1, n2, n3, n4⟩ := C84_numbers_partial pw writes pct hpct t pts hw name path dtype fs ha h0
  suffices H : ∀ (cs : List Call) (ds₁ : DataSet) (fs₁ : Files), (∀ c ∈ cs, c.Apt pts) → SameFile (unread name path dtype) ds₁ →
      Coherent pw t pts ds₁ fs₁ → Counted pts ds₁ → ∃ ds fs', Return pw writes pct name path dtype t cs ds₁ fs₁ ds fs' ∧
        SameFile (unread name path dtype) ds ∧ Coherent pw t pts ds fs' ∧ Counted pts ds by
    obtain ⟨ds, fs', r1, r2, r3, r4⟩ := H cs ds₁ fs₁ hcs n2 n3 n4
    exact ⟨ds₁, fs₁, ds, fs', n1, r1, r2, r2.aside ha, r3, r4⟩
  clear hcs n1 n2 n3 n4
  intro cs
  induction cs with
  | nil => exact fun ds fs _ h1 h2 h3 => ⟨ds, fs, .nil _ _, h1, h2, h3⟩
  | cons c cs ih =>
    intro ds fs hcs h1 h2 h3
    have hA := h1.aside ha
    suffices H : ∃ ds₁ fs₁, c.Returns pw writes pct name path dtype t ds fs ds₁ fs₁ ∧ SameFile (unread name path dtype) ds₁ ∧
        Coherent pw t pts ds₁ fs₁ ∧ Counted pts ds₁ by
      obtain ⟨ds₁, fs₁, k0, k1, k2, k3⟩ := H
      obtain ⟨ds₂, fs₂, r1, r2, r3, r4⟩ := ih ds₁ fs₁ (fun c hc => hcs c (by simp [hc])) k1 k2 k3
      exact ⟨ds₂, fs₂, .cons _ _ _ _ _ _ _ _ k0 r1, r2, r3, r4⟩
    have hapt := hcs c (by simp)
    cases c with
    | split n fmt choice =>
      obtain ⟨fs', s1, s2, -⟩ := C84_split_partial pw hpw writes t pts ds fs hA h2 hw fmt hapt.2.2 n hapt.1 hapt.2.1 choice
      exact ⟨_, fs', s1, ⟨h1.path, h1.dtype, h1.dir, h1.name⟩, coherent_same (typeName fmt) _ _ _ s2, h3.num, h3.dim, h3.classes⟩
    | convert fmt =>
      obtain ⟨p, fs', f, qs, s1, s2, -⟩ := C84_convert_partial pw hpw writes t pts ds fs hA h2 fmt hapt
      exact ⟨ds, fs', ⟨rfl, p, s1⟩, h1, s2, h3⟩
    | binarize fmt =>
      obtain ⟨p, fs', f, qs, s1, s2, -⟩ := C84_binarize_partial pw hpw writes t pts ds fs hA h2 fmt hapt
      exact ⟨ds, fs', ⟨rfl, p, s1⟩, h1, s2, h3⟩
    | shuffle fmt force choice =>
      obtain ⟨p, fs', f, l, s1, s2, -⟩ := C84_shuffle_partial pw hpw writes t pts ds fs hA h2 fmt hapt force choice
      exact ⟨ds, fs', ⟨rfl, p, s1⟩, h1, s2, h3⟩
    | again =>
      have h0 : Coherent pw t pts (unread name path dtype) fs :=
        SameFile.coherent ⟨h1.path.symm, h1.dtype.symm, h1.dir.symm, h1.name.symm⟩ h2
      obtain ⟨ds', fs', s1, s2, s3, s4⟩ := C84_numbers_partial pw writes pct hpct t pts hw name path dtype fs ha h0
      exact ⟨ds', fs', s1, s2, s3, s4⟩

/-- The call returns, and this is so afterwards. -/
def leaves {α : Type} (r : Res (Out α)) (p : α → Files → Bool) : Bool :=
  match r with
  | .ok (.gives a fs) => p a fs
  | _ => false

/-- One file, `d/x.svm`. -/
def onlyFile (text : String) : Files := fun p => if p = "d/x.svm".toList then some (ofChars text.toList) else none

/-- The text of a file. -/
def textAt (fs : Files) (path : String) : Option String := (fs path.toList).map fun f => String.ofList (chars f)

/-- A new object for the file. -/
def begun (fs : Files) : Res (Out DataSet) := DataSet.new bestPow (fun _ => true) exactPct "x".toList "d/x.svm".toList "svm".toList fs

/-- A data set is analysed, split in two, split in one (the second fold is removed) and converted. -/
theorem C84_instance :
    leaves (begun (onlyFile good)) fun ds fs => ds.dataNum == 2 && ds.dim == 3 && ds.classNum == 2 &&
      leaves (ds.splitFile bestPow (fun _ => true) 2 (some "svm".toList) id fs) fun ds fs =>
        textAt fs "./cache/x/x.split.0.svm" == some "1 1:0.5 3:2\n" && textAt fs "./cache/x/x.split.1.svm" == some "-1 2:1.5\n" &&
        leaves (ds.splitFile bestPow (fun _ => true) 1 (some "svm".toList) id fs) fun ds fs =>
          textAt fs "./cache/x/x.split.0.svm" == some good && textAt fs "./cache/x/x.split.1.svm" == none &&
          leaves (ds.convert bestPow (fun _ => true) "csv".toList fs) fun p fs =>
            p == "./cache/x/x.csv".toList && textAt fs "./cache/x/x.csv" == some "class,v1,v2,v3\n1,0.5,0,2\n-1,0,1.5,0\n" := by
  decide +kernel

/-- **C84 is violated.** Splitting in two, in one without naming the type, and in two again leaves a fold of each split, so the second
    point is in both folds (dataset.py:135, 138: the files that are looked for end in `None`).  Another threshold gives the file of the
    first one (dataset.py:105).  Another file with the same name has the numbers of the first (dataset.py:36, 39).  `cache_path` raises an
    exception if nothing was converted before (dataset.py:86). -/
theorem C84_is_violated :
    (leaves (begun (onlyFile good)) fun ds fs => leaves (ds.splitFile bestPow (fun _ => true) 2 (some "svm".toList) id fs) fun ds fs =>
      leaves (ds.splitFile bestPow (fun _ => true) 1 none id fs) fun ds fs =>
        leaves (ds.splitFile bestPow (fun _ => true) 2 (some "svm".toList) id fs) fun _ fs =>
          textAt fs "./cache/x/x.split.0.svm" == some good && textAt fs "./cache/x/x.split.1.svm" == some "-1 2:1.5\n") &&
    (leaves (begun (onlyFile good)) fun ds fs => leaves (ds.binarize bestPow (fun _ => true) "svm".toList (.fin 1) fs) fun p fs =>
      leaves (ds.binarize bestPow (fun _ => true) "svm".toList (.fin 0) fs) fun q fs =>
        p == q && textAt fs "./cache/x/x-binary.svm" == some "1 1:-1 3:1\n-1 2:1\n") &&
    (leaves (begun (onlyFile good)) fun _ fs => leaves (begun (fs.after [("d/x.svm".toList, ofChars "5 9:1\n".toList)])) fun ds _ =>
      ds.dataNum == 2 && ds.dim == 3 && ds.classNum == 2) &&
    (leaves (begun (onlyFile good)) fun ds fs => !leaves (.ok (ds.cachePath fs)) fun _ _ => true) := by
  decide +kernel

/-- The hypotheses of `C84_history_partial` are met, and every call for this data set makes sense. -/
theorem C84_hypotheses : ∃ (fs : Files) (file : File), Workable twoPoints ∧ Aside (fun _ => true) (unread ['x'] "d/x.bin".toList "bin".toList) ∧
    fs (pathOf ['x'] "d/x.bin".toList) = some file ∧ ReadsAs bestPow "bin".toList file twoPoints .endOfFile ∧
    (∀ s, fs (join (unread ['x'] "d/x.bin".toList "bin".toList).workDir ((unread ['x'] "d/x.bin".toList "bin".toList).dataName ++ s)) = none) ∧
    (∀ v d : Nat, v ≤ d → 1 ≤ d → d ≤ 2 ^ 32 → Percent (100 - 100 * v / d) (exactPct v d)) ∧
    ∀ c, (∀ n fmt ch, c = .split n fmt ch → 1 ≤ n ∧ n < 2 ^ 31) → Call.Apt twoPoints c := by
  have hb : ∀ p ∈ twoPoints, BinaryPoint p := twoPoints_suits .bin
  obtain ⟨file, _, hr⟩ := C73_binary bestPow none twoPoints hb
  have hne : ∀ s, "d/x.bin".toList ≠ join (unread ['x'] "d/x.bin".toList "bin".toList).workDir ((unread ['x'] "d/x.bin".toList "bin".toList).dataName ++ s) := by
    intro s e
    rw [← join_append (by decide)] at e
    have e := congrArg (List.take 1) e
    rw [List.take_append_of_le_length (by decide)] at e
    exact absurd e (by decide)
  refine ⟨fun p => if p = "d/x.bin".toList then some file else none, file, ⟨by decide, by decide, by decide, by decide, by decide⟩,
    ⟨by decide, fun _ => rfl, hne⟩, rfl, hr, fun s => if_neg fun e => hne s e.symm, fun v d h hd _ => exactPct_percent v d h hd, ?_⟩
  intro c hc
  cases c with
  | split n fmt ch => exact ⟨(hc n fmt ch rfl).1, (hc n fmt ch rfl).2, twoPoints_suits fmt⟩
  | convert fmt => exact twoPoints_suits fmt
  | binarize fmt => exact twoPoints_ones fmt
  | shuffle fmt _ _ => exact twoPoints_suits fmt
  | again => trivial

end Sol.Props
