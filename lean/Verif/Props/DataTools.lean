import Verif.Proofs.DataTools
import Verif.Props.DataFile
/-!
# Property C74: the data tools write the data they were asked for, or report why not
-/

namespace Sol.Props
open Sol.DataFile Sol.Spec Sol.Tools

/-- What is asked of the machine: the input can be read, twice with the same contents, and the output can be written. -/
structure Serves (m : Machine) (src dst : List Char) (file : File) : Prop where
  reads : m.reads src = some file
  rereads : m.rereads src = some file
  writes : m.writes dst = true

/-- The points that `convert` writes. -/
def cutAll (t : Option F32) (pts : List (Pt F32)) : List (Pt F32) :=
  match t with
  | none => pts
  | some t => pts.map (binarise t)

theorem cutAll_dim (t : Option F32) (pts : List (Pt F32)) (d : UInt32) : (cutAll t pts).foldl widen d = pts.foldl widen d := by
  cases t with
  | none => rfl
  | some t =>
    unfold cutAll
    induction pts generalizing d with
    | nil => rfl
    | cons p pts ih =>
      have e : widen d (binarise t p) = widen d p := by
        unfold widen dim binarise
        simp only [List.getLast?_map, Option.map_map]
        cases p.feats.getLast? <;> rfl
      dsimp only at ih ⊢
      rw [List.map_cons, List.foldl_cons, List.foldl_cons, e, ih]

theorem convert_any (pw : Int → F32) (hpw : Powf pw) (m : Machine) (src srcType dst : List Char) (fmt : Format) (t : Option F32) (file : File)
    (hm : Serves m src dst file) (pts : List (Pt F32)) (s : Status) (hr : ReadsAs pw srcType file pts s) (hs : Suits fmt (cutAll t pts)) :
    ∃ f, DataFile.convert pw m src srcType dst (typeName fmt) t = .ok ⟨0, [(dst, f)]⟩ ∧ Saved pw fmt (cutAll t pts) f := by
  obtain ⟨o, ho, hc⟩ := hr
  obtain ⟨hfit, hne⟩ := fits_of_suits hs
  rw [cutAll_dim] at hfit hne
  have hb := batches_flatten 256 _ pts rfl
  unfold DataFile.convert
  rw [hm.reads, ho, Res.bind_ok, typeName_format]
  dsimp only
  rw [if_neg (by rw [hm.writes]; simp), hc, Res.bind_ok]
  dsimp only
  by_cases hcsv : fmt = .csv
  · rw [if_pos ((typeName_csv fmt).2 hcsv), dimLoop_eq, hb, if_neg (hne hcsv), hm.rereads, ho, Res.bind_ok]
    dsimp only
    rw [hc, Res.bind_ok]
    dsimp only
    unfold Tools.convert
    rw [if_pos rfl]
    dsimp only
    rw [dimLoop_eq, hb, if_neg (hne hcsv)]
    dsimp only
    rw [writeLoop_eq, hb]
    obtain ⟨f, h1, h2⟩ := saved_of_fits hpw hfit (e := some (pts.foldl widen 0)) fun _ => rfl
    refine ⟨f, ?_, h2⟩
    rw [List.nil_append]
    cases t <;> (dsimp only [cutAll] at h1 ⊢; rw [h1]; rfl)
  · rw [if_neg (mt (typeName_csv fmt).1 hcsv)]
    unfold Tools.convert
    rw [if_neg (by simp)]
    dsimp only
    rw [writeLoop_eq, hb]
    obtain ⟨f, h1, h2⟩ := saved_of_fits hpw hfit (e := none) fun h => absurd h hcsv
    refine ⟨f, ?_, h2⟩
    rw [List.nil_append]
    cases t <;> (dsimp only [cutAll] at h1 ⊢; rw [h1]; rfl)

/-- **C74 (conversion), the part that holds.** The output holds the points of the input, and the status is 0.  Missing: an input that
    ends with an error (`C74_errors_are_hidden`), and the cases of `C74_is_violated`. -/
theorem C74_convert_partial (pw : Int → F32) (hpw : Powf pw) (m : Machine) (src srcType dst : List Char) (fmt : Format) (file : File)
    (hm : Serves m src dst file) (pts : List (Pt F32)) (hr : ReadsAs pw srcType file pts .endOfFile) (hs : Suits fmt pts) :
    ∃ f, DataFile.convert pw m src srcType dst (typeName fmt) none = .ok ⟨0, [(dst, f)]⟩ ∧ Saved pw fmt pts f :=
  convert_any pw hpw m src srcType dst fmt none file hm pts _ hr hs

/-- **C74 is violated: errors are hidden.** If reading the input stops with an error, the points before it are converted and the status
    is still 0 (data_read_task.cc:51-52). -/
theorem C74_errors_are_hidden (pw : Int → F32) (hpw : Powf pw) (m : Machine) (src srcType dst : List Char) (fmt : Format) (file : File)
    (hm : Serves m src dst file) (pts : List (Pt F32)) (s : Status) (hr : ReadsAs pw srcType file pts s) (_ : s ≠ .endOfFile)
    (hs : Suits fmt pts) :
    ∃ f, DataFile.convert pw m src srcType dst (typeName fmt) none = .ok ⟨0, [(dst, f)]⟩ ∧ Saved pw fmt pts f :=
  convert_any pw hpw m src srcType dst fmt none file hm pts s hr hs

/-- **C74 (threshold), the part that holds.** With a threshold the output has the labels and indexes of the input, and the values 1
    (above the threshold) and -1, exactly.  The hypothesis `Suits` does not depend on the values of the input.  Missing: as above. -/
theorem C74_threshold_partial (pw : Int → F32) (hpw : Powf pw) (m : Machine) (src srcType dst : List Char) (fmt : Format) (t : F32) (file : File)
    (hm : Serves m src dst file) (pts : List (Pt F32)) (hr : ReadsAs pw srcType file pts .endOfFile) (hs : Suits fmt (pts.map allOnes)) :
    ∃ f qs, DataFile.convert pw m src srcType dst (typeName fmt) (some t) = .ok ⟨0, [(dst, f)]⟩ ∧
      ReadsAs pw (typeName fmt) f qs .endOfFile ∧ List.Forall₂ (CutAt t) pts qs := by
  obtain ⟨f, h1, qs, h2, h3⟩ := convert_any pw hpw m src srcType dst fmt (some t) file hm pts _ hr (suits_cut t hs)
  refine ⟨f, qs, h1, h2, ?_⟩
  have h4 := List.forall₂_map_left_iff.1 (show List.Forall₂ (Keeps fmt) (pts.map (binarise t)) qs from h3)
  exact h4.imp fun p q h => cut_of_keeps h

/-- **C74 (shuffling), the part that holds.** The output holds the points of the input in some order. -/
theorem C74_shuffle_partial (pw : Int → F32) (hpw : Powf pw) (m : Machine) (choice : Nat → Nat) (src srcType dst : List Char) (fmt : Format)
    (file : File) (hm : Serves m src dst file) (pts : List (Pt F32)) (hr : ReadsAs pw srcType file pts .endOfFile) (hs : Suits fmt pts) :
    ∃ f l, DataFile.shuffle pw m choice src srcType dst (typeName fmt) = .ok ⟨0, [(dst, f)]⟩ ∧ l.Perm pts ∧ Saved pw fmt l f := by
  obtain ⟨o, ho, hc⟩ := hr
  obtain ⟨hfit, hne⟩ := fits_of_suits hs
  have hb := batches_flatten 256 _ pts rfl
  have hperm := shuffled_perm choice pts
  obtain ⟨f, h1, h2⟩ := saved_of_fits hpw (hfit.sub fun p hp => hperm.mem_iff.1 hp) (e := some (pts.foldl widen 0)) fun _ => rfl
  refine ⟨f, _, ?_, hperm, h2⟩
  unfold DataFile.shuffle
  rw [if_neg (by cases fmt <;> decide)]
  dsimp only
  rw [hm.reads, ho, Res.bind_ok, typeName_format]
  dsimp only
  rw [if_neg (by rw [hm.writes]; simp), hc, Res.bind_ok]
  dsimp only
  unfold Tools.shuffle
  simp only [load_eq, hb, List.nil_append]
  rw [h1]
  rfl

/-- **C74 (splitting), the part that holds.** The files of the folds hold consecutive blocks of `⌈n / k⌉` points that make up the data set
    (in some order, if shuffled).  Missing: more than 2^24 points (C49), no points, and less than one fold (`C74_is_violated`). -/
theorem C74_split_partial (pw : Int → F32) (hpw : Powf pw) (m : Machine) (choice : Option (Nat → Nat)) (src srcType pre : List Char)
    (fmt : Format) (file : File) (hm : m.reads src = some file) (k : Nat) (hk : 1 ≤ k) (hk2 : k < 2 ^ 31)
    (hw : ∀ j < k, m.writes (foldName pre (typeName fmt) j) = true) (pts : List (Pt F32))
    (hr : ReadsAs pw srcType file pts .endOfFile) (hs : Suits fmt pts) (hn : 1 ≤ pts.length) (hn2 : pts.length ≤ 2 ^ 24) :
    ∃ l out, DataFile.split pw m choice src srcType k pre (typeName fmt) = .ok ⟨0, out⟩ ∧ l.Perm pts ∧ (choice = none → l = pts) ∧
      out.map (·.1) = (List.range k).map (foldName pre (typeName fmt)) ∧
      List.Forall₂ (Saved pw fmt) (blocks l ((pts.length + k - 1) / k) k) (out.map (·.2)) ∧
      (blocks l ((pts.length + k - 1) / k) k).flatten = l := by
  obtain ⟨o, ho, hc⟩ := hr
  obtain ⟨hfit, hne⟩ := fits_of_suits hs
  obtain ⟨l, folds, h1, h2, h3, h4, h5, h6⟩ := split_blocks pts _ (batches_flatten 256 _ pts rfl) hn hn2 k hk hk2 choice
  have hlen : folds.length = k := by
    have := congrArg List.length h5
    simpa [blocks] using this
  obtain ⟨out, o1, o2, o3⟩ := foldFiles_ok hpw m pre fmt (pts.foldl widen 0) folds 0 [] (by
    intro f hf
    refine ⟨h4 f hf, hfit.sub fun p hp => h3.mem_iff.1 ?_⟩
    rw [← h6]
    exact List.mem_flatten.2 ⟨f.2, List.mem_map_of_mem hf, hp⟩) fun j _ hj => hw j (by omega)
  refine ⟨l, out, ?_, h3, h2, ?_, by rw [← h5]; exact o3, by rw [← h5]; exact h6⟩
  · unfold DataFile.split
    rw [hm, ho, Res.bind_ok]
    dsimp only
    rw [hc, Res.bind_ok]
    dsimp only
    rw [h1, Res.bind_ok, typeName_format]
    cases folds with
    | nil => rw [List.length_nil] at hlen; omega
    | cons g gs => simpa using o1
  · rw [o2, hlen, List.range_eq_range']

/-- **C74 (concatenation), the part that holds.** The output holds the points of all inputs, one after the other. -/
theorem C74_concat_partial (pw : Int → F32) (hpw : Powf pw) (m : Machine) (src srcType dst : List Char) (fmt : Format)
    (files : List File) (hm : (StrUtil.split ';' src).map m.reads = files.map some)
    (hm2 : (StrUtil.split ';' src).map m.rereads = files.map some) (hw : m.writes dst = true) (sets : List (List (Pt F32)))
    (hr : List.Forall₂ (fun f pts => ReadsAs pw srcType f pts .endOfFile) files sets) (hs : Suits fmt sets.flatten) :
    ∃ f, DataFile.concat pw m src srcType dst (typeName fmt) = .ok ⟨0, [(dst, f)]⟩ ∧ Saved pw fmt sets.flatten f := by
  obtain ⟨hfit, hne⟩ := fits_of_suits hs
  obtain ⟨os, b, h1, h2, h3⟩ := readers_ok (hr.imp fun _ _ h => ⟨_, h⟩)
  unfold DataFile.concat
  rw [typeName_format]
  dsimp only
  rw [if_neg (by rw [hw]; simp), hm, hm2]
  by_cases hcsv : fmt = .csv
  · obtain ⟨f, f1, f2⟩ := saved_of_fits hpw hfit (e := some (sets.flatten.foldl widen 0)) fun _ => rfl
    refine ⟨f, ?_, f2⟩
    rw [if_pos ((typeName_csv fmt).2 hcsv), h1, Res.bind_ok]
    dsimp only
    rw [h2, Res.bind_ok, Res.bind_ok]
    dsimp only
    rw [h2, Res.bind_ok]
    unfold Tools.concat
    rw [if_pos rfl, dimLoop_eq, writeLoop_eq, h3]
    dsimp only
    rw [List.nil_append, f1]
    rfl
  · obtain ⟨f, f1, f2⟩ := saved_of_fits hpw hfit (e := none) fun h => absurd h hcsv
    refine ⟨f, ?_, f2⟩
    rw [if_neg (mt (typeName_csv fmt).1 hcsv), h1, Res.bind_ok]
    dsimp only
    rw [h2, Res.bind_ok]
    unfold Tools.concat
    rw [if_neg (by simp), writeLoop_eq, h3]
    dsimp only
    rw [List.nil_append, f1]
    rfl

/-- A type that no reader or writer has. -/
def Unheard (type : List Char) : Prop := inMemory type = false ∧ formatNamed type = none

theorem addReader_refuses {type : List Char} {f : Option File} (h : Unheard type ∨ (f = none ∧ inMemory type = false)) :
    addReader type f = .ok none := by
  rcases h with ⟨h1, h2⟩ | ⟨rfl, h1⟩
  · unfold addReader
    rw [h1, if_neg (by simp), h2]
  · unfold addReader
    rw [h1, if_neg (by simp)]
    split <;> rename_i heq <;> first | rfl | simp at heq

/-- **C74 (refusals).** An input that cannot be opened or has no reader gives status 4 and no file, from every tool with one input. -/
theorem C74_no_input (pw : Int → F32) (pct : Nat → Nat → List Char) (m : Machine) (choice : Nat → Nat) (c : Option (Nat → Nat)) (k : Int)
    (src srcType dst dstType : List Char) (t : Option F32)
    (h : Unheard srcType ∨ (m.reads src = none ∧ inMemory srcType = false)) :
    DataFile.convert pw m src srcType dst dstType t = .ok ⟨4, []⟩ ∧
    DataFile.shuffle pw m choice src srcType dst dstType = .ok ⟨4, []⟩ ∧
    DataFile.split pw m c src srcType k dst dstType = .ok ⟨4, []⟩ ∧
    DataFile.analyze pw pct m src srcType dst = .ok ⟨4, []⟩ := by
  have ha := addReader_refuses h
  refine ⟨?_, ?_, ?_, ?_⟩
  · unfold DataFile.convert; rw [ha, Res.bind_ok]; rfl
  · unfold DataFile.shuffle; rw [ha]; rfl
  · unfold DataFile.split; rw [ha, Res.bind_ok]; rfl
  · unfold DataFile.analyze; rw [ha, Res.bind_ok]; rfl

/-- **C74 (refusals).** An output type without a writer gives status 4, an output that cannot be opened status 2; nothing is written. -/
theorem C74_no_output (pw : Int → F32) (m : Machine) (choice : Nat → Nat) (src srcType dst dstType : List Char) (t : Option F32)
    (file : File) (hm : m.reads src = some file) (o : Opened) (ho : addReader srcType (some file) = .ok (some o)) :
    (formatNamed dstType = none → DataFile.convert pw m src srcType dst dstType t = .ok ⟨4, []⟩ ∧
      (dstType ≠ [] → DataFile.shuffle pw m choice src srcType dst dstType = .ok ⟨4, []⟩)) ∧
    (formatNamed dstType ≠ none → m.writes dst = false → DataFile.convert pw m src srcType dst dstType t = .ok ⟨2, []⟩ ∧
      (dstType ≠ [] → DataFile.shuffle pw m choice src srcType dst dstType = .ok ⟨2, []⟩)) := by
  constructor
  · intro hf
    refine ⟨?_, fun hne => ?_⟩
    · unfold DataFile.convert; rw [hm, ho, Res.bind_ok, hf]; rfl
    · unfold DataFile.shuffle
      rw [if_neg hne]
      dsimp only
      rw [hm, ho, Res.bind_ok, hf]
      rfl
  · intro hf hw
    obtain ⟨fmt, hf⟩ := Option.ne_none_iff_exists'.1 hf
    refine ⟨?_, fun hne => ?_⟩
    · unfold DataFile.convert
      rw [hm, ho, Res.bind_ok, hf]
      dsimp only
      rw [if_pos (by rw [hw]; rfl)]
      rfl
    · unfold DataFile.shuffle
      rw [if_neg hne]
      dsimp only
      rw [hm, ho, Res.bind_ok, hf]
      dsimp only
      rw [if_pos (by rw [hw]; rfl)]
      rfl

/-- A machine with one readable file. -/
def oneFile (name : String) (text : String) (again : String) : Machine :=
  ⟨fun p => if p = name.toList then some (ofChars text.toList) else none,
   fun p => if p = name.toList then some (ofChars again.toList) else none, fun _ => true⟩

/-- The two points can be stored in every format. -/
theorem twoPoints_suits (fmt : Format) : Suits fmt twoPoints := by
  have hv := twoPoints_values
  have hi : ∀ p ∈ twoPoints, p.label.natAbs ≤ 3 ∧ (p.feats.map (·.1)).Pairwise (· < ·) ∧ p.feats.length ≤ 2 ∧
      ∀ f ∈ p.feats, 1 ≤ f.1.toNat ∧ f.1.toNat < 8 := by decide
  cases fmt with
  | bin =>
    intro p hp
    obtain ⟨a, b, c, d⟩ := hi p hp
    refine ⟨by omega, fun f hf => ?_, by omega⟩
    obtain ⟨⟨q, hq, hs, _⟩, _⟩ := hv p hp f hf
    rw [hq]
    exact hs
  | svm =>
    intro p hp
    obtain ⟨a, b, c, d⟩ := hi p hp
    exact ⟨by omega, fun f hf => ⟨by have := d f hf; omega, (hv p hp f hf).1⟩, b, by omega⟩
  | csv =>
    refine ⟨fun p hp => ?_, ⟨_, List.mem_cons_self .., by simp⟩⟩
    obtain ⟨a, b, c, d⟩ := hi p hp
    exact ⟨by omega, fun f hf => ⟨(d f hf).1, by have := d f hf; omega, (hv p hp f hf).1, (hv p hp f hf).2.2⟩, b⟩

/-- The hypotheses of the theorems above are met, for every format of the output. -/
example : ∃ (m : Machine) (file : File), Serves m ['a'] ['b'] file ∧ ReadsAs bestPow "bin".toList file twoPoints .endOfFile ∧
    ∀ fmt, Suits fmt twoPoints := by
  obtain ⟨file, _, hr⟩ := C73_binary bestPow none twoPoints (twoPoints_suits .bin)
  exact ⟨⟨fun _ => some file, fun _ => some file, fun _ => true⟩, file, ⟨rfl, rfl, rfl⟩, hr, twoPoints_suits⟩

/-- The hypothesis of `C74_threshold_partial` is met. -/
theorem twoPoints_ones (fmt : Format) : Suits fmt (twoPoints.map allOnes) := by
  have hi : ∀ p ∈ twoPoints.map allOnes, p.label.natAbs ≤ 3 ∧ (p.feats.map (·.1)).Pairwise (· < ·) ∧ p.feats.length ≤ 2 ∧
      ∀ f ∈ p.feats, 1 ≤ f.1.toNat ∧ f.1.toNat < 8 ∧ f.2 = .fin 1 := by decide
  have h1 : TextValue (.fin 1) := ⟨1, rfl, ⟨1, 0, by norm_num, by norm_num, by norm_num, by norm_num⟩, .inr (by norm_num), by norm_num⟩
  cases fmt with
  | bin =>
    intro p hp
    obtain ⟨a, b, c, d⟩ := hi p hp
    refine ⟨by omega, fun f hf => ?_, by omega⟩
    rw [(d f hf).2.2]
    exact ⟨1, 0, by norm_num, by norm_num, by norm_num, by norm_num⟩
  | svm =>
    intro p hp
    obtain ⟨a, b, c, d⟩ := hi p hp
    exact ⟨by omega, fun f hf => ⟨by have := d f hf; omega, by rw [(d f hf).2.2]; exact h1⟩, b, by omega⟩
  | csv =>
    refine ⟨fun p hp => ?_, ⟨_, List.mem_cons_self .., by simp [allOnes]⟩⟩
    obtain ⟨a, b, c, d⟩ := hi p hp
    refine ⟨by omega, fun f hf => ⟨(d f hf).1, by have := d f hf; omega, ?_, ?_⟩, b⟩
    · rw [(d f hf).2.2]; exact h1
    · rw [(d f hf).2.2]; exact fun h => absurd (F32.fin.inj h) (by norm_num)

/-- A good file of two lines. -/
def good : String := "1 1:0.5 3:2\n-1 2:1.5\n"

/-- The hypotheses are met by a file, and converting it from the command line gives the expected text. -/
theorem C74_instance :
    Yields (converterMain bestPow (oneFile "a" good good) (["c", "-i", "a", "-s", "svm", "-o", "b", "-d", "csv"].map String.toList)) (fun r =>
      r = ⟨0, [("b".toList, ofChars "class,v1,v2,v3\n1,0.5,0,2\n-1,0,1.5,0\n".toList)]⟩) ∧
    Yields (splitMain bestPow (oneFile "a" good good) id (["s", "-i", "a", "-s", "svm", "-n", "2", "-o", "f", "-d", "svm"].map String.toList))
      (fun r => r = ⟨0, [("f0.svm".toList, ofChars "1 1:0.5 3:2\n".toList), ("f1.svm".toList, ofChars "-1 2:1.5\n".toList)]⟩) := by
  decide +kernel

/-- The words of a command line. -/
def typed (s : List String) : List (List Char) := s.map String.toList

/-- A threshold, two inputs for `concat`, and a second fold that cannot be written: the first one stays. -/
theorem C74_instance_more :
    Yields (converterMain bestPow (oneFile "a" good good) (typed ["c", "-i", "a", "-s", "svm", "-o", "b", "-d", "svm", "-b", "1"])) (fun r =>
      r = ⟨0, [("b".toList, ofChars "1 1:-1 3:1\n-1 2:1\n".toList)]⟩) ∧
    Yields (concatMain bestPow ⟨fun p => (oneFile "a" good good).reads p <|> (oneFile "z" "3 2:5\n" "").reads p, fun _ => none, fun _ => true⟩
        (typed ["c", "-i", "z;a", "-s", "svm", "-o", "b", "-d", "svm"])) (fun r => r = ⟨0, [("b".toList, ofChars "3 2:5\n1 1:0.5 3:2\n-1 2:1.5\n".toList)]⟩) ∧
    Yields (splitMain bestPow { oneFile "a" good good with writes := (· ≠ "f1.svm".toList) } id
        (typed ["s", "-i", "a", "-s", "svm", "-n", "2", "-o", "f", "-d", "svm"]))
      (fun r => r = ⟨code .ioError, [("f0.svm".toList, ofChars "1 1:0.5 3:2\n".toList)]⟩) := by
  decide +kernel

/-- **C74 is violated.** A bad second line: the rest of the file is missing, status 0.  The standard input converted to csv: only the
    header, status 0 (tools.cc:139: it is opened again).  The type `CSV` has a writer, but its dimension is not initialised
    (tools.cc:121).  Nothing to split: no files, status 0.  No folds: a division by zero is converted to an integer (tools.cc:256).
    A missing input of `concat`: the output has been emptied. -/
theorem C74_is_violated :
    Yields (converterMain bestPow (oneFile "a" "1 1:0.5\nx\n1 2:1\n" "") (typed ["c", "-i", "a", "-s", "svm", "-o", "b", "-d", "svm"]))
      (fun r => r = ⟨0, [("b".toList, ofChars "1 1:0.5\n".toList)]⟩) ∧
    Yields (converterMain bestPow (oneFile "-" good "") (typed ["c", "-i", "-", "-s", "svm", "-o", "b", "-d", "csv"]))
      (fun r => r = ⟨0, [("b".toList, ofChars "class,v1,v2,v3\n".toList)]⟩) ∧
    Fails (converterMain bestPow (oneFile "a" good good) (typed ["c", "-i", "a", "-s", "svm", "-o", "b", "-d", "CSV"])) .outOfBounds ∧
    Yields (splitMain bestPow (oneFile "a" "" "") id (typed ["s", "-i", "a", "-s", "svm", "-n", "2", "-o", "f", "-d", "svm"])) (fun r => r = ⟨0, []⟩) ∧
    Fails (splitMain bestPow (oneFile "a" good good) id (typed ["s", "-i", "a", "-s", "svm", "-n", "0", "-o", "f", "-d", "svm"])) .signedOverflow ∧
    Yields (concatMain bestPow (oneFile "a" good good) (typed ["c", "-i", "a;z", "-s", "svm", "-o", "b", "-d", "svm"])) (fun r => r = ⟨4, [("b".toList, [])]⟩) := by
  decide +kernel

end Sol.Props
