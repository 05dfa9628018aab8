import Verif.Proofs.PyMain
/-! C89: sol_train.py and `sol_train` write the same file.  C90: what the scripts do with a saved model. -/

namespace Sol.Props
open Sol.Params Sol.Online Sol.Loss Sol.Whole Sol.Spec Sol.PySol Sol.Cv Sol.PyCv Sol.SolTrain Sol.PyMain
open Sol.DataSet (Files DataSet basename unread)

section
variable [FFun F32] {pw : Int → F32} {powf : F32 → F32 → F32} {ρ : Nat → F32} {disp : Train.Disp} {st : Style PyMain.Val}
  {lit : List Char → Option (List PyMain.Val)} {pct : Nat → Nat → List Char} {writes : List Char → Bool} {load : List Char → Loaded}
  {choice : Nat → Nat} {freed : Res (List Char)}

/-- What the executable does. -/
theorem executable_file {fs : Files} {a : Args} {m₀ m m' : M} {l : List (String × List Char)} {out : List Char} (ho : out ≠ [])
    (hw : writes out = true) {args : List (List Char)} {g : List (Cmdline.Opt × Option Cmdline.Val)} {ws : List (List Char)}
    (hg : Says Cli.trainOpts args g ws) (hs : ¬ Present g "show") (hh : ¬ Present g "help")
    (ha : Alike (World.env ⟨fs, writes, load⟩) g ws a m₀ l out) (hset : setAll (World.files ⟨fs, writes, load⟩) m₀ l = (m, .accepted))
    (hd : Apart m₀.cls (l.map (·.1))) {pts : List DataFile.Point} {file : DataFile.File} (hf : fs a.input = some file)
    (hr : ReadsAs pw a.dataType file pts .endOfFile) (hp : 1 ≤ a.passes)
    (ht : trainModel powf ρ disp m [lessons pts .endOfFile a.passes] = .ok m') (prog : List Char) (e : Whole.End) :
    Whole.SolTrain pw powf ρ disp ⟨fs, writes, load⟩ (prog :: args) e ↔ e = .exit 0 [(out, DataFile.ofChars (saveText m'))] := by
  obtain ⟨p, l', p1, p2, p3⟩ := ha.params
  obtain ⟨b, b1, b2⟩ := ha.batch
  obtain ⟨n, n1, n2⟩ := ha.buf
  have hset' : setAll (World.files ⟨fs, writes, load⟩) m₀ l' = (m, .accepted) :=
    C87_order_partial _ p3.symm (by simpa [Apart, List.map_map, Function.comp_def] using hd) hset
  have hopen : (World.env ⟨fs, writes, load⟩).opens a.input a.dataType = true := by
    obtain ⟨o, h1, -⟩ := hr
    show (match DataFile.addReader a.dataType (fs a.input) with | .ok (some _) => true | _ => false) = true
    rw [hf, h1]
  have hdone : Cli.trainMain (World.env ⟨fs, writes, load⟩) (prog :: args) = .done ⟨m, a.input, a.dataType, a.passes, b, n, some out⟩ true 0 := by
    refine (C60_train_partial _ hg hs hh prog _ _ _).2 ⟨⟨.inr ⟨out, ha.words, .inr ⟨ho, rfl⟩⟩, ⟨m₀, p, l', ha.start, p1, p2, hset'⟩,
      ⟨ha.format, b1, n1⟩, ha.passes, n2, .inl b2, hopen⟩, ?_, rfl⟩
    show true = (some out).any writes
    simp [hw]
  have hreads : Reads pw ⟨fs, writes, load⟩ ⟨m, a.input, a.dataType, a.passes, b, n, some out⟩ (lessons pts .endOfFile a.passes) :=
    .inr ⟨by show 0 < a.passes; omega, file, pts, .endOfFile, hf, hr, rfl⟩
  rw [solTrain_done hdone, (reads_data ⟨n2, .inl b2, hopen⟩ _).1 hreads]
  simp only [Res.bind, ht]
  rfl

/-- A saved file is what it should be. -/
theorem saved_file {W : World} {m : M} {pts : List DataFile.Point} {passes : Nat} {out : List Char} {e : Res (Py × List Ret)} (hw : W.writes out = true)
    (h : TrainedOn powf ρ disp W m pts passes (some out) e) : ∃ m' s x, trainModel powf ρ disp m [lessons pts .endOfFile passes] = .ok m' ∧
      RateOfAll powf ρ disp m [lessons pts .endOfFile passes] x ∧ e = .ok (s, [.rate x, .saved (DataFile.ofChars (saveText m'))]) := by
  obtain ⟨m', s, x, rs, h1, rfl, h2, -, h3⟩ := h
  obtain ⟨r, rfl, h4⟩ := h3 out rfl
  rcases h4 with ⟨-, f, rfl, h4⟩ | ⟨h4, -⟩
  · refine ⟨m', s, x, h1, h2, ?_⟩
    rw [← h4, ofChars_chars]
  · rw [hw] at h4
    cases h4

theorem rate_unique {m : M} {ls : List (List (Ex F32))} {x y : F32} (h : RateOfAll powf ρ disp m ls x) (h' : RateOfAll powf ρ disp m ls y) : x = y := by
  obtain ⟨_, _, _, _, a1, a2, a3, a4, rfl⟩ := h
  obtain ⟨_, _, _, _, b1, b2, b3, b4, rfl⟩ := h'
  rw [a1] at b1; cases b1
  rw [a2] at b2; cases b2
  rw [a3] at b3; cases b3
  rw [a4] at b4; cases b4
  rfl

/-- **C89, the part that holds.** sol_train.py and `sol_train`, asked for the same class, settings, data and number of passes, write the
    same file; the accuracy that the script logs is that of this training.  The executable has to be told the number of classes, which the
    script counts, and the normalisation, which the script always sets.  Batches, buffers, the order of the settings and the steps of the
    threads are of no account. -/
theorem C89_same_file_partial (hpct : ∀ v d : Nat, v ≤ d → 1 ≤ d → d ≤ 2 ^ 32 → Percent (100 - 100 * v / d) (pct v d)) (t : F32)
    (pts : List DataFile.Point) (hwk : Workable pts) (a : Args) (hin : a.input ≠ []) (fs : Files)
    (has : Aside writes (unread (basename a.input) a.input a.dataType)) (hco : Coherent pw t pts (unread (basename a.input) a.input a.dataType) fs)
    (hmod : a.model = none) (name : List Char) (hal : a.algo = some name) (c : Cls) (hc : (modelName c).toList = name.map Char.toLower)
    (hcv : a.cv = none) (l : List (String × List Char)) (hi : Items (a.params.getD []) l) (hd : Apart c ("norm" :: l.map (·.1)))
    (hown : ∀ p ∈ l, p.1 ∉ PyCv.ownNames) (hsz : SizesFit a) (hp : 1 ≤ a.passes) (out : List Char) (hout : a.output = some out)
    (ho : out ≠ []) (hw : writes out = true) (hcls : c ∈ settled) (hn : 2 ≤ classesOf pts) (m : M)
    (hm : ∀ files, setAll files (fresh c (classesOf pts)) (("norm", a.norm) :: l) = (m, .accepted))
    (ht : ∀ es, (∀ e ∈ es, ∃ p ∈ pts, e = exOf p) → Trainable m es)
    (args : List (List Char)) (g : List (Cmdline.Opt × Option Cmdline.Val)) (ws : List (List Char)) (hg : Says Cli.trainOpts args g ws)
    (hs : ¬ Present g "show") (hh : ¬ Present g "help")
    (ha : Alike (World.env ⟨fs, writes, load⟩) g ws a (fresh c (classesOf pts)) (("norm", a.norm) :: l) out) (prog : List Char) :
    ∃ f x, RateOfAll powf ρ disp m [lessons pts .endOfFile a.passes] x ∧
      (∀ e, Whole.SolTrain pw powf ρ disp ⟨fs, writes, load⟩ (prog :: args) e ↔ e = .exit 0 [(out, f)]) ∧
      (∃ e, Main pw powf ρ disp st lit pct writes load choice freed a fs e) ∧
      ∀ e, Main pw powf ρ disp st lit pct writes load choice freed a fs e → ∃ fs' s, e = some (fs', .ok (s, [.rate x, .saved f])) := by
  obtain ⟨ds, fs', d1, d2, d3, d4⟩ := C84_numbers_partial pw writes pct hpct t pts hwk (basename a.input) a.input a.dataType fs has hco
  have hpath : (unread (basename a.input) a.input a.dataType).dataPath = a.input := by
    show DataSet.pathOf _ _ = _
    unfold DataSet.pathOf
    rw [if_neg hin]
  obtain ⟨file, f1, f2⟩ := hco.data
  obtain ⟨file', f1', f2'⟩ := d3.data
  rw [hpath] at f1
  have hcn : ds.classNum = classesOf pts := d4.classes
  have hcl : classNamed name = some c := (Cli.classNamed_iff _ _).2 hc
  have hset := settings_of hi hd hown
  have hrng : a.ranges lit = some none := by unfold Args.ranges; rw [hcv]
  obtain ⟨j, hj⟩ : ∃ j : Job PyMain.Val, j = ⟨ds, a.passes.toNat, name, c, a.base ++ given l, a.output, a.folds.toNat, none, a.retrain, 1⟩ := ⟨_, rfl⟩
  have hpass : ((a.passes.toNat : Nat) : Int) = a.passes := Int.toNat_of_nonneg (by omega)
  have hcreate : ∀ files, createWith files c ds.classNum (a.base ++ given l) = some m := by
    intro files
    unfold createWith create
    rw [if_pos (by rw [hcn]; exact_mod_cast hn)]
    dsimp only
    rw [settings_model hown, hcn, hm files]
  have hap : Apart c ((a.base ++ given l).map (·.1)) := by
    rw [List.map_append, given_names]
    exact apart_all hd hown
  obtain ⟨k1, k2⟩ := C88_given_partial (pw := pw) (powf := powf) (ρ := ρ) (disp := disp) (st := st) (writes := writes) (load := load) (choice := choice)
    pts j fs' file' (by rw [hj]; exact f1') (by rw [hj]; exact f2') (by rw [hj]; show 1 ≤ a.passes.toNat; omega) (by rw [hj])
    (by rw [hj]; exact hap) (by rw [hj]; exact .inr hcls) m (by rw [hj]; exact hcreate _) (by rw [hj]; exact roomy_base hsz hown) ht
  have hmain : ∀ e, SolTrain.Trains pw powf ρ disp st writes load choice j fs' e → Main pw powf ρ disp st lit pct writes load choice freed a fs e := by
    intro e he
    rw [hj] at he
    exact .train d1 hmod hal hset hrng hcl he
  obtain ⟨e₀, he₀⟩ := k1
  obtain ⟨e', -, t1⟩ := k2 e₀ he₀
  have hjo : j.output = some out := by rw [hj]; exact hout
  have hjp : ((j.passes : Nat) : Int) = a.passes := by rw [hj]; exact hpass
  rw [hjo] at t1
  obtain ⟨m', s, x, t2, t3, -⟩ := saved_file hw t1
  rw [hjp] at t2 t3
  refine ⟨DataFile.ofChars (saveText m'), x, t3, fun e => ?_, ⟨e₀, hmain e₀ he₀⟩, fun e he => ?_⟩
  · refine executable_file ho hw hg hs hh ha (hm _) hd f1 ?_ hp t2 prog e
    exact f2
  · have key : SolTrain.Trains pw powf ρ disp st writes load choice j fs' e → ∃ fs' s, e = some (fs', .ok (s, [.rate x, .saved (DataFile.ofChars (saveText m'))])) := by
      intro he
      obtain ⟨e', rfl, t1⟩ := k2 e he
      rw [hjo] at t1
      obtain ⟨m₂, s, x', u1, u2, rfl⟩ := saved_file hw t1
      rw [hjp] at u1 u2
      rw [t2] at u1
      cases u1
      rw [rate_unique t3 u2]
      exact ⟨_, _, rfl⟩
    cases he with
    | unread h => exact absurd d1 (h _ _)
    | unclear h => rw [hmod, hal] at h; cases h
    | misspelt _ _ h => rw [hset, hrng] at h; simp at h
    | unknown _ ha' h => rw [hal] at ha'; cases ha'; rw [hcl] at h; cases h
    | train h1 _ ha' h2 h3 h4 h5 =>
      rw [d1] at h1; cases h1
      rw [hal] at ha'; cases ha'
      rw [hset] at h2; cases h2
      rw [hrng] at h3; cases h3
      rw [hcl] at h4; cases h4
      rw [hj] at key
      exact key h5
    | finetune _ hm' => rw [hmod] at hm'; cases hm'

/-- **C90 (further training), the part that holds.** If the name that is read from released storage does no harm, sol_train.py with a saved
    model sets the normalisation and writes the file that `sol_train` writes when it is given the model and the same normalisation. -/
theorem C90_finetune_partial (hpct : ∀ v d : Nat, v ≤ d → 1 ≤ d → d ≤ 2 ^ 32 → Percent (100 - 100 * v / d) (pct v d)) (t : F32)
    (pts : List DataFile.Point) (hwk : Workable pts) (a : Args) (hin : a.input ≠ []) (fs : Files) (hload : Loads ⟨fs, writes, load⟩)
    (has : Aside writes (unread (basename a.input) a.input a.dataType)) (hco : Coherent pw t pts (unread (basename a.input) a.input a.dataType) fs)
    (path : List Char) (hmod : a.model = some path) (hal : a.algo = none) (m₀ : M) (hm₀ : load path = .model m₀) (text : List Char)
    (hfr : freed = .ok text) (hsz : SizesFit a) (hp : 1 ≤ a.passes) (out : List Char) (hout : a.output = some out)
    (ho : out ≠ []) (hw : writes out = true) (hcls : m₀.cls ∈ settled) (m : M) (hm : ∀ files, Params.set files m₀ "norm" a.norm = (m, .accepted))
    (ht : ∀ es, (∀ e ∈ es, ∃ p ∈ pts, e = exOf p) → Trainable m es)
    (args : List (List Char)) (g : List (Cmdline.Opt × Option Cmdline.Val)) (ws : List (List Char)) (hg : Says Cli.trainOpts args g ws)
    (hs : ¬ Present g "show") (hh : ¬ Present g "help")
    (ha : Alike (World.env ⟨fs, writes, load⟩) g ws a m₀ [("norm", a.norm)] out) (prog : List Char) :
    ∃ f x, RateOfAll powf ρ disp m [lessons pts .endOfFile a.passes] x ∧
      (∀ e, Whole.SolTrain pw powf ρ disp ⟨fs, writes, load⟩ (prog :: args) e ↔ e = .exit 0 [(out, f)]) ∧
      (∃ e, Main pw powf ρ disp st lit pct writes load choice freed a fs e) ∧
      ∀ e, Main pw powf ρ disp st lit pct writes load choice freed a fs e → ∃ fs' s, e = some (fs', .ok (s, [.rate x, .saved f])) := by
  obtain ⟨ds, fs', d1, d2, d3, d4⟩ := C84_numbers_partial pw writes pct hpct t pts hwk (basename a.input) a.input a.dataType fs has hco
  have hpath : (unread (basename a.input) a.input a.dataType).dataPath = a.input := by
    show DataSet.pathOf _ _ = _
    unfold DataSet.pathOf
    rw [if_neg hin]
  obtain ⟨file, f1, f2⟩ := hco.data
  obtain ⟨file', f1', f2'⟩ := d3.data
  rw [hpath] at f1
  have hall : ∀ files, setAll files m₀ [("norm", a.norm)] = (m, .accepted) := by
    intro files
    simp only [setAll, andThen]
    rw [hm files]
    rfl
  have hperm : ∀ {q : Dict PyMain.Val}, q.Perm a.base → ∀ files, setAll files m₀ (PyCv.settings q) = (m, .accepted) := by
    intro q hq files
    have h1 : PyCv.settings q = [("norm", a.norm)] := by
      have h2 : (PyCv.settings q).Perm (PyCv.settings a.base) := (hq.filter _).map _
      rw [base_model] at h2
      exact List.perm_singleton.1 h2
    rw [h1, hall]
  have hreach : Reached (World.files ⟨fs, writes, load⟩) m :=
    setAll_reached _ (loads_reached hload hm₀) (hall _)
  have hmc : m.cls = m₀.cls := by
    obtain ⟨b, -, -, h3⟩ := atomic_set noFiles m₀.cls m₀.classNum "norm" a.norm m₀ _ rfl rfl (hm noFiles)
    have h4 : Params.set noFiles m₀ "norm" a.norm = (b.apply m₀, .accepted) := h3 m₀ rfl rfl
    rw [hm noFiles] at h4
    cases h4
    exact (b.cls m₀).1
  obtain ⟨⟨size, z1⟩, num, z2⟩ := sizes_of (show Roomy a.base by simpa [given] using roomy_base hsz (l := []) (by simp))
  have hpass : ((a.passes.toNat : Nat) : Int) = a.passes := Int.toNat_of_nonneg (by omega)
  obtain ⟨j, hj⟩ : ∃ j : Job PyMain.Val, j = ⟨ds, a.passes.toNat, [], m₀.cls, [], a.output, 0, none, false, 1⟩ := ⟨_, rfl⟩
  have hcalls : j.calls = PyMain.calls ds a.passes a.output := by
    rw [hj]
    show Op.fit _ _ _ :: _ = Op.fit _ _ _ :: _
    rw [hpass]
  obtain ⟨k1, k2⟩ := fit_calls (pw := pw) (powf := powf) (ρ := ρ) (disp := disp) ⟨fs', writes, load⟩ j hreach (pts := pts) (file := file')
    (by rw [hj]; exact f1') (by rw [hj]; exact f2') (by rw [hj]; show 1 ≤ a.passes.toNat; omega) (ht _ fun e he => lessons_mem he)
    (.inr (by rw [hmc]; exact hcls)) size num (sizeOf_pos (by norm_num) z1) (sizeOf_pos (by norm_num) z2)
  rw [hcalls] at k1 k2
  have hjo : j.output = some out := by rw [hj]; exact hout
  have hjp : ((j.passes : Nat) : Int) = a.passes := by rw [hj]; exact hpass
  obtain ⟨e₀, he₀⟩ := k1
  have t1 := k2 e₀ he₀
  rw [hjo] at t1
  obtain ⟨m', s, x, t2, t3, -⟩ := saved_file hw t1
  rw [hjp] at t2 t3
  have hmain : Main pw powf ρ disp st lit pct writes load choice freed a fs ((some e₀).map fun r => (fs', r)) :=
    .finetune d1 hmod hal (.done z1 z2 hm₀ hfr (.refl _) (hperm (.refl _) _) he₀)
  refine ⟨DataFile.ofChars (saveText m'), x, t3, fun e => ?_, ⟨_, hmain⟩, fun e he => ?_⟩
  · exact executable_file ho hw hg hs hh ha (hall _) (by simp [Apart]) f1 f2 hp t2 prog e
  · cases he with
    | unread h => exact absurd d1 (h _ _)
    | unclear h => rw [hmod, hal] at h; cases h
    | misspelt hm' => rw [hmod] at hm'; cases hm'
    | unknown hm' => rw [hmod] at hm'; cases hm'
    | train _ hm' => rw [hmod] at hm'; cases hm'
    | finetune h1 hm' _ h2 =>
      rw [d1] at h1; cases h1
      rw [hmod] at hm'; cases hm'
      cases h2 with
      | unsized h => rw [z1, z2] at h; simp at h
      | absent h => exact absurd hm₀ (h _)
      | stale _ _ _ hf => rw [hfr] at hf; cases hf
      | refused h3 _ hq h4 =>
        rw [hm₀] at h3; cases h3
        rw [hperm hq] at h4
        exact absurd rfl h4
      | done y1 y2 h3 _ hq h4 h5 =>
        rw [z1] at y1; cases y1
        rw [z2] at y2; cases y2
        rw [hm₀] at h3; cases h3
        rw [hperm hq] at h4; cases h4
        have t1 := k2 _ h5
        rw [hjo] at t1
        obtain ⟨m₂, s, x', u1, u2, rfl⟩ := saved_file hw t1
        rw [hjp] at u1 u2
        rw [t2] at u1
        cases u1
        rw [rate_unique t3 u2]
        exact ⟨_, _, rfl⟩

/-- What a single call on a model that was just loaded returns. -/
theorem single_call {W : World} {m : M} {files : List Char → Option (List Char)} (hm : Reached files m) {op : Op} {l : List (Ex F32)}
    (hg : OpGives pw W op l) (hf : isFit op = false) (ha : ∀ e ∈ l, Sparse.Ascending e.x) {size num : Nat} (hs : 1 ≤ size) (hn : 1 ≤ num) :
    (∃ e, PySol.Call pw powf ρ disp W (Py.start m size num) op e) ∧
    ∀ e, PySol.Call pw powf ρ disp W (Py.start m size num) op e → ∃ s r, e = .ok (s, r) ∧ Tells W m op l r := by
  have h0 : taught [(op, l)] = [] := by simp [taught, hf]
  obtain ⟨⟨e, h1⟩, h2⟩ := C85_session_partial (pw := pw) (powf := powf) (ρ := ρ) (d := disp) W m hm [(op, l)] (by simpa using hg)
    (fun h => absurd h0 h) (by simpa [hf] using ha) (.inr ⟨[op], [], [], by simp, by simpa using hf, by simp, by simp, by simp⟩) size num hs hn
  constructor
  · cases h1 with
    | stop h => exact ⟨_, h⟩
    | cons h _ => exact ⟨_, h⟩
  · intro e he
    cases e with
    | ub k =>
      obtain ⟨s, rs, h3, -⟩ := h2 _ (.stop he)
      cases h3
    | ok p =>
      obtain ⟨s, r⟩ := p
      obtain ⟨s', rs, h3, -, h4⟩ := h2 _ (.cons he .nil)
      cases h3
      have h5 := h4 0 op l r rfl rfl
      unfold Answers at h5
      rw [hf] at h5
      obtain ⟨m', h6, h7⟩ : ∃ m', TaughtAll powf ρ disp m (taught []) m' ∧ Tells W m' op l r := h5
      rcases h6 with ⟨-, rfl⟩ | ⟨h6, -⟩
      · exact ⟨_, _, rfl, h7⟩
      · exact absurd rfl h6

theorem lessons_once (pts : List DataFile.Point) : lessons pts .endOfFile 1 = pts.map exOf := by
  simp [lessons, filePoints]

theorem ascending_points {pts : List DataFile.Point} (h : Workable pts) : ∀ e ∈ lessons pts .endOfFile 1, Sparse.Ascending e.x := by
  intro e he
  rw [lessons_once] at he
  obtain ⟨p, hp, rfl⟩ := List.mem_map.1 he
  have h1 := h.ascending p hp
  unfold Sparse.Ascending
  rw [List.pairwise_map] at h1
  show (p.feats.map _).Pairwise _
  rw [List.pairwise_map]
  exact h1.imp fun h => UInt32.lt_iff_toNat_lt.1 h

/-- **C90 (test), the part that holds.** If the name that is read from released storage does no harm, sol_test.py tests the saved model on
    all points: it reports the rate of wrong predictions, or it counts the right ones and writes a line with the label, the prediction and
    the scores for every point; these are the labels, predictions and scores that `sol_test` writes. -/
theorem C90_test_partial (hpct : ∀ v d : Nat, v ≤ d → 1 ≤ d → d ≤ 2 ^ 32 → Percent (100 - 100 * v / d) (pct v d)) (t : F32)
    (pts : List DataFile.Point) (hwk : Workable pts) (a : TestArgs) (hin : a.input ≠ []) (fs : Files) (hload : Loads ⟨fs, writes, load⟩)
    (has : Aside writes (unread (basename a.input) a.input a.dataType)) (hco : Coherent pw t pts (unread (basename a.input) a.input a.dataType) fs)
    (m : M) (hm : load a.model = .model m) (text : List Char) (hfr : freed = .ok text) (hsz : a.Sized) (fixed shown : F32 → List Char)
    (h7 : ∀ x, Ascii (fixed x) ∧ Ascii (shown x)) :
    ∃ rows : List (Train.Row F32), List.Forall₂ (fun (p : DataFile.Point) (r : Train.Row F32) => r.label = PreProcess.calibrate (vectors m.classNum) p.label ∧
        r.scores.length = vectors m.classNum ∧ Picks m.classNum r.scores r.pred) pts rows ∧
      (∃ e, TestMain pw powf ρ disp pct writes load freed fixed shown a fs e) ∧
      (∀ e, TestMain pw powf ρ disp pct writes load freed fixed shown a fs e →
        (a.output = none → ∃ x, x = (((rows.countP fun r => r.pred ≠ r.label : Nat) : Int) : F32) / ((pts.length : Int) : F32) ∧
          e = some (.ok (.rate x, []))) ∧
        ∀ out, a.output = some out → writes out = true → ∃ f, DataFile.chars f = unlines (testLines fixed shown m.classNum rows) ∧
          e = some (.ok (.quotient (rows.countP fun r => r.pred = r.label) pts.length, [(out, f)]))) ∧
      ∀ args g out prog, Says Cli.testOpts args g [a.model, a.input, out] → ¬ Present g "help" → ¬ Present g "filter" → out ≠ [] →
        writes out = true → Value Cli.testOpts g "format" (.str a.dataType) →
        (∃ b, Value Cli.testOpts g "batchsize" (.int b) ∧ 0 < b) → (∃ n, Value Cli.testOpts g "bufsize" (.int n) ∧ 0 < n) →
        ∀ e, SolTest pw ⟨fs, writes, load⟩ (prog :: args) e ↔
          ∃ f, DataFile.chars f = unlines (predictionLines rows) ∧ e = .exit 0 [(out, f)] := by
  obtain ⟨ds, fs', d1, d2, d3, d4⟩ := C84_numbers_partial pw writes pct hpct t pts hwk (basename a.input) a.input a.dataType fs has hco
  have hpath : (unread (basename a.input) a.input a.dataType).dataPath = a.input := by
    show DataSet.pathOf _ _ = _
    unfold DataSet.pathOf
    rw [if_neg hin]
  obtain ⟨file, f1, f2⟩ := hco.data
  obtain ⟨file', f1', f2'⟩ := d3.data
  rw [hpath] at f1
  have hreach : Reached (World.files ⟨fs, writes, load⟩) m := loads_reached hload hm
  have hasc := ascending_points hwk
  obtain ⟨xs, rows, rate, r1, -, -, r2, r3⟩ := testModel_rows hreach _ hasc
  rw [lessons_once, List.forall₂_map_left_iff] at r2
  have hlen : rows.length = pts.length := r2.length_eq.symm
  have hcl : 2 ≤ m.classNum := by
    have := (reached_checked hreach).classNum
    omega
  have hne : rows ≠ [] := by
    intro h
    have := hwk.some
    rw [h] at hlen
    simp at hlen
    omega
  refine ⟨rows, r2, ?_⟩
  obtain ⟨hb1, hb2, hb3, hb4⟩ := id hsz
  have hop : isFit (a.call ds) = false := by
    unfold TestArgs.call
    split <;> rfl
  have hgive : OpGives pw ⟨fs', writes, load⟩ (a.call ds) (lessons pts .endOfFile 1) := by
    have : FileGives pw ⟨fs', writes, load⟩ ds.dataPath ds.dtype 1 (lessons pts .endOfFile 1) :=
      ⟨file', f1', .inr ⟨by norm_num, pts, .endOfFile, f2', rfl⟩⟩
    unfold TestArgs.call
    split <;> exact this
  obtain ⟨⟨e₀, k1⟩, k2⟩ := single_call (powf := powf) (ρ := ρ) (disp := disp) hreach hgive hop hasc (size := a.batch.toNat) (num := a.buf.toNat)
    (by omega) (by omega)
  refine ⟨?_, fun e he => ?_, ?_⟩
  · cases e₀ with
    | ub k => exact ⟨_, .fails hsz d1 hm hfr k1⟩
    | ok p => exact ⟨_, .done (s := p.1) (r := p.2) hsz d1 hm hfr k1⟩
  · cases he with
    | unread h => exact absurd d1 (h _ _)
    | absent h =>
      rcases h with h | h
      · exact absurd hsz h
      · exact absurd hm (h _)
    | stale _ _ _ hf => rw [hfr] at hf; cases hf
    | fails _ h1 h2 _ h3 =>
      rw [d1] at h1; cases h1
      rw [hm] at h2; cases h2
      obtain ⟨_, _, h4, -⟩ := k2 _ h3
      cases h4
    | @done _ _ _ _ s r _ h1 h2 _ h3 =>
      rw [d1] at h1; cases h1
      rw [hm] at h2; cases h2
      obtain ⟨_, _, h4, h5⟩ := k2 _ h3
      cases h4
      constructor
      · intro hno
        have hcall : a.call ds = .score ds.dataPath ds.dtype := if_pos hno
        rw [hcall] at h5
        obtain ⟨rows', x, h6, rfl⟩ := h5
        rw [r1] at h6
        cases h6
        refine ⟨rate, by rw [r3, hlen], ?_⟩
        unfold TestArgs.reports
        rw [hno]
        rfl
      · intro out hout hw
        have hcall : a.call ds = .predict ds.dataPath ds.dtype := if_neg (by rw [hout]; simp)
        rw [hcall] at h5
        obtain ⟨rows', x, h6, rfl⟩ := h5
        rw [r1] at h6
        cases h6
        refine ⟨DataFile.ofChars (rows.flatMap (lineText fixed shown m.classNum)), ?_, ?_⟩
        · rw [DataFile.chars_ofChars, lineText_lines fixed shown m.classNum hcl rows (fun r hr => by
            obtain ⟨p, -, -, h, -⟩ := forall₂_right r2 hr
            exact h)]
          exact plain7_lines h7 _ _
        · unfold TestArgs.reports
          rw [hout]
          dsimp only
          rw [if_neg hne, if_pos hw, hlen]
          rfl
  · rintro args g out prog hg hh hx ho hw v1 ⟨b, v2, b0⟩ ⟨n, v3, n0⟩ e
    have hopen : (World.env ⟨fs, writes, load⟩).opens a.input a.dataType = true := by
      obtain ⟨o, h1, -⟩ := f2
      show (match DataFile.addReader a.dataType (fs a.input) with | .ok (some _) => true | _ => false) = true
      rw [f1, show DataFile.addReader a.dataType (some file) = _ from h1]
    have hdone : Cli.testMain (World.env ⟨fs, writes, load⟩) (prog :: args) = .done ⟨m, a.input, a.dataType, 1, b, n, some out⟩ true 0 := by
      refine (C60_test_partial _ hg hh prog _ _ _).2 ⟨⟨⟨a.model, m, hm, .inr ⟨out, rfl, .inr ⟨ho, rfl⟩⟩, .inl ⟨hx, rfl⟩⟩,
        ⟨v1, v2, v3⟩, rfl, n0, .inl b0, hopen⟩, ?_, rfl⟩
      show true = (some out).any writes
      simp [hw]
    have hreads : Reads pw ⟨fs, writes, load⟩ ⟨m, a.input, a.dataType, 1, b, n, some out⟩ (lessons pts .endOfFile 1) :=
      .inr ⟨by norm_num, file, pts, .endOfFile, f1, f2, rfl⟩
    rw [solTest_done hdone, (reads_data ⟨n0, .inl b0, hopen⟩ _).1 hreads]
    simp only [Res.bind, r1]
    constructor
    · rintro rfl
      refine ⟨DataFile.ofChars (predText rows), ?_, rfl⟩
      rw [DataFile.chars_ofChars (plain7_predText rows), predText_lines]
    · rintro ⟨f, hf, rfl⟩
      rw [← predText_lines] at hf
      rw [← ofChars_chars f, hf]
      rfl

end

/-! ### Examples -/

theorem value_told {os : List Cmdline.Opt} {s : Cmdline.St} {g : List (Cmdline.Opt × Option Cmdline.Val)} {ws : List (List Char)}
    (h : Told os s g ws) (name : String) (x : Cmdline.Val)
    (hx : (os.any fun o => decide (o.name = name.toList) && decide (o.reader ≠ none)) = true ∧ s.get name.toList = some x) : Value os g name x := by
  obtain ⟨o, ho, h1⟩ := List.any_eq_true.1 hx.1
  simp only [Bool.and_eq_true, decide_eq_true_eq] at h1
  obtain ⟨y, h2, h3⟩ := (h.2.2 o ho).2.2 h1.2
  rw [h1.1, hx.2] at h2
  cases h2
  exact ⟨o, ho, h1.1, (h3 _).2 rfl⟩

theorem absent_told {os : List Cmdline.Opt} {args : List (List Char)} {s : Cmdline.St} {g : List (Cmdline.Opt × Option Cmdline.Val)} {ws : List (List Char)}
    (hg : Says os args g ws) (h : Told os s g ws) (name : String) (hx : s.exist name.toList = some false) : ¬ Present g name := by
  rintro ⟨o, x, h1, h2⟩
  have h3 := ((h.2.2 o (Cmdline.says_kind hg o x h1).1).1).2 ⟨x, h1⟩
  rw [h2, hx] at h3
  cases h3

theorem present_told {os : List Cmdline.Opt} {s : Cmdline.St} {g : List (Cmdline.Opt × Option Cmdline.Val)} {ws : List (List Char)}
    (h : Told os s g ws) (name : String) (hx : s.exist name.toList = some true ∧ (os.any fun o => decide (o.name = name.toList)) = true) :
    Present g name := by
  obtain ⟨o, ho, h1⟩ := List.any_eq_true.1 hx.2
  simp only [decide_eq_true_eq] at h1
  obtain ⟨x, h2⟩ := ((h.2.2 o ho).1).1 (by rw [h1]; exact hx.1)
  exact ⟨o, x, h2, h1⟩

theorem plain_setting (k : String) (v : List Char)
    (h : StrUtil.split '=' (k.toList ++ '=' :: v) = [k.toList, v] ∧ k.toList ≠ [] ∧ v ≠ [] ∧ (k.toList ++ v).all (fun c => c ≠ ' ' ∧ c ≠ '\t') = true) :
    Setting FirstWord (k.toList ++ '=' :: v) (k, v) := by
  obtain ⟨h1, h2, h3, h4⟩ := h
  rw [List.all_eq_true] at h4
  have key : ∀ w : List Char, w ≠ [] → (∀ c ∈ w, c ∈ k.toList ++ v) → FirstWord w w := by
    intro w hw hs
    refine .inr ⟨[], [], by simp, hw, by simp, fun c hc => ?_, by simp⟩
    have := h4 c (hs c hc)
    simp only [decide_eq_true_eq] at this
    rintro (h | h)
    · exact this.1 h
    · exact this.2 h
  refine ⟨k.toList, v, ?_, key _ h2 fun c hc => List.mem_append_left _ hc, key _ h3 fun c hc => List.mem_append_right _ hc⟩
  have := StrUtil.pieces_split '=' _ (k.toList ++ '=' :: v) le_rfl
  rwa [h1] at this

/-- The points of a small file, and a disk with it and a model. -/
def goodPoints : List DataFile.Point := [⟨1, [(1, .fin (1 / 2)), (3, .fin 2)]⟩, ⟨-1, [(2, .fin (3 / 2))]⟩]
def modelDisk : World := disk [("d", good), ("m", perceptronFile "4" "2" "0 0 -1.5 0")]

theorem modelDisk_loads : Loads modelDisk := by
  letI : FFun F32 := unusedFun
  refine diskOf_loads _ _ fun p f hf => ?_
  obtain ⟨g, h1, rfl⟩ := Option.map_eq_some_iff.1 hf
  have hm := List.mem_of_find?_eq_some h1
  clear hf h1
  revert g
  decide +kernel

theorem modelDisk_set : Workable goodPoints ∧ Aside modelDisk.writes (unread (basename "d".toList) "d".toList "svm".toList) ∧
    Coherent bestPow (.fin 1) goodPoints (unread (basename "d".toList) "d".toList "svm".toList) modelDisk.reads := by
  have hne : ∀ s, ∀ p ∈ ["d".toList, "m".toList, "readonly".toList], p ≠ DataSet.join (unread (basename "d".toList) "d".toList "svm".toList).workDir
      ((unread (basename "d".toList) "d".toList "svm".toList).dataName ++ s) := by
    intro s p hp e
    rw [← DataSet.join_append (by decide)] at e
    have e := congrArg (List.take 1) e
    rw [List.take_append_of_le_length (by decide)] at e
    clear * - e hp
    revert p
    decide
  refine ⟨⟨by decide, by decide, by decide, by decide, by decide⟩, ⟨by decide, fun s => ?_, fun s => hne s "d".toList (by decide)⟩,
    coherent_new (file := DataFile.ofChars good.toList) (by decide +kernel) ⟨⟨.svm, 4096, DataFile.ofChars good.toList⟩, by decide +kernel, by decide +kernel⟩
      fun s => ?_⟩
  · unfold modelDisk disk diskOf
    dsimp only
    rw [decide_eq_true_eq]
    exact (hne s "readonly".toList (by decide)).symm
  · have h1 := hne s "d".toList (by decide)
    have h2 := hne s "m".toList (by decide)
    unfold modelDisk disk diskOf
    dsimp only
    rw [List.find?_cons_of_neg (by simpa using h1), List.find?_cons_of_neg (by simpa using h2)]
    rfl

/-- `sol_train.py -a OGD -t svm -p 2 --norm L1 --params eta=2 d out`. -/
def trainArgs : Args :=
  ⟨"d".toList, some "out".toList, some "OGD".toList, "svm".toList, none, 2, "L1".toList, 256, 2, none, 5, some ["eta=2".toList], false, false⟩

theorem good_teaches {m : M} (h : ∀ es : List (Ex F32), (∀ e ∈ es, Good e.x) → Trainable m es) (es : List (Ex F32))
    (hes : ∀ e ∈ es, ∃ p ∈ goodPoints, e = exOf p) : Trainable m es := by
  have hgood : ∀ p ∈ goodPoints, Good (exOf p).x := by
    unfold Good Sparse.Ascending
    decide
  refine h es fun e he => ?_
  obtain ⟨p, hp, rfl⟩ := hes e he
  exact hgood p hp

/-- **C89.** The script writes the file that `sol_train -a ogd -f svm -p 2 --params eta=2;norm=L1 d out` writes. -/
theorem C89_instance (st : Style PyMain.Val) (lit : List Char → Option (List PyMain.Val)) (choice : Nat → Nat) (freed : Res (List Char)) :
    letI : FFun F32 := unusedFun
    (∃ e, Main bestPow (fun a _ => a) (fun _ => 0) (.newStep 1) st lit exactPct modelDisk.writes modelDisk.load choice freed trainArgs modelDisk.reads e) ∧
    ∀ e, Main bestPow (fun a _ => a) (fun _ => 0) (.newStep 1) st lit exactPct modelDisk.writes modelDisk.load choice freed trainArgs modelDisk.reads e →
      ∃ fs' s x f, e = some (fs', .ok (s, [.rate x, .saved f])) ∧
        Trains modelDisk ["sol_train", "-a", "ogd", "-f", "svm", "-p", "2", "--params", "eta=2;norm=L1", "d", "out"] (.exit 0 [("out".toList, f)]) := by
  letI : FFun F32 := unusedFun
  have hpct : ∀ v d : Nat, v ≤ d → 1 ≤ d → d ≤ 2 ^ 32 → Percent (100 - 100 * v / d) (exactPct v d) := fun v d h hd _ => exactPct_percent v d h hd
  obtain ⟨h1, h2, h3⟩ := modelDisk_set
  obtain ⟨g, ws, g1, -, g2⟩ := C59_only_partial C59_tables.1 "sol_train".toList
    (argv ["-a", "ogd", "-f", "svm", "-p", "2", "--params", "eta=2;norm=L1", "d", "out"]) (by decide +kernel)
  have hcn : classesOf goodPoints = 2 := by decide
  have halike : Alike modelDisk.env g ws trainArgs (fresh .ogd (classesOf goodPoints : Nat)) (("norm", trainArgs.norm) :: [("eta", "2".toList)]) "out".toList := by
    rw [hcn]
    refine ⟨?_, .inr ⟨absent_told g1 g2 _ (by decide +kernel), "ogd".toList, 2, .ogd, value_told g2 _ _ (by decide +kernel),
        value_told g2 _ _ (by decide +kernel), by decide, by decide, rfl⟩,
      ⟨"eta=2;norm=L1".toList, [("eta", "2".toList), ("norm", "L1".toList)], value_told g2 _ _ (by decide +kernel), ?_, .swap _ _ _⟩,
      value_told g2 _ _ (by decide +kernel), value_told g2 _ _ (by decide +kernel), ⟨256, value_told g2 _ _ (by decide +kernel), by decide⟩,
      ⟨2, value_told g2 _ _ (by decide +kernel), by decide⟩⟩
    · rw [← g2.2.1]
      decide +kernel
    · refine ⟨["eta".toList ++ '=' :: "2".toList, "norm".toList ++ '=' :: "L1".toList], ?_,
        .cons (plain_setting _ _ (by decide +kernel)) (.cons (plain_setting _ _ (by decide +kernel)) .nil)⟩
      have := StrUtil.pieces_split ';' _ "eta=2;norm=L1".toList le_rfl
      rwa [show StrUtil.split ';' "eta=2;norm=L1".toList = ["eta".toList ++ '=' :: "2".toList, "norm".toList ++ '=' :: "L1".toList] by decide +kernel] at this
  obtain ⟨f, x, -, f2, f3, f4⟩ := C89_same_file_partial (pw := bestPow) (powf := fun a _ => a) (ρ := fun _ => 0) (disp := .newStep 1) (st := st)
    (lit := lit) (pct := exactPct) (writes := modelDisk.writes) (load := modelDisk.load) (choice := choice) (freed := freed) hpct (.fin 1) goodPoints h1
    trainArgs (by decide) modelDisk.reads h2 h3 rfl "OGD".toList rfl .ogd (by decide +kernel) rfl [("eta", "2".toList)]
    (.cons ⟨by decide, by decide, by decide⟩ .nil) (show (List.map (slotOf .ogd) ["norm", "eta"]).Nodup from by decide) (by decide)
    (by unfold SizesFit; decide) (by decide) "out".toList rfl (by decide) (by decide +kernel) (by decide) (by decide)
    { fresh .ogd 2 with norm := .l1, eta := .fin 2 } (fun files => by with_unfolding_all rfl)
    (good_teaches fun es hes => ⟨fun e he => ⟨hes e he, fun h => absurd h (by decide), .inl rfl⟩, fun h => absurd h (by decide),
      fun h => absurd h (by decide), fun h => absurd h (by decide), fun h => absurd h (by decide), fun h => absurd h (by decide)⟩)
    _ g ws g1 (absent_told g1 g2 _ (by decide +kernel)) (absent_told g1 g2 _ (by decide +kernel)) halike "sol_train".toList
  refine ⟨f3, fun e he => ?_⟩
  obtain ⟨fs', s, rfl⟩ := f4 e he
  exact ⟨fs', s, x, f, rfl, (f2 _).2 rfl⟩

/-- The model of the disk. -/
def diskModel : M :=
  { fresh .perceptron 2 with reinit := true, initialT := 2, t := 2, dim := 4, lastTime := [0], disp := some (.exp 2), w := [[0, 0, .fin (-3 / 2), 0]] }

/-- `sol_train.py -m m -t svm -p 1 --norm None d out`. -/
def moreArgs : Args :=
  ⟨"d".toList, some "out".toList, none, "svm".toList, some "m".toList, 1, "None".toList, 256, 2, none, 5, none, false, false⟩

/-- **C90.** Training of a saved model goes on: the script writes the file that `sol_train -m m -f svm --params norm=None d out` writes, if
    the reading of released storage does no harm. -/
theorem C90_instance (st : Style PyMain.Val) (lit : List Char → Option (List PyMain.Val)) (choice : Nat → Nat) (text : List Char) :
    letI : FFun F32 := unusedFun
    (∃ e, Main bestPow (fun a _ => a) (fun _ => 0) (.newStep 1) st lit exactPct modelDisk.writes modelDisk.load choice (.ok text) moreArgs
      modelDisk.reads e) ∧
    ∀ e, Main bestPow (fun a _ => a) (fun _ => 0) (.newStep 1) st lit exactPct modelDisk.writes modelDisk.load choice (.ok text) moreArgs
      modelDisk.reads e →
      ∃ fs' s x f, e = some (fs', .ok (s, [.rate x, .saved f])) ∧
        Trains modelDisk ["sol_train", "-m", "m", "-f", "svm", "--params", "norm=None", "d", "out"] (.exit 0 [("out".toList, f)]) := by
  letI : FFun F32 := unusedFun
  have hpct : ∀ v d : Nat, v ≤ d → 1 ≤ d → d ≤ 2 ^ 32 → Percent (100 - 100 * v / d) (exactPct v d) := fun v d h hd _ => exactPct_percent v d h hd
  obtain ⟨h1, h2, h3⟩ := modelDisk_set
  have hload : modelDisk.load "m".toList = .model diskModel := by decide +kernel
  obtain ⟨g, ws, g1, -, g2⟩ := C59_only_partial C59_tables.1 "sol_train".toList
    (argv ["-m", "m", "-f", "svm", "--params", "norm=None", "d", "out"]) (by decide +kernel)
  have halike : Alike modelDisk.env g ws moreArgs diskModel [("norm", moreArgs.norm)] "out".toList := by
    refine ⟨?_, .inl ⟨present_told g2 _ (by decide +kernel), "m".toList, value_told g2 _ _ (by decide +kernel), by rw [show modelDisk.env.load = modelDisk.load from rfl]; exact hload⟩,
      ⟨"norm=None".toList, [("norm", "None".toList)], value_told g2 _ _ (by decide +kernel), ?_, .refl _⟩,
      value_told g2 _ _ (by decide +kernel), value_told g2 _ _ (by decide +kernel), ⟨256, value_told g2 _ _ (by decide +kernel), by decide⟩,
      ⟨2, value_told g2 _ _ (by decide +kernel), by decide⟩⟩
    · rw [← g2.2.1]
      decide +kernel
    · refine ⟨["norm".toList ++ '=' :: "None".toList], ?_, .cons (plain_setting _ _ (by decide +kernel)) .nil⟩
      have := StrUtil.pieces_split ';' _ "norm=None".toList le_rfl
      rwa [show StrUtil.split ';' "norm=None".toList = ["norm".toList ++ '=' :: "None".toList] by decide +kernel] at this
  obtain ⟨f, x, -, f2, f3, f4⟩ := C90_finetune_partial (pw := bestPow) (powf := fun a _ => a) (ρ := fun _ => 0) (disp := .newStep 1) (st := st)
    (lit := lit) (pct := exactPct) (writes := modelDisk.writes) (load := modelDisk.load) (choice := choice) (freed := .ok text) hpct (.fin 1) goodPoints h1
    moreArgs (by decide) modelDisk.reads modelDisk_loads h2 h3 "m".toList rfl rfl diskModel hload text rfl
    (by unfold SizesFit; decide) (by decide) "out".toList rfl (by decide) (by decide +kernel) (by decide)
    diskModel (fun files => by with_unfolding_all rfl) (good_teaches fun es hes =>
      ⟨fun e he => ⟨hes e he, fun h => absurd h (by decide), .inl rfl⟩, fun h => absurd h (by decide), fun h => absurd h (by decide),
        fun h => absurd h (by decide), fun h => absurd h (by decide), fun h => absurd h (by decide)⟩)
    _ g ws g1 (absent_told g1 g2 _ (by decide +kernel)) (absent_told g1 g2 _ (by decide +kernel)) halike "sol_train".toList
  refine ⟨f3, fun e he => ?_⟩
  obtain ⟨fs', s, rfl⟩ := f4 e he
  exact ⟨fs', s, x, f, rfl, (f2 _).2 rfl⟩

/-- **C90 (test).** The model of the disk is tested on the two points. -/
theorem C90_instance_test (text : List Char) (fixed shown : F32 → List Char) (h7 : ∀ x, Ascii (fixed x) ∧ Ascii (shown x)) :
    letI : FFun F32 := unusedFun
    (∃ e, TestMain bestPow (fun a _ => a) (fun _ => 0) (.newStep 1) exactPct modelDisk.writes modelDisk.load (.ok text) fixed shown
      ⟨"m".toList, "d".toList, some "p".toList, "svm".toList, 256, 2⟩ modelDisk.reads e) ∧
    ∀ e, TestMain bestPow (fun a _ => a) (fun _ => 0) (.newStep 1) exactPct modelDisk.writes modelDisk.load (.ok text) fixed shown
      ⟨"m".toList, "d".toList, some "p".toList, "svm".toList, 256, 2⟩ modelDisk.reads e →
      ∃ f n, e = some (.ok (.quotient n 2, [("p".toList, f)])) := by
  letI : FFun F32 := unusedFun
  have hpct : ∀ v d : Nat, v ≤ d → 1 ≤ d → d ≤ 2 ^ 32 → Percent (100 - 100 * v / d) (exactPct v d) := fun v d h hd _ => exactPct_percent v d h hd
  obtain ⟨h1, h2, h3⟩ := modelDisk_set
  obtain ⟨rows, -, r2, r3, -⟩ := C90_test_partial (pw := bestPow) (powf := fun a _ => a) (ρ := fun _ => 0) (disp := .newStep 1)
    (pct := exactPct) (writes := modelDisk.writes) (load := modelDisk.load) (freed := .ok text) hpct (.fin 1) goodPoints h1
    ⟨"m".toList, "d".toList, some "p".toList, "svm".toList, 256, 2⟩ (by decide) modelDisk.reads modelDisk_loads h2 h3 diskModel (by decide +kernel) text rfl
    (by unfold TestArgs.Sized; decide) fixed shown h7
  refine ⟨r2, fun e he => ?_⟩
  obtain ⟨f, -, hf⟩ := (r3 e he).2 "p".toList rfl (by decide +kernel)
  exact ⟨f, _, hf⟩

/-- **C89 is violated.** The script sets the normalisation even if it is not asked to, which the class alma2 refuses, so that no call of
    `sol_train.py -a alma2` without `--norm L2` trains a model, while `sol_train -a alma2` does; of `k=v=w` the script takes `v`, while
    `sol_train` refuses it. -/
theorem C89_is_violated [FFun F32] (pw : Int → F32) (powf : F32 → F32 → F32) (ρ : Nat → F32) (disp : Train.Disp) (st : Style PyMain.Val)
    (lit : List Char → Option (List PyMain.Val)) (pct : Nat → Nat → List Char) (writes : List Char → Bool) (load : List Char → Loaded)
    (choice : Nat → Nat) (freed : Res (List Char)) :
    (∀ a fs e, a.algo = some "alma2".toList → a.norm = "None".toList → a.params = none → a.cv = none →
      Main pw powf ρ disp st lit pct writes load choice freed a fs e → e = none) ∧
    (Does (Cli.trainMain machine (argv ["t", "-a", "alma2", "in", "out"])) true fun j => j.model = fresh .alma2 2) ∧
    part "eta=2=3".toList = some ("eta", "2".toList) ∧ part "eta".toList = none ∧
    Cli.trainMain machine (argv ["t", "--params=eta=2=3", "in", "out"]) = .exit 4 := by
  refine ⟨?_, by decide +kernel, by decide +kernel, by decide +kernel, by decide +kernel⟩
  intro a fs e ha hn hp hc h
  have hbase : a.settings = some a.base := by
    unfold Args.settings
    rw [hp]
    rfl
  have hrng : a.ranges lit = some none := by unfold Args.ranges; rw [hc]
  have key : ∀ (q : Dict PyMain.Val) files n, q.Perm a.base → newObject files .alma2 n q = none := by
    intro q files n hq
    have h1 : PyCv.settings q = [("norm", a.norm)] := by
      have h2 : (PyCv.settings q).Perm (PyCv.settings a.base) := (hq.filter _).map _
      rw [base_model] at h2
      exact List.perm_singleton.1 h2
    unfold newObject createWith
    rw [h1, hn]
    unfold create
    split_ifs
    · rfl
    · rfl
  cases h with
  | unread => rfl
  | unclear => rfl
  | misspelt => rfl
  | unknown => rfl
  | finetune _ _ h3 => rw [ha] at h3; cases h3
  | train h1 h2 h3 h4 h5 h6 h7 =>
    rw [ha] at h3; cases h3
    rw [hbase] at h4; cases h4
    rw [hrng] at h5; cases h5
    have h8 : classNamed "alma2".toList = some .alma2 := by decide +kernel
    rw [h8] at h6; cases h6
    have hset : ∀ {j : Job PyMain.Val} {fs r}, j.grid = none → Settles pw powf ρ disp st writes load choice j fs r → r = some (fs, j.params) := by
      intro j fs r hg h
      cases h with
      | given => rfl
      | again h => rw [hg] at h; cases h
      | refused h => rw [hg] at h; cases h
      | unsplit h => rw [hg] at h; cases h
      | chosen h => rw [hg] at h; cases h
    cases h7 with
    | unsettled => rfl
    | refused => rfl
    | done h hq hm =>
      have := hset rfl h
      cases this
      rw [key _ _ _ hq] at hm
      cases hm

/-- **C90 is violated.** The storage from which the scripts read the name of a loaded model was released; if this is an error, no run goes on
    training or tests.  And the script resets the normalisation of the model that it is to go on training, unless it is told another one. -/
theorem C90_is_violated [FFun F32] (pw : Int → F32) (powf : F32 → F32 → F32) (ρ : Nat → F32) (disp : Train.Disp) (st : Style PyMain.Val)
    (lit : List Char → Option (List PyMain.Val)) (pct : Nat → Nat → List Char) (writes : List Char → Bool) (load : List Char → Loaded)
    (choice : Nat → Nat) (fixed shown : F32 → List Char) (k : UB) :
    (∀ a fs e, a.model ≠ none → Main pw powf ρ disp st lit pct writes load choice (.ub k) a fs e → e = none ∨ ∃ fs', e = some (fs', .ub k)) ∧
    (∀ a fs e, TestMain pw powf ρ disp pct writes load (.ub k) fixed shown a fs e → e = none ∨ e = some (.ub k)) ∧
    (∀ files, setAll files { fresh .perceptron 2 with norm := .l2 } (PyCv.settings moreArgs.base) = (fresh .perceptron 2, .accepted)) ∧
    (∀ files, setAll files { fresh .perceptron 2 with norm := .l2 } [] = ({ fresh .perceptron 2 with norm := .l2 }, .accepted)) := by
  refine ⟨fun a fs e hm h => ?_, fun a fs e h => ?_, fun files => by with_unfolding_all rfl, fun files => rfl⟩
  · cases h with
    | unread => exact .inl rfl
    | unclear => exact .inl rfl
    | misspelt h => exact absurd h hm
    | unknown h => exact absurd h hm
    | train _ h => exact absurd h hm
    | finetune _ _ _ h =>
      cases h with
      | unsized => exact .inl rfl
      | absent => exact .inl rfl
      | refused => exact .inl rfl
      | stale _ _ _ hf => cases hf; exact .inr ⟨_, rfl⟩
      | done _ _ _ hf => cases hf
  · cases h with
    | unread => exact .inl rfl
    | absent => exact .inl rfl
    | stale _ _ _ hf => cases hf; exact .inr rfl
    | fails _ _ _ hf => cases hf
    | done _ _ _ hf => cases hf

end Sol.Props
