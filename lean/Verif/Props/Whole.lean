import Verif.Proofs.Chosen
import Verif.Proofs.Predictions
import Verif.Props.LoadText
import Verif.Props.ToolMains
/-! Whole runs of `sol_train` and `sol_test`: from the command line and the files to the files written. -/

namespace Sol.Props
open Sol.Params Sol.Online Sol.Loss Sol.Spec Sol.Whole Sol.PreProcess

variable [FFun F32] (pw : Int → F32) (powf : F32 → F32 → F32) (ρ : Nat → F32) (d : Train.Disp)

/-- **C76.** Every run of the executables has exactly one end (status and files), whatever the reading thread and the training
    thread do. -/
theorem C76_one_end (W : World) (prog : List Char) (args : List (List Char)) :
    (∃! e, SolTrain pw powf ρ d W (prog :: args) e) ∧ ∃! e, SolTest pw W (prog :: args) e := by
  simp only [solTrain_iff, solTest_iff]
  exact ⟨⟨_, rfl, fun _ h => h⟩, _, rfl, fun _ h => h⟩

/-- **C76.** The end depends on the data only through the points read: it is the same for another file, another format, other sizes
    or another number of passes, if the points are the same in the same order. -/
theorem C76_points (W W' : World) (prog prog' : List Char) (args args' : List (List Char)) (j j' : Cli.Job) (w : Bool) (c c' : Int)
    (l : List (Ex F32)) (h : Cli.trainMain W.env (prog :: args) = .done j w c) (h' : Cli.trainMain W'.env (prog' :: args') = .done j' w c')
    (hm : j'.model = j.model) (ho : j'.out = j.out) (hl : Reads pw W j l) (hl' : Reads pw W' j' l) (e : Whole.End) :
    SolTrain pw powf ρ d W (prog :: args) e ↔ SolTrain pw powf ρ d W' (prog' :: args') e := by
  obtain ⟨rfl, g, ws, -, -, -, ha, -⟩ := C60_train_only_partial _ _ _ _ _ _ h
  obtain ⟨rfl, g', ws', -, -, -, ha', -⟩ := C60_train_only_partial _ _ _ _ _ _ h'
  rw [solTrain_done h, solTrain_done h', (reads_data ha.data l).1 hl, (reads_data ha'.data l).1 hl', hm]
  simp only [Res.bind]
  cases trainModel powf ρ d j.model [l] with
  | ub k => rfl
  | ok m => simp only [ending, outFiles, ho]

/-- The same for `sol_test`. -/
theorem C76_points_test (W W' : World) (prog prog' : List Char) (args args' : List (List Char)) (j j' : Cli.Job) (w : Bool) (c c' : Int)
    (l : List (Ex F32)) (h : Cli.testMain W.env (prog :: args) = .done j w c) (h' : Cli.testMain W'.env (prog' :: args') = .done j' w c')
    (hm : j'.model = j.model) (ho : j'.out = j.out) (hl : Reads pw W j l) (hl' : Reads pw W' j' l) (e : Whole.End) :
    SolTest pw W (prog :: args) e ↔ SolTest pw W' (prog' :: args') e := by
  obtain ⟨rfl, g, ws, -, -, ha, -⟩ := C60_test_only_partial _ _ _ _ _ _ h
  obtain ⟨rfl, g', ws', -, -, ha', -⟩ := C60_test_only_partial _ _ _ _ _ _ h'
  rw [solTest_done h, solTest_done h', (reads_data ha.data l).1 hl, (reads_data ha'.data l).1 hl', hm]
  simp only [Res.bind]
  cases testModel j.model [l] with
  | ub k => rfl
  | ok m => simp only [ending, outFiles, ho]

/-- **C76.** Two command lines that differ only in the options `--batchsize` and `--bufsize`, both with positive sizes, give the
    same end: the same status, the same files with the same bytes. -/
theorem C76_sizes (W : World) (prog prog' : List Char) {args args' : List (List Char)} {g g' : List (Cmdline.Opt × Option Cmdline.Val)}
    {ws : List (List Char)} (hg : Says Cli.trainOpts args g ws) (hg' : Says Cli.trainOpts args' g' ws)
    (hs : SameBut Cli.trainOpts ["batchsize", "bufsize"] g g') (hn : ¬ Present g "show") (hh : ¬ Present g "help") (b f b' f' : Int)
    (hb : Value Cli.trainOpts g "batchsize" (.int b) ∧ 0 < b) (hf : Value Cli.trainOpts g "bufsize" (.int f) ∧ 0 < f)
    (hb' : Value Cli.trainOpts g' "batchsize" (.int b') ∧ 0 < b') (hf' : Value Cli.trainOpts g' "bufsize" (.int f') ∧ 0 < f')
    (e : Whole.End) : SolTrain pw powf ρ d W (prog :: args) e ↔ SolTrain pw powf ρ d W (prog' :: args') e := by
  obtain ⟨ht, hr⟩ := train_run hg hn hh prog
  obtain ⟨ht', hr'⟩ := train_run hg' (fun h => hn ((hs "show" (by decide)).1.2 h)) (fun h => hh ((hs "help" (by decide)).1.2 h)) prog'
  rw [solTrain_iff, solTrain_iff]
  have ha : Alike (Cmdline.parse Cli.trainOpts (prog :: args)) (Cmdline.parse Cli.trainOpts (prog' :: args')) := by
    refine ⟨ht'.told.2.1.trans ht.told.2.1.symm, ?_, ?_, ?_⟩
    · rw [Cli.present_iff ht (o := Cli.trainOpts[8]) (by decide) rfl, Cli.present_iff ht' (o := Cli.trainOpts[8]) (by decide) rfl]
      exact (hs "model" (by decide)).1.symm
    · intro n hm
      have hstr : Cli.HasStr Cli.trainOpts n ∧ n ∉ ["batchsize", "bufsize"] := by
        obtain ⟨k1, k2, k3, k4⟩ := Cli.train_strs
        simp only [List.mem_cons, List.not_mem_nil, or_false] at hm
        rcases hm with rfl | rfl | rfl | rfl
        · exact ⟨k3, by decide⟩
        · exact ⟨k2, by decide⟩
        · exact ⟨k4, by decide⟩
        · exact ⟨k1, by decide⟩
      exact (Cli.str_iff ht' hstr.1 _).2 (((hs n hstr.2).2 _).1 ((Cli.str_iff ht hstr.1 _).1 rfl))
    · intro n hm
      have hint : Cli.HasInt Cli.trainOpts n ∧ n ∉ ["batchsize", "bufsize"] := by
        obtain ⟨k1, k2, -⟩ := Cli.train_ints
        simp only [List.mem_cons, List.not_mem_nil, or_false] at hm
        rcases hm with rfl | rfl
        · exact ⟨k1, by decide⟩
        · exact ⟨k2, by decide⟩
      exact (Cli.num_iff ht' hint.1 _).2 (((hs n hint.2).2 _).1 ((Cli.num_iff ht hint.1 _).1 rfl))
  obtain ⟨-, -, i1, i2⟩ := Cli.train_ints
  have key : Cli.trainMain W.env (prog' :: args') = resize b' f' (Cli.trainMain W.env (prog :: args)) := by
    unfold Cli.trainMain
    rw [hr, hr']
    dsimp only
    have := train_resize (env := W.env) ha (by rw [(Cli.num_iff ht i1 _).2 hb.1]; exact hb.2) (by rw [(Cli.num_iff ht i2 _).2 hf.1]; exact hf.2)
      (by rw [(Cli.num_iff ht' i1 _).2 hb'.1]; exact hb'.2) (by rw [(Cli.num_iff ht' i2 _).2 hf'.1]; exact hf'.2)
    rw [this, (Cli.num_iff ht' i1 _).2 hb'.1, (Cli.num_iff ht' i2 _).2 hf'.1]
  rw [trainEnd_resize pw powf ρ d W key]

/-- **C76.** The same for `sol_test`: the predictions do not depend on the sizes. -/
theorem C76_sizes_test (W : World) (prog prog' : List Char) {args args' : List (List Char)} {g g' : List (Cmdline.Opt × Option Cmdline.Val)}
    {ws : List (List Char)} (hg : Says Cli.testOpts args g ws) (hg' : Says Cli.testOpts args' g' ws)
    (hs : SameBut Cli.testOpts ["batchsize", "bufsize"] g g') (hh : ¬ Present g "help") (b f b' f' : Int)
    (hb : Value Cli.testOpts g "batchsize" (.int b) ∧ 0 < b) (hf : Value Cli.testOpts g "bufsize" (.int f) ∧ 0 < f)
    (hb' : Value Cli.testOpts g' "batchsize" (.int b') ∧ 0 < b') (hf' : Value Cli.testOpts g' "bufsize" (.int f') ∧ 0 < f')
    (e : Whole.End) : SolTest pw W (prog :: args) e ↔ SolTest pw W (prog' :: args') e := by
  obtain ⟨ht, hr⟩ := test_run hg hh prog
  obtain ⟨ht', hr'⟩ := test_run hg' (fun h => hh ((hs "help" (by decide)).1.2 h)) prog'
  obtain ⟨s1, s2⟩ := Cli.test_strs
  obtain ⟨i1, i2⟩ := Cli.test_ints
  rw [solTest_iff, solTest_iff]
  have hx : (Cmdline.parse Cli.testOpts (prog' :: args')).exist "filter".toList = some true ↔
      (Cmdline.parse Cli.testOpts (prog :: args)).exist "filter".toList = some true := by
    rw [Cli.present_iff ht (o := Cli.testOpts[3]) (by decide) rfl, Cli.present_iff ht' (o := Cli.testOpts[3]) (by decide) rfl]
    exact (hs "filter" (by decide)).1.symm
  have key : Cli.testMain W.env (prog' :: args') = resize b' f' (Cli.testMain W.env (prog :: args)) := by
    unfold Cli.testMain
    rw [hr, hr']
    dsimp only
    have := test_resize (env := W.env) (ht'.told.2.1.trans ht.told.2.1.symm) hx
      ((Cli.str_iff ht' s2 _).2 (((hs "filter" (by decide)).2 _).1 ((Cli.str_iff ht s2 _).1 rfl)))
      ((Cli.str_iff ht' s1 _).2 (((hs "format" (by decide)).2 _).1 ((Cli.str_iff ht s1 _).1 rfl)))
      (by rw [(Cli.num_iff ht i1 _).2 hb.1]; exact hb.2) (by rw [(Cli.num_iff ht i2 _).2 hf.1]; exact hf.2)
      (by rw [(Cli.num_iff ht' i1 _).2 hb'.1]; exact hb'.2) (by rw [(Cli.num_iff ht' i2 _).2 hf'.1]; exact hf'.2)
    rw [this, (Cli.num_iff ht' i1 _).2 hb'.1, (Cli.num_iff ht' i2 _).2 hf'.1]
  rw [testEnd_resize pw W key]

/-- **C77 (formats).** The binary file that `converter` makes of a data file trains the same model: a run on it ends with the same
    status and the same bytes as a run on the original. -/
theorem C77_converted (hpw : Powf pw) (mach : DataFile.Machine) (cprog : List Char) (cargs : List (List Char))
    (g : List (Cmdline.Opt × Option Cmdline.Val)) (hg : Orders Cli.converterOpts cargs g) (src srcType dst : List Char)
    (hx : Texts Cli.converterOpts g [("input", src), ("input_type", srcType), ("output", dst), ("output_type", "bin".toList)])
    (hn : Threshold Cli.converterOpts g none) (file : DataFile.File) (hm : Serves mach src dst file) (pts : List (Tools.Pt F32))
    (hr : ReadsAs pw srcType file pts .endOfFile) (hp : ∀ p ∈ pts, BinaryPoint p) :
    ∃ f, DataFile.converterMain pw mach (cprog :: cargs) = .ok ⟨0, [(dst, f)]⟩ ∧
      ∀ (W W' : World) (prog prog' : List Char) (args args' : List (List Char)) (j : Cli.Job) (w : Bool) (c c' : Int) (e : Whole.End),
        W.reads src = some file → W'.reads dst = some f → j.path = src → j.format = srcType →
        Cli.trainMain W.env (prog :: args) = .done j w c →
        Cli.trainMain W'.env (prog' :: args') = .done { j with path := dst, format := "bin".toList } w c' →
        (SolTrain pw powf ρ d W (prog :: args) e ↔ SolTrain pw powf ρ d W' (prog' :: args') e) := by
  obtain ⟨f, h1, qs, h2, h3⟩ := (C75_converter_partial pw hpw mach cprog cargs g hg src srcType dst .bin hx file hm pts hr).1 hn hp
  refine ⟨f, h1, fun W W' prog prog' args args' j w c c' e hW hW' hp1 hp2 hj hj' => ?_⟩
  have e1 : qs = pts := by
    clear h2 hr hp h1
    induction h3 with
    | nil => rfl
    | cons h _ ih => rw [ih, show _ = _ from h]
  subst e1
  subst hp1 hp2
  by_cases hps : j.passes ≤ 0
  · exact C76_points pw powf ρ d W W' prog prog' args args' j _ w c c' [] hj hj' rfl rfl (.inl ⟨hps, rfl⟩) (.inl ⟨hps, rfl⟩) e
  · exact C76_points pw powf ρ d W W' prog prog' args args' j _ w c c' (lessons qs .endOfFile j.passes) hj hj' rfl rfl
      (.inr ⟨by omega, file, qs, _, hW, hr, rfl⟩) (.inr ⟨by simp only; omega, f, qs, _, hW', h2, rfl⟩) e

/-- **C77 (passes).** `k` passes over a file train the same model as one pass over a file with its points `k` times. -/
theorem C77_passes (W W' : World) (prog prog' : List Char) (args args' : List (List Char)) (j : Cli.Job) (k : Nat) (path fmt : List Char)
    (w : Bool) (c c' : Int) (file file' : DataFile.File) (pts : List (Tools.Pt F32)) (hk : j.passes = k) (h0 : 0 < k)
    (hf : W.reads j.path = some file) (hr : ReadsAs pw j.format file pts .endOfFile)
    (hf' : W'.reads path = some file') (hr' : ReadsAs pw fmt file' (List.replicate k pts).flatten .endOfFile)
    (h : Cli.trainMain W.env (prog :: args) = .done j w c)
    (h' : Cli.trainMain W'.env (prog' :: args') = .done { j with path := path, format := fmt, passes := 1 } w c') (e : Whole.End) :
    SolTrain pw powf ρ d W (prog :: args) e ↔ SolTrain pw powf ρ d W' (prog' :: args') e := by
  refine C76_points pw powf ρ d W W' prog prog' args args' j _ w c c' (lessons pts .endOfFile j.passes) h h' rfl rfl
    (.inr ⟨by omega, file, pts, _, hf, hr, rfl⟩) (.inr ⟨Int.one_pos, file', _, _, hf', hr', ?_⟩) e
  have : k ≠ 0 := by omega
  simp [lessons, filePoints, hk, this]

/-- **C78.** On data that suit the model, `sol_train` ends with status 0 and writes a trained model, for every class, for new and for
    loaded models, whatever the arithmetic does. -/
theorem C78_trains_partial (W : World) (hW : Loads W) (prog : List Char) (args : List (List Char)) (j : Cli.Job) (w : Bool) (c : Int)
    (l : List (Ex F32)) (h : Cli.trainMain W.env (prog :: args) = .done j w c) (hl : Reads pw W j l) (ht : Trainable j.model l) :
    ∃ m, Trained j.model m ∧ Reached W.files m ∧
      ∀ e, SolTrain pw powf ρ d W (prog :: args) e ↔ ∃ files, e = .exit 0 files ∧ Wrote W j (saveText m) files := by
  obtain ⟨rfl, g, ws, -, -, -, ha, rfl⟩ := C60_train_only_partial _ _ _ _ _ _ h
  have hr := job_reached hW h
  obtain ⟨m, h1, h2⟩ := trainModel_trained hr powf ρ d [l] (by simpa using ht)
  refine ⟨m, h2, .train hr h2, fun e => ?_⟩
  rw [solTrain_done h, (reads_data ha.data l).1 hl]
  simp only [Res.bind, h1]
  exact wrote_iff (plain7_saveText m) e

/-- **C78.** The file that was written is loaded again, as the same model up to printing. -/
theorem C78_loads_partial (W : World) (hW : Loads W) (files : List Char → Option (List Char)) (m : M) (hm : Reached files m)
    (hs : Storable m) (p : List Char) (f : DataFile.File) (hf : W.reads p = some f) (ht : DataFile.chars f = saveText m) :
    ∃ m', W.load p = .model m' ∧ SameModel m m' := by
  have hsv := C46_reached_partial hm hs.t hs.k hs.dim hs.features hs.settings hs.vectors
  obtain ⟨junk, h1⟩ := hW.complete p f hf
  obtain ⟨m', N, h2, h3, h4, h5, h6, h7, h8, h9, h10, h11, h12⟩ := C46_file_partial (files := W.files) hsv hs.classes junk
  refine ⟨m', h1 N _ ?_, h3, h4, h5, h6, h7, h8, h9, h10, h11, h12⟩
  rw [ht]
  exact h2 N le_rfl

/-- **C79.** `sol_test` ends with status 0 and writes one line per example, in order: the label, and the label that belongs to the
    scores, which follow.  Nothing is asked of the data but ascending indexes. -/
theorem C79_predictions (W : World) (hW : Loads W) (prog : List Char) (args : List (List Char)) (j : Cli.Job) (w : Bool) (c : Int)
    (l : List (Ex F32)) (h : Cli.testMain W.env (prog :: args) = .done j w c) (hl : Reads pw W j l) (ha : ∀ e ∈ l, Sparse.Ascending e.x) :
    ∃ xs rows, List.Forall₂ (fun e x => preProcess (vectors j.model.classNum) j.model.sel j.model.norm e = .ok x) l xs ∧
      List.Forall₂ (RowOf (cfgOf j.model .hinge) (startSt j.model ())) xs rows ∧
      List.Forall₂ (fun (e : Ex F32) (r : Train.Row F32) => r.label = calibrate (vectors j.model.classNum) e.label ∧
        r.scores.length = vectors j.model.classNum ∧ Picks j.model.classNum r.scores r.pred) l rows ∧
      ∀ e, SolTest pw W (prog :: args) e ↔ ∃ files, e = .exit 0 files ∧ Wrote W j (unlines (predictionLines rows)) files := by
  obtain ⟨rfl, g, ws, -, -, hk, rfl⟩ := C60_test_only_partial _ _ _ _ _ _ h
  obtain ⟨xs, rows, rate, h1, h2, h3, h4, -⟩ := testModel_rows (test_reached hW h) l ha
  refine ⟨xs, rows, h2, h3, h4, fun e => ?_⟩
  rw [solTest_done h, (reads_data hk.data l).1 hl]
  simp only [Res.bind, h1]
  rw [← predText_lines]
  exact wrote_iff (plain7_predText rows) e

/-- **C79.** A model file that `sol_train` has written is taken by `sol_test`, which does its job with the same model up to printing
    (and then `C79_predictions` says what it writes). -/
theorem C79_after_training_partial (W W' : World) (hW : Loads W) (hW' : Loads W') (prog prog' : List Char) (args args' : List (List Char))
    (j : Cli.Job) (w : Bool) (c : Int) (l : List (Ex F32)) (h : Cli.trainMain W.env (prog :: args) = .done j w c) (hl : Reads pw W j l)
    (ht : Trainable j.model l) (p : List Char) (f : DataFile.File) (he : SolTrain pw powf ρ d W (prog :: args) (.exit 0 [(p, f)]))
    (hf : W'.reads p = some f) (path : List Char) (os : List (List Char)) (g : List (Cmdline.Opt × Option Cmdline.Val))
    (hg : Says Cli.testOpts args' g (p :: path :: os)) (hh : ¬ Present g "help") (hx : ¬ Present g "filter") (fmt : List Char)
    (batch buf : Int) (out : Option (List Char)) (hos : (os = [] ∧ out = none) ∨ ∃ o, os = [o] ∧ Output o out)
    (hz : ∀ m, Sized Cli.testOpts g ⟨m, path, fmt, 1, batch, buf, out⟩ ∧ Readable W'.env ⟨m, path, fmt, 1, batch, buf, out⟩) :
    ∃ m, Trained j.model m ∧ DataFile.chars f = saveText m ∧ (Storable m → ∃ m', SameModel m m' ∧ ∃ w',
      Cli.testMain W'.env (prog' :: args') = .done ⟨m', path, fmt, 1, batch, buf, out⟩ w' 0) := by
  obtain ⟨m, h1, h2, h3⟩ := C78_trains_partial pw powf ρ d W hW prog args j w c l h hl ht
  obtain ⟨files, h4, h5⟩ := (h3 _).1 he
  obtain ⟨-, rfl⟩ := Whole.End.exit.inj h4
  rcases h5 with ⟨-, h5⟩ | ⟨q, f', -, -, h5, h6⟩
  · cases h5
  · obtain ⟨rfl, rfl⟩ : p = q ∧ f = f' := by simpa using h5
    refine ⟨m, h1, h6, fun hs => ?_⟩
    obtain ⟨m', h7, h8⟩ := C78_loads_partial W' hW' W.files m h2 hs p f hf h6
    refine ⟨m', h8, _, (C60_test_partial W'.env hg hh prog' _ _ _).2 ⟨⟨⟨p, m', h7, ?_, .inl ⟨hx, rfl⟩⟩, (hz m').1, rfl, (hz m').2⟩, rfl, rfl⟩⟩
    rcases hos with ⟨rfl, rfl⟩ | ⟨o, rfl, ho⟩
    · exact .inl ⟨rfl, rfl⟩
    · exact .inr ⟨o, rfl, ho⟩

theorem printed_zero {y : F32} (h : Printed 0 y) : y = 0 := by
  obtain ⟨q, d, h1, h2, rfl⟩ := h
  obtain rfl : 0 = q := F32.fin.inj h1
  rcases h2 with ⟨-, rfl⟩ | ⟨x, N, h3, -⟩
  · decide +kernel
  · rw [abs_zero] at h3
    exact absurd h3 (not_le.2 (by positivity))

theorem active_printed {ws ws' : List (List F32)} (h : List.Forall₂ (List.Forall₂ Printed) ws ws') {i : Nat} (ha : Active ws' i) :
    Active ws i := by
  obtain ⟨h1, w', hw', a', ha', hn⟩ := ha
  refine ⟨h1, ?_⟩
  obtain ⟨n, hn1, rfl⟩ := List.getElem_of_mem hw'
  have hl := h.length_eq
  have hp := h.get (by omega) hn1
  simp only [List.get_eq_getElem] at hp
  obtain ⟨hi, e⟩ := List.getElem?_eq_some_iff.1 ha'
  have hl2 := hp.length_eq
  have hq := hp.get (by omega) hi
  simp only [List.get_eq_getElem] at hq
  refine ⟨ws[n], List.getElem_mem _, _, List.getElem?_eq_getElem (by omega), fun h0 => hn ?_⟩
  rw [h0] at hq
  rw [← e]
  exact printed_zero hq

/-- **C80.** A model that has no weights yet and shall keep `B` features: the file that `sol_train` writes has at most `B` features with
    a weight, whatever the data and the arithmetic, and so has the model that is loaded from it. -/
theorem C80_budget_partial (W : World) (hW : Loads W) (prog : List Char) (args : List (List Char)) (j : Cli.Job) (w : Bool) (c : Int)
    (l : List (Ex F32)) (h : Cli.trainMain W.env (prog :: args) = .done j w c) (hl : Reads pw W j l) (ht : Trainable j.model l) (B : Nat)
    (hB : Chooses j.model B) (h0 : ∀ i, ¬ Active j.model.w i) :
    ∃ m, Trained j.model m ∧ WithinBudget B m.w ∧ (∀ m', SameModel m m' → WithinBudget B m'.w) ∧
      ∀ e, SolTrain pw powf ρ d W (prog :: args) e ↔ ∃ files, e = .exit 0 files ∧ Wrote W j (saveText m) files := by
  obtain ⟨rfl, g, ws, -, -, -, ha, rfl⟩ := C60_train_only_partial _ _ _ _ _ _ h
  have hr := job_reached hW h
  obtain ⟨m, h1, h2, h3⟩ := trainModel_within hr powf ρ d [l] (by simpa using ht) hB h0
  refine ⟨m, h2, h3, fun m' hs i hn hi => h3 i hn fun k hk => active_printed hs.w (hi k hk), fun e => ?_⟩
  rw [solTrain_done h, (reads_data ha.data l).1 hl]
  simp only [Res.bind, h1]
  exact wrote_iff (plain7_saveText m) e

/-- Models can be loaded from every disk. -/
theorem C78_loader (reads : List Char → Option DataFile.File) (writes : List Char → Bool) :
    ∃ load, Loads ⟨reads, writes, load⟩ := by
  classical
  let files : List Char → Option (List Char) := fun p => (reads p).map DataFile.chars
  refine ⟨fun p => match reads p with
    | none => .null
    | some f => if h : ∃ n r, loadText files n [] (DataFile.chars f) = some r then h.choose_spec.choose else .null, ?_, ?_⟩
  · intro p m hm
    dsimp only at hm ⊢
    cases hr : reads p with
    | none => rw [hr] at hm; cases hm
    | some f =>
      rw [hr] at hm
      dsimp only at hm
      split_ifs at hm with h
      exact ⟨f, h.choose, [], rfl, hm ▸ h.choose_spec.choose_spec⟩
  · intro p f hf
    refine ⟨[], fun n r hr => ?_⟩
    have h : ∃ n r, loadText files n [] (DataFile.chars f) = some r := ⟨n, r, hr⟩
    dsimp only at hf ⊢
    rw [hf]
    dsimp only
    rw [dif_pos h]
    exact loadText_once h.choose_spec.choose_spec hr

/-- A machine with these files, which loads models in at most `n` steps; everything can be written but `readonly`. -/
def diskOf (reads : List Char → Option DataFile.File) (n : Nat) : World where
  reads := reads
  writes p := p ≠ "readonly".toList
  load p := match reads p with
    | none => .null
    | some f => (loadText (fun p => (reads p).map DataFile.chars) n [] (DataFile.chars f)).getD .null

theorem diskOf_loads (reads : List Char → Option DataFile.File) (n : Nat)
    (h : ∀ p f, reads p = some f → (loadText (fun p => (reads p).map DataFile.chars) n [] (DataFile.chars f)).isSome = true) :
    Loads (diskOf reads n) := by
  refine loads_of (n := n) (fun p m hr => ?_) fun p f hr => ?_
  · unfold diskOf at hr ⊢
    dsimp only at hr ⊢
    rw [hr]
    exact fun h => by cases h
  · have h1 := h p f hr
    unfold diskOf at hr ⊢
    unfold World.files
    dsimp only at hr ⊢
    rw [hr]
    dsimp only
    generalize loadText (fun p => (reads p).map DataFile.chars) n [] (DataFile.chars f) = r at h1 ⊢
    cases r with
    | none => cases h1
    | some r => rfl

/-- A disk with these files. -/
def disk (fs : List (String × String)) : World :=
  diskOf (fun p => (fs.find? fun f => f.1.toList = p).map fun f => DataFile.ofChars f.2.toList) 1000

/-- A model file that `sol_train` writes. -/
def lassoFile : String :=
  "model info:\n{\n\t\"clf_num\" : 1,\n\t\"cls_num\" : 2,\n\t\"loss\" : \"hinge\",\n\t\"model\" : \"fobos-l1\",\n\t\"norm\" : 0,\n" ++
  "\t\"online\" : \n\t{\n\t\t\"bias_eta\" : 0,\n\t\t\"dim\" : 4,\n\t\t\"eta\" : 1,\n\t\t\"lazy_update\" : \"false\",\n\t\t\"power_t\" : 0.5,\n" ++
  "\t\t\"t\" : 4\n\t},\n\t\"regularizer\" : \n\t{\n\t\t\"lambda\" : 0.125\n\t}\n}\nmodel parameters:\nweight[0]:\n" ++
  "[ 0 0.146447 -0.795495 1.64645 ]\n"

/-- Two data files and a model. -/
def smallDisk : World := disk [("d", good), ("dd", good ++ good), ("e", "1 1:2\n"), ("m", lassoFile)]

theorem smallDisk_loads : Loads smallDisk := by
  refine diskOf_loads _ _ fun p f hf => ?_
  obtain ⟨g, h1, rfl⟩ := Option.map_eq_some_iff.1 hf
  have hm := List.mem_of_find?_eq_some h1
  clear hf h1
  revert g
  decide +kernel

/-- A run of `sol_train` with these words. -/
def Trains (W : World) (words : List String) (e : Whole.End) : Prop :=
  letI : FFun F32 := unusedFun
  SolTrain bestPow (fun a _ => a) (fun _ => 0) (.newStep 1) W (typed words) e

/-- **C76, C77, C78.** Two passes over a file, with other sizes, one pass over a file with all points twice, and the binary file that
    `converter` makes: the same model file, and `sol_test` takes it. -/
theorem C78_instance :
    Trains smallDisk ["sol_train", "-a", "fobos-l1", "-f", "svm", "-p", "2", "--params", "lambda=0.125", "d", "m"]
      (.exit 0 [("m".toList, DataFile.ofChars lassoFile.toList)]) ∧
    Trains smallDisk ["sol_train", "-a", "fobos-l1", "-f", "svm", "-p", "2", "--params", "lambda=0.125", "-b", "1", "--bufsize", "1", "d", "m"]
      (.exit 0 [("m".toList, DataFile.ofChars lassoFile.toList)]) ∧
    Trains smallDisk ["sol_train", "-a", "fobos-l1", "-f", "svm", "--params", "lambda=0.125", "dd", "m"]
      (.exit 0 [("m".toList, DataFile.ofChars lassoFile.toList)]) ∧
    Trains smallDisk ["sol_train", "-a", "fobos-l1", "-f", "svm", "--params", "lambda=0.125", "dd", "readonly"] (.exit 0 []) := by
  unfold Trains
  simp only [typed, List.map_cons]
  simp only [solTrain_iff]
  decide +kernel

/-- The hypotheses of C76, C77 and C78 are met: the first command line of `C78_instance` asks for a job, the file gives four examples,
    and the model can learn from them; its regularizer sees all dimensions. -/
example : ∃ j l, Cli.trainMain smallDisk.env (typed ["sol_train", "-a", "fobos-l1", "-f", "svm", "-p", "2", "--params", "lambda=0.125", "d", "m"]) =
      .done j true 0 ∧ Reads bestPow smallDisk j l ∧ l.length = 4 ∧ Trainable j.model l := by
  refine ⟨⟨{ fresh .fobosL1 2 with lambda := .fin (1 / 8) }, "d".toList, "svm".toList, 2, 256, 2, some "m".toList⟩,
    lessons [⟨1, [(1, .fin (1 / 2)), (3, .fin 2)]⟩, ⟨-1, [(2, .fin (3 / 2))]⟩] .endOfFile 2, by decide +kernel,
    .inr ⟨by decide, DataFile.ofChars good.toList, _, _, by decide +kernel, ?_, rfl⟩, rfl, ?_⟩
  · exact ⟨⟨.svm, 4096, DataFile.ofChars good.toList⟩, by decide +kernel, by decide +kernel⟩
  · have key : ∀ e ∈ lessons [⟨1, [(1, F32.fin (1 / 2)), (3, .fin 2)]⟩, ⟨-1, [(2, .fin (3 / 2))]⟩] .endOfFile 2,
        e = ⟨1, [(1, .fin (1 / 2)), (3, .fin 2)]⟩ ∨ e = ⟨-1, [(2, .fin (3 / 2))]⟩ := by
      intro e he
      simp [lessons, filePoints, exOf] at he
      rw [one_div]
      tauto
    refine ⟨fun e he => ⟨?_, fun h => absurd h (by decide), .inl rfl⟩, fun h => absurd h (by decide), fun h => absurd h (by decide),
      fun h => absurd h (by decide), fun _ => .inl rfl, fun h => absurd h (by decide)⟩
    rcases key e he with rfl | rfl <;> exact ⟨by unfold Sparse.Ascending; decide, by decide⟩

/-- **C77.** The binary file that `converter` makes of the data gives the model file of `C78_instance`, too. -/
theorem C77_instance :
    ∃ f, Yields (DataFile.converterMain bestPow (oneFile "d" good good) (typed ["converter", "-i", "d", "-s", "svm", "-o", "b", "-d", "bin"]))
      (fun r => r = ⟨0, [("b".toList, f)]⟩) ∧
    Trains (diskOf (fun p => if p = "b".toList then some f else none) 1000)
      ["sol_train", "-a", "fobos-l1", "-f", "bin", "-p", "2", "--params", "lambda=0.125", "b", "m"]
      (.exit 0 [("m".toList, DataFile.ofChars lassoFile.toList)]) := by
  refine ⟨[1, 0, 0, 0, 2, 0, 0, 0, 0, 0, 0, 0, 2, 0, 0, 0, 0, 0, 0, 0, 1, 2, 0, 0, 0, 63, 0, 0, 0, 64, 255, 255, 255, 255, 1, 0, 0, 0,
    0, 0, 0, 0, 1, 0, 0, 0, 0, 0, 0, 0, 2, 0, 0, 192, 63], ?_⟩
  unfold Trains
  simp only [typed, List.map_cons]
  simp only [solTrain_iff]
  decide +kernel

/-- **C79.** The predictions of the model of `C78_instance` for its data, and the way to the theorem. -/
theorem C79_instance :
    SolTest bestPow smallDisk (typed ["sol_test", "-f", "svm", "m", "d", "p"])
      (.exit 0 [("p".toList, DataFile.ofChars "label\tpredict\tscores\n1\t1\t3.36612\n-1\t-1\t-1.19324\n".toList)]) ∧
    SolTest bestPow smallDisk (typed ["sol_test", "-b", "1", "m", "e", "p"])
      (.exit 0 [("p".toList, DataFile.ofChars "label\tpredict\tscores\n1\t1\t0.292894\n".toList)]) := by
  simp only [typed, List.map_cons]
  simp only [solTest_iff]
  decide +kernel

/-- **C78 is violated** without its conditions.  The model of `C78_instance` cannot be trained further on data that lack its last
    features: an exception, and the result is lost.  A negative number of features is converted to an unsigned integer.  A label that
    is no class is an index outside of the vector.  Cost sensitive learning with another loss: a model that has learned nothing is
    saved, status 0.  -/
theorem C78_is_violated :
    Trains smallDisk ["sol_train", "-m", "m", "-f", "svm", "e", "n"] .thrown ∧
    Trains smallDisk ["sol_train", "-a", "pet", "--params", "B=-5", "-f", "svm", "d", "n"] (.undef .badCast) ∧
    Trains smallDisk ["sol_train", "-a", "perceptron", "-c", "3", "-f", "svm", "d", "n"] (.undef .outOfBounds) ∧
    Trains smallDisk ["sol_train", "-a", "ogd", "--params", "loss=logistic;cost_margin=1", "-f", "svm", "d", "n"]
      (.exit 0 [("n".toList, DataFile.ofChars (saveText (Params.set noFiles (Params.set noFiles (fresh .ogd 2) "loss" "logistic".toList).1
        "cost_margin" "1".toList).1))]) := by
  unfold Trains
  simp only [typed, List.map_cons]
  simp only [solTrain_iff]
  decide +kernel

/-- **C80.** One feature of four is kept. -/
theorem C80_instance :
    Trains smallDisk ["sol_train", "-a", "pet", "--params", "B=1", "-f", "svm", "d", "n"]
      (.exit 0 [("n".toList, DataFile.ofChars ("model info:\n{\n\t\"clf_num\" : 1,\n\t\"cls_num\" : 2,\n\t\"loss\" : \"hinge\",\n" ++
        "\t\"model\" : \"pet\",\n\t\"norm\" : 0,\n\t\"online\" : \n\t{\n\t\t\"bias_eta\" : 0,\n\t\t\"dim\" : 4,\n\t\t\"eta\" : 1,\n" ++
        "\t\t\"lazy_update\" : \"false\",\n\t\t\"power_t\" : 0.5,\n\t\t\"t\" : 2\n\t},\n\t\"regularizer\" : \n\t{\n\t\t\"lambda\" : 1\n\t}\n}\n" ++
        "model parameters:\nweight[0]:\n[ 0 0 0 2 ]\n").toList)]) := by
  unfold Trains
  simp only [typed, List.map_cons]
  simp only [solTrain_iff]
  decide +kernel

/-- The hypotheses of C80 are met by this command line. -/
example : ∃ j, Cli.trainMain smallDisk.env (typed ["sol_train", "-a", "pet", "--params", "B=1", "-f", "svm", "d", "n"]) = .done j true 0 ∧
    Chooses j.model 1 ∧ ∀ i, ¬ Active j.model.w i := by
  refine ⟨⟨{ fresh .pet 2 with lambda := .fin 1 }, "d".toList, "svm".toList, 1, 256, 2, some "n".toList⟩, by decide +kernel,
    ⟨le_rfl, .inr ⟨by decide, 1, rfl, by norm_num, by norm_num⟩⟩, ?_⟩
  rintro i ⟨h1, w, hw, a, h2, h3⟩
  obtain rfl : w = [0] := by simpa [fresh, vectors] using hw
  cases i with
  | zero => omega
  | succ i => simp at h2

/-- The model file of SOFS with this time, these weights and these variances. -/
def sofsFile (t w v : String) : String :=
  "model info:\n{\n\t\"clf_num\" : 1,\n\t\"cls_num\" : 2,\n\t\"loss\" : \"hinge\",\n\t\"model\" : \"sofs\",\n\t\"norm\" : 0,\n" ++
  "\t\"online\" : \n\t{\n\t\t\"bias_eta\" : 0,\n\t\t\"dim\" : 4,\n\t\t\"lazy_update\" : \"false\",\n\t\t\"r\" : 1,\n" ++
  "\t\t\"t\" : " ++ t ++ "\n\t},\n\t\"regularizer\" : \n\t{\n\t\t\"lambda\" : 1\n\t}\n}\nmodel parameters:\nweight[0]:\n" ++
  "[ " ++ w ++ " ]\nSigma[0]: \n[ " ++ v ++ " ]\n"

/-- **C80 is violated** for loaded models: SOFS that shall keep one feature keeps one, but when it is trained further with another
    example it has two (as in C55, with the files). -/
theorem C80_is_violated :
    Trains (disk [("d", good)]) ["sol_train", "-a", "sofs", "-f", "svm", "--params", "B=1", "d", "m"]
      (.exit 0 [("m".toList, DataFile.ofChars (sofsFile "2" "0 0 0 0.380952" "0.333333 0.8 0.307692 0.2").toList)]) ∧
    Trains (disk [("e", "1 1:2\n"), ("m", sofsFile "2" "0 0 0 0.380952" "0.333333 0.8 0.307692 0.2")])
      ["sol_train", "-m", "m", "-f", "svm", "e", "m"]
      (.exit 0 [("m".toList, DataFile.ofChars (sofsFile "3" "0 0.380952 0 0.380952" "0.25 0.190476 0.307692 0.2").toList)]) := by
  unfold Trains
  simp only [typed, List.map_cons]
  simp only [solTrain_iff]
  decide +kernel

end Sol.Props
