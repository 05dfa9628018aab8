import Verif.Props.Cli
import Verif.Props.DataTools
import Verif.Spec.ToolMains
/-!
# Property C75: the data tools do what their command lines say
-/

namespace Sol.Props
open Sol.DataFile Sol.Spec Sol.Tools Sol.Cmdline Sol.Cli

/-- What a tool finds when it is given orders. -/
theorem orders_run {os : List Opt} (hd : Distinct os) {h : Opt} (hh : h ∈ os) (hn : h.name = "help".toList) {args : List (List Char)}
    {g : List (Opt × Option Val)} (ho : Orders os args g) (prog : List Char) (k : Cmdline.St → Res Done) :
    ∃ s ws, Taken os s g ws ∧ mainOf os (prog :: args) k = k s := by
  obtain ⟨⟨ws, h1⟩, h2, h3⟩ := ho
  have ht : Taken os (parse os (prog :: args)) g ws :=
    ⟨hd, fun o x hx => (says_kind h1 o x hx).1, says_fits h1, C59_reads_partial hd h1 h2 prog⟩
  refine ⟨_, ws, ht, ?_⟩
  unfold mainOf
  rw [(C59_runs_partial hd prog args _).2 ⟨rfl, fun hc => h3 ((present_iff ht hh hn).1 hc), g, ws, h1, h2, ht.told⟩]

/-- A tool that runs has been given orders. -/
theorem orders_of {os : List Opt} (hd : Distinct os) {h : Opt} (hh : h ∈ os) (hn : h.name = "help".toList) {args : List (List Char)}
    {prog : List Char} {s : Cmdline.St} (hf : front os (prog :: args) = .run s) : ∃ g ws, Orders os args g ∧ Taken os s g ws := by
  obtain ⟨rfl, h1, g, ws, h2, h3, h4⟩ := (C59_runs_partial hd prog args s).1 hf
  have ht : Taken os (parse os (prog :: args)) g ws := ⟨hd, fun o x hx => (says_kind h2 o x hx).1, says_fits h2, h4⟩
  exact ⟨g, ws, ⟨⟨ws, h2⟩, h3, fun hc => h1 ((present_iff ht hh hn).2 hc)⟩, ht⟩

/-- A command line without orders is refused. -/
theorem orders_none {os : List Opt} (hd : Distinct os) {h : Opt} (hh : h ∈ os) (hn : h.name = "help".toList) (args : List (List Char))
    (ho : ∀ g, ¬ Orders os args g) (prog : List Char) (k : Cmdline.St → Res Done) :
    ∃ c : Int, (c = 0 ∨ c = 1) ∧ mainOf os (prog :: args) k = .ok ⟨c, []⟩ := by
  unfold mainOf
  cases hf : front os (prog :: args) with
  | exit c =>
    refine ⟨c, ?_, rfl⟩
    unfold front check at hf
    split_ifs at hf <;> cases hf <;> simp
  | run s =>
    obtain ⟨g, _, h1, _⟩ := orders_of hd hh hn hf
    exact absurd h1 (ho g)

theorem texts_str {os : List Opt} {s : Cmdline.St} {g : List (Opt × Option Val)} {ws : List (List Char)} (ht : Taken os s g ws)
    {l : List (String × List Char)} (h : Texts os g l) {name : String} {v : List Char} (hm : (name, v) ∈ l)
    {o : Opt} (ho : o ∈ os) (hn : o.name = name.toList) (hr : o.reader = some .str) (hd : Cli.Fits .str o.dflt) : str s name = v :=
  (str_iff ht ⟨o, ho, hn, .str, hr, fun _ => fits_str, hd⟩ v).2 (h _ hm)

/-- **C75 (refusals).** Without orders no tool writes anything; the status is 1, or 0 for no arguments and for `--help`. -/
theorem C75_refuses (pw : Int → F32) (pct : Nat → Nat → List Char) (m : Machine) (choice : Nat → Nat) (prog : List Char) (args : List (List Char)) :
    ((∀ g, ¬ Orders converterOpts args g) → ∃ c : Int, (c = 0 ∨ c = 1) ∧ converterMain pw m (prog :: args) = .ok ⟨c, []⟩) ∧
    ((∀ g, ¬ Orders shuffleOpts args g) → ∃ c : Int, (c = 0 ∨ c = 1) ∧ shuffleMain pw m choice (prog :: args) = .ok ⟨c, []⟩) ∧
    ((∀ g, ¬ Orders splitOpts args g) → ∃ c : Int, (c = 0 ∨ c = 1) ∧ splitMain pw m choice (prog :: args) = .ok ⟨c, []⟩) ∧
    ((∀ g, ¬ Orders concatOpts args g) → ∃ c : Int, (c = 0 ∨ c = 1) ∧ concatMain pw m (prog :: args) = .ok ⟨c, []⟩) ∧
    ((∀ g, ¬ Orders analyzeOpts args g) → ∃ c : Int, (c = 0 ∨ c = 1) ∧ analyzeMain pw pct m (prog :: args) = .ok ⟨c, []⟩) := by
  obtain ⟨_, _, d1, d2, d3, d4, d5⟩ := C59_tables
  exact ⟨fun h => orders_none d3 (h := converterOpts[5]) (by decide) rfl args h prog _,
    fun h => orders_none d4 (h := shuffleOpts[4]) (by decide) rfl args h prog _,
    fun h => orders_none d5 (h := splitOpts[6]) (by decide) rfl args h prog _,
    fun h => orders_none d2 (h := concatOpts[4]) (by decide) rfl args h prog _,
    fun h => orders_none d1 (h := analyzeOpts[3]) (by decide) rfl args h prog _⟩

theorem converter_calls (pw : Int → F32) (m : Machine) (prog : List Char) {args : List (List Char)} {g : List (Opt × Option Val)}
    (ho : Orders converterOpts args g) {src srcType dst dstType : List Char}
    (hx : Texts converterOpts g [("input", src), ("input_type", srcType), ("output", dst), ("output_type", dstType)])
    {t : Option F32} (ht : Threshold converterOpts g t) :
    converterMain pw m (prog :: args) = DataFile.convert pw m src srcType dst dstType t := by
  obtain ⟨s, ws, hs, h1⟩ := orders_run C59_tables.2.2.2.2.1 (h := converterOpts[5]) (by decide) rfl ho prog (fun s =>
    DataFile.convert pw m (Cli.str s "input") (Cli.str s "input_type") (Cli.str s "output") (Cli.str s "output_type") (realOf s "binary_thresh"))
  have e : realOf s "binary_thresh" = t := by
    have hp := present_iff hs (o := converterOpts[4]) (name := "binary_thresh") (by decide) rfl
    unfold realOf
    cases t with
    | none => rw [if_neg (fun h => ht (hp.1 h))]
    | some t => rw [if_pos (hp.2 ht.1), (value_iff hs (o := converterOpts[4]) (by decide) rfl (by decide) _).2 ht.2]
  unfold converterMain
  rw [h1, texts_str hs hx (name := "input") (v := src) (o := converterOpts[0]) (by simp) (by decide) rfl rfl (by decide),
    texts_str hs hx (name := "input_type") (v := srcType) (o := converterOpts[1]) (by simp) (by decide) rfl rfl (by decide),
    texts_str hs hx (name := "output") (v := dst) (o := converterOpts[2]) (by simp) (by decide) rfl rfl (by decide),
    texts_str hs hx (name := "output_type") (v := dstType) (o := converterOpts[3]) (by simp) (by decide) rfl rfl (by decide), e]

/-- **C75 (converter), the part that holds.** The output holds the points of the input, or, with a threshold, their labels and indexes
    with the values 1 and -1.  Missing: what is missing in C74. -/
theorem C75_converter_partial (pw : Int → F32) (hpw : Powf pw) (m : Machine) (prog : List Char) (args : List (List Char))
    (g : List (Opt × Option Val)) (ho : Orders converterOpts args g) (src srcType dst : List Char) (fmt : Format)
    (hx : Texts converterOpts g [("input", src), ("input_type", srcType), ("output", dst), ("output_type", typeName fmt)])
    (file : File) (hm : Serves m src dst file) (pts : List (Pt F32)) (hr : ReadsAs pw srcType file pts .endOfFile) :
    (Threshold converterOpts g none → Suits fmt pts → ∃ f, converterMain pw m (prog :: args) = .ok ⟨0, [(dst, f)]⟩ ∧ Saved pw fmt pts f) ∧
    (∀ t, Threshold converterOpts g (some t) → Suits fmt (pts.map allOnes) → ∃ f qs, converterMain pw m (prog :: args) = .ok ⟨0, [(dst, f)]⟩ ∧
      ReadsAs pw (typeName fmt) f qs .endOfFile ∧ List.Forall₂ (CutAt t) pts qs) := by
  constructor
  · intro ht hs
    rw [converter_calls pw m prog ho hx ht]
    exact C74_convert_partial pw hpw m src srcType dst fmt file hm pts hr hs
  · intro t ht hs
    rw [converter_calls pw m prog ho hx ht]
    exact C74_threshold_partial pw hpw m src srcType dst fmt t file hm pts hr hs

/-- **C75 (shuffle), the part that holds.** The output holds the points of the input in some order.  Missing: what is missing in C74. -/
theorem C75_shuffle_partial (pw : Int → F32) (hpw : Powf pw) (m : Machine) (choice : Nat → Nat) (prog : List Char) (args : List (List Char))
    (g : List (Opt × Option Val)) (ho : Orders shuffleOpts args g) (src srcType dst : List Char) (fmt : Format)
    (hx : Texts shuffleOpts g [("input", src), ("input_type", srcType), ("output", dst), ("output_type", typeName fmt)])
    (file : File) (hm : Serves m src dst file) (pts : List (Pt F32)) (hr : ReadsAs pw srcType file pts .endOfFile) (hs : Suits fmt pts) :
    ∃ f l, shuffleMain pw m choice (prog :: args) = .ok ⟨0, [(dst, f)]⟩ ∧ l.Perm pts ∧ Saved pw fmt l f := by
  obtain ⟨s, ws, ht, h1⟩ := orders_run C59_tables.2.2.2.2.2.1 (h := shuffleOpts[4]) (by decide) rfl ho prog (fun s =>
    DataFile.shuffle pw m choice (Cli.str s "input") (Cli.str s "input_type") (Cli.str s "output") (Cli.str s "output_type"))
  unfold shuffleMain
  rw [h1, texts_str ht hx (name := "input") (v := src) (o := shuffleOpts[0]) (by simp) (by decide) rfl rfl (by decide),
    texts_str ht hx (name := "input_type") (v := srcType) (o := shuffleOpts[1]) (by simp) (by decide) rfl rfl (by decide),
    texts_str ht hx (name := "output") (v := dst) (o := shuffleOpts[2]) (by simp) (by decide) rfl rfl (by decide),
    texts_str ht hx (name := "output_type") (v := typeName fmt) (o := shuffleOpts[3]) (by simp) (by decide) rfl rfl (by decide)]
  exact C74_shuffle_partial pw hpw m choice src srcType dst fmt file hm pts hr hs

/-- **C75 (split), the part that holds.** The files `pre0.type`, `pre1.type`, … hold consecutive blocks of equal size (the last one may be
    smaller) of the data set, which is in a random order exactly if `--shuffle` is given.  Missing: what is missing in C74. -/
theorem C75_split_partial (pw : Int → F32) (hpw : Powf pw) (m : Machine) (choice : Nat → Nat) (prog : List Char) (args : List (List Char))
    (g : List (Opt × Option Val)) (ho : Orders splitOpts args g) (src srcType pre : List Char) (fmt : Format) (k : Nat)
    (hx : Texts splitOpts g [("input", src), ("input_type", srcType), ("output_prefix", pre), ("output_type", typeName fmt)])
    (hv : Value splitOpts g "fold" (.int k)) (file : File) (hm : m.reads src = some file) (hk : 1 ≤ k) (hk2 : k < 2 ^ 31)
    (hw : ∀ j < k, m.writes (pre ++ decText j ++ '.' :: typeName fmt) = true) (pts : List (Pt F32))
    (hr : ReadsAs pw srcType file pts .endOfFile) (hs : Suits fmt pts) (hn : 1 ≤ pts.length) (hn2 : pts.length ≤ 2 ^ 24) :
    ∃ l out, splitMain pw m choice (prog :: args) = .ok ⟨0, out⟩ ∧ l.Perm pts ∧ (¬ Present g "shuffle" → l = pts) ∧
      out.map (·.1) = (List.range k).map (fun j => pre ++ decText j ++ '.' :: typeName fmt) ∧
      List.Forall₂ (Saved pw fmt) (blocks l ((pts.length + k - 1) / k) k) (out.map (·.2)) ∧
      (blocks l ((pts.length + k - 1) / k) k).flatten = l := by
  obtain ⟨s, ws, ht, h1⟩ := orders_run C59_tables.2.2.2.2.2.2 (h := splitOpts[6]) (by decide) rfl ho prog (fun s =>
    DataFile.split pw m (if s.exist "shuffle".toList = some true then some choice else none) (Cli.str s "input") (Cli.str s "input_type")
      (Cli.num s "fold") (Cli.str s "output_prefix") (Cli.str s "output_type"))
  have hp := present_iff ht (o := splitOpts[5]) (name := "shuffle") (by decide) rfl
  unfold splitMain
  rw [h1, texts_str ht hx (name := "input") (v := src) (o := splitOpts[0]) (by simp) (by decide) rfl rfl (by decide),
    texts_str ht hx (name := "input_type") (v := srcType) (o := splitOpts[1]) (by simp) (by decide) rfl rfl (by decide),
    (num_iff ht ⟨splitOpts[2], by decide, rfl, rfl, by decide⟩ _).2 hv,
    texts_str ht hx (name := "output_prefix") (v := pre) (o := splitOpts[3]) (by simp) (by decide) rfl rfl (by decide),
    texts_str ht hx (name := "output_type") (v := typeName fmt) (o := splitOpts[4]) (by simp) (by decide) rfl rfl (by decide)]
  obtain ⟨l, out, h2, h3, h4, h5⟩ := C74_split_partial pw hpw m (if s.exist "shuffle".toList = some true then some choice else none) src srcType
    pre fmt file hm k hk hk2 hw pts hr hs hn hn2
  exact ⟨l, out, h2, h3, fun h => h4 (if_neg fun hc => h (hp.1 hc)), h5⟩

/-- **C75 (concat), the part that holds.** The output holds the points of all inputs (separated by semicolons), one after the other.
    Missing: what is missing in C74. -/
theorem C75_concat_partial (pw : Int → F32) (hpw : Powf pw) (m : Machine) (prog : List Char) (args : List (List Char))
    (g : List (Opt × Option Val)) (ho : Orders concatOpts args g) (src srcType dst : List Char) (fmt : Format) (paths : List (List Char))
    (hp : Pieces ';' src paths)
    (hx : Texts concatOpts g [("input", src), ("input_type", srcType), ("output", dst), ("output_type", typeName fmt)])
    (files : List File) (hm : paths.map m.reads = files.map some) (hm2 : paths.map m.rereads = files.map some) (hw : m.writes dst = true)
    (sets : List (List (Pt F32))) (hr : List.Forall₂ (fun f pts => ReadsAs pw srcType f pts .endOfFile) files sets) (hs : Suits fmt sets.flatten) :
    ∃ f, concatMain pw m (prog :: args) = .ok ⟨0, [(dst, f)]⟩ ∧ Saved pw fmt sets.flatten f := by
  obtain ⟨s, ws, ht, h1⟩ := orders_run C59_tables.2.2.2.1 (h := concatOpts[4]) (by decide) rfl ho prog (fun s =>
    DataFile.concat pw m (Cli.str s "input") (Cli.str s "input_type") (Cli.str s "output") (Cli.str s "output_type"))
  unfold concatMain
  rw [h1, texts_str ht hx (name := "input") (v := src) (o := concatOpts[0]) (by simp) (by decide) rfl rfl (by decide),
    texts_str ht hx (name := "input_type") (v := srcType) (o := concatOpts[1]) (by simp) (by decide) rfl rfl (by decide),
    texts_str ht hx (name := "output") (v := dst) (o := concatOpts[2]) (by simp) (by decide) rfl rfl (by decide),
    texts_str ht hx (name := "output_type") (v := typeName fmt) (o := concatOpts[3]) (by simp) (by decide) rfl rfl (by decide)]
  have e : StrUtil.split ';' src = paths := StrUtil.split_of_pieces hp
  exact C74_concat_partial pw hpw m src srcType dst fmt files (by rw [e, hm]) (by rw [e, hm2]) hw sets hr hs

/-- What `analyze` writes. -/
theorem analyze_reports (pw : Int → F32) (pct : Nat → Nat → List Char)
    (hpct : ∀ v d : Nat, v ≤ d → 1 ≤ d → d ≤ 2 ^ 32 → Percent (100 - 100 * v / d) (pct v d)) (m : Machine) (src srcType dst : List Char)
    (file : File) (hm : m.reads src = some file) (hw : m.writes dst = true) (pts : List (Pt F32)) (s : Status) (hr : ReadsAs pw srcType file pts s)
    (ha : ∀ p ∈ pts, (p.feats.map (·.1)).Pairwise (· < ·)) (hi : ∀ i ∈ indexesOf pts, i < 2 ^ 32 - 1) (hne : indexesOf pts ≠ []) :
    ∃ text, DataFile.analyze pw pct m src srcType dst = .ok ⟨0, [(dst, ofChars text)]⟩ ∧ Reports (· + 1) pts text := by
  obtain ⟨o, ho, hc⟩ := hr
  have hb := batches_flatten 256 _ pts rfl
  have hi' : ∀ p ∈ pts, ∀ f ∈ p.feats, f.1.toNat ∈ indexesOf pts := fun p hp f hf =>
    List.mem_flatMap.2 ⟨p, hp, List.mem_map.2 ⟨f, hf, rfl⟩⟩
  have hord : ∀ b ∈ batches 256 pts, ∀ p ∈ b, Ordered p := by
    intro b hb' p hp
    have hmem : p ∈ pts := by
      rw [← hb]
      exact List.mem_flatten.2 ⟨b, hb', hp⟩
    exact C51_sorted p (ha p hmem) fun f hf => hi _ (hi' p hmem f hf)
  obtain ⟨a, a1, a2, a3⟩ := tallyLoop_ok ⟨0, 0, 0, [], []⟩ [] (batches 256 pts) tallied_nil rfl hord
  rw [List.nil_append, hb] at a2 a3
  obtain ⟨d1, d2⟩ := C50_dimension pts ha fun p hp f hf => hi _ (hi' p hp f hf)
  rw [← a2.dim] at d1 d2
  have hlt : ∀ i ∈ indexesOf pts, i < a.dim := by
    intro i hi2
    obtain ⟨p, hp, hf⟩ := List.mem_flatMap.1 hi2
    obtain ⟨f, hf', rfl⟩ := List.mem_map.1 hf
    exact d1 p hp f hf'
  obtain ⟨i0, hi0⟩ := List.exists_mem_of_ne_nil _ hne
  obtain ⟨mx, hmx, hdim⟩ : ∃ mx ∈ indexesOf pts, a.dim = mx + 1 := by
    rcases d2 with d2 | ⟨p, hp, f, hf, d2⟩
    · have := hlt i0 hi0
      omega
    · exact ⟨_, hi' p hp f hf, d2⟩
  have hcount : a.flags.count true = distinct (indexesOf pts) := count_flags a.flags (indexesOf pts) a2.marked
  have hle : distinct (indexesOf pts) ≤ mx + 1 := by
    rw [← hcount, ← hdim, ← a2.flags]
    exact List.count_le_length
  have hmx2 := hi mx hmx
  have hsub : (UInt64.ofNat a.dim - 1).toNat = mx := by
    rw [hdim, UInt64.toNat_sub_of_le _ _ (by
      rw [UInt64.le_iff_toNat_le, UInt64.toNat_ofNat_of_lt' (by rw [UInt64.size]; omega)]
      simp)]
    rw [UInt64.toNat_ofNat_of_lt' (by rw [UInt64.size]; omega)]
    simp
  have hfn : a.featNum = (indexesOf pts).length := by
    rw [a2.featNum, indexesOf, List.length_flatMap]
    simp
  refine ⟨unlines (reportLines pts mx a.classes (pct (distinct (indexesOf pts)) (mx + 1))), ?_, mx, a.classes, _, hmx, fun i h => ?_, ?_,
    ?_, rfl⟩
  · unfold DataFile.analyze Tools.analyze
    rw [hm, ho, Res.bind_ok]
    dsimp only
    rw [hc, Res.bind_ok]
    dsimp only
    rw [a1, Res.bind_ok, Res.bind_ok, Res.bind_ok, if_neg (by rw [hw]; simp)]
    refine congrArg (fun t => Res.ok (⟨0, [(dst, ofChars t)]⟩ : Done)) ?_
    unfold reportText unlines reportLines
    dsimp only
    rw [if_pos (by omega), hsub, hcount, hfn, a3, hdim]
    simp [List.flatMap_map]
  · have := hlt i h
    omega
  · exact ⟨a2.sorted, fun l n => by rw [← a2.counts l]; exact entry_mem a.classes a2.sorted a2.pos l n⟩
  · have := hpct (distinct (indexesOf pts)) (mx + 1) hle (by omega) (by omega)
    exact_mod_cast this

/-- **C75 (analyze), the part that holds.** The output is the report on the data set, except that the share of unused features is taken
    of one column more than there are (`C75_is_violated`).  Missing also: data sets without features. -/
theorem C75_analyze_partial (pw : Int → F32) (pct : Nat → Nat → List Char)
    (hpct : ∀ v d : Nat, v ≤ d → 1 ≤ d → d ≤ 2 ^ 32 → Percent (100 - 100 * v / d) (pct v d)) (m : Machine) (prog : List Char) (args : List (List Char))
    (g : List (Opt × Option Val)) (ho : Orders analyzeOpts args g) (src srcType dst : List Char)
    (hx : Texts analyzeOpts g [("input", src), ("input_type", srcType), ("output", dst)])
    (file : File) (hm : m.reads src = some file) (hw : m.writes dst = true) (pts : List (Pt F32)) (s : Status) (hr : ReadsAs pw srcType file pts s)
    (ha : ∀ p ∈ pts, (p.feats.map (·.1)).Pairwise (· < ·)) (hi : ∀ i ∈ indexesOf pts, i < 2 ^ 32 - 1) (hne : indexesOf pts ≠ []) :
    ∃ text, analyzeMain pw pct m (prog :: args) = .ok ⟨0, [(dst, ofChars text)]⟩ ∧ Reports (· + 1) pts text := by
  obtain ⟨s', ws, ht, h1⟩ := orders_run C59_tables.2.2.1 (h := analyzeOpts[3]) (by decide) rfl ho prog (fun s =>
    DataFile.analyze pw pct m (Cli.str s "input") (Cli.str s "input_type") (Cli.str s "output"))
  unfold analyzeMain
  rw [h1, texts_str ht hx (name := "input") (v := src) (o := analyzeOpts[0]) (by simp) (by decide) rfl rfl (by decide),
    texts_str ht hx (name := "input_type") (v := srcType) (o := analyzeOpts[1]) (by simp) (by decide) rfl rfl (by decide),
    texts_str ht hx (name := "output") (v := dst) (o := analyzeOpts[2]) (by simp) (by decide) rfl rfl (by decide)]
  exact analyze_reports pw pct hpct m src srcType dst file hm hw pts s hr ha hi hne

/-- The percentage with two decimals, rounded. -/
def exactPct (v d : Nat) : List Char :=
  let k := (20000 * (d - v) + d) / (2 * d)
  decText (k / 100) ++ ['.', Nat.digitChar (k / 10 % 10), Nat.digitChar (k % 10)]

/-- What `C75_analyze_partial` asks of the text of the percentage can be had. -/
theorem exactPct_percent (v d : Nat) (h : v ≤ d) (hd : 1 ≤ d) : Percent (100 - 100 * v / d) (exactPct v d) := by
  refine ⟨_, ?_, rfl⟩
  obtain ⟨k, hk⟩ : ∃ k, k = (20000 * (d - v) + d) / (2 * d) := ⟨_, rfl⟩
  rw [← hk]
  have h1 : k * (2 * d) ≤ 20000 * (d - v) + d := by rw [hk]; exact Nat.div_mul_le_self _ _
  have h2 : 20000 * (d - v) + d < (k + 1) * (2 * d) := by
    rw [hk]
    exact Nat.lt_mul_of_div_lt (Nat.lt_succ_self _) (by omega)
  have hd0 : (0 : ℚ) < d := by exact_mod_cast hd
  have h1' : (k : ℚ) * (2 * d) ≤ 20000 * (d - v) + d := by
    rw [← Nat.cast_sub h]
    exact_mod_cast h1
  have h2' : (20000 : ℚ) * (d - v) + d < (k + 1) * (2 * d) := by
    rw [← Nat.cast_sub h]
    exact_mod_cast h2
  have e : (100 : ℚ) - 100 * v / d = 100 * (d - v) / d := by field_simp
  rw [e, abs_le]
  constructor
  · have : 100 * ((d : ℚ) - v) / d ≤ k / 100 + 51 / 10 ^ 4 := by
      rw [div_le_iff₀ hd0]
      nlinarith
    linarith
  · have : (k : ℚ) / 100 - 51 / 10 ^ 4 ≤ 100 * ((d : ℚ) - v) / d := by
      rw [le_div_iff₀ hd0]
      nlinarith
    linarith

/-- Orders: convert with a threshold, split with a shuffle. -/
theorem C75_orders :
    (∃ g, Orders converterOpts (typed ["-i", "a", "--input_type=svm", "-o", "b", "-d", "csv", "-b", "1"]) g ∧
      Texts converterOpts g [("input", ['a']), ("input_type", typeName .svm), ("output", ['b']), ("output_type", typeName .csv)] ∧
      Threshold converterOpts g (some 1)) ∧
    (∃ g, Orders splitOpts (typed ["-ri", "a", "-s", "svm", "-n", "2", "-o", "f", "-d", "bin"]) g ∧
      Texts splitOpts g [("input", ['a']), ("input_type", typeName .svm), ("output_prefix", ['f']), ("output_type", typeName .bin)] ∧
      Value splitOpts g "fold" (.int 2) ∧ Present g "shuffle") := by
  constructor
  · obtain ⟨g, ws, ho, ht⟩ := orders_of C59_tables.2.2.2.2.1 (h := converterOpts[5]) (by decide) rfl (prog := ['c'])
      (args := typed ["-i", "a", "--input_type=svm", "-o", "b", "-d", "csv", "-b", "1"])
      (s := parse converterOpts (typed ["c", "-i", "a", "--input_type=svm", "-o", "b", "-d", "csv", "-b", "1"]))
      (by decide +kernel)
    refine ⟨g, ho, ?_, (present_iff ht (o := converterOpts[4]) (by decide) rfl).1 (by decide +kernel),
      (value_iff ht (o := converterOpts[4]) (by decide) rfl (by decide) _).1 (by decide +kernel)⟩
    intro x hx
    simp only [List.mem_cons, List.not_mem_nil, or_false] at hx
    rcases hx with rfl | rfl | rfl | rfl
    · exact (value_iff ht (o := converterOpts[0]) (by decide) rfl (by decide) _).1 (by decide +kernel)
    · exact (value_iff ht (o := converterOpts[1]) (by decide) rfl (by decide) _).1 (by decide +kernel)
    · exact (value_iff ht (o := converterOpts[2]) (by decide) rfl (by decide) _).1 (by decide +kernel)
    · exact (value_iff ht (o := converterOpts[3]) (by decide) rfl (by decide) _).1 (by decide +kernel)
  · obtain ⟨g, ws, ho, ht⟩ := orders_of C59_tables.2.2.2.2.2.2 (h := splitOpts[6]) (by decide) rfl (prog := ['s'])
      (args := typed ["-ri", "a", "-s", "svm", "-n", "2", "-o", "f", "-d", "bin"])
      (s := parse splitOpts (typed ["s", "-ri", "a", "-s", "svm", "-n", "2", "-o", "f", "-d", "bin"])) (by decide +kernel)
    refine ⟨g, ho, ?_, (value_iff ht (o := splitOpts[2]) (by decide) rfl (by decide) _).1 (by decide +kernel),
      (present_iff ht (o := splitOpts[5]) (by decide) rfl).1 (by decide +kernel)⟩
    intro x hx
    simp only [List.mem_cons, List.not_mem_nil, or_false] at hx
    rcases hx with rfl | rfl | rfl | rfl
    · exact (value_iff ht (o := splitOpts[0]) (by decide) rfl (by decide) _).1 (by decide +kernel)
    · exact (value_iff ht (o := splitOpts[1]) (by decide) rfl (by decide) _).1 (by decide +kernel)
    · exact (value_iff ht (o := splitOpts[3]) (by decide) rfl (by decide) _).1 (by decide +kernel)
    · exact (value_iff ht (o := splitOpts[4]) (by decide) rfl (by decide) _).1 (by decide +kernel)

/-- The programs on two lines of text. -/
theorem C75_instance :
    Yields (converterMain bestPow (oneFile "a" good good) (typed ["c", "-i", "a", "--input_type=svm", "-o", "b", "-d", "csv", "-b", "1"]))
      (fun r => r = ⟨0, [("b".toList, ofChars "class,v1,v2,v3\n1,-1,0,1\n-1,0,1,0\n".toList)]⟩) ∧
    Yields (analyzeMain bestPow exactPct (oneFile "a" "1 1:0.5 3:2\n-1 1:1.5\n1 3:1\n" "") (typed ["a", "-i", "a", "-s", "svm", "-o", "b"]))
      (fun r => r = ⟨0, [("b".toList, ofChars ("data number  : 3\nfeat number  : 4\ndimension    : 3\nnonzero feat : 2\nclass num    : 2\n" ++
        "data sparsity: 50.00%\ndata number of class -1 : 1\ndata number of class 1 : 2\n").toList)]⟩) ∧
    Yields (analyzeMain bestPow exactPct (oneFile "a" good good) (typed ["a", "-i", "a"])) (fun r => r = ⟨1, []⟩) ∧
    Yields (analyzeMain bestPow exactPct (oneFile "a" good good) (typed ["a"])) (fun r => r = ⟨0, []⟩) := by
  decide +kernel

/-- **C75 is violated.** Every column is used, and half of them are reported as unused (tools.cc:93: `feat_dim` is one more than the
    largest index, and there is no column 0).  Without features the dimension is reported as 2^64 - 1 (tools.cc:89). -/
theorem C75_is_violated :
    Yields (analyzeMain bestPow exactPct (oneFile "a" "1 1:1\n" "") (typed ["a", "-i", "a", "-s", "svm", "-o", "b"]))
      (fun r => r = ⟨0, [("b".toList, ofChars ("data number  : 1\nfeat number  : 1\ndimension    : 1\nnonzero feat : 1\nclass num    : 1\n" ++
        "data sparsity: 50.00%\ndata number of class 1 : 1\n").toList)]⟩) ∧
    Yields (analyzeMain bestPow exactPct (oneFile "a" "1\n" "") (typed ["a", "-i", "a", "-s", "svm", "-o", "b"]))
      (fun r => r = ⟨0, [("b".toList, ofChars ("data number  : 1\nfeat number  : 0\ndimension    : 18446744073709551615\nnonzero feat : 0\n" ++
        "class num    : 1\ndata number of class 1 : 1\n").toList)]⟩) := by
  decide +kernel

end Sol.Props
