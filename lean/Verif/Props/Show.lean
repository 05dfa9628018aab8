import Verif.Proofs.Show
import Verif.Props.StrUtil
import Verif.Props.Cli
/-! # C99: the list of classes -/

namespace Sol.Props

open Sol.StrUtil Sol.Show Sol.Spec

section
variable {I : Type}

theorem same_kind {k k' : StrUtil.Kind} {a b : List Char} (h : SameWord (a ++ suffix k) (b ++ suffix k')) : k = k' ∧ SameWord a b := by
  unfold SameWord at h
  rw [List.map_append, List.map_append, suffix_lower, suffix_lower] at h
  have hs := congrArg (split '_') h
  rw [split_snoc _ (groupName_ok k).1 (groupName_ok k).2, split_snoc _ (groupName_ok k').1 (groupName_ok k').2] at hs
  have hk : k = k' := groupName_inj (by simpa using (List.append_inj' hs rfl).2)
  subst hk
  exact ⟨rfl, List.append_cancel_right h⟩

/-- The registrations that the macros make. -/
def registered (rs : List (StrUtil.Kind × List Char × I)) : List (List Char × I) := rs.map fun r => (r.2.1 ++ suffix r.1, r.2.2)

theorem suffix_ascii (k : StrUtil.Kind) : Ascii (suffix k) := by cases k <;> decide

/-- C99: `showinfo` lists the classes of a kind, each once, with its name and description, and the name is one under which the class is
    created; other kinds are not listed.  Partial: if no name of this kind has an underscore (`C99_is_violated`). -/
theorem C99_lists_partial (descr : I → List Char) (rs : List (StrUtil.Kind × List Char × I)) (ha : ∀ r ∈ rs, Ascii r.2.1)
    (hd : rs.Pairwise fun a b => ¬ (a.1 = b.1 ∧ SameWord a.2.1 b.2.1)) :
    ∃ m, registerAll [] (registered rs) = .ok (some m) ∧
      (∀ k, (∀ r ∈ rs, r.1 = k → r.2.1 ≠ [] ∧ '_' ∉ r.2.1) → ∃ out, showinfo descr m (groupName k) = .ok out ∧ Lists descr k rs out) ∧
      ∀ r ∈ rs, create m r.1 (r.2.1.map Char.toLower) = .ok (some r.2.2) := by
  have ha' : ∀ r ∈ registered rs, Ascii r.1 := by
    intro r hr
    obtain ⟨q, hq, rfl⟩ := List.mem_map.1 hr
    intro c hc
    rcases List.mem_append.1 hc with hc | hc
    · exact ha q hq c hc
    · exact suffix_ascii q.1 c hc
  have hd' : (registered rs).Pairwise fun a b => ¬ SameWord a.1 b.1 :=
    List.pairwise_map.2 (hd.imp fun h hs => h (same_kind hs))
  obtain ⟨m, h1, h2⟩ := C52_lookup (registered rs) ha' hd'
  obtain ⟨hp, -⟩ := registerAll_perm _ _ _ ha' h1
  rw [List.append_nil] at hp
  refine ⟨m, h1, fun k hk => ?_, fun r hr => ?_⟩
  · have hperm : (ordered m).Perm (rs.map fun r => ((r.2.1 ++ suffix r.1).map Char.toLower, r.2.2)) := by
      refine (ordered_perm m).trans (hp.trans (List.Perm.of_eq ?_))
      simp [registered]
    obtain ⟨rs', hr', e⟩ := perm_of_map hperm rs rfl
    refine ⟨_, by unfold showinfo; rw [e]; exact listing_ok descr k rs' (fun r hr => ha r (hr'.mem_iff.1 hr)) fun r hr => hk r (hr'.mem_iff.1 hr), ?_⟩
    exact (hr'.filter _).map _
  · have hn : Ascii (r.2.1.map Char.toLower ++ suffix r.1) := by
      intro c hc
      rcases List.mem_append.1 hc with hc | hc
      · obtain ⟨d, hd, rfl⟩ := List.mem_map.1 hc
        exact (toLower_ascii (ha r hr d hd)).1
      · exact suffix_ascii r.1 c hc
    obtain ⟨found, q1, q2⟩ := h2 _ hn
    unfold create
    rw [q1, (q2 r.2.2).2 ⟨(r.2.1 ++ suffix r.1, r.2.2), List.mem_map.2 ⟨r, hr, rfl⟩, ?_, rfl⟩]
    unfold SameWord
    simp only [List.map_append, List.map_map]
    congr 1
    exact (List.map_congr_left fun c hc => (toLower_ascii (ha r hr c hc)).2.symm)

/-- C99: the list does not depend on the order in which the classes are registered. -/
theorem C99_order (descr : I → List Char) (rs rs' : List (List Char × I)) (ha : ∀ r ∈ rs, Ascii r.1) (hp : rs.Perm rs') (m m' : Registry I)
    (h : registerAll [] rs = .ok (some m)) (h' : registerAll [] rs' = .ok (some m')) (group : List Char) :
    showinfo descr m group = showinfo descr m' group := by
  obtain ⟨p1, p2⟩ := registerAll_perm _ _ _ ha h
  obtain ⟨p3, -⟩ := registerAll_perm _ _ _ (fun r hr => ha r (hp.mem_iff.2 hr)) h'
  unfold showinfo
  rw [ordered_unique (p1.trans (((hp.map _).append_right _).trans p3.symm)) (p2 .nil)]

/-- C99: `sol_train --show kind` prints this list, whatever else is on the command line. -/
theorem C99_option (descr : I → List Char) (m : Registry I) {args : List (List Char)} {g : List (Cmdline.Opt × Option Cmdline.Val)}
    {ws : List (List Char)} (h : Says Cli.trainOpts args g ws) (prog : List Char) (group : List Char) (out : List (List Char))
    (hv : Value Cli.trainOpts g "show" (.str group)) (ho : showinfo descr m group = .ok out) :
    (Present g "show" → trainShow descr m (prog :: args) = .ok (some out) ∧ Cli.trainFront (prog :: args) = .exit 0) ∧
    (¬ Present g "show" → trainShow descr m (prog :: args) = .ok none) := by
  have ht := taken_of C59_tables.1 (by decide) h prog
  have hpr := Cli.present_iff ht (o := Cli.trainOpts[0]) (by decide) (name := "show") rfl
  have hva := (Cli.value_iff ht (o := Cli.trainOpts[0]) (by decide) (name := "show") rfl (by decide) (.str group)).2 hv
  refine ⟨fun hs => ⟨?_, ?_⟩, fun hs => ?_⟩
  · unfold trainShow
    rw [if_pos (hpr.2 hs), hva]
    simp only [ho, Res.bind_ok]
  · unfold Cli.trainFront
    rw [if_pos (hpr.2 hs)]
  · unfold trainShow
    rw [if_neg fun hc => hs (hpr.1 hc)]

end

/-- The library's classes with their names as characters. -/
def libraryRows : List (StrUtil.Kind × List Char × String) := library.map fun e => (e.1, e.2.1.toList, e.2.2)

/-- The hypotheses are met by the library; the underscore occurs in the name of one reader only. -/
theorem C99_hypotheses : (∀ r ∈ libraryRows, Ascii r.2.1) ∧ (libraryRows.Pairwise fun a b => ¬ (a.1 = b.1 ∧ SameWord a.2.1 b.2.1)) ∧
    ∀ r ∈ libraryRows, r.1 ≠ .reader → r.2.1 ≠ [] ∧ '_' ∉ r.2.1 := by
  decide +kernel

/-- What is printed for the writers (with the names of the classes for their descriptions). -/
theorem C99_instance :
    (match registerAll [] (registered libraryRows) with
      | .ok (some m) => showinfo String.toList m "writer".toList
      | _ => .ub .outOfBounds) = .ok ["bin:\tBinaryWriter".toList, "csv:\tCSVWriter".toList, "svm:\tSVMWriter".toList] := by
  decide +kernel

/-- The option on a command line that asks for other things as well. -/
theorem C99_instance_option :
    (match registerAll [] (registered libraryRows) with
      | .ok (some m) => trainShow String.toList m ["sol_train".toList, "--pass=2".toList, "-s".toList, "writer".toList, "data".toList]
      | _ => .ub .outOfBounds) = .ok (some ["bin:\tBinaryWriter".toList, "csv:\tCSVWriter".toList, "svm:\tSVMWriter".toList]) := by
  decide +kernel

/-- C99 fails for readers: the class registered as `csr_matrix` is listed as `csr`, and there is no reader of this name. -/
theorem C99_is_violated :
    (match registerAll [] (registered libraryRows) with
      | .ok (some m) => (showinfo String.toList m "reader".toList, create m .reader "csr".toList, create m .reader "csr_matrix".toList)
      | _ => (.ub .outOfBounds, .ub .outOfBounds, .ub .outOfBounds))
    = (.ok ["bin:\tBinaryReader".toList, "csr:\tCsrMatrixReader".toList, "csv:\tCSVReader".toList, "numpy:\tNumpyReader".toList,
        "svm:\tSVMReader".toList], .ok none, .ok (some "CsrMatrixReader")) := by
  decide +kernel

end Sol.Props
