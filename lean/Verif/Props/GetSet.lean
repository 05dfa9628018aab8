import Verif.Proofs.GetSet
import Verif.Proofs.SixAgain
import Verif.Props.LoadText
/-!
# C65: the parameters that the C interface lists can be set again

`sol_GetModelParameters` lists what a model reports; a new model of the class takes the listed texts in any order (a Python dictionary
is walked through in any order) and is then listed with the same texts.
-/

namespace Sol.Props
open Sol.Params Sol.Spec Sol.FloatText Sol.Text Sol.CApi

variable {files : List Char → Option (List Char)} {m : M}

/-- C65: the calls of the callback show every name that the model reports, once, with its text; no exception is thrown. -/
theorem C65_listing (m : M) : ∃ l, getModelParameters m = some (l.map fun p => (p.1.toList, p.2)) ∧ Shows m l :=
  get_shows m

theorem shown_back (hm : Savable m) {k : String} {x : Tok} (h : info m k = some x) : shownText x.back = shownText x := by
  cases x with
  | str s => rfl
  | int n => rfl
  | real y =>
    have ho := hm.ordinary k y h
    have hp := put_back ho
    obtain ⟨q, rfl, hs, _⟩ := ho
    obtain ⟨r, hr, _⟩ := reread_facts hs
    have hb : back (.fin q) = .fin r := hr
    show shownReal (back (.fin q)) = shownReal (.fin q)
    rw [hb] at hp ⊢
    exact hp

/-- C65: whatever the order of the parameters, `set_params` on a new model of the class succeeds; the copy reports the same, up to
    printing with six digits, and the same list shows it.  Missing: models that cannot be saved and loaded either (`Savable`), and
    what is not listed at all. -/
theorem C65_again_partial (hm : Savable m) (hn : m.classNum ≤ 2147483647) {l : List (String × List Char)} (h : Shows m l) :
    ∃ m', CApi.setParams files (fresh m.cls m.classNum) l = .value m' ∧ m'.cls = m.cls ∧ m'.classNum = m.classNum ∧
      (∀ k, SameInfo (info m k) (info m' k)) ∧ Shows m' l := by
  obtain ⟨m', h1, h2, h3, h4⟩ := set_shows (files := files) hm hn h
  refine ⟨m', h1, h2, h3, fun k => ?_, h.once, fun k v => ?_⟩
  · rw [h4]
    cases hi : info m k with
    | none => trivial
    | some x =>
      cases x with
      | str s => rfl
      | int n => rfl
      | real x =>
        obtain ⟨q, e1, e2, _⟩ := hm.ordinary k x hi
        exact printed_back ⟨q, e1, e2⟩
  · rw [h.all, h4]
    constructor
    · rintro ⟨x, hx, rfl⟩
      exact ⟨x.back, by rw [hx]; rfl, (shown_back hm hx).symm⟩
    · rintro ⟨y, hy, rfl⟩
      cases hx : info m k with
      | none =>
        rw [hx] at hy
        cases hy
      | some x =>
        rw [hx] at hy
        cases hy
        exact ⟨x, rfl, shown_back hm hx⟩

/-- C65: so a model and a model made from its parameters are listed with the same texts. -/
theorem C65_same_partial (hm : Savable m) (hn : m.classNum ≤ 2147483647) :
    ∃ l m', getModelParameters m = some (l.map fun p => (p.1.toList, p.2)) ∧
      CApi.setParams files (fresh m.cls m.classNum) l = .value m' ∧
      ∃ l' : List (String × List Char), getModelParameters m' = some (l'.map fun p => (p.1.toList, p.2)) ∧ ∀ p, p ∈ l' ↔ p ∈ l := by
  obtain ⟨l, h1, h2⟩ := C65_listing m
  obtain ⟨m', h3, _, _, _, h4⟩ := C65_again_partial (files := files) hm hn h2
  obtain ⟨l', h5, h6⟩ := C65_listing m'
  exact ⟨l, m', h1, h3, l', h5, fun p => (h6.all p.1 p.2).trans (h4.all p.1 p.2).symm⟩

/-- C65: setting a parameter gives status 0 exactly if the model accepts it, and then changes no other parameter. -/
theorem C65_status (m m' : M) (k : String) (v : List Char) (s : Int) (h : setModelParameter files (some m) k v = .gives (m', s)) :
    (s = 0 ∨ s = 4) ∧ (s = 0 ↔ (Params.set files m k v).2 = .accepted) ∧ m' = (Params.set files m k v).1 ∧
      (s = 0 → ∀ j, j ≠ target m.cls k → info m' j = info m j) := by
  have hall := fun ha => set_took (files := files) (m := m) (name := k) (v := v) ha
  unfold setModelParameter at h
  dsimp only at h
  generalize Params.set files m k v = r at h hall ⊢
  obtain ⟨m1, e⟩ := r
  cases e with
  | accepted =>
    simp only [Ret.gives.injEq, Prod.mk.injEq] at h
    obtain ⟨rfl, rfl⟩ := h
    exact ⟨.inl rfl, by simp, rfl, fun _ j hj => took_info (hall rfl) hj⟩
  | rejected =>
    simp only [Ret.gives.injEq, Prod.mk.injEq] at h
    obtain ⟨rfl, rfl⟩ := h
    exact ⟨.inr rfl, by simp, rfl, fun h => by cases h⟩
  | thrown => cases h
  | undef k => cases h

/-- The model after a call that succeeded. -/
def asValue : Py M → Option M
  | .value m => some m
  | _ => none

/-- The model and the status after a call that returned. -/
def asGives : Ret (M × Int) → Option (M × Int)
  | .gives r => some r
  | _ => none

/-- A model for FOBOS with four parameters given, its list, and the copy made from the list backwards. -/
theorem C65_instance :
    let m : M := { fresh .fobosL1 3 with eta := .fin (1 / 4), lambda := .fin (11184811 / 33554432), dim := 5, t := 7,
                                         w := List.replicate 3 (List.replicate 5 0) }
    let l : List (String × String) := [("clf_num", "3"), ("cls_num", "3"), ("loss", "maxscore-hinge"), ("model", "fobos-l1"), ("norm", "0"),
      ("bias_eta", "0"), ("dim", "5"), ("eta", "0.25"), ("lazy_update", "false"), ("power_t", "0.5"), ("t", "7"), ("lambda", "0.333333")]
    getModelParameters m = some (l.map fun p => (p.1.toList, p.2.toList)) ∧
    (asValue (CApi.setParams noFiles (fresh .fobosL1 3) (l.reverse.map fun p => (p.1, p.2.toList)))).map
      (fun m' => (m'.lambda, m'.dim, m'.t)) = some (.fin (11184799 / 33554432), 5, 7) ∧
    (asValue (CApi.setParams noFiles (fresh .fobosL1 3) (l.reverse.map fun p => (p.1, p.2.toList)))).bind getModelParameters =
      getModelParameters m := by
  decide +kernel

/-- C65 is violated.  Not everything that is set is listed: `sparse_thresh` and `step_show` are not.  Not everything that is listed can
    be set again: a new FOFS lists "B" as 0 and refuses it; an infinite parameter, which is accepted, is listed as a text that throws an
    exception across the C interface, as every number that is too large does. -/
theorem C65_is_violated :
    (asGives (setModelParameter noFiles (some (fresh .fobosL1 2)) "sparse_thresh" "0.5".toList)).map
      (fun r => (r.2, decide (r.1 = fresh .fobosL1 2))) = some (0, false) ∧
    (asGives (setModelParameter noFiles (some (fresh .fobosL1 2)) "sparse_thresh" "0.5".toList)).bind
      (fun r => getModelParameters r.1) = getModelParameters (fresh .fobosL1 2) ∧
    (asGives (setModelParameter noFiles (some (fresh .ogd 2)) "step_show" "5".toList)).map
      (fun r => (r.2, decide (r.1 = fresh .ogd 2))) = some (0, false) ∧
    (asGives (setModelParameter noFiles (some (fresh .ogd 2)) "step_show" "5".toList)).bind
      (fun r => getModelParameters r.1) = getModelParameters (fresh .ogd 2) ∧
    (getModelParameters (fresh .fofs 2)).bind (·.lookup "B".toList) = some "0".toList ∧
    CApi.setParams noFiles (fresh .fofs 2) [("B", "0".toList)] = .raised (fresh .fofs 2) ∧
    (asGives (setModelParameter noFiles (some (fresh .ogd 2)) "eta" "inf".toList)).bind
      (fun r => (getModelParameters r.1).bind (·.lookup "eta".toList)) = some "1e+9999".toList ∧
    CApi.setParams noFiles (fresh .ogd 2) [("eta", "1e+9999".toList)] = .thrown ∧
    setModelParameter noFiles none "eta" "1".toList = .undef .nullDeref := by
  decide +kernel

end Sol.Props
