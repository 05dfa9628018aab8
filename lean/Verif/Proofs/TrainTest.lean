import Verif.Model.TrainTest
import Verif.Proofs.DataSet
/-! Files that splitting a data set leaves alone. -/

namespace Sol.DataSet
open Sol.DataFile

theorem foldFiles_names {m : Machine} {pre ty : List Char} {fmt : Format} {l : List (UInt32 × List Point)} {i : Nat}
    {acc : List (List Char × File)} {r : Done} (h : foldFiles m pre ty fmt i l acc = .ok r)
    (ha : ∀ n ∈ acc.map (·.1), ∃ k, n = foldName pre ty k) : ∀ n ∈ r.out.map (·.1), ∃ k, n = foldName pre ty k := by
  induction l generalizing i acc with
  | nil =>
    unfold foldFiles at h
    cases h
    exact ha
  | cons a l ih =>
    obtain ⟨d, l'⟩ := a
    unfold foldFiles at h
    split at h
    · cases h
      exact ha
    · cases hf : render fmt ⟨some d, l'⟩ with
      | ub k => rw [hf] at h; cases h
      | ok f =>
        rw [hf] at h
        refine ih h fun n hn => ?_
        rw [List.map_append, List.mem_append] at hn
        rcases hn with hn | hn
        · exact ha n hn
        · exact ⟨i, by simpa using hn⟩

theorem split_names {pw : Int → F32} {m : Machine} {choice : Option (Nat → Nat)} {src srcType pre ty : List Char} {folds : Int} {r : Done}
    (h : DataFile.split pw m choice src srcType folds pre ty = .ok r) : ∀ n ∈ r.out.map (·.1), ∃ k, n = foldName pre ty k := by
  unfold DataFile.split at h
  cases h1 : addReader srcType (m.reads src) with
  | ub k => rw [h1] at h; cases h
  | ok o =>
    rw [h1] at h
    cases o with
    | none => cases h; simp
    | some o =>
      change (contents pw o).bind _ = _ at h
      cases h2 : contents pw o with
      | ub k => rw [h2] at h; cases h
      | ok c =>
        rw [h2] at h
        change (Tools.split (batches 256 c.1) folds choice).bind _ = _ at h
        cases h3 : Tools.split (batches 256 c.1) folds choice with
        | ub k => rw [h3] at h; cases h
        | ok fs =>
          rw [h3] at h
          change (match fs, formatNamed ty with
            | [], _ => Res.ok (⟨code .ok, []⟩ : Done)
            | _ :: _, none => .ok ⟨code .invalidArgument, []⟩
            | f :: fs, some fmt => foldFiles m pre ty fmt 0 (f :: fs) []) = _ at h
          split at h
          · cases h; simp
          · cases h; simp
          · exact foldFiles_names h (by simp)

/-- Splitting changes no other files than those of the folds. -/
theorem splitFile_other {pw : Int → F32} {writes : List Char → Bool} {ds ds' : DataSet} {n : Nat} {ty : List Char} {choice : Nat → Nat} {fs fs' : Files}
    (h : ds.splitFile pw writes n (some ty) choice fs = .ok (.gives ds' fs')) {p : List Char} (hp : ∀ i, p ≠ foldName ds.foldPrefix ty i) :
    fs' p = fs p := by
  unfold DataSet.splitFile at h
  dsimp only [Option.getD_some] at h
  change (if _ then _ else _) = _ at h
  have hpre : ({ ds with sliceType := ty } : DataSet).foldPrefix = ds.foldPrefix := rfl
  rw [hpre] at h
  generalize hf : (if (fs (foldName ds.foldPrefix ty n)).isSome = true then fs.without (foldName ds.foldPrefix ty n) else fs) = fs1 at h
  have h1 : fs1 p = fs p := by
    rw [← hf]
    split_ifs
    · exact if_neg (hp n)
    · rfl
  split at h
  · cases h
    exact h1
  · cases hs : DataFile.split pw (seen writes fs1) (some choice) ds.dataPath ds.dtype n ds.foldPrefix ty with
    | ub k => rw [hs] at h; cases h
    | ok r =>
      rw [hs] at h
      have h : finish fs1 r ({ ds with sliceType := ty } : DataSet) = .gives ds' fs' := by
        injection h
      unfold finish at h
      split at h
      · cases h
        rw [after_other, h1]
        intro hm
        obtain ⟨k, hk⟩ := split_names hs p hm
        exact hp k hk
      · cases h

end Sol.DataSet
