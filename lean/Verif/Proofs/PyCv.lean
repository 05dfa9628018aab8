import Verif.Props.Cv
import Verif.Props.PySol
import Verif.Spec.PyCv
/-! Proofs about cross validation with the objects of the Python class. -/

namespace Sol.PyCv
open Sol.Params Sol.Online Sol.Loss Sol.Whole Sol.PySol Sol.Cv

theorem others_eq {β : Type} (l : List β) (z : β) (v : Nat) :
    ((List.range l.length).filter (· ≠ v)).map (fun i => l.getD i z) = l.eraseIdx v := by
  induction l generalizing v with
  | nil => rfl
  | cons a l ih =>
    rw [List.length_cons, List.range_succ_eq_map]
    have hm : ∀ f : Nat → Bool, (((List.range l.length).map Nat.succ).filter f).map (fun i => (a :: l).getD i z)
        = ((List.range l.length).filter fun i => f (i + 1)).map fun i => l.getD i z := by
      intro f
      rw [List.filter_map, List.map_map]
      rfl
    cases v with
    | zero =>
      rw [List.filter_cons_of_neg (by simp), List.eraseIdx_cons_zero, hm, List.filter_eq_self.2 (by simp)]
      refine List.ext_getElem (by simp) fun i h1 h2 => ?_
      simp [h2]
    | succ v =>
      rw [List.filter_cons_of_pos (by simp), List.map_cons, List.eraseIdx_cons_succ, hm, ← ih v]
      congr 3
      funext i
      simp

variable [FFun F32] {pw : Int → F32} {powf : F32 → F32 → F32} {ρ : Nat → F32} {d : Train.Disp} {W : World} {V : Type} [PyVal V]

/-- The calls on the folds. -/
def fits (path : Nat → List Char) (ty : List Char) (is : List Nat) : List Op := is.map fun i => .fit (path i) ty 1

/-- A library that follows the calls makes one of the sessions. -/
theorem learns_session {cls : Cls} {classNum : Int} {path : Nat → List Char} {ty : List Char} {lib : Lib V Py ℚ}
    (hf : Follows pw powf ρ d W cls classNum path ty lib) (is : List Nat) (v : Nat) {size num : Nat} (hs : 1 ≤ size) (hn : 1 ≤ num) {s : Py}
    {pend : List (Ex F32)} (hw : PySol.Waits size num s.iter pend)
    (hall : ∀ e, PySol.Session pw powf ρ d W s (fits path ty is ++ [.score (path v) ty]) e →
      ∃ s'' rs, e = .ok (s'', rs) ∧ ∀ r ∈ rs, ∃ x, r = .rate x) :
    ∃ s' s'' rs x, PySol.Session pw powf ρ d W s (fits path ty is ++ [.score (path v) ty]) (.ok (s'', rs ++ [.rate x])) ∧
      rs.length = is.length ∧ lib.score s' v = some (accuracy x) ∧ ((is = [] ∧ s' = s) ∨ ∃ a, Spec.Learns lib s is s' a) := by
  induction is generalizing s pend with
  | nil =>
    obtain ⟨⟨e₀, he₀⟩, -⟩ := call_act pw powf ρ d W hs hn hw (.score (path v) ty)
    obtain ⟨e, he, h1⟩ := hf.score s v e₀ he₀
    cases e with
    | ub k =>
      obtain ⟨_, _, h, -⟩ := hall _ (.stop he)
      cases h
    | ok p =>
      obtain ⟨s'', r⟩ := p
      obtain ⟨_, _, h, h2⟩ := hall _ (.cons he .nil)
      obtain ⟨rfl, rfl⟩ := Prod.mk.inj (Res.ok.inj h)
      obtain ⟨x, rfl⟩ := h2 r (by simp)
      exact ⟨s, s'', [], x, .cons he .nil, rfl, h1, .inl ⟨rfl, rfl⟩⟩
  | cons i is ih =>
    obtain ⟨⟨e₀, he₀⟩, hact⟩ := call_act pw powf ρ d W hs hn hw (.fit (path i) ty 1)
    obtain ⟨e, he, h1⟩ := hf.fit s i e₀ he₀
    cases e with
    | ub k =>
      obtain ⟨_, _, h, -⟩ := hall _ (.stop he)
      cases h
    | ok p =>
      obtain ⟨s₁, r⟩ := p
      obtain ⟨pend', hw'⟩ : ∃ pend', PySol.Waits size num s₁.iter pend' := by
        have hm := hact _ he
        cases ha : act pw powf ρ d W (.fit (path i) ty 1) s.obj pend with
        | ub k => rw [ha] at hm; exact hm.elim
        | ok q => rw [ha] at hm; exact ⟨_, hm.2.1⟩
      have hall' : ∀ e, PySol.Session pw powf ρ d W s₁ (fits path ty is ++ [.score (path v) ty]) e →
          (∃ s'' rs, e = .ok (s'', rs) ∧ ∀ r ∈ rs, ∃ x, r = .rate x) ∧ ∃ x, r = .rate x := by
        intro e' he'
        obtain ⟨s'', rs, h, h2⟩ := hall _ (.cons he he')
        cases e' with
        | ub k => cases h
        | ok p =>
          obtain ⟨rfl, rfl⟩ := Prod.mk.inj (Res.ok.inj h)
          exact ⟨⟨_, _, rfl, fun r hr => h2 r (List.mem_cons_of_mem _ hr)⟩, h2 r List.mem_cons_self⟩
      obtain ⟨s', s'', rs, x, k1, k2, k3, k4⟩ := ih hw' fun e he => (hall' e he).1
      obtain ⟨y, rfl⟩ := (hall' _ k1).2
      refine ⟨s', s'', .rate y :: rs, x, .cons he k1, by simp [k2], k3, .inr ?_⟩
      rcases k4 with ⟨rfl, rfl⟩ | ⟨a, ha⟩
      · exact ⟨_, .last _ _ _ _ h1⟩
      · exact ⟨a, .more _ _ _ _ _ _ _ h1 ha⟩

/-- The quotient of two counts. -/
theorem rate_fin (a b : Nat) (hab : a ≤ b) (h0 : 1 ≤ b) (h : b ≤ 2 ^ 24) :
    ∃ q : ℚ, ((a : Int) : F32) / ((b : Int) : F32) = .fin q ∧ |q - a / b| ≤ 1 / 2 ^ 23 := by
  have e1 : ((a : Int) : F32) = .fin a := by
    show F32.round (((a : Int) : ℚ)) = _
    rw [Int.cast_natCast]
    exact F32.round_nat a (hab.trans h)
  have e2 : ((b : Int) : F32) = .fin b := by
    show F32.round (((b : Int) : ℚ)) = _
    rw [Int.cast_natCast]
    exact F32.round_nat b h
  have hb : (0 : ℚ) < b := by exact_mod_cast h0
  have h1 : (a : ℚ) / b ≤ 1 := by
    rw [div_le_one hb]
    exact_mod_cast hab
  have h2 : 0 ≤ (a : ℚ) / b := by positivity
  obtain ⟨r, h3, h4⟩ := FloatValue.round_near (d := (a : ℚ) / b) (by rw [abs_of_nonneg h2]; exact h1.trans (by norm_num))
  refine ⟨r, ?_, h4.trans ?_⟩
  · rw [e1, e2]
    show (if (b : ℚ) = 0 then _ else F32.round ((a : ℚ) / b)) = _
    rw [if_neg hb.ne', h3]
  · rw [abs_of_nonneg h2]
    have : (a : ℚ) / b / 2 ^ 24 ≤ 1 / 2 ^ 24 := by
      apply div_le_div_of_nonneg_right h1
      positivity
    refine (add_le_add_left this _).trans ?_
    norm_num

theorem create_reached {files : List Char → Option (List Char)} {cls : Cls} {classNum : Int} {dict : Dict V} {m : M}
    (h : createWith files cls classNum dict = some m) : Spec.Reached files m := by
  unfold createWith at h
  cases hc : create cls classNum with
  | none => rw [hc] at h; cases h
  | some m₀ =>
    rw [hc] at h
    dsimp only at h
    rcases hs : setAll files m₀ (settings dict) with ⟨m₁, e⟩
    rw [hs] at h
    cases e with
    | accepted => cases h; exact setAll_reached _ (.new hc) hs
    | _ => cases h

theorem sizeOf_pos {dict : Dict V} {name : String} {dflt n : Nat} (hd : 1 ≤ dflt) (h : sizeOf dict name dflt = some n) : 1 ≤ n := by
  unfold sizeOf at h
  split at h
  · cases h; exact hd
  · split at h
    · split at h
      · cases h
        omega
      · cases h
    · cases h

theorem mem_of_lookup {A : Type} {l : List (String × A)} {k : String} {v : A} (h : l.lookup k = some v) : (k, v) ∈ l := by
  induction l with
  | nil => cases h
  | cons p l ih =>
    obtain ⟨x, y⟩ := p
    rw [List.lookup_cons] at h
    by_cases hk : k = x
    · subst hk
      simp only [beq_self_eq_true, if_true, Option.some.injEq] at h
      simp [h]
    · rw [beq_false_of_ne hk] at h
      exact List.mem_cons_of_mem _ (ih h)

theorem sizes_of {dict : Dict V} (h : Spec.Roomy dict) :
    (∃ n, sizeOf dict "batch_size" 256 = some n) ∧ ∃ n, sizeOf dict "buf_size" 2 = some n := by
  have key : ∀ name ∈ ["batch_size", "buf_size"], ∀ k, ∃ n, sizeOf dict name k = some n := by
    intro name hn k
    unfold sizeOf
    split
    · exact ⟨_, rfl⟩
    · rename_i v hv
      obtain ⟨n, h0, e⟩ := h _ (mem_of_lookup hv) hn
      rw [e]
      dsimp only
      rw [if_pos (by omega)]
      exact ⟨_, rfl⟩
  exact ⟨key _ (by simp) _, key _ (by simp) _⟩

theorem newObject_start {files : List Char → Option (List Char)} {cls : Cls} {classNum : Int} {dict : Dict V} {m : M}
    (h : createWith files cls classNum dict = some m) {size num : Nat} (hs : sizeOf dict "batch_size" 256 = some size)
    (hn : sizeOf dict "buf_size" 2 = some num) : newObject files cls classNum dict = some (Py.start m size num) := by
  unfold newObject
  rw [h, hs, hn]
  rfl

open Sol.Spec in
/-- A task has an outcome: the accuracy on the points that were held out. -/
theorem validates {cls : Cls} {classNum : Int} {path : Nat → List Char} {ty : List Char} {lib : Lib V Py ℚ}
    (hf : Follows pw powf ρ d W cls classNum path ty lib) (folds : List (List (Ex F32)))
    (hg : ∀ i l, folds[i]? = some l → FileGives pw W (path i) ty 1 l) (hl : ∀ l ∈ folds, l ≠ [] ∧ l.length ≤ 2 ^ 24)
    (ha : ∀ l ∈ folds, ∀ e ∈ l, Sparse.Ascending e.x) (passes : Nat) (hp : 1 ≤ passes) (hn : 2 ≤ folds.length) (v : Nat) (hv : v < folds.length)
    {dict : Dict V} {m : M} (hm : createWith W.files cls classNum dict = some m)
    {size num : Nat} (hsz : sizeOf dict "batch_size" 256 = some size) (hnm : sizeOf dict "buf_size" 2 = some num) (ht : Trainable m (held folds passes v)) :
    ∃ tr va, Validates lib passes folds.length v dict tr va ∧ HeldOut powf ρ d m folds passes v va := by
  have hsize : 1 ≤ size := sizeOf_pos (by norm_num) hsz
  have hnum : 1 ≤ num := sizeOf_pos (by norm_num) hnm
  set is := (List.replicate passes (otherFolds folds.length v)).flatten with his
  have hmem : ∀ i ∈ is, i < folds.length := by
    intro i hi
    simp only [his, List.mem_flatten, List.mem_replicate] at hi
    obtain ⟨_, ⟨-, rfl⟩, hi⟩ := hi
    simp only [otherFolds, List.mem_filter, List.mem_range] at hi
    exact hi.1
  let ops : List (Op × List (Ex F32)) := is.map (fun i => (.fit (path i) ty 1, folds.getD i [])) ++ [(.score (path v) ty, folds[v])]
  have hops : ops.map (·.1) = fits path ty is ++ [.score (path v) ty] := by
    simp only [ops, List.map_append, List.map_map, fits]
    rfl
  have htaught : taught ops = is.map fun i => folds.getD i [] := by
    rw [taught_append]
    simp only [taught, List.filter_map, List.map_map, List.filter_cons, List.filter_nil, isFit, Bool.false_eq_true, if_false, List.map_nil,
      List.append_nil]
    rw [List.filter_eq_self.2 (by intro i _; rfl)]
    rfl
  have hflat : (taught ops).flatten = held folds passes v := by
    rw [htaught, his, List.map_flatten, List.map_replicate, otherFolds, others_eq, held, List.flatten_flatten, List.map_replicate]
  have hne : is ≠ [] := by
    obtain ⟨j, hj, hjv⟩ : ∃ j, j < folds.length ∧ j ≠ v := by
      by_cases h : v = 0
      · exact ⟨1, by omega, by omega⟩
      · exact ⟨0, by omega, by omega⟩
    refine List.ne_nil_of_mem (a := j) ?_
    rw [his, List.mem_flatten]
    refine ⟨_, List.mem_replicate.2 ⟨by omega, rfl⟩, ?_⟩
    simp only [otherFolds, List.mem_filter, List.mem_range]
    exact ⟨hj, by simpa using hjv⟩
  have hr : Reached W.files m := create_reached hm
  have hgo : InOneGo (ops.map (·.1)) := by
    rw [hops]
    refine ⟨[], fits path ty is, [.score (path v) ty], by simp, by simp, ?_, by simp [isFit], by simp⟩
    intro o ho
    obtain ⟨i, -, rfl⟩ := List.mem_map.1 ho
    rfl
  have hgive : ∀ p ∈ ops, OpGives pw W p.1 p.2 := by
    intro p hp
    rcases List.mem_append.1 hp with h | h
    · obtain ⟨i, hi, rfl⟩ := List.mem_map.1 h
      refine hg i _ ?_
      have := hmem i hi
      rw [List.getD_eq_getElem?_getD, List.getElem?_eq_getElem this]
      rfl
    · obtain rfl := List.mem_singleton.1 h
      exact hg v _ (List.getElem?_eq_getElem hv)
  have hasc : ∀ p ∈ ops, isFit p.1 = false → ∀ e ∈ p.2, Sparse.Ascending e.x := by
    intro p hp hfit
    rcases List.mem_append.1 hp with h | h
    · obtain ⟨i, hi, rfl⟩ := List.mem_map.1 h
      cases hfit
    · obtain rfl := List.mem_singleton.1 h
      exact ha _ (List.getElem_mem hv)
  obtain ⟨-, hses⟩ := Props.C85_session_partial (pw := pw) (powf := powf) (ρ := ρ) (d := d) W m hr ops hgive
    (fun _ => by rw [hflat]; exact ht) hasc (.inr hgo) size num hsize hnum
  rw [hops] at hses
  have hlen : ops.length = is.length + 1 := by simp [ops]
  obtain ⟨s', s'', rs, x, k1, k2, k3, k4⟩ := learns_session hf is v (size := size) (num := num) hsize hnum
    (s := Py.start m size num) (waits_start size num) (by
      intro e he
      obtain ⟨s, rs, rfl, h1, h2⟩ := hses e he
      refine ⟨s, rs, rfl, fun r hr => ?_⟩
      obtain ⟨i, hi, rfl⟩ := List.mem_iff_getElem.1 hr
      have h3 := h2 i ops[i].1 ops[i].2 rs[i] (List.getElem?_eq_getElem (by omega)) (List.getElem?_eq_getElem hi)
      have hmem : ops[i] ∈ ops := List.getElem_mem _
      revert h3
      generalize ops[i] = p at hmem
      rcases List.mem_append.1 hmem with h | h
      · obtain ⟨j, -, rfl⟩ := List.mem_map.1 h
        rintro ⟨x, h, -⟩
        exact ⟨x, h⟩
      · obtain rfl := List.mem_singleton.1 h
        rintro ⟨_, -, _, x, -, h⟩
        exact ⟨x, h⟩)
  obtain ⟨_, _, h, h1, h2⟩ := hses _ k1
  obtain ⟨-, rfl⟩ := Prod.mk.inj (Res.ok.inj h)
  have h3 := h2 is.length (.score (path v) ty) folds[v] (.rate x)
    (by simp only [ops]; rw [List.getElem?_append_right (by simp)]; simp)
    (by rw [List.getElem?_append_right (by omega)]; simp [k2])
  obtain ⟨m', h4, rows, y, h5, h6⟩ := h3
  obtain rfl : x = y := by cases h6; rfl
  have htake : taught (ops.take is.length) = taught ops := by
    have e1 : ops.take is.length = is.map fun i => (.fit (path i) ty 1, folds.getD i []) := by
      simp only [ops]
      rw [List.take_append_of_le_length (by simp), List.take_of_length_le (by simp)]
    rw [e1, taught_append]
    simp only [taught, List.filter_cons, isFit, Bool.false_eq_true, if_false, List.filter_nil, List.map_nil, List.append_nil]
  rw [htake] at h4
  rcases h4 with ⟨h4, -⟩ | ⟨-, h4⟩
  · rw [htaught, List.map_eq_nil_iff] at h4
    exact absurd h4 hne
  rw [hflat] at h4
  rcases k4 with ⟨h, -⟩ | ⟨a, k4⟩
  · exact absurd h hne
  obtain ⟨hl1, hl2⟩ := hl _ (List.getElem_mem hv)
  have hrm : Reached W.files m' := by
    obtain ⟨m₂, e1, e2⟩ := trainModel_trained hr powf ρ d [held folds passes v] (by simpa using ht)
    rw [e1] at h4
    cases h4
    exact .train hr e2
  obtain ⟨xs, rows', rate, t1, t2, t3, t4, t5⟩ := testModel_rows hrm folds[v] (ha _ (List.getElem_mem hv))
  rw [t1] at h5
  cases h5
  have hrl : rows.length = folds[v].length := t4.length_eq.symm
  obtain ⟨q, hq, -⟩ := rate_fin (rows.countP fun row => row.pred ≠ row.label) rows.length List.countP_le_length
    (by rw [hrl]; exact List.length_pos_iff.2 hl1) (by rw [hrl]; exact hl2)
  rw [← t5] at hq
  refine ⟨a, accuracy x, ⟨Py.start m size num, s', ?_, k4, k3⟩, m', folds[v], rows, q, h4, List.getElem?_eq_getElem hv, by rw [t1, hq], by rw [hq]; rfl⟩
  rw [hf.create, newObject_start hm hsz hnm]

end Sol.PyCv
