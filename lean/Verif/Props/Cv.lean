import Mathlib.Algebra.Order.Field.Basic
import Mathlib.Data.Rat.Lemmas
import Mathlib.Algebra.Order.Ring.Rat
import Verif.Proofs.Cv
/-!
# C83: cross validation (python/cv.py)
-/

namespace Sol.Props
open Sol.Spec Sol.Cv

universe u

variable {V α : Type} {M : Type u}

/-- **C83 (grid).** The search space consists of the combinations of values of the parameters, each of them once. -/
theorem C83_grid (params : List (String × List V)) (h0 : params ≠ []) :
    ∃ space, searchSpace params = some space ∧ (∀ d, d ∈ space ↔ Combination params d) ∧
      space.length = (params.map fun p => p.2.length).prod ∧ ((∀ p ∈ params, p.2.Nodup) → space.Nodup) := by
  obtain ⟨n, hn⟩ : ∃ n, n = (params.map fun p => p.2.length).prod := ⟨_, rfl⟩
  have hne : ∀ k ∈ List.range n, ∃ d, pick params k = some d := by
    intro k hk
    obtain ⟨d, h, -⟩ := pick_some params (by
      intro p hp he
      have : n = 0 := by
        rw [hn]
        exact List.prod_eq_zero (List.mem_map.2 ⟨p, hp, by rw [he]; rfl⟩)
      rw [this] at hk
      simp at hk) k
    exact ⟨d, h⟩
  obtain ⟨space, h1, h2⟩ := mapM_some (pick params) (List.range n) hne
  have hlen : space.length = n := by rw [← h2.length_eq, List.length_range]
  have hget : ∀ (k : Nat) (hk : k < n), pick params k = some (space[k]'(by omega)) := by
    intro k hk
    have := (List.forall₂_iff_get.1 h2).2 k (by simpa using hk) (by omega)
    simpa using this
  refine ⟨space, ?_, fun d => ⟨fun hd => ?_, fun hd => ?_⟩, by rw [hlen, hn], fun hnd => ?_⟩
  · rw [searchSpace, if_neg h0, ← hn, h1]
  · obtain ⟨k, hk, rfl⟩ := List.mem_iff_getElem.1 hd
    obtain ⟨d, h3, h4⟩ := pick_some params (by
      intro p hp he
      have : n = 0 := by
        rw [hn]
        exact List.prod_eq_zero (List.mem_map.2 ⟨p, hp, by rw [he]; rfl⟩)
      omega) k
    rw [hget k (by omega)] at h3
    rw [Option.some.inj h3]
    exact h4
  · obtain ⟨k, hk, h3⟩ := pick_onto params d hd
    rw [← hn] at hk
    rw [hget k hk] at h3
    rw [← Option.some.inj h3]
    exact List.getElem_mem _
  · rw [List.nodup_iff_injective_get]
    intro i j hij
    have e1 := hget i (by omega)
    have e2 := hget j (by omega)
    have hij' : space[(i : Nat)] = space[(j : Nat)] := hij
    rw [hij', ← e2] at e1
    exact Fin.ext (pick_inj params hnd i j (by omega) (by omega) e1)

/-- **C83 (processes).** Whatever the number of processes and the order of their steps: if no task fails, none of them ever waits for
    ever, they all come to an end, and then every result is in its place. -/
theorem C83_processes (size procs : Nat) (hp : 1 ≤ procs) (run : Nat → Option α) (hr : ∀ k < size, (run k).isSome) (zero : α) :
    (∀ s, Relation.ReflTransGen (Step size run) (start size procs zero) s →
      (s.Ended size ∨ ∃ s', Step size run s s') ∧ (s.Ended size → s.lists.map some = (List.range size).map run)) ∧
    ¬ ∃ f : Nat → Sys α, f 0 = start size procs zero ∧ ∀ n, Step size run (f n) (f (n + 1)) := by
  refine ⟨fun s hs => ?_, ?_⟩
  · obtain ⟨ts, got, lost, tok, hi⟩ := inv_reach hs
    refine ⟨progress hi hp hr, fun he => ?_⟩
    obtain ⟨h1, h2⟩ := ended hi he
    refine List.ext_getElem? fun k => ?_
    rw [List.getElem?_map, List.getElem?_map]
    by_cases hk : k < size
    · rw [h2 k hk, List.getElem?_range hk]
      obtain ⟨r, hr⟩ := Option.isSome_iff_exists.1 (hr k hk)
      simp [hr]
    · rw [List.getElem?_eq_none (by omega), List.getElem?_eq_none (by simp; omega)]
      rfl
  · rintro ⟨f, -, hf⟩
    have : ∀ n, togo (f n) + n ≤ togo (f 0) := by
      intro n
      induction n with
      | zero => exact le_refl _
      | succ n ih =>
        have := togo_step (hf n)
        omega
    have := this (togo (f 0) + 1)
    omega

/-- **C83 (exceptions).** If a task fails, cross validation never ends. -/
theorem C83_hangs (size procs : Nat) (run : Nat → Option α) (k : Nat) (hk : k < size) (hr : run k = none) (zero : α) (s : Sys α)
    (hs : Relation.ReflTransGen (Step size run) (start size procs zero) s) : ¬ s.Ended size := by
  intro he
  obtain ⟨ts, got, lost, tok, hi⟩ := inv_reach hs
  obtain ⟨h1, h2⟩ := ended hi he
  have := h2 k hk
  rw [hr, List.getElem?_eq_none_iff] at this
  omega

/-- One fold has one result. -/
theorem oneFold_iff (size procs : Nat) (hp : 1 ≤ procs) (run : Nat → Option α) (hr : ∀ k < size, (run k).isSome) (zero : α) (l : List α) :
    OneFold size procs zero run l ↔ l.map some = (List.range size).map run := by
  have huniq : ∀ l', OneFold size procs zero run l' → l'.map some = (List.range size).map run := by
    rintro l' ⟨s, h1, h2, rfl⟩
    exact ((C83_processes size procs hp run hr zero).1 s h1).2 h2
  refine ⟨huniq l, fun h => ?_⟩
  obtain ⟨l', hl'⟩ : ∃ l', OneFold size procs zero run l' := by
    have key : ∀ n s, togo s ≤ n → Relation.ReflTransGen (Step size run) (start size procs zero) s →
        ∃ s', Relation.ReflTransGen (Step size run) (start size procs zero) s' ∧ s'.Ended size := by
      intro n
      induction n with
      | zero =>
        intro s hs h1
        rcases ((C83_processes size procs hp run hr zero).1 s h1).1 with h2 | ⟨s', h2⟩
        · exact ⟨s, h1, h2⟩
        · have := togo_step h2
          omega
      | succ n ih =>
        intro s hs h1
        rcases ((C83_processes size procs hp run hr zero).1 s h1).1 with h2 | ⟨s', h2⟩
        · exact ⟨s, h1, h2⟩
        · exact ih s' (by have := togo_step h2; omega) (h1.tail h2)
    obtain ⟨s, h1, h2⟩ := key _ _ le_rfl .refl
    exact ⟨_, s, h1, h2, rfl⟩
  have := huniq l' hl'
  rw [← h] at this
  rw [← List.map_injective_iff.2 (Option.some_injective α) this]
  exact hl'

theorem learns_append {lib : Lib V M α} {m m' m'' : M} {is js : List Nat} {a b : α} (h1 : Learns lib m is m' a) (h2 : Learns lib m' js m'' b) :
    Learns lib m (is ++ js) m'' b := by
  induction h1 with
  | last m m' i a h => exact .more m m' m'' i js a b h h2
  | more m m' m₂ i is c a h _ ih => exact .more m m' m'' i _ c b h (ih h2)

/-- Training on folds, one after the other. -/
def learnAll (lib : Lib V M α) : List Nat → M → Option α → Option (M × Option α)
  | [], m, acc => some (m, acc)
  | i :: is, m, _ => (lib.fit m i).bind fun r => learnAll lib is r.1 (some r.2)

theorem learnAll_append (lib : Lib V M α) (is js : List Nat) (m : M) (acc : Option α) :
    learnAll lib (is ++ js) m acc = (learnAll lib is m acc).bind fun r => learnAll lib js r.1 r.2 := by
  induction is generalizing m acc with
  | nil => rfl
  | cons i is ih =>
    simp only [List.cons_append, learnAll]
    cases lib.fit m i with
    | none => rfl
    | some r => exact ih r.1 _

theorem learnAll_iff (lib : Lib V M α) (is : List Nat) (m : M) (m' : M) (a : α) :
    learnAll lib is m none = some (m', some a) ↔ Learns lib m is m' a := by
  constructor
  · have key : ∀ is m acc, learnAll lib is m acc = some (m', some a) → (is = [] ∧ m = m' ∧ acc = some a) ∨ Learns lib m is m' a := by
      intro is
      induction is with
      | nil =>
        intro m acc h
        simp only [learnAll, Option.some.injEq, Prod.mk.injEq] at h
        exact .inl ⟨rfl, h.1, h.2⟩
      | cons i is ih =>
        intro m acc h
        simp only [learnAll, Option.bind_eq_some_iff] at h
        obtain ⟨⟨m₁, b⟩, h1, h2⟩ := h
        rcases ih _ _ h2 with ⟨rfl, rfl, h3⟩ | h3
        · obtain rfl : b = a := Option.some.inj h3
          exact .inr (.last _ _ _ _ h1)
        · exact .inr (.more _ _ _ _ _ _ _ h1 h3)
    intro h
    rcases key is m none h with ⟨-, -, h⟩ | h
    · cases h
    · exact h
  · intro h
    generalize (none : Option α) = acc
    induction h generalizing acc with
    | last m m' i a h => simp [learnAll, h]
    | more m m' m'' i is b a h _ ih => simp [learnAll, h, ih]

theorem foldLoop_eq (lib : Lib V M α) (v : Nat) (is : List Nat) (m : M) (acc : Option α) :
    foldLoop lib v is m acc = learnAll lib (is.filter (· ≠ v)) m acc := by
  induction is generalizing m acc with
  | nil => rfl
  | cons i is ih =>
    rw [foldLoop]
    by_cases h : i = v
    · rw [if_pos h, ih, List.filter_cons_of_neg (by simpa using h)]
    · rw [if_neg h, List.filter_cons_of_pos (by simpa using h), learnAll]
      cases lib.fit m i with
      | none => rfl
      | some r => exact ih r.1 _

theorem passLoop_eq (lib : Lib V M α) (folds v passes : Nat) (m : M) (acc : Option α) :
    passLoop lib folds v passes m acc = learnAll lib (List.replicate passes (otherFolds folds v)).flatten m acc := by
  induction passes generalizing m acc with
  | zero => rfl
  | succ p ih =>
    rw [passLoop, List.replicate_succ, List.flatten_cons, learnAll_append, foldLoop_eq,
      show (List.range folds).filter (· ≠ v) = otherFolds folds v from rfl]
    cases learnAll lib (otherFolds folds v) m acc with
    | none => rfl
    | some r => exact ih _ _

/-- **C83 (task).** A task trains a new model on all folds but one, as often as there are passes, and tests it on that one. -/
theorem C83_task (lib : Lib V M α) (passes folds v : Nat) (d : Dict V) (tr va : α) :
    runTask lib passes folds v d = some (tr, va) ↔ Validates lib passes folds v d tr va := by
  simp only [runTask, passLoop_eq, Option.bind_eq_bind, Option.bind_eq_some_iff, Option.some.injEq, Prod.mk.injEq]
  constructor
  · rintro ⟨m₀, h0, ⟨m, acc⟩, h1, b, h2, a, h3, rfl, rfl⟩
    dsimp only at h3 h2
    subst h3
    exact ⟨m₀, m, h0, (learnAll_iff _ _ _ _ _).1 h1, h2⟩
  · rintro ⟨m₀, m, h0, h1, h2⟩
    exact ⟨m₀, h0, (m, some tr), (learnAll_iff _ _ _ _ _).2 h1, va, h2, tr, rfl, rfl, rfl⟩

/-- **C83 (settings).** Settings that are not searched for take precedence. -/
theorem C83_settings (d e : Dict V) (he : (e.map (·.1)).Nodup) : Overlaid d e (update d e) := by
  have ha : ∀ (d : Dict V) (k : String) (v : V) (j : String), (assign d k v).lookup j = if j = k then some v else d.lookup j := by
    intro d k v j
    have key1 : ∀ d : Dict V, d.any (·.1 = k) = true →
        (d.map fun p => if p.1 = k then (k, v) else p).lookup j = if j = k then some v else d.lookup j := by
      intro d
      induction d with
      | nil => simp
      | cons p d ih =>
        intro h
        obtain ⟨x, y⟩ := p
        by_cases hx : x = k
        · subst hx
          by_cases hj : j = x
          · simp [List.lookup_cons, hj]
          · have hj' : (j == x) = false := by simpa using hj
            simp only [List.map_cons, if_true, List.lookup_cons, hj', if_neg hj]
            by_cases hd : d.any (·.1 = x) = true
            · rw [ih hd, if_neg hj]
            · congr 1
              rw [List.map_congr_left (g := id), List.map_id]
              intro q hq
              rw [if_neg, id]
              intro hq2
              exact hd (List.any_eq_true.2 ⟨q, hq, by simpa using hq2⟩)
        · have hd : d.any (·.1 = k) = true := by simpa [hx] using h
          simp only [List.map_cons, if_neg hx, List.lookup_cons]
          by_cases hj : j = x
          · subst hj
            simp [hx]
          · have hj' : (j == x) = false := by simpa using hj
            simp only [hj']
            exact ih hd
    by_cases h : d.any (·.1 = k) = true
    · rw [assign, if_pos h]
      exact key1 d h
    · rw [assign, if_neg h, List.lookup_append]
      by_cases hj : j = k
      · subst hj
        have : d.lookup j = none := by
          rw [List.lookup_eq_none_iff]
          intro q hq
          rw [bne_iff_ne]
          intro hc
          exact h (List.any_eq_true.2 ⟨q, hq, by rw [← hc]; simp⟩)
        simp [this, List.lookup_cons]
      · have hj' : (j == k) = false := by simpa using hj
        simp [List.lookup_cons, hj', hj]
  intro k
  unfold update
  induction e generalizing d with
  | nil => simp
  | cons p e ih =>
    obtain ⟨x, y⟩ := p
    rw [List.map_cons, List.nodup_cons] at he
    rw [List.foldl_cons, ih _ he.2, ha, List.lookup_cons]
    by_cases hk : k = x
    · subst hk
      have : e.lookup k = none := by
        rw [List.lookup_eq_none_iff]
        intro q hq
        rw [bne_iff_ne]
        intro hc
        exact he.1 (List.mem_map.2 ⟨q, hq, hc.symm⟩)
      simp [this]
    · have hk' : (k == x) = false := by simpa using hk
      simp [hk, hk']

theorem foldl_set (n : Nat) (g : Nat → α) (row : List α) (h : n ≤ row.length) :
    (List.range n).foldl (fun r v => r.set v (g v)) row = (List.range n).map g ++ row.drop n := by
  induction n with
  | zero => simp
  | succ n ih =>
    rw [List.range_succ, List.foldl_append, ih (by omega), List.foldl_cons, List.foldl_nil, List.map_append, List.set_append,
      if_neg (by simp), List.length_map, List.length_range, Nat.sub_self, List.drop_eq_getElem_cons (by omega : n < row.length)]
    rw [List.set_cons_zero]
    simp

section
variable [Field α] [LinearOrder α]

theorem setColumn_get (v : Nat) (rows : List (List α)) (g : Nat → α) (n k : Nat) (hr : rows.length = n) :
    (setColumn v rows ((List.range n).map g))[k]? = rows[k]?.map fun r => r.set v (g k) := by
  unfold setColumn
  rw [List.getElem?_zipWith, List.getElem?_map]
  by_cases hk : k < n
  · rw [List.getElem?_range hk, List.getElem?_eq_getElem (by omega : k < rows.length)]
    rfl
  · rw [List.getElem?_eq_none (by omega : rows.length ≤ k)]
    rfl

/-- The rounds fill the rows. -/
theorem rounds_iff (cv : CV V α) (lib : Lib V M α) (passes : Nat) (hp : 1 ≤ cv.procs) (f : Nat → Nat → α × α) (vs : List Nat)
    (hf : ∀ v ∈ vs, ∀ k < cv.space.length, cv.work lib passes v k = some (f v k)) (tr va tr' va' : List (List α))
    (ht : tr.length = cv.space.length) (hv : va.length = cv.space.length) :
    Rounds cv lib passes vs tr va tr' va' ↔
      tr' = tr.mapIdx (fun k row => vs.foldl (fun r v => r.set v (f v k).1) row) ∧
      va' = va.mapIdx (fun k row => vs.foldl (fun r v => r.set v (f v k).2) row) := by
  induction vs generalizing tr va with
  | nil =>
    have e : ∀ l : List (List α), l.mapIdx (fun _ row => row) = l := fun l => by
      refine List.ext_getElem? fun k => ?_
      rw [List.getElem?_mapIdx]
      cases l[k]? <;> rfl
    simp only [List.foldl_nil, e]
    constructor
    · intro h
      cases h
      exact ⟨rfl, rfl⟩
    · rintro ⟨rfl, rfl⟩
      exact .nil _ _
  | cons v vs ih =>
    have hone : ∀ l, OneFold cv.space.length cv.procs (0, 0) (cv.work lib passes v) l ↔ l = (List.range cv.space.length).map (f v) := by
      intro l
      rw [oneFold_iff _ _ hp _ (fun k hk => by rw [hf v (by simp) k hk]; rfl)]
      have : (List.range cv.space.length).map (cv.work lib passes v) = ((List.range cv.space.length).map (f v)).map some := by
        rw [List.map_map]
        exact List.map_congr_left fun k hk => hf v (by simp) k (List.mem_range.1 hk)
      rw [this]
      exact ⟨fun h => List.map_injective_iff.2 (Option.some_injective _) h, fun h => by rw [h]⟩
    have hstep : ∀ (rows : List (List α)) (g : Nat → α), rows.length = cv.space.length →
        setColumn v rows ((List.range cv.space.length).map g) = rows.mapIdx fun k r => r.set v (g k) := by
      intro rows g hr
      refine List.ext_getElem? fun k => ?_
      rw [setColumn_get v rows g _ k hr, List.getElem?_mapIdx]
    have hmm : ∀ (rows : List (List α)) (g : Nat → α) (h : Nat → List α → List α),
        (rows.mapIdx fun k r => r.set v (g k)).mapIdx h = rows.mapIdx fun k r => h k (r.set v (g k)) := by
      intro rows g h
      refine List.ext_getElem? fun k => ?_
      simp only [List.getElem?_mapIdx, Option.map_map]
      rfl
    have hih := ih (fun w hw => hf w (by simp [hw])) (tr.mapIdx fun k r => r.set v (f v k).1) (va.mapIdx fun k r => r.set v (f v k).2)
      (by simpa using ht) (by simpa using hv)
    rw [hmm, hmm] at hih
    simp only [List.foldl_cons]
    rw [← hih]
    constructor
    · intro h
      cases h with
      | cons _ _ _ _ _ _ l h1 h2 =>
        rw [(hone l).1 h1, List.map_map, List.map_map, hstep tr _ ht, hstep va _ hv] at h2
        exact h2
    · intro h
      refine .cons v vs tr va tr' va' _ ((hone _).2 rfl) ?_
      rw [List.map_map, List.map_map, hstep tr _ ht, hstep va _ hv]
      exact h

/-- **C83 (scores).** If the settings can be trained with, cross validation with a new object comes to its end, and then every row of
    scores holds the accuracies of its settings on the folds, each validated by a model that has not seen it, and their average —
    whatever the number of processes and the order of their steps. -/
theorem C83_scores (folds : Nat) (hf : 2 ≤ folds) (params : List (String × List V)) (h0 : params ≠ []) (extra : Dict V) (procs : Nat)
    (hp : 1 ≤ procs) (lib : Lib V M α) (passes : Nat)
    (hv : ∀ v < folds, ∀ d, Combination params d → ∃ tr va, Validates lib passes folds v (update d extra) tr va) :
    ∃ cv cv', CV.new folds params extra procs = some cv ∧ searchSpace params = some cv.space ∧ CV.TrainVal cv lib passes cv' ∧
      (∀ c, CV.TrainVal cv lib passes c → c = cv') ∧ cv'.space = cv.space ∧ cv'.folds = folds ∧ cv'.val.length = cv.space.length ∧
      ∀ (k : Nat) d, cv.space[k]? = some d → ∃ trs vas : List α, trs.length = folds ∧ vas.length = folds ∧
        cv'.train[k]? = some (trs ++ [trs.sum / folds]) ∧ cv'.val[k]? = some (vas ++ [vas.sum / folds]) ∧
        ∀ (v : Nat) tr va, trs[v]? = some tr → vas[v]? = some va → Validates lib passes folds v (update d extra) tr va := by
  obtain ⟨space, h1, h2, -, -⟩ := C83_grid params h0
  obtain ⟨cv, hcv⟩ : ∃ cv : CV V α, cv = ⟨folds, space, extra, procs, List.replicate space.length (List.replicate (folds + 1) 0),
    List.replicate space.length (List.replicate (folds + 1) 0)⟩ := ⟨_, rfl⟩
  have hnew : CV.new folds params extra procs = some cv := by
    rw [hcv]
    simp [CV.new, h1, show ¬ folds < 2 by omega]
  have hw : ∀ v < folds, ∀ k < space.length, ∃ r, cv.work lib passes v k = some r := by
    intro v hv' k hk
    obtain ⟨tr, va, h⟩ := hv v hv' space[k] ((h2 _).1 (List.getElem_mem _))
    exact ⟨(tr, va), by rw [hcv]; simp [CV.work, hk, (C83_task _ _ _ _ _ _ _).2 h]⟩
  have hex : ∃ f : Nat → Nat → α × α, ∀ v < folds, ∀ k < space.length, cv.work lib passes v k = some (f v k) := by
    refine ⟨fun v k => (cv.work lib passes v k).getD (0, 0), fun v hv' k hk => ?_⟩
    obtain ⟨r, hr⟩ := hw v hv' k hk
    simp [hr]
  obtain ⟨f, hf'⟩ := hex
  have hs : cv.space = space := by rw [hcv]
  have hfo : cv.folds = folds := by rw [hcv]
  have key := fun tr' va' => rounds_iff cv lib passes (by rw [hcv]; exact hp) f (List.range folds)
    (fun v hv' k hk => hf' v (List.mem_range.1 hv') k (by rw [← hs]; exact hk)) cv.train cv.val tr' va' (by rw [hcv]; simp) (by rw [hcv]; simp)
  have hrow : ∀ g : Nat → α, (List.range folds).foldl (fun r v => r.set v (g v)) (List.replicate (folds + 1) 0) = (List.range folds).map g ++ [0] := by
    intro g
    rw [foldl_set _ _ _ (by simp)]
    simp
  have havg : ∀ l : List α, l.length = folds → average folds (l ++ [0]) = l ++ [l.sum / folds] := by
    intro l hl
    rw [average, List.set_append, if_neg (by omega), hl, Nat.sub_self]
    simp
  refine ⟨cv, { cv with
    train := (cv.train.mapIdx fun k row => (List.range folds).foldl (fun r v => r.set v (f v k).1) row).map (average folds)
    val := (cv.val.mapIdx fun k row => (List.range folds).foldl (fun r v => r.set v (f v k).2) row).map (average folds) }, hnew,
    by rw [hs, h1], ?_, ?_, rfl, hfo, by rw [hcv]; simp, ?_⟩
  · exact ⟨_, _, by rw [hfo]; exact (key _ _).2 ⟨rfl, rfl⟩, by rw [hfo]⟩
  · rintro c ⟨tr, va, h3, rfl⟩
    rw [hfo] at h3 ⊢
    obtain ⟨rfl, rfl⟩ := (key _ _).1 h3
    rfl
  · intro k d hk
    rw [hs] at hk
    obtain ⟨hlt, rfl⟩ := List.getElem?_eq_some_iff.1 hk
    refine ⟨(List.range folds).map fun v => (f v k).1, (List.range folds).map fun v => (f v k).2, by simp, by simp, ?_, ?_, ?_⟩
    · dsimp only
      rw [List.getElem?_map, List.getElem?_mapIdx, hcv]
      simp only [List.getElem?_replicate, hlt, if_true, Option.map_some, hrow fun v => (f v k).1]
      rw [havg _ (by simp)]
    · dsimp only
      rw [List.getElem?_map, List.getElem?_mapIdx, hcv]
      simp only [List.getElem?_replicate, hlt, if_true, Option.map_some, hrow fun v => (f v k).2]
      rw [havg _ (by simp)]
    · intro v tr va hv1 hv2
      have hvf : v < folds := by
        have := (List.getElem?_eq_some_iff.1 hv1).1
        simpa using this
      rw [List.getElem?_map, List.getElem?_range hvf] at hv1 hv2
      obtain rfl : (f v k).1 = tr := by simpa using hv1
      obtain rfl : (f v k).2 = va := by simpa using hv2
      rw [← C83_task]
      have := hf' v hvf k hlt
      rw [hcv] at this
      simpa [CV.work, hlt] using this

theorem argmaxLoop_spec [IsStrictOrderedRing α] (pre l : List α) (best : α) (pos : Nat) (hpos : pre[pos]? = some best) (hle : ∀ (k : Nat) a, pre[k]? = some a → a ≤ best)
    (hlt : ∀ (k : Nat) a, k < pos → pre[k]? = some a → a < best) :
    ∃ b, (pre ++ l)[argmaxLoop best pos pre.length l]? = some b ∧ (∀ (k : Nat) a, (pre ++ l)[k]? = some a → a ≤ b) ∧
      ∀ (k : Nat) a, k < argmaxLoop best pos pre.length l → (pre ++ l)[k]? = some a → a < b := by
  induction l generalizing pre best pos with
  | nil =>
    rw [List.append_nil]
    exact ⟨best, hpos, hle, hlt⟩
  | cons c l ih =>
    have hget : ∀ (k : Nat) a, (pre ++ [c])[k]? = some a → (pre[k]? = some a ∧ k < pre.length) ∨ (k = pre.length ∧ a = c) := by
      intro k a h
      by_cases hk : k < pre.length
      · rw [List.getElem?_append_left hk] at h
        exact .inl ⟨h, hk⟩
      · rw [List.getElem?_append_right (by omega)] at h
        obtain ⟨h1, h2⟩ := List.getElem?_eq_some_iff.1 h
        have : k - pre.length = 0 := by simpa using h1
        refine .inr ⟨by omega, ?_⟩
        simpa [this] using h2.symm
    have hp : pos < pre.length := (List.getElem?_eq_some_iff.1 hpos).1
    have e : pre ++ c :: l = (pre ++ [c]) ++ l := by simp
    have e2 : pre.length + 1 = (pre ++ [c]).length := by simp
    rw [argmaxLoop, e]
    by_cases hc : best < c
    · rw [if_pos hc, e2]
      refine ih (pre ++ [c]) c pre.length (by simp) ?_ ?_
      · intro k a h
        rcases hget k a h with ⟨h, -⟩ | ⟨-, rfl⟩
        · exact (hle k a h).trans hc.le
        · exact le_rfl
      · intro k a hk h
        rcases hget k a h with ⟨h, -⟩ | ⟨rfl, rfl⟩
        · exact (hle k a h).trans_lt hc
        · omega
    · rw [if_neg hc, e2]
      refine ih (pre ++ [c]) best pos (by rw [List.getElem?_append_left hp]; exact hpos) ?_ ?_
      · intro k a h
        rcases hget k a h with ⟨h, -⟩ | ⟨-, rfl⟩
        · exact hle k a h
        · exact not_lt.1 hc
      · intro k a hk h
        rcases hget k a h with ⟨h, -⟩ | ⟨rfl, rfl⟩
        · exact hlt k a hk h
        · omega

/-- **C83 (best).** The best settings: no others have a greater average, and those before them have a smaller one. -/
theorem C83_best [IsStrictOrderedRing α] (cv : CV V α) (avg : List α) (hne : cv.space ≠ []) (ha : avg.length = cv.space.length)
    (hr : List.Forall₂ (fun row a => row[cv.folds]? = some a) cv.val avg) :
    ∃ d i b, cv.best = some (d, i) ∧ cv.space[i]? = some d ∧ avg[i]? = some b ∧ (∀ (k : Nat) a, avg[k]? = some a → a ≤ b) ∧
      ∀ (k : Nat) a, k < i → avg[k]? = some a → a < b := by
  have hm : cv.val.mapM (·[cv.folds]?) = some avg := by
    clear ha
    generalize cv.val = rows at hr
    induction hr with
    | nil => rfl
    | cons h _ ih => rw [List.mapM_cons, h, ih]; rfl
  rcases avg with _ | ⟨a, l⟩
  · exact absurd (List.length_eq_zero_iff.1 ha.symm) hne
  · obtain ⟨b, h1, h2, h3⟩ := argmaxLoop_spec [a] l a 0 rfl
      (by intro k c h; rcases k with _ | k <;> simp at h; rw [h]) (by intro k c hk; omega)
    have hi : argmaxLoop a 0 1 l < cv.space.length := by
      rw [← ha]
      exact (List.getElem?_eq_some_iff.1 h1).1
    refine ⟨cv.space[argmaxLoop a 0 1 l], argmaxLoop a 0 1 l, b, ?_, List.getElem?_eq_getElem hi, h1, h2, h3⟩
    unfold CV.best
    rw [hm]
    simp [argmax, hi]

/-- **C83 (choice).** Cross validation picks the combination of values with the best average accuracy on the folds. -/
theorem C83_chosen [IsStrictOrderedRing α] (folds : Nat) (hf : 2 ≤ folds) (params : List (String × List V)) (h0 : params ≠ [])
    (h1 : ∀ p ∈ params, p.2 ≠ []) (extra : Dict V) (procs : Nat) (hp : 1 ≤ procs) (lib : Lib V M α) (passes : Nat)
    (hv : ∀ v < folds, ∀ d, Combination params d → ∃ tr va, Validates lib passes folds v (update d extra) tr va) :
    ∃ cv : CV V α, CV.new folds params extra procs = some cv ∧ (∃ cv', CV.TrainVal cv lib passes cv') ∧ ∀ cv', CV.TrainVal cv lib passes cv' →
      ∃ d i, cv'.best = some (d, i) ∧ Combination params d ∧ ∃ vas : List α, vas.length = folds ∧
        (∀ (v : Nat) va, vas[v]? = some va → ∃ tr, Validates lib passes folds v (update d extra) tr va) ∧
        ∀ d' (vas' : List α), Combination params d' → vas'.length = folds →
          (∀ (v : Nat) va, vas'[v]? = some va → ∃ tr, Validates lib passes folds v (update d' extra) tr va) →
          vas'.sum / folds ≤ vas.sum / folds := by
  obtain ⟨cv, cv', e1, e2, e3, e4, e5, e6, e7, e8⟩ := C83_scores folds hf params h0 extra procs hp lib passes hv
  refine ⟨cv, e1, ⟨cv', e3⟩, ?_⟩
  intro c hc
  obtain rfl := e4 c hc
  obtain ⟨space, g1, g2, -, -⟩ := C83_grid params h0
  obtain rfl : cv.space = space := Option.some.inj (e2.symm.trans g1)
  obtain ⟨d₀, -, hd₀⟩ := pick_some params h1 0
  have hne : cv.space ≠ [] := List.ne_nil_of_mem ((g2 d₀).2 hd₀)
  obtain ⟨avg, ha⟩ : ∃ avg : List α, List.Forall₂ (fun row a => row[c.folds]? = some a) c.val avg := by
    refine ⟨c.val.map fun row => (row[c.folds]?).getD 0, ?_⟩
    rw [List.forall₂_map_right_iff, List.forall₂_same]
    intro row hrow
    obtain ⟨k, hk, rfl⟩ := List.mem_iff_getElem.1 hrow
    obtain ⟨trs, vas, l1, l2, -, l4, -⟩ := e8 k cv.space[k] (List.getElem?_eq_getElem (by omega))
    rw [List.getElem?_eq_getElem hk, Option.some.injEq] at l4
    rw [l4, e6, ← l2]
    simp
  have hal : avg.length = c.space.length := by rw [← ha.length_eq, e7, e5]
  obtain ⟨d, i, b, b1, b2, b3, b4, -⟩ := C83_best c avg (by rw [e5]; exact hne) hal ha
  have havg : ∀ (k : Nat) (trs vas : List α), vas.length = folds → c.val[k]? = some (vas ++ [vas.sum / folds]) → avg[k]? = some (vas.sum / folds) := by
    intro k trs vas hl hk
    obtain ⟨hk1, hk2⟩ := List.getElem?_eq_some_iff.1 hk
    have := (List.forall₂_iff_get.1 ha).2 k hk1 (by rw [← ha.length_eq]; exact hk1)
    simp only [List.get_eq_getElem, hk2, e6] at this
    rw [List.getElem?_eq_getElem (by rw [← ha.length_eq]; exact hk1), ← this, ← hl]
    simp
  have hdet : ∀ {v d tr va tr' va'}, Validates lib passes folds v d tr va → Validates lib passes folds v d tr' va' → va = va' := by
    intro v d tr va tr' va' x y
    have := ((C83_task _ _ _ _ _ _ _).2 x).symm.trans ((C83_task _ _ _ _ _ _ _).2 y)
    simpa using congrArg (fun o => o.map Prod.snd) this
  rw [e5] at b2
  obtain ⟨trs, vas, l1, l2, l3, l4, l5⟩ := e8 i d b2
  refine ⟨d, i, b1, (g2 d).1 (List.mem_of_getElem? b2), vas, l2, ?_, ?_⟩
  · intro v va hva
    have hvl : v < trs.length := by
      rw [l1, ← l2]
      exact (List.getElem?_eq_some_iff.1 hva).1
    exact ⟨_, l5 v _ va (List.getElem?_eq_getElem hvl) hva⟩
  · intro d' vas' hd' hl' hv'
    obtain ⟨k, hk⟩ := List.mem_iff_getElem?.1 ((g2 d').2 hd')
    obtain ⟨trs2, vas2, m1, m2, m3, m4, m5⟩ := e8 k d' hk
    have heq : vas' = vas2 := by
      refine List.ext_getElem (by rw [hl', m2]) fun v hv1 hv2 => ?_
      obtain ⟨tr, h⟩ := hv' v _ (List.getElem?_eq_getElem hv1)
      exact hdet h (m5 v _ _ (List.getElem?_eq_getElem (by rw [m1, ← m2]; exact hv2)) (List.getElem?_eq_getElem hv2))
    have hb : b = vas.sum / folds := Option.some.inj (b3.symm.trans (havg i trs vas l2 l4))
    rw [heq, ← hb]
    exact b4 k _ (havg k trs2 vas2 m2 m4)

/-- **C83, the part that holds of a second call.** Called again on the same object (for another algorithm, say), `train_val` adds the
    old average to the sum of the new scores. -/
theorem C83_again_partial (cv : CV V α) (hp : 1 ≤ cv.procs) (lib : Lib V M α) (passes : Nat) (ht : cv.train.length = cv.space.length)
    (hv : cv.val.length = cv.space.length) (f : Nat → Nat → α × α)
    (hf : ∀ v < cv.folds, ∀ k < cv.space.length, cv.work lib passes v k = some (f v k)) (cv' : CV V α) (h : CV.TrainVal cv lib passes cv') (k : Nat)
    (row : List α) (old : α) (hk : cv.val[k]? = some (row ++ [old])) (hr : row.length = cv.folds) :
    cv'.val[k]? = some ((List.range cv.folds).map (fun v => (f v k).2) ++ [(((List.range cv.folds).map fun v => (f v k).2).sum + old) / cv.folds]) := by
  obtain ⟨tr, va, h1, rfl⟩ := h
  obtain ⟨-, rfl⟩ := (rounds_iff cv lib passes hp f (List.range cv.folds) (fun v hv' k hk => hf v (List.mem_range.1 hv') k hk) cv.train cv.val tr va ht hv).1 h1
  dsimp only
  rw [List.getElem?_map, List.getElem?_mapIdx, hk]
  simp only [Option.map_some, Option.some.injEq]
  rw [foldl_set _ (fun v => (f v k).2) _ (by simp; omega), List.drop_append, List.drop_eq_nil_of_le (by omega), ← hr, Nat.sub_self]
  rw [average, List.nil_append, List.drop_zero, List.set_append, if_neg (by simp), List.length_map, List.length_range, Nat.sub_self]
  simp

/-- **C83 (no passes).** With no passes over the data (`-p 0`) there is no training accuracy, and cross validation never ends. -/
theorem C83_no_passes (cv : CV V α) (lib : Lib V M α) (hs : cv.space ≠ []) (hf : 0 < cv.folds) (cv' : CV V α) : ¬ CV.TrainVal cv lib 0 cv' := by
  rintro ⟨tr, va, h, -⟩
  obtain ⟨n, hn⟩ := Nat.exists_eq_succ_of_ne_zero hf.ne'
  rw [hn, List.range_succ_eq_map] at h
  cases h with
  | cons _ _ _ _ _ _ l h1 h2 =>
    obtain ⟨s, h3, h4, -⟩ := h1
    refine C83_hangs _ _ _ 0 (List.length_pos_iff.2 hs) ?_ _ s h3 h4
    unfold CV.work
    cases cv.space[0]? with
    | none => rfl
    | some p =>
      rw [Option.bind_eq_bind, Option.bind_some, Option.eq_none_iff_forall_not_mem]
      rintro ⟨a, b⟩ hab
      obtain ⟨m₀, m, -, hl, -⟩ := (C83_task _ _ _ _ _ _ _).1 hab
      rw [List.replicate_zero, List.flatten_nil] at hl
      cases hl

end

/-- An algorithm whose accuracy depends on its parameter `a` only. -/
def steady (accuracy : Nat → ℚ) : Lib Nat Nat ℚ := ⟨fun d => d.lookup "a", fun m _ => some (m, 1), fun m _ => some (accuracy m)⟩

/-- An instance of `C83_chosen`: two parameters, three folds, four processes. -/
example : (∀ v < 3, ∀ d, Combination [("a", [1, 2, 3]), ("b", [0, 5])] d →
      ∃ tr va, Validates (steady fun a => if a = 2 then 1 else 1 / 2) 2 3 v (update d [("norm", 7)]) tr va) ∧
    (searchSpace [("a", [1, 2, 3]), ("b", [0, 5])]).map List.length = some 6 := by
  refine ⟨fun v hv d hd => ?_, by decide⟩
  obtain ⟨space, h1, h2, -, -⟩ := C83_grid [("a", [1, 2, 3]), ("b", [0, 5])] (by decide)
  obtain rfl : [[("a", 1), ("b", 0)], [("a", 2), ("b", 0)], [("a", 3), ("b", 0)], [("a", 1), ("b", 5)], [("a", 2), ("b", 5)],
    [("a", 3), ("b", 5)]] = space := Option.some.inj ((by decide +kernel : some _ = searchSpace _).trans h1)
  have hd' := (h2 d).2 hd
  have : ∃ r, runTask (steady fun a => if a = 2 then 1 else 1 / 2) 2 3 v (update d [("norm", 7)]) = some r := by
    have h3 : v = 0 ∨ v = 1 ∨ v = 2 := by omega
    simp only [List.mem_cons, List.not_mem_nil, or_false] at hd'
    rw [← Option.isSome_iff_exists]
    rcases h3 with rfl | rfl | rfl <;> rcases hd' with rfl | rfl | rfl | rfl | rfl | rfl <;> decide +kernel
  obtain ⟨⟨tr, va⟩, h⟩ := this
  exact ⟨tr, va, (C83_task _ _ _ _ _ _ _).1 h⟩

/-- The object of a cross validation of `a = 1` and `a = 2` with two folds, after an algorithm that has the accuracies 0 and 1. -/
def used : CV Nat ℚ := ⟨2, [[("a", 1)], [("a", 2)]], [], 1, [[1, 1, 1], [1, 1, 1]], [[0, 0, 0], [1, 1, 1]]⟩

/-- **C83 is violated.** After another call of `train_val`, the average is wrong and the worse settings are chosen: 2/5 on every fold
    against 1/2. -/
theorem C83_is_violated : (∃ cv : CV Nat ℚ, CV.new 2 [("a", [1, 2])] [] 1 = some cv ∧ cv.TrainVal (steady fun a => a - 1) 1 used) ∧
    (∃ cv', used.TrainVal (steady fun a => if a = 1 then 1 / 2 else 2 / 5) 1 cv') ∧
    ∀ cv', used.TrainVal (steady fun a => if a = 1 then 1 / 2 else 2 / 5) 1 cv' →
      cv'.val = [[1 / 2, 1 / 2, 1 / 2], [2 / 5, 2 / 5, 9 / 10]] ∧ cv'.best = some ([("a", 2)], 1) := by
  have k1 := fun tr va => rounds_iff (⟨2, [[("a", 1)], [("a", 2)]], [], 1, [[0, 0, 0], [0, 0, 0]], [[0, 0, 0], [0, 0, 0]]⟩ : CV Nat ℚ)
    (steady fun a => a - 1) 1 (by decide) (fun _ k => (1, k)) (List.range 2)
    (by decide +kernel) [[0, 0, 0], [0, 0, 0]] [[0, 0, 0], [0, 0, 0]] tr va rfl rfl
  have k2 := fun tr va => rounds_iff used (steady fun a => if a = 1 then 1 / 2 else 2 / 5) 1 (by decide)
    (fun _ k => (1, if k = 0 then 1 / 2 else 2 / 5)) (List.range 2)
    (by decide +kernel) used.train used.val tr va rfl rfl
  refine ⟨⟨_, rfl, _, _, (k1 _ _).2 ⟨rfl, rfl⟩, by decide +kernel⟩, ⟨_, _, _, (k2 _ _).2 ⟨rfl, rfl⟩, rfl⟩, ?_⟩
  rintro cv' ⟨tr, va, h1, rfl⟩
  obtain ⟨rfl, rfl⟩ := (k2 _ _).1 h1
  decide +kernel

end Sol.Props
