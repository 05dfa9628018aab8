import Verif.Spec.Cmdline
import Mathlib.Data.List.Induction
/-! Proofs about the command line parser. -/

namespace Sol.Cmdline
open Sol.Spec

variable {os : List Opt} {s : St} {g : List (Opt × Option Val)} {ws : List (List Char)}

/-- The last value given for an option, or its default. -/
def lastVal (g : List (Opt × Option Val)) (o : Opt) : Val :=
  ((g.filterMap fun p => if p.1 = o then p.2 else none).getLast?).getD o.dflt

/-- An option after `g` was given. -/
def slotAfter (g : List (Opt × Option Val)) (o : Opt) : Slot := ⟨o, g.any fun p => p.1 = o, lastVal g o⟩

/-- The state after `g` and the words `ws` were given. -/
def Holds (os : List Opt) (s : St) (g : List (Opt × Option Val)) (ws : List (List Char)) : Prop :=
  s.slots = os.map (slotAfter g) ∧ s.others = ws

theorem holds_start (os : List Opt) : Holds os (start os) [] [] := ⟨rfl, rfl⟩

theorem holds_err (h : Holds os s g ws) (e : Err) : Holds os (s.err e) g ws := h

theorem err_ne (e : Err) : (s.err e).errors ≠ [] := by simp [St.err]

theorem same_of_name (hd : Distinct os) {a b : Opt} (ha : a ∈ os) (hb : b ∈ os) (h : a.name = b.name) : a = b := by
  by_contra hne
  rcases List.mem_iff_getElem.1 ha with ⟨i, hi, rfl⟩
  rcases List.mem_iff_getElem.1 hb with ⟨j, hj, rfl⟩
  have hp := List.pairwise_iff_getElem.1 hd
  rcases lt_trichotomy i j with hij | hij | hij
  · exact (hp i j hi hj hij).1 h
  · subst hij
    exact hne rfl
  · exact (hp j i hj hi hij).1 h.symm

theorem same_of_short (hd : Distinct os) {a b : Opt} {c : Char} (ha : a ∈ os) (hb : b ∈ os) (na : a.name ≠ []) (nb : b.name ≠ [])
    (sa : a.short = some c) (sb : b.short = some c) : a = b := by
  by_contra hne
  rcases List.mem_iff_getElem.1 ha with ⟨i, hi, rfl⟩
  rcases List.mem_iff_getElem.1 hb with ⟨j, hj, rfl⟩
  have hp := List.pairwise_iff_getElem.1 hd
  rcases lt_trichotomy i j with hij | hij | hij
  · have := (hp i j hi hj hij).2 na nb (by rw [sa, sb])
    rw [sa] at this
    cases this
  · subst hij
    exact hne rfl
  · have := (hp j i hj hi hij).2 nb na (by rw [sa, sb])
    rw [sb] at this
    cases this

theorem find_name (hd : Distinct os) (h : Holds os s g ws) {o : Opt} (ho : o ∈ os) : s.find o.name = some (slotAfter g o) := by
  unfold St.find
  rw [h.1, List.find?_map]
  have : os.find? ((fun p : Slot => p.opt.name == o.name) ∘ slotAfter g) = some o := by
    cases e : os.find? ((fun p : Slot => p.opt.name == o.name) ∘ slotAfter g) with
    | none =>
      have := List.find?_eq_none.1 e o ho
      simp [slotAfter] at this
    | some p =>
      have h1 := List.find?_some e
      have h2 := List.mem_of_find?_eq_some e
      simp only [Function.comp_apply, slotAfter, beq_iff_eq] at h1
      rw [same_of_name hd h2 ho h1]
  rw [this]
  rfl

theorem of_find (h : Holds os s g ws) {n : List Char} {x : Slot} (hf : s.find n = some x) : ∃ o ∈ os, x = slotAfter g o ∧ o.name = n := by
  have h1 := List.find?_some hf
  have h2 := List.mem_of_find?_eq_some hf
  rw [h.1, List.mem_map] at h2
  obtain ⟨o, ho, rfl⟩ := h2
  exact ⟨o, ho, rfl, by simpa [slotAfter] using h1⟩

theorem short_name (hd : Distinct os) (h : Holds os s g ws) {o : Opt} {c : Char} (ho : o ∈ os) (hn : o.name ≠ []) (hs : o.short = some c) :
    s.short c = some (slotAfter g o) := by
  unfold St.short
  rw [h.1, List.find?_map]
  have : os.find? ((fun p : Slot => !p.opt.name.isEmpty && p.opt.short == some c) ∘ slotAfter g) = some o := by
    cases e : os.find? ((fun p : Slot => !p.opt.name.isEmpty && p.opt.short == some c) ∘ slotAfter g) with
    | none =>
      have := List.find?_eq_none.1 e o ho
      simp [slotAfter, hn, hs] at this
    | some p =>
      have h1 := List.find?_some e
      have h2 := List.mem_of_find?_eq_some e
      simp only [Function.comp_apply, slotAfter, Bool.and_eq_true, Bool.not_eq_true', List.isEmpty_eq_false_iff, beq_iff_eq] at h1
      rw [same_of_short hd h2 ho h1.1 hn h1.2 hs]
  rw [this]
  rfl

theorem of_short (h : Holds os s g ws) {c : Char} {x : Slot} (hf : s.short c = some x) :
    ∃ o ∈ os, x = slotAfter g o ∧ o.name ≠ [] ∧ o.short = some c := by
  have h1 := List.find?_some hf
  have h2 := List.mem_of_find?_eq_some hf
  rw [h.1, List.mem_map] at h2
  obtain ⟨o, ho, rfl⟩ := h2
  simp only [slotAfter, Bool.and_eq_true, Bool.not_eq_true', List.isEmpty_eq_false_iff, beq_iff_eq] at h1
  exact ⟨o, ho, rfl, h1.1, h1.2⟩

theorem slot_flag (g : List (Opt × Option Val)) (o p : Opt) :
    slotAfter (g ++ [(o, none)]) p = if p = o then { slotAfter g p with has := true } else slotAfter g p := by
  unfold slotAfter lastVal
  by_cases h : p = o
  · subst h
    simp
  · have h' : ¬ o = p := fun e => h e.symm
    simp [h, h']

theorem slot_value (g : List (Opt × Option Val)) (o p : Opt) (x : Val) :
    slotAfter (g ++ [(o, some x)]) p = if p = o then { slotAfter g p with has := true, actual := x } else slotAfter g p := by
  unfold slotAfter lastVal
  by_cases h : p = o
  · subst h
    simp
  · have h' : ¬ o = p := fun e => h e.symm
    simp [h, h']

theorem holds_flag (hd : Distinct os) (h : Holds os s g ws) {o : Opt} (ho : o ∈ os) :
    Holds os (s.mark o.name Slot.actual) (g ++ [(o, none)]) ws := by
  refine ⟨?_, h.2⟩
  unfold St.mark
  dsimp only
  rw [h.1, List.map_map]
  refine List.map_congr_left fun p hp => ?_
  rw [slot_flag]
  simp only [Function.comp_apply]
  by_cases e : p = o
  · subst e
    simp [slotAfter]
  · rw [if_neg e, if_neg (show ¬ (slotAfter g p).opt.name = o.name from fun h => e (same_of_name hd hp ho h))]

theorem holds_value (hd : Distinct os) (h : Holds os s g ws) {o : Opt} (ho : o ∈ os) (x : Val) :
    Holds os (s.mark o.name fun _ => x) (g ++ [(o, some x)]) ws := by
  refine ⟨?_, h.2⟩
  unfold St.mark
  dsimp only
  rw [h.1, List.map_map]
  refine List.map_congr_left fun p hp => ?_
  rw [slot_value]
  simp only [Function.comp_apply]
  by_cases e : p = o
  · subst e
    simp [slotAfter]
  · rw [if_neg e, if_neg (show ¬ (slotAfter g p).opt.name = o.name from fun h => e (same_of_name hd hp ho h))]

/-! ### The command line says what it says -/

theorem setFlag_holds (hd : Distinct os) (h : Holds os s g ws) {o : Opt} (ho : o ∈ os) (hr : o.reader = none) :
    Holds os (setFlag s o.name) (g ++ [(o, none)]) ws ∧ (setFlag s o.name).errors = s.errors := by
  unfold setFlag
  rw [find_name hd h ho]
  dsimp only
  rw [if_pos (by exact hr)]
  exact ⟨holds_flag hd h ho, rfl⟩

theorem setValue_holds (hd : Distinct os) (h : Holds os s g ws) {o : Opt} {r : Reader} {v : List Char} {x : Val} (ho : o ∈ os)
    (hr : o.reader = some r) (hx : r.read v = some x) :
    Holds os (setValue s o.name v) (g ++ [(o, some x)]) ws ∧ (setValue s o.name v).errors = s.errors := by
  unfold setValue
  rw [find_name hd h ho]
  dsimp only
  rw [show (slotAfter g o).opt.reader = some r from hr]
  dsimp only
  rw [hx]
  exact ⟨holds_value hd h ho x, rfl⟩

/-- A flag with a short name. -/
abbrev IsFlag (os : List Opt) (o : Opt) (c : Char) : Prop := o ∈ os ∧ o.name ≠ [] ∧ o.short = some c ∧ o.reader = none

theorem cluster_holds (hd : Distinct os) {l : List Opt} {cs : List Char} (hl : List.Forall₂ (IsFlag os) l cs) (h : Holds os s g ws) :
    Holds os (cs.foldl shortFlag s) (g ++ l.map fun o => (o, none)) ws ∧ (cs.foldl shortFlag s).errors = s.errors := by
  induction hl generalizing s g with
  | nil => simpa using h
  | @cons o c l cs h1 _ ih =>
    rw [List.foldl_cons]
    have e : shortFlag s c = setFlag s o.name := by
      unfold shortFlag
      rw [short_name hd h h1.1 h1.2.1 h1.2.2.1]
      rfl
    obtain ⟨h2, h3⟩ := setFlag_holds hd h h1.1 h1.2.2.2
    rw [e]
    obtain ⟨h4, h5⟩ := ih h2
    rw [List.append_assoc] at h4
    exact ⟨h4, h5.trans h3⟩

theorem takeWhile_name {n v : List Char} (hn : '=' ∉ n) : (n ++ '=' :: v).takeWhile (· != '=') = n := by
  rw [List.takeWhile_append_of_pos (by intro c hc; simp; rintro rfl; exact hn hc)]
  simp

theorem dropWhile_name {n v : List Char} (hn : '=' ∉ n) : ((n ++ '=' :: v).dropWhile (· != '=')).drop 1 = v := by
  rw [List.dropWhile_append_of_pos (by intro c hc; simp; rintro rfl; exact hn hc)]
  simp

theorem split_eq {t : List Char} (h : '=' ∈ t) : ∃ a b, t = a ++ '=' :: b ∧ '=' ∉ a := by
  induction t with
  | nil => cases h
  | cons c t ih =>
    by_cases e : c = '='
    · exact ⟨[], t, by rw [e]; rfl, by simp⟩
    · obtain ⟨a, b, h1, h2⟩ := ih ((List.mem_cons.1 h).resolve_left fun h => e h.symm)
      exact ⟨c :: a, b, by rw [h1]; rfl, by simp [h2, Ne.symm e]⟩

theorem parseLoop_cluster {cs : List Char} (hc : cs ≠ []) (h0 : cs.head? ≠ some '-') (rest : List (List Char)) :
    parseLoop s (('-' :: cs) :: rest) =
      match (cs.dropLast.foldl shortFlag s).short (cs.getLast hc) with
      | none => parseLoop ((cs.dropLast.foldl shortFlag s).err (.undefinedShort (cs.getLast hc))) rest
      | some o =>
        match o.opt.reader, rest with
        | some _, v :: rest => parseLoop (setValue (cs.dropLast.foldl shortFlag s) o.opt.name v) rest
        | _, rest => parseLoop (setFlag (cs.dropLast.foldl shortFlag s) o.opt.name) rest := by
  obtain ⟨c, cs, rfl⟩ := List.exists_cons_of_ne_nil hc
  have hne : c ≠ '-' := by simpa using h0
  rw [parseLoop.eq_def]
  split
  · rename_i heq; cases heq
  · rename_i heq
    cases heq
    exact absurd rfl hne
  · rename_i heq; cases heq
  · rename_i heq
    cases heq
    rfl
  · rename_i h1 h2 h3 heq
    cases heq
    exact (h3 _ _ rfl).elim

theorem parseLoop_word {t : List Char} (h : t.head? ≠ some '-') (rest : List (List Char)) :
    parseLoop s (t :: rest) = parseLoop { s with others := s.others ++ [t] } rest := by
  rw [parseLoop.eq_def]
  split
  · rename_i heq; cases heq
  · rename_i heq; cases heq; exact absurd rfl h
  · rename_i heq; cases heq; exact absurd rfl h
  · rename_i heq; cases heq; exact absurd rfl h
  · rename_i heq; cases heq; rfl

theorem parseLoop_dash (rest : List (List Char)) : parseLoop s (['-'] :: rest) = parseLoop s rest := by
  rw [parseLoop.eq_def]
  rfl

theorem parseLoop_long (t : List Char) (rest : List (List Char)) : parseLoop s (('-' :: '-' :: t) :: rest) =
    if '=' ∈ t then parseLoop (setValue s (t.takeWhile (· != '=')) ((t.dropWhile (· != '=')).drop 1)) rest
    else
      match s.find t with
      | none => parseLoop (s.err (.undefined t)) rest
      | some o =>
        if o.opt.reader = none then parseLoop (setFlag s t) rest
        else
          match rest with
          | [] => s.err (.needsValue t)
          | v :: rest => parseLoop (setValue s t v) rest := by
  rw [parseLoop.eq_def]
  rfl

theorem clause_parse (hd : Distinct os) {a : List (List Char)} {g' : List (Opt × Option Val)} {vs : List (List Char)}
    (hc : Clause os a g' vs) (h : Holds os s g ws) (rest : List (List Char)) :
    ∃ s', parseLoop s (a ++ rest) = parseLoop s' rest ∧ Holds os s' (g ++ g') (ws ++ vs) ∧ s'.errors = s.errors := by
  cases hc with
  | word ht =>
    refine ⟨_, parseLoop_word ht rest, ?_, rfl⟩
    rw [List.append_nil]
    exact ⟨h.1, by rw [← h.2]⟩
  | dash => exact ⟨s, parseLoop_dash rest, by simpa using h, rfl⟩
  | @joined o r v x ho hn hr hx =>
    obtain ⟨h1, h2⟩ := setValue_holds hd h ho hr hx
    refine ⟨_, ?_, by rw [List.append_nil]; exact h1, h2⟩
    rw [List.cons_append, List.nil_append, parseLoop_long, if_pos (by simp), takeWhile_name hn, dropWhile_name hn]
  | @apart o r v x ho hn hr hx =>
    obtain ⟨h1, h2⟩ := setValue_holds hd h ho hr hx
    refine ⟨_, ?_, by rw [List.append_nil]; exact h1, h2⟩
    rw [List.cons_append, parseLoop_long, if_neg hn, find_name hd h ho]
    dsimp only
    rw [if_neg (by show o.reader ≠ none; rw [hr]; simp)]
    rfl
  | @flag o ho hn hr =>
    obtain ⟨h1, h2⟩ := setFlag_holds hd h ho hr
    refine ⟨_, ?_, by rw [List.append_nil]; exact h1, h2⟩
    rw [List.cons_append, parseLoop_long, if_neg hn, find_name hd h ho]
    dsimp only
    rw [if_pos (by exact hr)]
    rfl
  | @short l cs hcs h0 hl =>
    obtain ⟨cs, c, rfl⟩ := (List.eq_nil_or_concat cs).resolve_left hcs
    rw [List.concat_eq_append] at *
    obtain ⟨l, o, hl1, hl2, rfl⟩ : ∃ l' o, List.Forall₂ (IsFlag os) l' cs ∧ IsFlag os o c ∧ l = l' ++ [o] := by
      have := List.forall₂_reverse_iff.2 hl
      rw [List.reverse_append, List.reverse_singleton, List.singleton_append] at this
      cases hr : l.reverse with
      | nil => rw [hr] at this; cases this
      | cons o l' =>
        rw [hr] at this
        cases this with
        | cons ha hb =>
          refine ⟨l'.reverse, o, ?_, ha, by rw [← List.reverse_reverse l, hr, List.reverse_cons]⟩
          rw [← List.forall₂_reverse_iff, List.reverse_reverse]
          exact hb
    obtain ⟨h1, h2⟩ := cluster_holds hd hl1 h
    obtain ⟨h3, h4⟩ := setFlag_holds hd h1 hl2.1 hl2.2.2.2
    refine ⟨_, ?_, ?_, h4.trans h2⟩
    · rw [List.cons_append, List.nil_append, parseLoop_cluster hcs h0]
      have e1 : (cs ++ [c]).dropLast = cs := by simp
      have e2 : (cs ++ [c]).getLast hcs = c := by simp
      rw [e1, e2, short_name hd h1 hl2.1 hl2.2.1 hl2.2.2.1]
      dsimp only
      rw [show (slotAfter (g ++ l.map fun o => (o, none)) o).opt.reader = none from hl2.2.2.2]
      rfl
    · simpa [List.append_assoc] using h3
  | @shortValue l cs o c r v x h0 hl ho hn hs hr hx =>
    obtain ⟨h1, h2⟩ := cluster_holds hd hl h
    obtain ⟨h3, h4⟩ := setValue_holds hd h1 ho hr hx
    refine ⟨_, ?_, ?_, h4.trans h2⟩
    · rw [List.cons_append, parseLoop_cluster (by simp) h0]
      have e1 : (cs ++ [c]).dropLast = cs := by simp
      have e2 : (cs ++ [c]).getLast (by simp) = c := by simp
      rw [e1, e2, short_name hd h1 ho hn hs]
      dsimp only
      rw [show (slotAfter (g ++ l.map fun o => (o, none)) o).opt.reader = some r from hr]
      rfl
    · simpa [List.append_assoc] using h3

theorem says_parse (hd : Distinct os) {args : List (List Char)} {g' : List (Opt × Option Val)} {vs : List (List Char)}
    (hs : Says os args g' vs) (h : Holds os s g ws) :
    Holds os (parseLoop s args) (g ++ g') (ws ++ vs) ∧ (parseLoop s args).errors = s.errors := by
  induction hs generalizing s g ws with
  | nil =>
    rw [parseLoop.eq_def]
    simpa using h
  | cons h1 _ ih =>
    obtain ⟨s', e, h3, h4⟩ := clause_parse hd h1 h _
    rw [e]
    obtain ⟨h5, h6⟩ := ih h3
    rw [List.append_assoc, List.append_assoc] at h5
    exact ⟨h5, h6.trans h4⟩

/-! ### Nothing else is accepted -/

theorem setFlag_only (hd : Distinct os) (h : Holds os s g ws) {n : List Char} (he : (setFlag s n).errors = []) :
    s.errors = [] ∧ ∃ o ∈ os, o.name = n ∧ o.reader = none ∧ Holds os (setFlag s n) (g ++ [(o, none)]) ws := by
  cases hf : s.find n with
  | none =>
    unfold setFlag at he
    rw [hf] at he
    exact absurd he (err_ne _)
  | some x =>
    obtain ⟨o, ho, rfl, rfl⟩ := of_find h hf
    by_cases hr : o.reader = none
    · obtain ⟨h1, h2⟩ := setFlag_holds hd h ho hr
      exact ⟨h2 ▸ he, o, ho, rfl, hr, h1⟩
    · unfold setFlag at he
      rw [hf] at he
      dsimp only at he
      rw [if_neg (by exact hr)] at he
      exact absurd he (err_ne _)

theorem setValue_only (hd : Distinct os) (h : Holds os s g ws) {n v : List Char} (he : (setValue s n v).errors = []) :
    s.errors = [] ∧ ∃ o ∈ os, o.name = n ∧ ∃ r x, o.reader = some r ∧ r.read v = some x ∧ Holds os (setValue s n v) (g ++ [(o, some x)]) ws := by
  cases hf : s.find n with
  | none =>
    unfold setValue at he
    rw [hf] at he
    exact absurd he (err_ne _)
  | some x =>
    obtain ⟨o, ho, rfl, rfl⟩ := of_find h hf
    cases hr : o.reader with
    | none =>
      unfold setValue at he
      rw [hf] at he
      dsimp only at he
      rw [show (slotAfter g o).opt.reader = none from hr] at he
      exact absurd he (err_ne _)
    | some r =>
      cases hx : r.read v with
      | none =>
        unfold setValue at he
        rw [hf] at he
        dsimp only at he
        rw [show (slotAfter g o).opt.reader = some r from hr] at he
        dsimp only at he
        rw [hx] at he
        exact absurd he (err_ne _)
      | some x =>
        obtain ⟨h1, h2⟩ := setValue_holds hd h ho hr hx
        exact ⟨h2 ▸ he, o, ho, rfl, r, x, hr, hx, h1⟩

/-- Whatever is given, the state belongs to something that was given. -/
theorem setFlag_some (hd : Distinct os) (h : Holds os s g ws) (n : List Char) : ∃ g', Holds os (setFlag s n) g' ws := by
  cases hf : s.find n with
  | none =>
    unfold setFlag
    rw [hf]
    exact ⟨g, h⟩
  | some x =>
    obtain ⟨o, ho, rfl, rfl⟩ := of_find h hf
    by_cases hr : o.reader = none
    · exact ⟨_, (setFlag_holds hd h ho hr).1⟩
    · unfold setFlag
      rw [hf]
      dsimp only
      rw [if_neg (by exact hr)]
      exact ⟨g, h⟩

theorem setValue_some (hd : Distinct os) (h : Holds os s g ws) (n v : List Char) : ∃ g', Holds os (setValue s n v) g' ws := by
  cases hf : s.find n with
  | none =>
    unfold setValue
    rw [hf]
    exact ⟨g, h⟩
  | some x =>
    obtain ⟨o, ho, rfl, rfl⟩ := of_find h hf
    cases hr : o.reader with
    | none =>
      unfold setValue
      rw [hf]
      dsimp only
      rw [show (slotAfter g o).opt.reader = none from hr]
      exact ⟨g, h⟩
    | some r =>
      cases hx : r.read v with
      | none =>
        unfold setValue
        rw [hf]
        dsimp only
        rw [show (slotAfter g o).opt.reader = some r from hr]
        dsimp only
        rw [hx]
        exact ⟨g, h⟩
      | some x => exact ⟨_, (setValue_holds hd h ho hr hx).1⟩

theorem shortFlag_some (hd : Distinct os) (h : Holds os s g ws) (c : Char) : ∃ g', Holds os (shortFlag s c) g' ws := by
  unfold shortFlag
  split
  · exact ⟨g, h⟩
  · exact setFlag_some hd h _

theorem shortFlag_only (hd : Distinct os) (h : Holds os s g ws) {c : Char} (he : (shortFlag s c).errors = []) :
    s.errors = [] ∧ ∃ o, IsFlag os o c ∧ Holds os (shortFlag s c) (g ++ [(o, none)]) ws := by
  unfold shortFlag at he ⊢
  cases hf : s.short c with
  | none =>
    rw [hf] at he
    exact absurd he (err_ne _)
  | some x =>
    rw [hf] at he
    obtain ⟨o, ho, rfl, hn, hs⟩ := of_short h hf
    dsimp only at he ⊢
    obtain ⟨h1, o', ho', e, hr, h2⟩ := setFlag_only hd h he
    obtain rfl := same_of_name hd ho' ho e
    exact ⟨h1, o', ⟨ho, hn, hs, hr⟩, h2⟩

theorem cluster_some (hd : Distinct os) (cs : List Char) (h : Holds os s g ws) : ∃ g', Holds os (cs.foldl shortFlag s) g' ws := by
  induction cs generalizing s g with
  | nil => exact ⟨g, h⟩
  | cons c cs ih =>
    obtain ⟨g', h'⟩ := shortFlag_some hd h c
    exact ih h'

theorem cluster_only (hd : Distinct os) (cs : List Char) (h : Holds os s g ws) (he : (cs.foldl shortFlag s).errors = []) :
    s.errors = [] ∧ ∃ l, List.Forall₂ (IsFlag os) l cs ∧ Holds os (cs.foldl shortFlag s) (g ++ l.map fun o => (o, none)) ws := by
  induction cs generalizing s g with
  | nil => exact ⟨he, [], .nil, by simpa using h⟩
  | cons c cs ih =>
    rw [List.foldl_cons] at he ⊢
    obtain ⟨g', h'⟩ := shortFlag_some hd h c
    obtain ⟨h1, _⟩ := ih h' he
    obtain ⟨h2, o, ho, h3⟩ := shortFlag_only hd h h1
    obtain ⟨_, l, hl, h4⟩ := ih h3 he
    refine ⟨h2, o :: l, .cons ho hl, ?_⟩
    simpa [List.append_assoc] using h4

theorem says_only (hd : Distinct os) : ∀ (n : Nat) (args : List (List Char)), args.length ≤ n → ∀ {s : St} {g : List (Opt × Option Val)}
    {ws : List (List Char)}, Holds os s g ws → (parseLoop s args).errors = [] →
    s.errors = [] ∧ ∃ g' vs, Says os args g' vs ∧ Holds os (parseLoop s args) (g ++ g') (ws ++ vs) := by
  intro n
  induction n with
  | zero =>
    intro args hn s g ws h he
    obtain rfl := List.eq_nil_of_length_eq_zero (Nat.le_zero.1 hn)
    rw [parseLoop.eq_def] at he ⊢
    exact ⟨he, [], [], .nil, by simpa using h⟩
  | succ n ih =>
    intro args hn s g ws h he
    -- a clause that leads to a state, and the rest
    have step : ∀ (a rest : List (List Char)) (s' : St) (g1 : List (Opt × Option Val)) (v1 : List (List Char)), Clause os a g1 v1 →
        args = a ++ rest → rest.length ≤ n → parseLoop s args = parseLoop s' rest → Holds os s' (g ++ g1) (ws ++ v1) →
        (s'.errors = [] → s.errors = []) →
        s.errors = [] ∧ ∃ g' vs, Says os args g' vs ∧ Holds os (parseLoop s args) (g ++ g') (ws ++ vs) := by
      intro a rest s' g1 v1 hc e hl hp hh hs
      rw [hp] at he ⊢
      obtain ⟨h1, g', vs, h2, h3⟩ := ih rest hl hh he
      refine ⟨hs h1, g1 ++ g', v1 ++ vs, e ▸ .cons hc h2, ?_⟩
      rw [← List.append_assoc, ← List.append_assoc]
      exact h3
    cases args with
    | nil =>
      rw [parseLoop.eq_def] at he ⊢
      exact ⟨he, [], [], .nil, by simpa using h⟩
    | cons t rest =>
      have hl : rest.length ≤ n := by simpa using hn
      by_cases h1 : t.head? = some '-'
      · obtain ⟨t, rfl⟩ : ∃ u, t = '-' :: u := by
          cases t with
          | nil => cases h1
          | cons c u => exact ⟨u, by simp at h1; rw [h1]⟩
        cases t with
        | nil =>
          exact step [['-']] rest s [] [] .dash rfl hl (parseLoop_dash rest) (by simpa using h) id
        | cons c cs =>
          by_cases hc : c = '-'
          · subst hc
            have hp := parseLoop_long (s := s) cs rest
            by_cases h2 : '=' ∈ cs
            · rw [if_pos h2] at hp
              rw [hp] at he
              obtain ⟨g1, hg1⟩ := setValue_some hd h (cs.takeWhile (· != '=')) ((cs.dropWhile (· != '=')).drop 1)
              obtain ⟨he1, _⟩ := ih rest hl hg1 he
              obtain ⟨he2, o, ho, hn, r, x, hr, hx, hh⟩ := setValue_only hd h he1
              obtain ⟨a, b, rfl, hab⟩ : ∃ a b, cs = a ++ '=' :: b ∧ '=' ∉ a := by
                exact split_eq h2
              rw [takeWhile_name hab] at hn
              rw [takeWhile_name hab, dropWhile_name hab] at hp hh
              rw [dropWhile_name hab] at hx
              subst hn
              exact step [_] rest _ _ [] (.joined ho hab hr hx) rfl hl hp (by rw [List.append_nil]; exact hh) (fun _ => he2)
            · rw [if_neg h2] at hp
              cases hf : s.find cs with
              | none =>
                rw [hf] at hp
                rw [hp] at he
                exact absurd (ih rest hl (holds_err h _) he).1 (err_ne _)
              | some x =>
                obtain ⟨o, ho, rfl, rfl⟩ := of_find h hf
                rw [hf] at hp
                dsimp only at hp
                by_cases hr : o.reader = none
                · rw [if_pos (by exact hr)] at hp
                  obtain ⟨hh, he2⟩ := setFlag_holds hd h ho hr
                  exact step [_] rest _ _ [] (.flag ho h2 hr) rfl hl hp (by rw [List.append_nil]; exact hh) (fun h => he2 ▸ h)
                · rw [if_neg (by exact hr)] at hp
                  cases rest with
                  | nil =>
                    rw [hp] at he
                    exact absurd he (err_ne _)
                  | cons v rest =>
                    dsimp only at hp
                    rw [hp] at he
                    obtain ⟨g1, hg1⟩ := setValue_some hd h o.name v
                    have hl' : rest.length ≤ n := by simp at hl; omega
                    obtain ⟨he1, _⟩ := ih rest hl' hg1 he
                    obtain ⟨he2, o', ho', hn, r, x, hr', hx, hh⟩ := setValue_only hd h he1
                    obtain rfl := same_of_name hd ho' ho hn
                    exact step [_, v] rest _ _ [] (.apart ho h2 hr' hx) rfl hl' hp (by rw [List.append_nil]; exact hh) (fun _ => he2)
          · have h0 : (c :: cs).head? ≠ some '-' := by simpa using hc
            have hp := parseLoop_cluster (s := s) (cs := c :: cs) (by simp) h0 rest
            obtain ⟨as, d, e⟩ := (List.eq_nil_or_concat (c :: cs)).resolve_left (by simp)
            rw [List.concat_eq_append] at e
            have e1 : (c :: cs).dropLast = as := by rw [e]; simp
            have e2 : (c :: cs).getLast (by simp) = d := by simp [e]
            rw [e1, e2] at hp
            generalize hgen : (c :: cs) = all at e hp h0 he step ⊢
            subst e
            clear hgen e1 e2
            obtain ⟨g1, hg1⟩ := cluster_some hd as h
            cases hf : (as.foldl shortFlag s).short d with
            | none =>
              rw [hf] at hp
              rw [hp] at he
              exact absurd (ih rest hl (holds_err hg1 _) he).1 (err_ne _)
            | some x =>
              rw [hf] at hp
              dsimp only at hp
              obtain ⟨o, ho, rfl, hn, hs⟩ := of_short hg1 hf
              have hx : (slotAfter g1 o).opt = o := rfl
              rw [hx] at hp
              have asFlag : parseLoop s (('-' :: (as ++ [d])) :: rest) = parseLoop (setFlag (as.foldl shortFlag s) o.name) rest →
                  s.errors = [] ∧ ∃ g' vs, Says os (('-' :: (as ++ [d])) :: rest) g' vs ∧
                    Holds os (parseLoop s (('-' :: (as ++ [d])) :: rest)) (g ++ g') (ws ++ vs) := by
                intro hp
                rw [hp] at he
                obtain ⟨g2, hg2⟩ := setFlag_some hd hg1 o.name
                obtain ⟨he1, _⟩ := ih rest hl hg2 he
                obtain ⟨he2, _⟩ := setFlag_only hd hg1 he1
                obtain ⟨he3, l, hl1, hh⟩ := cluster_only hd as h he2
                obtain ⟨_, o', ho', hn', hr, hh'⟩ := setFlag_only hd hh he1
                obtain rfl := same_of_name hd ho' ho hn'
                refine step [_] rest _ _ [] (.short (l := l ++ [o']) (by simp) h0 ?_) rfl hl hp ?_ (fun _ => he3)
                · exact List.rel_append hl1 (.cons ⟨ho, hn, hs, hr⟩ .nil)
                · simpa [List.append_assoc] using hh'
              cases hr : o.reader with
              | none =>
                rw [hr] at hp
                exact asFlag hp
              | some r =>
                rw [hr] at hp
                cases rest with
                | nil => exact asFlag hp
                | cons v rest =>
                  dsimp only at hp
                  rw [hp] at he
                  have hl' : rest.length ≤ n := by simp at hl; omega
                  obtain ⟨g2, hg2⟩ := setValue_some hd hg1 o.name v
                  obtain ⟨he1, _⟩ := ih rest hl' hg2 he
                  obtain ⟨he2, _⟩ := setValue_only hd hg1 he1
                  obtain ⟨he3, l, hl1, hh⟩ := cluster_only hd as h he2
                  obtain ⟨_, o', ho', hn', r', x, hr', hx', hh'⟩ := setValue_only hd hh he1
                  obtain rfl := same_of_name hd ho' ho hn'
                  refine step [_, v] rest _ _ [] (.shortValue (l := l) h0 hl1 ho hn hs hr' hx') rfl hl' hp ?_ (fun _ => he3)
                  simpa [List.append_assoc] using hh'
      · exact step [t] rest _ [] [t] (.word h1) rfl hl (parseLoop_word h1 rest) ⟨by rw [List.append_nil]; exact h.1, by rw [← h.2]⟩ id

theorem not_ambiguous (hd : Distinct os) : ambiguous os = false := by
  induction os with
  | nil => rfl
  | cons o os ih =>
    have h := List.pairwise_cons.1 hd
    unfold ambiguous
    rw [ih h.2, Bool.or_false, Bool.eq_false_iff]
    intro hc
    simp only [Bool.and_eq_true, Bool.not_eq_true', List.isEmpty_eq_false_iff, List.any_eq_true, beq_iff_eq] at hc
    obtain ⟨⟨h1, h2⟩, p, hp, h3, h4⟩ := hc
    rw [(h.1 p hp).2 h1 h3 h4.symm] at h2
    cases h2

theorem any_given (g : List (Opt × Option Val)) (o : Opt) : (g.any fun p => p.1 = o) = true ↔ Given g o := by
  simp [Given]

theorem lastVal_eq {g : List (Opt × Option Val)} {o : Opt} (hg : ∀ x, (o, x) ∈ g → x ≠ none) (x : Val) : lastVal g o = x ↔ ValueOf g o x := by
  have key : ValueOf g o (lastVal g o) := by
    induction g using List.reverseRecOn with
    | nil => exact .inr ⟨by simp [Given], rfl⟩
    | append_singleton g p ih =>
      obtain ⟨q, y⟩ := p
      by_cases h : q = o
      · subst h
        have hy := hg y (by simp)
        obtain ⟨y, rfl⟩ := Option.ne_none_iff_exists'.1 hy
        refine .inl ⟨g, [], ?_, by simp [Given]⟩
        simp [lastVal]
      · have e : lastVal (g ++ [(q, y)]) o = lastVal g o := by simp [lastVal, h]
        rw [e]
        have hng : ∀ l, Given (l ++ [(q, y)]) o ↔ Given l o := by
          intro l
          simp only [Given, List.mem_append, List.mem_singleton, Prod.mk.injEq]
          constructor
          · rintro ⟨x, hx | ⟨hx, _⟩⟩
            · exact ⟨x, hx⟩
            · exact absurd hx.symm h
          · rintro ⟨x, hx⟩
            exact ⟨x, .inl hx⟩
        rcases ih (fun x hx => hg x (by simp [hx])) with ⟨g1, g2, e, hn⟩ | ⟨hn, e⟩
        · refine .inl ⟨g1, g2 ++ [(q, y)], ?_, fun hc => hn ((hng g2).1 hc)⟩
          conv_lhs => rw [e]
          simp
        · exact .inr ⟨fun hc => hn ((hng g).1 hc), e⟩
  have uniq : ∀ y z, ValueOf g o y → ValueOf g o z → y = z := by
    rintro y z (⟨a, b, e1, n1⟩ | ⟨n1, e1⟩) (⟨c, d, e2, n2⟩ | ⟨n2, e2⟩)
    · have e : a ++ (o, some y) :: b = c ++ (o, some z) :: d := e1.symm.trans e2
      rcases List.append_eq_append_iff.1 e with ⟨l, h1, h2⟩ | ⟨l, h1, h2⟩
      · cases l with
        | nil => simp at h2; exact h2.1
        | cons p l =>
          simp at h2
          exact absurd ⟨some z, by rw [h2.2]; simp⟩ n1
      · cases l with
        | nil => simp at h2; exact h2.1.symm
        | cons p l =>
          simp at h2
          exact absurd ⟨some y, by rw [h2.2]; simp⟩ n2
    · exact absurd ⟨some y, by rw [e1]; simp⟩ n2
    · exact absurd ⟨some z, by rw [e2]; simp⟩ n1
    · rw [e1, e2]
  exact ⟨fun h => h ▸ key, fun h => uniq _ _ key h⟩

theorem clause_kind {a : List (List Char)} {g : List (Opt × Option Val)} {vs : List (List Char)} (h : Clause os a g vs) :
    ∀ o x, (o, x) ∈ g → o ∈ os ∧ (x = none ↔ o.reader = none) := by
  have flags : ∀ {l : List Opt} {cs : List Char}, List.Forall₂ (IsFlag os) l cs → ∀ o ∈ l, o ∈ os ∧ o.reader = none := by
    intro l cs hl
    induction hl with
    | nil => simp
    | cons h1 _ ih =>
      intro o ho
      rcases List.mem_cons.1 ho with rfl | ho
      · exact ⟨h1.1, h1.2.2.2⟩
      · exact ih o ho
  intro o x hm
  cases h with
  | word => cases hm
  | dash => cases hm
  | joined ho hn hr hx =>
    simp only [List.mem_singleton, Prod.mk.injEq] at hm
    obtain ⟨rfl, rfl⟩ := hm
    simp [ho, hr]
  | apart ho hn hr hx =>
    simp only [List.mem_singleton, Prod.mk.injEq] at hm
    obtain ⟨rfl, rfl⟩ := hm
    simp [ho, hr]
  | flag ho hn hr =>
    simp only [List.mem_singleton, Prod.mk.injEq] at hm
    obtain ⟨rfl, rfl⟩ := hm
    simp [ho, hr]
  | short hc h0 hl =>
    simp only [List.mem_map, Prod.mk.injEq] at hm
    obtain ⟨p, hp, rfl, rfl⟩ := hm
    obtain ⟨h1, h2⟩ := flags hl p hp
    simp [h1, h2]
  | shortValue h0 hl ho hn hs hr hx =>
    simp only [List.mem_append, List.mem_map, List.mem_singleton, Prod.mk.injEq] at hm
    rcases hm with ⟨p, hp, rfl, rfl⟩ | ⟨rfl, rfl⟩
    · obtain ⟨h1, h2⟩ := flags hl p hp
      simp [h1, h2]
    · simp [ho, hr]

theorem says_kind {args : List (List Char)} {g : List (Opt × Option Val)} {vs : List (List Char)} (h : Says os args g vs) :
    ∀ o x, (o, x) ∈ g → o ∈ os ∧ (x = none ↔ o.reader = none) := by
  induction h with
  | nil => simp
  | cons h1 _ ih =>
    intro o x hm
    rcases List.mem_append.1 hm with hm | hm
    · exact clause_kind h1 o x hm
    · exact ih o x hm

end Sol.Cmdline
