import Verif.Model.DataPoint
import Verif.Props.Vector
/-!
# Property C15: cloned and copied data points
-/

namespace Sol.Props
open Sol.DataPoint Sol.Vector

variable {V : Type} [Zero V]

/-- Every point's storage exists. -/
def HeapOk (s : State V) : Prop := ∀ pt ∈ s.pts, ∀ b, pt.data = some b → b < s.heap.length

/-- Point `p` exists and shares its storage with no other point. -/
def Alone (s : State V) (p : Nat) : Prop :=
  p < s.pts.length ∧ ∀ (q : Nat) (x y : Point) (b : Nat), s.pts[p]? = some x → s.pts[q]? = some y →
    x.data = some b → y.data = some b → q = p

/-- What can be seen through point `p`: its label and, if it has storage, the storage. -/
def view (s : State V) (p : Nat) : Int × Option (Block V) :=
  match s.pts[p]? with
  | none => (0, none)
  | some pt => (pt.label, pt.data.bind fun b => s.heap[b]?)

/-- The label and the (index, value) pairs seen through point `p`. -/
def seen (s : State V) (p : Nat) : Int × List UInt32 × List V :=
  match (view s p).2 with
  | none => ((view s p).1, [], [])
  | some x => ((view s p).1, contents x.idx, contents x.val)

/-- Edit of a point that is alone. -/
def soloEdit (v : Int × Option (Block V)) (e : Edit V) : Res (Int × Option (Block V)) :=
  match v.2, e with
  | _, .setLabel l => .ok (l, v.2)
  | some x, e => (editBlock x e).bind fun y => .ok (editLabel v.1 e, some y)
  | none, e => if inits e then (editBlock freshBlock e).bind fun y => .ok (editLabel v.1 e, some y) else .ub .nullDeref

theorem editAt_own {s : State V} {p : Nat} {pt : Point} {b : Nat} (e : Edit V) (hp : p < s.pts.length)
    {x : Block V} (hx : s.heap[b]? = some x) :
    (editAt s p pt b e >>= fun s' => .ok (view s' p)) =
      (editBlock x e).bind fun y => .ok (editLabel pt.label e, some y) := by
  have hb : b < s.heap.length := (List.getElem?_eq_some_iff.1 hx).1
  have hf : fetch s b = .ok x := by simp [fetch, hx]
  simp only [editAt, hf, Res.bind_ok]
  cases editBlock x e with
  | ub k => rfl
  | ok y =>
    simp only [Res.bind_ok, view, List.getElem?_set_self hp, Option.bind, List.getElem?_set_self hb]
    rfl

/-- An edit through `p` seen through `p`. -/
theorem edit_own {s : State V} (hw : HeapOk s) {p : Nat} (hp : p < s.pts.length) (e : Edit V) :
    (edit s p e >>= fun s' => .ok (view s' p)) = soloEdit (view s p) e := by
  have hpt : s.pts[p]? = some s.pts[p] := List.getElem?_eq_getElem hp
  have hpo : point s p = .ok s.pts[p] := by simp [point, hpt]
  obtain ⟨pt, hptd⟩ : ∃ pt, pt = s.pts[p] := ⟨_, rfl⟩
  rw [← hptd] at hpt hpo
  have hmem : pt ∈ s.pts := hptd ▸ List.getElem_mem hp
  cases hd : pt.data with
  | none =>
    have hv : view s p = (pt.label, none) := by simp [view, hpt, hd]
    have hfresh : (s.heap ++ [freshBlock])[s.heap.length]? = some (freshBlock : Block V) := by simp
    have key := fun e => editAt_own (s := { s with heap := s.heap ++ [freshBlock] }) (pt := pt) e hp hfresh
    have hset : ∀ l : Int, view { s with pts := s.pts.set p ⟨l, none⟩ } p = (l, none) := by
      intro l
      simp [view, List.getElem?_set_self hp]
    rw [hv]
    cases e with
    | setLabel l => simp only [edit, hpo, Res.bind_ok, hd, soloEdit, hset]
    | addFeat i v => simp only [edit, hpo, Res.bind_ok, hd, soloEdit, inits, if_true]; exact key _
    | setIndex k i => simp [edit, hpo, hd, soloEdit, inits]
    | setValue k v => simp [edit, hpo, hd, soloEdit, inits]
    | reserve n => simp only [edit, hpo, Res.bind_ok, hd, soloEdit, inits, if_true]; exact key _
    | resize n => simp only [edit, hpo, Res.bind_ok, hd, soloEdit, inits, if_true]; exact key _
    | clear => simp only [edit, hpo, Res.bind_ok, hd, soloEdit, inits, if_true]; exact key _
    | sort => simp [edit, hpo, hd, soloEdit, inits]
  | some b =>
    have hb := hw pt hmem b hd
    have hx : s.heap[b]? = some s.heap[b] := List.getElem?_eq_getElem hb
    have hv : view s p = (pt.label, some s.heap[b]) := by simp [view, hpt, hd, hx]
    have key := fun e => editAt_own (s := s) (pt := pt) e hp hx
    have hset : ∀ l : Int, view { s with pts := s.pts.set p ⟨l, some b⟩ } p = (l, some s.heap[b]) := by
      intro l
      simp [view, List.getElem?_set_self hp, hx]
    rw [hv]
    cases e with
    | setLabel l => simp only [edit, hpo, Res.bind_ok, hd, soloEdit, hset]
    | addFeat i v => simp only [edit, hpo, Res.bind_ok, hd, soloEdit]; exact key _
    | setIndex k i => simp only [edit, hpo, Res.bind_ok, hd, soloEdit]; exact key _
    | setValue k v => simp only [edit, hpo, Res.bind_ok, hd, soloEdit]; exact key _
    | reserve n => simp only [edit, hpo, Res.bind_ok, hd, soloEdit]; exact key _
    | resize n => simp only [edit, hpo, Res.bind_ok, hd, soloEdit]; exact key _
    | clear => simp only [edit, hpo, Res.bind_ok, hd, soloEdit]; exact key _
    | sort => simp only [edit, hpo, Res.bind_ok, hd, soloEdit]; exact key _

/-- What an edit through `r` does to the state: the point keeps its storage or, if it had none, may get new storage;
    only this storage changes. -/
theorem edit_shape {s s' : State V} {r : Nat} {e : Edit V} (h : edit s r e = .ok s') :
    ∃ pt, s.pts[r]? = some pt ∧
      ((∃ l, s' = { s with pts := s.pts.set r ⟨l, pt.data⟩ }) ∨
       (∃ b l y, pt.data = some b ∧ b < s.heap.length ∧ s' = ⟨s.pts.set r ⟨l, some b⟩, s.heap.set b y⟩) ∨
       (∃ l y, pt.data = none ∧ s' = ⟨s.pts.set r ⟨l, some s.heap.length⟩, s.heap ++ [y]⟩)) := by
  simp only [edit, Res.bind_eq_ok] at h
  obtain ⟨pt, hpt, h⟩ := h
  have hpt' : s.pts[r]? = some pt := by
    unfold point at hpt
    split at hpt <;> simp_all
  refine ⟨pt, hpt', ?_⟩
  have keyAt : ∀ (t : State V) (b : Nat) (e : Edit V), editAt t r pt b e = .ok s' →
      ∃ y, b < t.heap.length ∧ s' = ⟨t.pts.set r ⟨editLabel pt.label e, some b⟩, t.heap.set b y⟩ := by
    intro t b e h
    simp only [editAt, Res.bind_eq_ok, Res.ok.injEq] at h
    obtain ⟨x, hx, y, _, h⟩ := h
    refine ⟨y, ?_, h.symm⟩
    unfold fetch at hx
    split at hx
    · rename_i heq; exact (List.getElem?_eq_some_iff.1 heq).1
    · simp at hx
  split at h
  · simp only [Res.ok.injEq] at h
    exact Or.inl ⟨_, h.symm⟩
  · rename_i hd _
    obtain ⟨y, hb, hs⟩ := keyAt _ _ _ h
    exact Or.inr (Or.inl ⟨_, _, y, hd, hb, hs⟩)
  · rename_i hd _
    split at h
    · obtain ⟨y, hb, hs⟩ := keyAt _ _ _ h
      simp only [List.set_append_right _ _ (Nat.le_refl _), Nat.sub_self, List.set_cons_zero] at hs
      exact Or.inr (Or.inr ⟨_, y, hd, hs⟩)
    · simp at h

theorem edit_frame {s s' : State V} (hw : HeapOk s) {p r : Nat} {e : Edit V} (ha : Alone s p)
    (h : edit s r e = .ok s') : HeapOk s' ∧ Alone s' p ∧ (r ≠ p → view s' p = view s p) := by
  obtain ⟨pt, hr, hcase⟩ := edit_shape h
  have hmem : pt ∈ s.pts := List.mem_of_getElem? hr
  have hrl : r < s.pts.length := (List.getElem?_eq_some_iff.1 hr).1
  have hget : ∀ (x : Point) q, (s.pts.set r x)[q]? = if r = q then some x else s.pts[q]? := by
    intro x q
    simp only [List.getElem?_set, hrl, if_true]
  rcases hcase with ⟨l, rfl⟩ | ⟨b, l, y, hd, hb, rfl⟩ | ⟨l, y, hd, rfl⟩
  · refine ⟨?_, ⟨by simpa using ha.1, ?_⟩, ?_⟩
    · intro qt hq b hb
      rcases List.mem_or_eq_of_mem_set hq with hq | rfl
      · exact hw qt hq b hb
      · exact hw pt hmem b hb
    · intro q x y b hx hy hxb hyb
      rw [hget] at hx hy
      split at hx
      · rename_i e1
        split at hy
        · omega
        · rename_i e2
          simp only [Option.some.injEq] at hx
          subst hx
          exact ha.2 q pt y b (e1 ▸ hr) hy hxb hyb
      · split at hy
        · rename_i e2
          simp only [Option.some.injEq] at hy
          subst hy
          exact ha.2 q x pt b hx (e2 ▸ hr) hxb hyb
        · exact ha.2 q x y b hx hy hxb hyb
    · intro hne
      simp only [view, hget, if_neg hne]
  · refine ⟨?_, ⟨by simpa using ha.1, ?_⟩, ?_⟩
    · intro qt hq b' hb'
      simp only [List.length_set]
      rcases List.mem_or_eq_of_mem_set hq with hq | rfl
      · exact hw qt hq b' hb'
      · simp at hb'; omega
    · intro q x y' b' hx hy hxb hyb
      rw [hget] at hx hy
      split at hx
      · rename_i e1
        split at hy
        · omega
        · simp only [Option.some.injEq] at hx
          subst hx
          exact ha.2 q pt y' b' (e1 ▸ hr) hy (by rw [hd]; exact hxb) hyb
      · split at hy
        · rename_i e2
          simp only [Option.some.injEq] at hy
          subst hy
          exact ha.2 q x pt b' hx (e2 ▸ hr) hxb (by rw [hd]; exact hyb)
        · exact ha.2 q x y' b' hx hy hxb hyb
    · intro hne
      simp only [view, hget, if_neg hne]
      cases hp : s.pts[p]? with
      | none => rfl
      | some x =>
        dsimp only
        cases hxd : x.data with
        | none => rfl
        | some b' =>
          have hbb : b ≠ b' := by
            rintro rfl
            exact hne (ha.2 r x pt b hp hr hxd hd)
          simp only [Option.bind, List.getElem?_set_ne hbb]
  · refine ⟨?_, ⟨by simpa using ha.1, ?_⟩, ?_⟩
    · intro qt hq b' hb'
      simp only [List.length_append, List.length_singleton]
      rcases List.mem_or_eq_of_mem_set hq with hq | rfl
      · have := hw qt hq b' hb'; omega
      · simp at hb'; omega
    · intro q x y' b' hx hy hxb hyb
      rw [hget] at hx hy
      split at hx
      · rename_i e1
        split at hy
        · omega
        · simp only [Option.some.injEq] at hx
          subst hx
          simp only [Option.some.injEq] at hxb
          have := hw y' (List.mem_of_getElem? hy) b' hyb
          omega
      · split at hy
        · simp only [Option.some.injEq] at hy
          subst hy
          simp only [Option.some.injEq] at hyb
          have := hw x (List.mem_of_getElem? hx) b' hxb
          omega
        · exact ha.2 q x y' b' hx hy hxb hyb
    · intro hne
      simp only [view, hget, if_neg hne]
      cases hp : s.pts[p]? with
      | none => rfl
      | some x =>
        dsimp only
        cases hxd : x.data with
        | none => rfl
        | some b' =>
          have := hw x (List.mem_of_getElem? hp) b' hxd
          simp only [Option.bind, List.getElem?_append_left this]

theorem edits_view {s s' t : State V} (hw : HeapOk s) {p : Nat} (ha : Alone s p) (ht : HeapOk t) (hta : Alone t p)
    (hv : view t p = view s p) (l : List (Nat × Edit V)) (h : edits s l = .ok s') :
    ∃ t', edits t (l.filter fun x => x.1 == p) = .ok t' ∧ view t' p = view s' p ∧ HeapOk s' ∧ Alone s' p := by
  induction l generalizing s t with
  | nil =>
    simp only [edits, Res.ok.injEq] at h
    subst h
    exact ⟨t, rfl, hv, hw, ha⟩
  | cons x l ih =>
    obtain ⟨r, e⟩ := x
    simp only [edits, Res.bind_eq_ok] at h
    obtain ⟨s1, h1, h⟩ := h
    obtain ⟨hw1, ha1, hf⟩ := edit_frame hw ha h1
    by_cases hr : r = p
    · subst hr
      have ho := edit_own hw ha.1 e
      rw [h1, Res.bind_ok, ← hv, ← edit_own ht hta.1 e] at ho
      obtain ⟨t1, ht1, hvt⟩ := Res.bind_eq_ok.1 ho.symm
      simp only [Res.ok.injEq] at hvt
      obtain ⟨hwt1, hat1, _⟩ := edit_frame ht hta ht1
      obtain ⟨t', ht', rest⟩ := ih hw1 ha1 hwt1 hat1 hvt h
      exact ⟨t', by simp [edits, ht1, ht'], rest⟩
    · have := hf hr
      obtain ⟨t', ht', rest⟩ := ih hw1 ha1 ht hta (by rw [hv, this]) h
      refine ⟨t', ?_, rest⟩
      rw [List.filter_cons_of_neg (by simpa using hr)]
      exact ht'

/-- **C15 (independence).** Take a point that shares storage with nobody.  After any sequence of edits through any
    points, what is seen through it is what its own edits alone would have given: edits through other points do
    not show. -/
theorem C15_edits_do_not_interfere (s s' : State V) (hw : HeapOk s) (p : Nat) (ha : Alone s p)
    (l : List (Nat × Edit V)) (h : edits s l = .ok s') :
    ∃ t, edits s (l.filter fun x => x.1 == p) = .ok t ∧ view t p = view s' p :=
  let ⟨t, h1, h2, _⟩ := edits_view hw ha hw ha rfl l h
  ⟨t, h1, h2⟩

/-- A data point whose two vectors have the same size, within their storage. -/
def BlockOk (x : Block V) : Prop :=
  x.idx.size = x.val.size ∧ x.idx.size ≤ x.idx.store.length ∧ x.val.size ≤ x.val.store.length

omit [Zero V] in
theorem copyInto_ok {α : Type} {src dst : List α} {n : Nat} (h1 : n ≤ src.length) (h2 : n ≤ dst.length) :
    copyInto src dst n = .ok (src.take n ++ dst.drop n) := by
  unfold copyInto
  rw [if_pos ⟨h1, h2⟩]

/-- **C15 (clone).** Cloning a point that has storage succeeds; the clone is a new point with the same label and the
    same features, it shares storage with nobody, and neither the original nor any other point changes. -/
theorem C15_clone_is_an_equal_fresh_point (s : State V) (hw : HeapOk s) (p : Nat) (hp : p < s.pts.length)
    (x : Block V) (hx : (view s p).2 = some x) (hok : BlockOk x) :
    ∃ s', cloneNew s p = .ok s' ∧ s'.pts.length = s.pts.length + 1 ∧ HeapOk s' ∧ Alone s' s.pts.length ∧
      seen s' s.pts.length = seen s p ∧ (∀ q, q < s.pts.length → view s' q = view s q) ∧
      (Alone s p → Alone s' p) := by
  have hpt : s.pts[p]? = some s.pts[p] := List.getElem?_eq_getElem hp
  obtain ⟨pt, hptd⟩ : ∃ pt, pt = s.pts[p] := ⟨_, rfl⟩
  rw [← hptd] at hpt
  have hmem : pt ∈ s.pts := hptd ▸ List.getElem_mem hp
  obtain ⟨b, hd, hxb⟩ : ∃ b, pt.data = some b ∧ s.heap[b]? = some x := by
    simp only [view, hpt] at hx
    cases hdd : pt.data with
    | none => simp [hdd] at hx
    | some b => exact ⟨b, rfl, by simpa [hdd] using hx⟩
  have hb := hw pt hmem b hd
  obtain ⟨hsz, hi, hv⟩ := hok
  obtain ⟨n, hn⟩ : ∃ n, n = x.val.size := ⟨_, rfl⟩
  obtain ⟨y, hy⟩ : ∃ y : Block V, y =
    ⟨Vector.resize (Vector.reserve ⟨[], 0⟩ n) n, Vector.resize (Vector.reserve ⟨[], 0⟩ n) n⟩ := ⟨_, rfl⟩
  have hyi : n ≤ y.idx.store.length := by rw [hy]; exact (resize_spec (Vector.reserve (⟨[], 0⟩ : Vec UInt32) n) n).2.1
  have hyv : n ≤ y.val.store.length := by rw [hy]; exact (resize_spec (Vector.reserve (⟨[], 0⟩ : Vec V) n) n).2.1
  refine ⟨⟨s.pts ++ [⟨pt.label, some s.heap.length⟩],
    s.heap ++ [⟨⟨x.idx.store.take n ++ y.idx.store.drop n, n⟩, ⟨x.val.store.take n ++ y.val.store.drop n, n⟩⟩]⟩,
    ?_, by simp, ?_, ⟨by simp, ?_⟩, ?_, ?_, ?_⟩
  · have h0 : point (⟨s.pts ++ [⟨0, none⟩], s.heap⟩ : State V) p = .ok pt := by
      simp [point, List.getElem?_append_left hp, hpt]
    have hq : ∀ (a : Point) (h : List (Block V)), point (⟨s.pts ++ [a], h⟩ : State V) s.pts.length = .ok a := by
      intro a h; simp [point]
    have hsize : ∀ (a : List Point) (h : List (Block V)), featCount (⟨a, s.heap ++ h⟩ : State V) (some b) = .ok n := by
      intro a h
      simp [featCount, fetch, List.getElem?_append_left hb, hxb, hn]
    have hsize0 : ∀ (a : List Point), featCount (⟨a, s.heap⟩ : State V) (some b) = .ok n := by
      intro a
      simp [featCount, fetch, hxb, hn]
    have hset : ∀ a c : Point, (s.pts ++ [a]).set s.pts.length c = s.pts ++ [c] := by intro a c; simp
    have hseth : ∀ a c : Block V, (s.heap ++ [a]).set s.heap.length c = s.heap ++ [c] := by intro a c; simp
    have hfetch : ∀ (a : List Point) (c : Block V), fetch (⟨a, s.heap ++ [c]⟩ : State V) s.heap.length = .ok c := by
      intro a c; simp [fetch]
    have hfetchb : ∀ (a : List Point) (c : Block V), fetch (⟨a, s.heap ++ [c]⟩ : State V) b = .ok x := by
      intro a c; simp [fetch, List.getElem?_append_left hb, hxb]
    have e1 : edit (⟨s.pts ++ [⟨0, none⟩], s.heap⟩ : State V) s.pts.length (.setLabel pt.label) =
        .ok ⟨s.pts ++ [⟨pt.label, none⟩], s.heap⟩ := by
      simp only [edit, hq, Res.bind_ok, hset]
    have e2 : edit (⟨s.pts ++ [⟨pt.label, none⟩], s.heap⟩ : State V) s.pts.length (.reserve n) =
        .ok ⟨s.pts ++ [⟨pt.label, some s.heap.length⟩],
          s.heap ++ [⟨Vector.reserve ⟨[], 0⟩ n, Vector.reserve ⟨[], 0⟩ n⟩]⟩ := by
      simp only [edit, hq, Res.bind_ok, inits, if_true, editAt, hfetch, editBlock, editLabel, hset, hseth, freshBlock]
    have e3 : edit (⟨s.pts ++ [⟨pt.label, some s.heap.length⟩],
          s.heap ++ [⟨Vector.reserve ⟨[], 0⟩ n, Vector.reserve ⟨[], 0⟩ n⟩]⟩ : State V) s.pts.length (.resize n) =
        .ok ⟨s.pts ++ [⟨pt.label, some s.heap.length⟩], s.heap ++ [y]⟩ := by
      simp only [edit, hq, Res.bind_ok, editAt, hfetch, editBlock, editLabel, hset, hseth, hy]
    have hysz : y.idx.size = n ∧ y.val.size = n := by rw [hy]; exact ⟨rfl, rfl⟩
    simp only [cloneNew, cloneInto, h0, Res.bind_ok, e1, hd, hsize0, e2, hsize, e3, hq, cloneData, hfetch, hfetchb,
      copyInto_ok (show n ≤ x.idx.store.length by omega) hyi, copyInto_ok (show n ≤ x.val.store.length by omega) hyv,
      hseth, hysz.1, hysz.2]
  · intro qt hq b' hb'
    simp only [List.mem_append, List.mem_singleton] at hq
    simp only [List.length_append, List.length_singleton]
    rcases hq with hq | rfl
    · have := hw qt hq b' hb'; omega
    · simp at hb'; omega
  · intro q a c b' ha hc hab hcb
    simp only [List.getElem?_append_right (Nat.le_refl _), Nat.sub_self, List.getElem?_cons_zero,
      Option.some.injEq] at ha
    subst ha
    simp only [Option.some.injEq] at hab
    rw [List.getElem?_append] at hc
    split at hc
    · have := hw c (List.mem_of_getElem? hc) b' hcb
      omega
    · have := (List.getElem?_eq_some_iff.1 hc).1
      simp at this
      omega
  · have hv1 : view s p = (pt.label, some x) := by simp [view, hpt, hd, hxb]
    have : ∀ {α : Type} (a d : List α), n ≤ a.length → (a.take n ++ d.drop n).take n = a.take n := by
      intro α a d h
      rw [List.take_append_of_le_length (by simp; omega), List.take_take, Nat.min_self]
    simp only [seen, hv1]
    simp [view, contents, this x.idx.store y.idx.store (by omega), this x.val.store y.val.store (by omega),
      ← hn, hsz]
  · intro q hq
    simp only [view, List.getElem?_append_left hq]
    cases hqd : s.pts[q]? with
    | none => rfl
    | some a =>
      dsimp only
      cases had : a.data with
      | none => rfl
      | some b' =>
        have := hw a (List.mem_of_getElem? hqd) b' had
        simp only [Option.bind, List.getElem?_append_left this]
  · intro ha
    refine ⟨by simp; omega, ?_⟩
    intro q a c b' hxa hyc hab hcb
    rw [List.getElem?_append_left hp] at hxa
    rw [List.getElem?_append] at hyc
    split at hyc
    · exact ha.2 q a c b' hxa hyc hab hcb
    · have h1 := (List.getElem?_eq_some_iff.1 hyc).1
      simp only [List.length_singleton] at h1
      have h2 : q - s.pts.length = 0 := by omega
      rw [h2] at hyc
      simp only [List.getElem?_cons_zero, Option.some.injEq] at hyc
      subst hyc
      simp only [Option.some.injEq] at hcb
      have := hw a (List.mem_of_getElem? hxa) b' hab
      omega

/-- **C15 (copy).** A copied point is a new point that looks the same, and if the original has storage, then after any
    later sequence of edits through any points the two still show the same features. -/
theorem C15_copy_shares (s s' s'' : State V) (hw : HeapOk s) (p : Nat) (b : Nat) (pt : Point)
    (hp : s.pts[p]? = some pt) (hb : pt.data = some b) (hc : copyNew s p = .ok s')
    (l : List (Nat × Edit V)) (h : edits s' l = .ok s'') :
    view s' s.pts.length = view s p ∧ ∃ x, (view s'' p).2 = some x ∧ (view s'' s.pts.length).2 = some x := by
  have hs' : s' = { s with pts := s.pts ++ [pt] } := by
    simp [copyNew, point, hp] at hc
    exact hc.symm
  have hpl := (List.getElem?_eq_some_iff.1 hp).1
  refine ⟨by simp [hs', view, hp], ?_⟩
  have hwb := hw pt (List.mem_of_getElem? hp) b hb
  have key : ∀ (l : List (Nat × Edit V)) (t t' : State V),
      (∃ a, t.pts[p]? = some a ∧ a.data = some b) → (∃ a, t.pts[s.pts.length]? = some a ∧ a.data = some b) →
      b < t.heap.length → edits t l = .ok t' →
      (∃ a, t'.pts[p]? = some a ∧ a.data = some b) ∧ (∃ a, t'.pts[s.pts.length]? = some a ∧ a.data = some b) ∧
        b < t'.heap.length := by
    intro l
    induction l with
    | nil => intro t t' h1 h2 h3 h; simp only [edits, Res.ok.injEq] at h; subst h; exact ⟨h1, h2, h3⟩
    | cons x l ih =>
      intro t t' h1 h2 h3 h
      obtain ⟨r, e⟩ := x
      simp only [edits, Res.bind_eq_ok] at h
      obtain ⟨t1, ht1, h⟩ := h
      obtain ⟨rt, hr, hcase⟩ := edit_shape ht1
      have hrl : r < t.pts.length := (List.getElem?_eq_some_iff.1 hr).1
      have hget : ∀ (x : Point) q, (t.pts.set r x)[q]? = if r = q then some x else t.pts[q]? := by
        intro x q
        simp only [List.getElem?_set, hrl, if_true]
      have keep : ∀ (q : Nat) (x : Point), (∃ a, t.pts[q]? = some a ∧ a.data = some b) →
          (rt.data = some b → x.data = some b) → ∃ a, (t.pts.set r x)[q]? = some a ∧ a.data = some b := by
        intro q x ⟨a, ha, hab⟩ hx
        rw [hget]
        by_cases hrq : r = q
        · rw [if_pos hrq]
          refine ⟨x, rfl, hx ?_⟩
          rw [hrq, ha] at hr
          simp only [Option.some.injEq] at hr
          rw [← hr]; exact hab
        · rw [if_neg hrq]; exact ⟨a, ha, hab⟩
      rcases hcase with ⟨l, rfl⟩ | ⟨b', l, y, hd, hb', rfl⟩ | ⟨l, y, hd, rfl⟩
      · exact ih { t with pts := t.pts.set r ⟨l, rt.data⟩ } _ (keep p ⟨l, rt.data⟩ h1 (fun hx => hx))
          (keep _ ⟨l, rt.data⟩ h2 (fun hx => hx)) h3 h
      · refine ih _ _ (keep p _ h1 ?_) (keep _ _ h2 ?_) (by simpa using h3) h
        all_goals intro hx; rw [← hx, hd]
      · refine ih _ _ (keep p _ h1 ?_) (keep _ _ h2 ?_) (by simp; omega) h
        all_goals intro hx; rw [hd] at hx; simp at hx
  obtain ⟨⟨a, ha, hab⟩, ⟨c, hcc, hcb⟩, hl⟩ := key l s' s''
    ⟨pt, by rw [hs']; simp only [List.getElem?_append_left hpl]; exact hp, hb⟩
    ⟨pt, by rw [hs']; simp, hb⟩ (by rw [hs']; exact hwb) h
  refine ⟨s''.heap[b], ?_, ?_⟩
  · simp [view, ha, hab, hl]
  · simp [view, hcc, hcb, hl]

/-- **C15 (fails for a point without storage).** Cloning a freshly created data point dereferences a null pointer. -/
theorem C15_clone_of_fresh_point (s : State V) (p : Nat) (pt : Point) (hp : s.pts[p]? = some pt)
    (hd : pt.data = none) : cloneNew s p = .ub .nullDeref := by
  have hpl := (List.getElem?_eq_some_iff.1 hp).1
  simp [cloneNew, cloneInto, point, List.getElem?_append_left hpl, hp, hd, edit, featCount, inits, editAt, fetch, editBlock,
    editLabel, cloneData]

/-- **C15 (copying a point without storage).** A copy of a freshly created point does not share later features. -/
theorem C15_copy_of_fresh_point_does_not_share :
    ∃ s' s'' : State Int, copyNew ⟨[⟨0, none⟩], []⟩ 0 = .ok s' ∧ edits s' [(0, .addFeat 1 7)] = .ok s'' ∧
      seen s'' 0 = (0, [1], [7]) ∧ seen s'' 1 = (0, [], []) :=
  ⟨⟨[⟨0, none⟩, ⟨0, none⟩], []⟩, ⟨[⟨0, some 0⟩, ⟨0, none⟩], [⟨⟨[1, 0, 0], 1⟩, ⟨[7, 0, 0], 1⟩⟩]⟩,
    by decide +kernel, by decide +kernel, by decide +kernel, by decide +kernel⟩

/-- **C15 (cloning into a point that shares its storage).** `Clone(dst)` writes into the storage of `dst`, so a third
    point that was copied from `dst` changes as well. -/
theorem C15_clone_into_shared_point :
    ∃ s s' : State Int, edits ⟨[⟨0, none⟩, ⟨0, none⟩], []⟩ [(0, .addFeat 1 7), (1, .addFeat 2 8)] = .ok s ∧
      (copyNew s 1 >>= fun s => cloneInto s 0 1) = .ok s' ∧ seen s 1 = (0, [2], [8]) ∧ seen s' 2 = (0, [1], [7]) :=
  ⟨⟨[⟨0, some 0⟩, ⟨0, some 1⟩], [⟨⟨[1, 0, 0], 1⟩, ⟨[7, 0, 0], 1⟩⟩, ⟨⟨[2, 0, 0], 1⟩, ⟨[8, 0, 0], 1⟩⟩]⟩,
    ⟨[⟨0, some 0⟩, ⟨0, some 1⟩, ⟨0, some 1⟩], [⟨⟨[1, 0, 0], 1⟩, ⟨[7, 0, 0], 1⟩⟩, ⟨⟨[1, 0, 0], 1⟩, ⟨[7, 0, 0], 1⟩⟩]⟩,
    by decide +kernel, by decide +kernel, by decide +kernel, by decide +kernel⟩

/-- **C15 does not hold as stated:** not every data point can be cloned. -/
theorem C15_is_violated : ¬ ∀ (s : State Int), HeapOk s → ∀ p, p < s.pts.length → ∃ s', cloneNew s p = .ok s' := by
  intro h
  obtain ⟨s', hs'⟩ := h ⟨[⟨0, none⟩], []⟩ (by intro pt hpt b hb; simp at hpt; subst hpt; simp at hb) 0 (by decide)
  rw [C15_clone_of_fresh_point _ 0 ⟨0, none⟩ rfl rfl] at hs'
  simp at hs'

/-- An instance: a point with two features in a program with two points. -/
def exState : State Int :=
  ⟨[⟨1, some 0⟩, ⟨-1, some 1⟩], [⟨⟨[3, 5, 0], 2⟩, ⟨[10, 20, 0], 2⟩⟩, ⟨⟨[1, 0, 0], 1⟩, ⟨[7, 0, 0], 1⟩⟩]⟩

example : HeapOk exState ∧ (view exState 0).2 = some ⟨⟨[3, 5, 0], 2⟩, ⟨[10, 20, 0], 2⟩⟩ ∧
    BlockOk (⟨⟨[3, 5, 0], 2⟩, ⟨[10, 20, 0], 2⟩⟩ : Block Int) ∧
    edits exState [(0, .addFeat 1 9), (1, .clear), (0, .sort)] =
      .ok ⟨[⟨1, some 0⟩, ⟨0, some 1⟩], [⟨⟨[1, 3, 5], 3⟩, ⟨[9, 10, 20], 3⟩⟩, ⟨⟨[1, 0, 0], 0⟩, ⟨[7, 0, 0], 0⟩⟩]⟩ := by
  refine ⟨?_, rfl, by unfold BlockOk; decide, by decide +kernel⟩
  intro pt hpt b hb
  simp only [exState, List.mem_cons, List.not_mem_nil, or_false] at hpt
  rcases hpt with rfl | rfl <;> simp at hb <;> subst hb <;> decide

end Sol.Props
