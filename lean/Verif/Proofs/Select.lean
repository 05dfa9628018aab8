import Verif.Model.Select
import Verif.Spec.Select
import Verif.Props.Heap
import Verif.Proofs.Closed
/-! Facts about the feature-selection algorithms. -/

set_option linter.unusedSectionVars false
set_option linter.unusedVariables false

namespace Sol.Select

open Sol.Online Sol.Sparse Sol.Loss Sol.Olm Sol.Spec Sol.Heap

variable {α A : Type} [Zero α] [One α] [Add α] [Sub α] [Mul α] [Div α] [Neg α] [FCmp α] [IntCast α] [FFun α] [FSqrt α]

/-- Features (without the bias) that carry a weight have a heap id in `S`. -/
def Inside (ws : List (List α)) (S : Nat → Prop) : Prop :=
  ∀ w ∈ ws, ∀ (i : Nat) (a : α), w[i + 1]? = some a → a ≠ 0 → S i

theorem Inside.mono {ws : List (List α)} {S T : Nat → Prop} (h : Inside ws S) (hst : ∀ i, S i → T i) : Inside ws T :=
  fun w hw i a hi ha => hst i (h w hw i a hi ha)

/-- The heap after an offer: what was inside or offered is inside, except for what is returned. -/
theorem offer_spec (cmp : α → α → Bool) {vals : List α} {h : State} (hw : Props.Wf h) (hN : h.N < 4294967295)
    (hv : h.N ≤ vals.length) {idx : Nat} (hidx : idx < h.N) :
    ∃ h' r, update cmp vals h idx = .ok (h', r) ∧ Props.Wf h' ∧ h'.N = h.N ∧ h'.K = h.K ∧
      (r = invalidIndex ∨ r < h.N) ∧
      ∀ j, (j ∈ h.pos2id ∨ j = idx) → (r = invalidIndex ∨ j ≠ r) → j ∈ h'.pos2id := by
  obtain ⟨hi, h1, h2, h3⟩ := hw
  obtain ⟨V, hV⟩ := Props.values_of_le (Props.tab_le hi h1) hv
  obtain ⟨h', r, hu, hi', hN', hK', hcase⟩ := update_spec cmp hi h1 h3 hV hidx
  refine ⟨h', r, hu, ⟨hi', by omega, by omega, by omega⟩, hN', hK', ?_⟩
  rcases hcase with ⟨hm, hr, he⟩ | ⟨hm, hc, hr, he⟩ | ⟨hm, hc, hr, hrm, he⟩
  · subst he
    refine ⟨Or.inl hr, fun j hj _ => ?_⟩
    rcases hj with hj | hj
    · exact hj
    · exact hj ▸ hm
  · subst he
    refine ⟨Or.inr (by omega), fun j hj hjr => ?_⟩
    rcases hj with hj | hj
    · exact hj
    · unfold invalidIndex at hjr
      omega
  · have hlen : h.pos2id.length = h.K := hi.lenK
    have hrN : r < h.N := by
      obtain ⟨p, hp, hpe⟩ := List.getElem_of_mem hrm
      have := hi.pos p r (by simp [hp, hpe])
      have := (List.getElem?_eq_some_iff.1 this).1
      rw [hi.lenN] at this
      exact this
    have hperm : h'.pos2id.Perm (h.pos2id.set 0 idx) := by
      rw [he]
      exact sift_perm cmp V _ _ 0 _ (Nat.le_refl _) (by rw [List.length_set]; omega)
    refine ⟨Or.inr hrN, fun j hj hjr => hperm.mem_iff.2 ?_⟩
    have hjr' : j ≠ r := by
      rcases hjr with h | h
      · unfold invalidIndex at h; omega
      · exact h
    rcases hj with hj | hj
    · obtain ⟨p, hp, hpe⟩ := List.getElem_of_mem hj
      by_cases hp0 : p = 0
      · subst hp0
        exfalso
        apply hjr'
        rw [hr, ← hpe]
        simp [at', hp]
      · apply List.mem_of_getElem? (i := p)
        rw [List.getElem?_set_ne (by omega)]
        simp [hp, hpe]
    · subst hj
      apply List.mem_of_getElem? (i := 0)
      rw [List.getElem?_set_self (by omega)]

theorem zeroAt_spec {n d i : Nat} {ws : List (List α)} (hw : Vecs n d ws) (hi : i < d) :
    zeroAt i ws = .ok (ws.map fun w => w.set i 0) := by
  unfold zeroAt
  exact eachAll_closed (fun w => w.set i 0) ws fun v hv => lset_ok _ (by rw [hw.2 v hv]; exact hi)

theorem Inside.zero {ws : List (List α)} {S : Nat → Prop} (h : Inside ws S) (r : Nat) :
    Inside (ws.map fun w => w.set (r + 1) 0) (fun i => S i ∧ i ≠ r) := by
  intro w hw i a hi ha
  obtain ⟨v, hv, rfl⟩ := List.mem_map.1 hw
  rw [List.getElem?_set] at hi
  split at hi
  · split at hi
    · exact absurd (Option.some.inj hi).symm ha
    · simp at hi
  · rename_i hne
    exact ⟨h v hv i a hi ha, fun e => hne (by omega)⟩

theorem vecs_set {n d i : Nat} {a : α} {ws : List (List α)} (hw : Vecs n d ws) : Vecs n d (ws.map fun w => w.set i a) :=
  hw.map _ fun v hv => by simpa using hv

/-- Deleting what the heap returns keeps the weights inside the heap (or inside a set `E` of exempt features). -/
theorem prune_spec (cmp : α → α → Bool) {E : Nat → Prop} {vals : List α} {n d : Nat} (l : List Nat) (ws : List (List α)) (h : State)
    (hw : Vecs n d ws) (hh : Props.Wf h) (hd : h.N + 1 = d) (hd2 : d ≤ 4294967295) (hv : h.N ≤ vals.length)
    (hl : ∀ i ∈ l, i < h.N) (hin : Inside ws fun j => (E j ∨ j ∈ h.pos2id) ∨ j ∈ l) :
    ∃ ws' h', prune cmp vals l ws h = .ok (ws', h') ∧ Vecs n d ws' ∧ Props.Wf h' ∧ h'.N = h.N ∧ h'.K = h.K ∧
      Inside ws' (fun j => E j ∨ j ∈ h'.pos2id) := by
  induction l generalizing ws h with
  | nil => exact ⟨ws, h, rfl, hw, hh, rfl, rfl, hin.mono fun j hj => by simpa using hj⟩
  | cons i l ih =>
    obtain ⟨h1, r, hu, hh1, hN1, hK1, hr, hkeep⟩ := offer_spec cmp hh (by omega) hv (hl i List.mem_cons_self)
    simp only [prune, hu, Res.bind_ok]
    by_cases hri : r = invalidIndex
    · rw [if_pos hri]
      obtain ⟨ws', h', e, a1, a2, a3, a4, a5⟩ := ih ws h1 hw hh1 (by omega) (by omega)
        (fun j hj => by rw [hN1]; exact hl j (List.mem_cons_of_mem _ hj)) (hin.mono fun j hj => by
          rcases hj with hj | hj
          · exact Or.inl (hj.imp id fun hj => hkeep j (Or.inl hj) (Or.inl hri))
          · rcases List.mem_cons.1 hj with hj | hj
            · exact Or.inl (.inr (hkeep j (Or.inr hj) (Or.inl hri)))
            · exact Or.inr hj)
      exact ⟨ws', h', e, a1, a2, a3.trans hN1, a4.trans hK1, a5⟩
    · have hrN : r < h.N := hr.resolve_left hri
      rw [if_neg hri, zeroAt_spec hw (by omega), Res.bind_ok]
      obtain ⟨ws', h', e, a1, a2, a3, a4, a5⟩ := ih _ h1 (vecs_set hw) hh1 (by omega) (by omega)
        (fun j hj => by rw [hN1]; exact hl j (List.mem_cons_of_mem _ hj)) ((hin.zero r).mono fun j hj => by
          obtain ⟨hj, hjr⟩ := hj
          rcases hj with hj | hj
          · exact Or.inl (hj.imp id fun hj => hkeep j (Or.inl hj) (Or.inr hjr))
          · rcases List.mem_cons.1 hj with hj | hj
            · exact Or.inl (.inr (hkeep j (Or.inr hj) (Or.inr hjr)))
            · exact Or.inr hj)
      exact ⟨ws', h', e, a1, a2, a3.trans hN1, a4.trans hK1, a5⟩

/-- The same with the absolute weights of PET and FOFS changing on the way. -/
theorem petScan_spec {n d : Nat} (l : List Nat) (ws : List (List α)) (v : List α) (h : State)
    (hw : Vecs n d ws) (hv : v.length = d) (hh : Props.Wf h) (hd : h.N + 1 = d) (hd2 : d ≤ 4294967295)
    (hl : ∀ i ∈ l, i < h.N) (hin : Inside ws fun j => j ∈ h.pos2id ∨ j ∈ l) :
    ∃ ws' v' h', petScan l ws v h = .ok (ws', v', h') ∧ Vecs n d ws' ∧ v'.length = d ∧ Props.Wf h' ∧ h'.N = h.N ∧
      h'.K = h.K ∧ Inside ws' (· ∈ h'.pos2id) := by
  induction l generalizing ws v h with
  | nil => exact ⟨ws, v, h, rfl, hw, hv, hh, rfl, rfl, hin.mono fun j hj => by simpa using hj⟩
  | cons i l ih =>
    obtain ⟨h1, r, hu, hh1, hN1, hK1, hr, hkeep⟩ := offer_spec less (vals := v.drop 1) hh (by omega)
      (by rw [List.length_drop]; omega) (hl i List.mem_cons_self)
    simp only [petScan, hu, Res.bind_ok]
    by_cases hri : r = invalidIndex
    · rw [if_pos hri]
      obtain ⟨ws', v', h', e, a1, a0, a2, a3, a4, a5⟩ := ih ws v h1 hw hv hh1 (by omega)
        (fun j hj => by rw [hN1]; exact hl j (List.mem_cons_of_mem _ hj)) (hin.mono fun j hj => by
          rcases hj with hj | hj
          · exact Or.inl (hkeep j (Or.inl hj) (Or.inl hri))
          · rcases List.mem_cons.1 hj with hj | hj
            · exact Or.inl (hkeep j (Or.inr hj) (Or.inl hri))
            · exact Or.inr hj)
      exact ⟨ws', v', h', e, a1, a0, a2, a3.trans hN1, a4.trans hK1, a5⟩
    · have hrN : r < h.N := hr.resolve_left hri
      rw [if_neg hri, zeroAt_spec hw (by omega), Res.bind_ok, lset_ok _ (by omega), Res.bind_ok]
      obtain ⟨ws', v', h', e, a1, a0, a2, a3, a4, a5⟩ := ih _ (v.set (r + 1) 0) h1 (vecs_set hw) (by simpa using hv) hh1
        (by omega)
        (fun j hj => by rw [hN1]; exact hl j (List.mem_cons_of_mem _ hj)) ((hin.zero r).mono fun j hj => by
          obtain ⟨hj, hjr⟩ := hj
          rcases hj with hj | hj
          · exact Or.inl (hkeep j (Or.inl hj) (Or.inr hjr))
          · rcases List.mem_cons.1 hj with hj | hj
            · exact Or.inl (hkeep j (Or.inr hj) (Or.inr hjr))
            · exact Or.inr hj)
      exact ⟨ws', v', h', e, a1, a0, a2, a3.trans hN1, a4.trans hK1, a5⟩

/-! ### Conditions between examples -/

theorem prev_eq {i : Nat} (h : 1 ≤ i) (h2 : i < 4294967296) : prev i = i - 1 := by
  unfold prev
  omega

/-- The heap fits the dimension. -/
structure HeapFit (B d : Nat) (h : State) : Prop where
  wf : Props.Wf h
  N : h.N + 1 = d
  K : h.K = B

theorem heapFit_grow {B d n : Nat} {h : State} (hh : HeapFit B d h) (hdn : d < n) :
    HeapFit B n (growHeap n h) ∧ (growHeap n h).pos2id = h.pos2id := by
  have h1 := hh.wf.2.1
  have h2 := hh.N
  have e : Heap.setN h (n - 1) = some { h with N := n - 1, id2pos := h.id2pos ++ (List.range (n - 1 - h.N)).map (· + h.N) } := by
    unfold Heap.setN
    rw [if_neg (by omega), if_neg (by omega)]
  have := Props.heapStep_wf (α := Unit) (fun _ _ => false) (.setN (n - 1) e) hh.wf
  unfold growHeap
  rw [e]
  exact ⟨⟨this.1, by simp only [Option.getD_some]; omega, hh.K⟩, rfl⟩

theorem Inside.grow {ws : List (List α)} {S : Nat → Prop} {n d m : Nat} (h : Inside ws S) (hw : Vecs n d ws) :
    Inside (ws.map (growTo d m 0)) S := by
  intro w hw' i a hi ha
  obtain ⟨v, hv, rfl⟩ := List.mem_map.1 hw'
  have hl := hw.2 v hv
  unfold growTo at hi
  rw [List.take_of_length_le (by omega), List.getElem?_append] at hi
  split at hi
  · exact h v hv i a hi ha
  · rw [List.getElem?_replicate] at hi
    split at hi
    · exact absurd (Option.some.inj hi).symm ha
    · simp at hi

/-- Everything is inside the heap ids. -/
theorem inside_range {n d : Nat} {ws : List (List α)} (hw : Vecs n d ws) : Inside ws (· ∈ List.range (d - 1)) := by
  intro w hw' i a hi ha
  have := (List.getElem?_eq_some_iff.1 hi).1
  rw [hw.2 w hw'] at this
  simp only [List.mem_range]
  omega

/-- Shape of a model with weights of dimension at most 2^32-1. -/
structure FitW (c : Cfg α) (inv : Nat → List (List α) → A → Prop) (s : St α A) : Prop where
  dim : 1 ≤ s.dim
  dimMax : s.dim ≤ 4294967295
  w : Vecs c.clf s.dim s.w
  g : s.g.length = c.clf
  alg : inv s.dim s.w s.alg

theorem dim_le {x : SVec α} (hx : Good x) : Sparse.dim x ≤ 4294967295 := by
  unfold Sparse.dim
  split <;> omega

theorem able_of {c : Cfg α} {G : Alg α A} {inv : Nat → List (List α) → A → Prop}
    (hb : ∀ s x, G.beginIter s x = .ok s) (he : ∀ s x, G.endIter s x = .ok s) (hp : ∀ s x, G.prep c s x = .ok s)
    (hh : ∀ s x, G.handler c s x = none)
    (hg : ∀ d n w a, 1 ≤ d → d < n → Vecs c.clf d w → inv d w a → inv n (w.map (growTo d n 0)) (G.grow d n a))
    (hu : ∀ s x l, FitW c inv s → Proper x → Sparse.dim x ≤ s.dim →
      Gives (G.update c s x l) (fun s' => FitW c inv s' ∧ Same s s')) :
    Able c G Proper (FitW c inv) (fun _ => FitW c inv) where
  asc x hx := hx.1.1
  shape x s h := ⟨h.dim, h.w, h.g⟩
  start s x h hx := by
    refine ⟨_, hb _ _, ?_, .refl _⟩
    have := dim_le hx.1
    simp only [enter, updateDim]
    split
    · rename_i hd
      exact ⟨by have := h.dim; show 1 ≤ Sparse.dim x; omega, this, h.w.grow 0 (Nat.le_of_lt hd), h.g,
        hg _ _ _ _ h.dim hd h.w h.alg⟩
    · exact ⟨h.dim, h.dimMax, h.w, h.g, h.alg⟩
  prep s x h _ _ := ⟨s, hp s x, h, .refl s⟩
  handler s x _ _ _ f hf := by rw [hh] at hf; simp at hf
  update := hu
  finish s x h _ _ := ⟨s, he s x, h, .refl s⟩
  scored x s g m v u h hg := ⟨h.dim, h.dimMax, h.w, hg, h.alg⟩
  skip x s t h := ⟨h.dim, h.dimMax, h.w, h.g, h.alg⟩
  count s n h := ⟨h.dim, h.dimMax, h.w, h.g, h.alg⟩

/-! ### PET and FOFS -/

/-- The own state of PET and FOFS fits the dimension. -/
def petInv (B : Nat) : Nat → PetSt α → Prop := fun d a => a.absW.length = d ∧ HeapFit B d a.heap

/-- Own state and budget. -/
def petKept (B : Nat) (d : Nat) (w : List (List α)) (a : PetSt α) : Prop :=
  petInv B d a ∧ Inside w (· ∈ a.heap.pos2id)

theorem gives_absMore {d : Nat} {x : SVec α} (hx : Ascending x) (l : List (List α)) (v : List α) (hv : v.length = d)
    (hl : ∀ w ∈ l, w.length = d) : Gives (absMore x l v) (fun v' => v'.length = d) := by
  induction l generalizing v with
  | nil => exact .ok hv
  | cons w l ih =>
    have hwl := hl w List.mem_cons_self
    refine (gives_calcExp hv hx fun _ _ _ _ _ => (gives_lget (by omega)).bind fun _ _ => .ok trivial).bind fun v' hv' => ?_
    exact ih v' hv' fun w hw => hl w (List.mem_cons_of_mem _ hw)

theorem gives_absAt {n d : Nat} {x : SVec α} (hx : Ascending x) (hn : 1 ≤ n) (l : List (List α)) (v : List α) (hv : v.length = d)
    (hl : Vecs n d l) : Gives (absAt x l v) (fun v' => v'.length = d) := by
  cases l with
  | nil => simp [Vecs] at hl; omega
  | cons w l =>
    have hwl := hl.2 w List.mem_cons_self
    refine (gives_calcExp hv hx fun _ _ _ _ _ => (gives_lget (by omega)).bind fun _ _ => .ok trivial).bind fun v' hv' => ?_
    exact gives_absMore hx l v' hv' fun w hw => hl.2 w (List.mem_cons_of_mem _ hw)

/-- After the selection only features of the heap carry weights, wherever they were before. -/
theorem gives_petSelect {c : Cfg α} (hc : 1 ≤ c.clf) {B : Nat} (hB : 1 ≤ B) {s : St α (PetSt α)} {x : SVec α}
    (h1 : 1 ≤ s.dim) (h2 : s.dim ≤ 4294967295) (hw : Vecs c.clf s.dim s.w) (hg : s.g.length = c.clf)
    (ha : petInv B s.dim s.alg) (hx : Proper x) :
    Gives (petSelect B s x) (fun s' => FitW c (petKept B) s' ∧ Same s s') := by
  unfold petSelect
  rw [if_pos (by omega)]
  obtain ⟨v, ev, hv⟩ := gives_absAt hx.1.1 hc s.w s.alg.absW ha.1 hw
  rw [ev, Res.bind_ok]
  obtain ⟨hi, k1, k2, k3⟩ := ha.2.wf
  have hN := ha.2.N
  have hK := ha.2.K
  obtain ⟨V, hV⟩ := Props.values_of_le (vals := v.drop 1) (Props.tab_le hi k1) (by rw [List.length_drop]; omega)
  obtain ⟨h', hb, hi', hN', hK', -, -⟩ := build_spec less hi k1 k3 hV
  rw [hb, Res.bind_ok]
  obtain ⟨ws, v', h'', e, b1, b2, b3, b4, b5, b6⟩ := petScan_spec (List.range (s.dim - 1)) s.w v h' hw hv
    ⟨hi', by omega, by omega, by omega⟩ (by omega) h2 (fun i hi => by simp only [List.mem_range] at hi; omega)
    ((inside_range hw).mono fun j hj => Or.inr hj)
  rw [e, Res.bind_ok]
  exact .ok ⟨⟨h1, h2, b1, hg, ⟨b2, b3, by simp only; omega, by simp only; omega⟩, b6⟩, ⟨rfl, rfl, rfl, rfl, rfl⟩⟩

theorem petKept_grow {B : Nat} {n : Nat} (d m : Nat) (w : List (List α)) (a : PetSt α) (hdm : d < m) (hw : Vecs n d w)
    (h : petKept B d w a) : petKept B m (w.map (growTo d m 0)) (petGrow d m a) := by
  obtain ⟨⟨h1, h2⟩, h3⟩ := h
  have hh := heapFit_grow h2 hdm
  refine ⟨⟨growTo_length _ _ _ _ h1 (by omega), hh.1⟩, ?_⟩
  simp only [petGrow, hh.2]
  exact h3.grow hw

/-- Own state, without the budget. -/
def petLoose (B : Nat) (d : Nat) (_ : List (List α)) (a : PetSt α) : Prop := petInv B d a

theorem FitW.loosen {c : Cfg α} {B : Nat} {s : St α (PetSt α)} (h : FitW c (petKept B) s) : FitW c (petLoose B) s :=
  ⟨h.dim, h.dimMax, h.w, h.g, h.alg.1⟩

theorem petLoose_grow {B : Nat} (d m : Nat) (w : List (List α)) (a : PetSt α) (hdm : d < m)
    (h : petLoose B d w a) : petLoose B m (w.map (growTo d m 0)) (petGrow d m a) :=
  ⟨growTo_length _ _ _ _ h.1 (by omega), (heapFit_grow h.2 hdm).1⟩

/-- The update establishes the budget. -/
theorem gives_pet_update {c : Cfg α} (hc : 1 ≤ c.clf) (eta0 : α) (pow : Int → α) {B : Nat} (hB : 1 ≤ B)
    {s : St α (PetSt α)} {x : SVec α} (l : α) (h : FitW c (petLoose B) s) (hx : Proper x) :
    Gives ((pet eta0 pow B).update c s x l) (fun s' => FitW c (petKept B) s' ∧ Same s s') := by
  refine (gives_etaStep (inv := petInv B) (s := { s with eta := eta0 / pow s.t }) ⟨h.dim, h.w, h.g, h.alg⟩ hx.1 s
    ⟨rfl, rfl, rfl, rfl, rfl⟩).bind fun s' hs' => ?_
  obtain ⟨hf, hs⟩ := hs'
  exact (gives_petSelect hc hB hf.dim (by have := hs.dim; have := h.dimMax; omega) hf.w hf.g hf.alg hx).mono
    fun s'' h'' => ⟨h''.1, ⟨h''.2.dim.trans hs.dim, h''.2.t.trans hs.t, h''.2.data.trans hs.data, h''.2.upd.trans hs.upd,
      h''.2.err.trans hs.err⟩⟩

theorem able_pet (c : Cfg α) (hc : 1 ≤ c.clf) (eta0 : α) (pow : Int → α) {B : Nat} (hB : 1 ≤ B) :
    Able c (pet eta0 pow B) Proper (FitW c (petKept B)) (fun _ => FitW c (petKept B)) :=
  able_of (fun _ _ => rfl) (fun _ _ => rfl) (fun _ _ => rfl) (fun _ _ => rfl)
    (fun d n w a _ hdn hw h => petKept_grow d n w a hdn hw h) fun s x l h hx _ => gives_pet_update hc eta0 pow hB l h.loosen hx

theorem able_pet_loose (c : Cfg α) (hc : 1 ≤ c.clf) (eta0 : α) (pow : Int → α) {B : Nat} (hB : 1 ≤ B) :
    Able c (pet eta0 pow B) Proper (FitW c (petLoose B)) (fun _ => FitW c (petLoose B)) :=
  able_of (fun _ _ => rfl) (fun _ _ => rfl) (fun _ _ => rfl) (fun _ _ => rfl)
    (fun d n w a _ hdn _ h => petLoose_grow d n w a hdn h) fun s x l h hx _ =>
      (gives_pet_update hc eta0 pow hB l h hx).mono fun _ h => ⟨h.1.loosen, h.2⟩

theorem gives_fofsStep {d : Nat} (nc mo k b : α) {x : SVec α} {w : List α} (hx : Good x) (hd : 1 ≤ d) (hw : w.length = d) :
    Gives (fofsStep nc mo k b x w) (fun w' => w'.length = d) :=
  (gives_step k b hx hd (w := w.map (· * mo)) (by simpa using hw)).bind fun w' hw' => .ok (by
    split
    · simpa using hw'
    · exact hw')

theorem gives_fofs_update {c : Cfg α} (hc : 1 ≤ c.clf) (nc mo : α) {B : Nat} (hB : 1 ≤ B)
    {s : St α (PetSt α)} {x : SVec α} (l : α) (h : FitW c (petLoose B) s) (hx : Proper x) :
    Gives ((fofs nc mo B).update c s x l) (fun s' => FitW c (petKept B) s' ∧ Same s s') := by
  refine (gives_each1 (P := fun v : List α => v.length = s.dim) (fun g v hv => gives_fofsStep nc mo _ _ hx.1 h.dim hv)
    s.g s.w h.w.2).bind fun w hw => ?_
  exact (gives_petSelect (s := { s with w := w }) hc hB h.dim h.dimMax ⟨hw.1.trans h.w.1, hw.2⟩ h.g h.alg hx).mono
    fun s'' h'' => ⟨h''.1, ⟨h''.2.dim, h''.2.t, h''.2.data, h''.2.upd, h''.2.err⟩⟩

theorem able_fofs (c : Cfg α) (hc : 1 ≤ c.clf) (nc mo : α) {B : Nat} (hB : 1 ≤ B) :
    Able c (fofs nc mo B) Proper (FitW c (petKept B)) (fun _ => FitW c (petKept B)) :=
  able_of (fun _ _ => rfl) (fun _ _ => rfl) (fun _ _ => rfl) (fun _ _ => rfl)
    (fun d n w a _ hdn hw h => petKept_grow d n w a hdn hw h) fun s x l h hx _ => gives_fofs_update hc nc mo hB l h.loosen hx

theorem able_fofs_loose (c : Cfg α) (hc : 1 ≤ c.clf) (nc mo : α) {B : Nat} (hB : 1 ≤ B) :
    Able c (fofs nc mo B) Proper (FitW c (petLoose B)) (fun _ => FitW c (petLoose B)) :=
  able_of (fun _ _ => rfl) (fun _ _ => rfl) (fun _ _ => rfl) (fun _ _ => rfl)
    (fun d n w a _ hdn _ h => petLoose_grow d n w a hdn h) fun s x l h hx _ =>
      (gives_fofs_update hc nc mo hB l h hx).mono fun _ h => ⟨h.1.loosen, h.2⟩

/-! ### Selection by a second vector per class -/

/-- The own state of SOFS and AdaFOBOS_OFS fits the dimension. -/
structure OfsInv (clf B d : Nat) (a : OfsSt α) : Prop where
  sig : Vecs clf d a.sig
  sum : clf = 1 ∨ a.sum.length = d
  heap : HeapFit B d a.heap

/-- Own state; every feature with a weight is in the heap or in `E`. -/
def ofsHeld (E : Nat → Prop) (clf B : Nat) (d : Nat) (w : List (List α)) (a : OfsSt α) : Prop :=
  OfsInv clf B d a ∧ Inside w (fun j => E j ∨ j ∈ a.heap.pos2id)

/-- Own state and budget. -/
def ofsKept (clf B : Nat) (d : Nat) (w : List (List α)) (a : OfsSt α) : Prop :=
  OfsInv clf B d a ∧ Inside w (· ∈ a.heap.pos2id)

theorem ofsHeld_false (clf B : Nat) : (ofsHeld (fun _ => False) clf B : Nat → List (List α) → OfsSt α → Prop) = ofsKept clf B := by
  funext d w a
  simp only [ofsHeld, ofsKept, false_or]

theorem ofsInv_grow {clf B : Nat} (v : α) (d m : Nat) (a : OfsSt α) (hdm : d < m) (h : OfsInv clf B d a) :
    OfsInv clf B m (ofsGrow clf v d m a) ∧ (ofsGrow clf v d m a).heap.pos2id = a.heap.pos2id := by
  have hh := heapFit_grow h.heap hdm
  refine ⟨⟨h.sig.grow v (by omega), ?_, hh.1⟩, hh.2⟩
  rcases h.sum with h1 | h1
  · exact Or.inl h1
  · by_cases hc : clf = 1
    · exact Or.inl hc
    · right
      simp only [ofsGrow, if_neg hc]
      exact growTo_length _ _ _ _ h1 (by omega)

theorem ofsHeld_grow {E : Nat → Prop} {clf B n : Nat} (v : α) (d m : Nat) (w : List (List α)) (a : OfsSt α) (hdm : d < m) (hw : Vecs n d w)
    (h : ofsHeld E clf B d w a) : ofsHeld E clf B m (w.map (growTo d m 0)) (ofsGrow clf v d m a) := by
  have := ofsInv_grow v d m a hdm h.1
  refine ⟨this.1, ?_⟩
  rw [this.2]
  exact h.2.grow hw

theorem watched_length {clf B d : Nat} {a : OfsSt α} (hc : 1 ≤ clf) (h : OfsInv clf B d a) :
    (watched clf a.sig a.sum).length = d := by
  unfold watched
  split
  · rename_i h1
    have := h.sig.1
    cases hs : a.sig with
    | nil => rw [hs] at this; simp at this; omega
    | cons v l => exact h.sig.2 v (by rw [hs]; exact List.mem_cons_self)
  · exact h.sum.resolve_left (by assumption)

/-- Moving an element of the heap after its value has changed. -/
theorem resettle_spec (cmp : α → α → Bool) {vals : List α} {B d : Nat} {h : State} (hh : HeapFit B d h)
    (hv : vals.length + 1 = d) {i : Nat} (hi1 : 1 ≤ i) (hi : i < d) (hd2 : d ≤ 4294967295) :
    Gives (resettle cmp vals B h i) (fun h' => HeapFit B d h' ∧ ∀ j, j ∈ h'.pos2id ↔ j ∈ h.pos2id) := by
  obtain ⟨ht, k1, k2, k3⟩ := hh.wf
  have hN := hh.N
  have hK := hh.K
  unfold resettle
  rw [prev_eq hi1 (by omega)]
  have hl := ht.lenN
  refine Gives.bind (P := fun _ => True) (gives_lget (by omega)) fun pos _ => .ite (fun hp => ?_) fun _ => .ok ⟨hh, fun j => Iff.rfl⟩
  obtain ⟨V, hV⟩ := Props.values_of_le (vals := vals) (Props.tab_le ht k1) (by omega)
  have hlast : last B = B - 1 := last_eq (by omega) (by omega)
  obtain ⟨h', ha, ht', hN', hK', hs⟩ := adjust_spec cmp ht hV (s := pos) (m := last B) (by omega) (by omega)
  refine ⟨h', ha, ⟨⟨ht', by omega, by omega, by omega⟩, by omega, by omega⟩, fun j => ?_⟩
  rw [hs]
  exact (sift_perm cmp V _ _ _ _ (Nat.le_refl _) (by rw [ht.lenK]; omega)).mem_iff

theorem gives_settleOne (cmp : α → α → Bool) (f : α → α → α) {B d : Nat} (hd2 : d ≤ 4294967295) (x : SVec α) (sig : List α)
    (h : State) (hs : sig.length = d) (hh : HeapFit B d h) (hx : ∀ p ∈ x, 1 ≤ p.1 ∧ p.1 < d) :
    Gives (settleOne cmp f B x sig h) (fun r => r.1.length = d ∧ HeapFit B d r.2 ∧ ∀ j, j ∈ r.2.pos2id ↔ j ∈ h.pos2id) := by
  induction x generalizing sig h with
  | nil => exact .ok ⟨hs, hh, fun j => Iff.rfl⟩
  | cons p x ih =>
    obtain ⟨i, y⟩ := p
    obtain ⟨h1, h2⟩ := hx (i, y) List.mem_cons_self
    simp only at h1 h2
    refine Gives.bind (P := fun _ => True) (gives_lget (by omega)) fun a _ =>
      (gives_lset _ (by omega)).bind fun sig' hs' => ?_
    refine (resettle_spec cmp hh (vals := sig'.drop 1) (by rw [List.length_drop]; omega) h1 h2 hd2).bind fun h' hh' => ?_
    exact (ih sig' h' (by omega) hh'.1 fun p hp => hx p (List.mem_cons_of_mem _ hp)).mono fun r hr =>
      ⟨hr.1, hr.2.1, fun j => (hr.2.2 j).trans (hh'.2 j)⟩

theorem gives_sumAt {d i : Nat} (hi : i < d) (l : List (List α)) (v : α) (hl : ∀ w ∈ l, w.length = d) :
    Gives (sumAt i l v) (fun _ => True) := by
  induction l generalizing v with
  | nil => exact .ok trivial
  | cons w l ih =>
    have := hl w List.mem_cons_self
    exact Gives.bind (P := fun _ => True) (gives_lget (by omega)) fun a _ =>
      ih _ fun w hw => hl w (List.mem_cons_of_mem _ hw)

theorem gives_settleSum (cmp : α → α → Bool) {sig : List (List α)} {B d : Nat} (hd2 : d ≤ 4294967295)
    (hsig : ∀ w ∈ sig, w.length = d) (x : SVec α) (sum : List α) (h : State) (hs : sum.length = d) (hh : HeapFit B d h)
    (hx : ∀ p ∈ x, 1 ≤ p.1 ∧ p.1 < d) :
    Gives (settleSum cmp sig B x sum h) (fun r => r.1.length = d ∧ HeapFit B d r.2 ∧ ∀ j, j ∈ r.2.pos2id ↔ j ∈ h.pos2id) := by
  induction x generalizing sum h with
  | nil => exact .ok ⟨hs, hh, fun j => Iff.rfl⟩
  | cons p x ih =>
    obtain ⟨i, y⟩ := p
    obtain ⟨h1, h2⟩ := hx (i, y) List.mem_cons_self
    simp only at h1 h2
    refine (gives_sumAt h2 sig 0 hsig).bind fun v _ => (gives_lset _ (by omega)).bind fun sum' hs' => ?_
    refine (resettle_spec cmp hh (vals := sum'.drop 1) (by rw [List.length_drop]; omega) h1 h2 hd2).bind fun h' hh' => ?_
    exact (ih sum' h' (by omega) hh'.1 fun p hp => hx p (List.mem_cons_of_mem _ hp)).mono fun r hr =>
      ⟨hr.1, hr.2.1, fun j => (hr.2.2 j).trans (hh'.2 j)⟩

/-- What holds of the new own state: shape and the same heap ids; if there is none then no class has a gradient. -/
def Settled (clf B d : Nat) (g : List α) (a : OfsSt α) (r : Option (OfsSt α)) : Prop :=
  (r = none → ∀ g' ∈ g, (g' =? 0) = true) ∧
  ∀ a', r = some a' → OfsInv clf B d a' ∧ ∀ j, j ∈ a'.heap.pos2id ↔ j ∈ a.heap.pos2id

theorem each1_idle {β : Type} {f : α → β → Res β} (gl : List α) (l : List β) (h : ∀ g ∈ gl, (g =? 0) = true) :
    each1 f gl l = .ok l := by
  induction l generalizing gl with
  | nil => cases gl <;> rfl
  | cons v l ih =>
    cases gl with
    | nil => rfl
    | cons g gl =>
      simp only [each1, h g List.mem_cons_self, if_true, Res.bind_ok, ih gl fun g hg => h g (List.mem_cons_of_mem _ hg)]

theorem proper_lt {x : SVec α} {d : Nat} (hx : Proper x) (hd : Sparse.dim x ≤ d) : ∀ p ∈ x, 1 ≤ p.1 ∧ p.1 < d :=
  fun p hp => ⟨hx.2 p hp, by have := hx.1.lt_dim p hp; omega⟩

theorem gives_sofsSig {c : Cfg α} (hc : 1 ≤ c.clf) (r : α) {B d : Nat} (h1 : 1 ≤ d) (hd2 : d ≤ 4294967295) {g : List α}
    (hg : g.length = c.clf) {a : OfsSt α} (ha : OfsInv c.clf B d a) {x : SVec α} (hx : Proper x) (hd : Sparse.dim x ≤ d) :
    Gives (sofsSig r B c g a x) (Settled c.clf B d g a) := by
  have hlt := proper_lt hx hd
  unfold sofsSig
  refine .ite (fun h => ?_) fun h => ?_
  · obtain ⟨g0, rfl⟩ := List.length_eq_one_iff.1 (hg.trans h)
    rw [lget_ok (w := [g0]) (i := 0) (by simp), Res.bind_ok]
    refine .ite (fun hz => .ok ⟨fun _ g' hg' => ?_, fun a' h => by simp at h⟩) fun _ => ?_
    · rw [List.mem_singleton.1 hg']
      simpa using hz
    have hs := ha.sig
    refine Gives.bind (P := fun v : List α => v.length = d) ?_ fun sig hsig => ?_
    · have := hs.1
      exact ⟨a.sig[0], lget_ok (by omega), hs.2 _ (List.getElem_mem _)⟩
    · refine (gives_atBias _ (by omega)).bind fun sig' hsig' => ?_
      refine (gives_settleOne more _ hd2 x sig' a.heap (by omega) ha.heap hlt).bind fun r hr => .ok ?_
      refine ⟨fun he => by simp at he, fun a' he => ?_⟩
      obtain rfl := Option.some.inj he
      exact ⟨⟨⟨by simp [h], by simpa using hr.1⟩, Or.inl h, hr.2.1⟩, hr.2.2⟩
  · refine (gives_each1 (P := fun v : List α => v.length = d) (fun g v hv => gives_arowSig _ hx.1 h1 hv) g a.sig ha.sig.2).bind
      fun sigs hsigs => ?_
    refine (gives_settleSum more hd2 hsigs.2 x a.sum a.heap (ha.sum.resolve_left h) ha.heap hlt).bind fun r hr => .ok ?_
    refine ⟨fun he => by simp at he, fun a' he => ?_⟩
    obtain rfl := Option.some.inj he
    exact ⟨⟨⟨hsigs.1.trans ha.sig.1, hsigs.2⟩, Or.inr hr.1, hr.2.1⟩, hr.2.2⟩

theorem gives_adaH {d : Nat} (delta g : α) {x : SVec α} {H : List α} (hx : Good x) (hd : 1 ≤ d)
    (hs : H.length = d) : Gives (adaH delta g x H) (fun w' => w'.length = d) :=
  (gives_calcExp hs hx.1 fun _ _ _ _ _ => (gives_lget (by omega)).bind fun _ _ => .ok trivial).bind fun w' hw' =>
    (gives_atBias _ (by omega)).mono fun _ h => by omega

theorem gives_ofsScale {c : Cfg α} (hc : 1 ≤ c.clf) (delta : α) {B d : Nat} (h1 : 1 ≤ d) (hd2 : d ≤ 4294967295) {g : List α}
    (hg : g.length = c.clf) {a : OfsSt α} (ha : OfsInv c.clf B d a) {x : SVec α} (hx : Proper x) (hd : Sparse.dim x ≤ d) :
    Gives (ofsScale delta B c g a x) (Settled c.clf B d g a) := by
  have hlt := proper_lt hx hd
  unfold ofsScale
  refine .ite (fun h => ?_) fun h => ?_
  · obtain ⟨g0, rfl⟩ := List.length_eq_one_iff.1 (hg.trans h)
    rw [lget_ok (w := [g0]) (i := 0) (by simp), Res.bind_ok]
    refine .ite (fun hz => .ok ⟨fun _ g' hg' => ?_, fun a' h => by simp at h⟩) fun _ => ?_
    · rw [List.mem_singleton.1 hg']
      simpa using hz
    have hs := ha.sig
    refine Gives.bind (P := fun v : List α => v.length = d) ?_ fun sig hsig => ?_
    · have := hs.1
      exact ⟨a.sig[0], lget_ok (by omega), hs.2 _ (List.getElem_mem _)⟩
    · refine (gives_atBias _ (by omega)).bind fun sig' hsig' => ?_
      refine (gives_settleOne less _ hd2 x sig' a.heap (by omega) ha.heap hlt).bind fun r hr => .ok ?_
      refine ⟨fun he => by simp at he, fun a' he => ?_⟩
      obtain rfl := Option.some.inj he
      exact ⟨⟨⟨by simp [h], by simpa using hr.1⟩, Or.inl h, hr.2.1⟩, hr.2.2⟩
  · refine (gives_each1 (P := fun v : List α => v.length = d) (fun g v hv => gives_adaH delta g hx.1 h1 hv) g a.sig ha.sig.2).bind
      fun sigs hsigs => ?_
    refine (gives_settleSum less hd2 hsigs.2 x a.sum a.heap (ha.sum.resolve_left h) ha.heap hlt).bind fun r hr => .ok ?_
    refine ⟨fun he => by simp at he, fun a' he => ?_⟩
    obtain rfl := Option.some.inj he
    exact ⟨⟨⟨hsigs.1.trans ha.sig.1, hsigs.2⟩, Or.inr hr.1, hr.2.1⟩, hr.2.2⟩

/-! ### The weights change at the features of the example only -/

/-- The vectors agree away from the bias and the features of `x`. -/
def SameOff (x : SVec α) (w w' : List α) : Prop := ∀ i : Nat, (∀ p ∈ x, p.1 ≠ i + 1) → w'[i + 1]? = w[i + 1]?

theorem lset_same {w w' : List α} {i : Nat} {a : α} (h : lset w i a = .ok w') : ∀ j : Nat, j ≠ i → w'[j]? = w[j]? := by
  obtain ⟨_, rfl⟩ := lset_eq_ok.1 h
  intro j hj
  exact List.getElem?_set_ne (fun e => hj e.symm)

theorem calcLoop_same {op : α → α → α} {f : List α → Nat → α → Res α} (x : SVec α) (w w' : List α)
    (h : calcLoop op f x w = .ok w') : ∀ j : Nat, (∀ p ∈ x, p.1 ≠ j) → w'[j]? = w[j]? := by
  induction x generalizing w with
  | nil =>
    intro j _
    rw [Res.ok.inj h]
  | cons p x ih =>
    obtain ⟨i, y⟩ := p
    simp only [calcLoop, Res.bind_eq_ok] at h
    obtain ⟨r, h1, a, h2, w1, h3, h4⟩ := h
    intro j hj
    rw [ih w1 h4 j fun p hp => hj p (List.mem_cons_of_mem _ hp)]
    exact lset_same h3 j fun e => hj (i, y) List.mem_cons_self e.symm

theorem calcExp_same {op : α → α → α} {f : List α → Nat → α → Res α} {x : SVec α} {w w' : List α}
    (h : calcExp op f w x = .ok w') : SameOff x w w' := fun i hi =>
  calcLoop_same _ _ _ h (i + 1) fun p hp => hi p (List.mem_of_mem_take hp)

theorem atBias_same {f : α → α} {w w' : List α} (h : atBias f w = .ok w') : ∀ i : Nat, w'[i + 1]? = w[i + 1]? := by
  unfold atBias at h
  simp only [Res.bind_eq_ok] at h
  obtain ⟨b, _, h⟩ := h
  exact fun i => lset_same h (i + 1) (by omega)

theorem sigStep_same {k b : α} {x : SVec α} {w sig w' : List α} (h : sigStep k b x w sig = .ok w') : SameOff x w w' := by
  unfold sigStep at h
  simp only [Res.bind_eq_ok] at h
  obtain ⟨w1, h1, s0, _, h2⟩ := h
  exact fun i hi => (atBias_same h2 i).trans (calcExp_same h1 i hi)

theorem adaStep_same {k b : α} {x : SVec α} {w sig w' : List α} (h : adaStep k b x w sig = .ok w') : SameOff x w w' := by
  unfold adaStep at h
  simp only [Res.bind_eq_ok] at h
  obtain ⟨w1, h1, s0, _, h2⟩ := h
  exact fun i hi => (atBias_same h2 i).trans (calcExp_same h1 i hi)

theorem rdaOfsOne_same {eta b0 g : α} {x : SVec α} {p q : List α × List α × List α} (h : rdaOfsOne eta b0 g x p = .ok q) :
    SameOff x p.1 q.1 := by
  unfold rdaOfsOne at h
  simp only [Res.bind_eq_ok] at h
  obtain ⟨u, _, w1, h1, w2, h2, h3⟩ := h
  rw [← Res.ok.inj h3]
  exact fun i hi => (atBias_same h2 i).trans (calcExp_same h1 i hi)

/-- The loop over the classes, with any further vectors. -/
theorem each1_same {β : Type} {f : α → List α × β → Res (List α × β)} {x : SVec α}
    (hf : ∀ g p q, f g p = .ok q → SameOff x p.1 q.1) (gl : List α) (l l' : List (List α × β))
    (h : each1 f gl l = .ok l') : ∀ q ∈ l', ∃ p ∈ l, SameOff x p.1 q.1 := by
  induction l generalizing gl l' with
  | nil =>
    cases gl <;> (simp only [each1, Res.ok.injEq] at h; subst h; simp)
  | cons v l ih =>
    cases gl with
    | nil =>
      simp only [each1, Res.ok.injEq] at h
      subst h
      exact fun q hq => ⟨q, hq, fun _ _ => rfl⟩
    | cons g gl =>
      simp only [each1, Res.bind_eq_ok] at h
      obtain ⟨r, h1, rest, h2, h3⟩ := h
      rw [← Res.ok.inj h3]
      intro q hq
      rcases List.mem_cons.1 hq with rfl | hq
      · refine ⟨v, List.mem_cons_self, ?_⟩
        split at h1
        · rw [Res.ok.inj h1]; exact fun _ _ => rfl
        · exact hf _ _ _ h1
      · obtain ⟨p, hp, hs⟩ := ih gl rest h2 q hq
        exact ⟨p, List.mem_cons_of_mem _ hp, hs⟩

theorem Inside.moved {ws ws' : List (List α)} {S : Nat → Prop} {x : SVec α} (hx : Proper x) (h : Inside ws S)
    (hw : ∀ w' ∈ ws', ∃ w ∈ ws, SameOff x w w') : Inside ws' (fun j => S j ∨ j ∈ ids x) := by
  intro w' hw' i a hi ha
  obtain ⟨w, hm, hs⟩ := hw w' hw'
  by_cases hj : ∀ p ∈ x, p.1 ≠ i + 1
  · rw [hs i hj] at hi
    exact Or.inl (h w hm i a hi ha)
  · push Not at hj
    obtain ⟨p, hp, he⟩ := hj
    right
    unfold ids
    refine List.mem_map.2 ⟨p, hp, ?_⟩
    have := hx.1.2 p hp
    rw [prev_eq (by omega) (by omega)]
    omega

theorem ids_lt {x : SVec α} {d : Nat} (hx : Proper x) (hd : Sparse.dim x ≤ d) : ∀ i ∈ ids x, i + 1 < d := by
  intro i hi
  obtain ⟨p, hp, rfl⟩ := List.mem_map.1 hi
  have := proper_lt hx hd p hp
  have := hx.1.2 p hp
  rw [prev_eq (by omega) (by omega)]
  omega

/-- The last part of the updates: settle the heap, delete what it returns. -/
theorem gives_finish (cmp : α → α → Bool) {c : Cfg α} (hc : 1 ≤ c.clf) {B d : Nat} (h1 : 1 ≤ d) (h2 : d ≤ 4294967295)
    {E : Nat → Prop} {a0 a : OfsSt α} {ws ws' : List (List α)} {x : SVec α} (hx : Proper x) (hd : Sparse.dim x ≤ d)
    (hws : Vecs c.clf d ws') (hin : Inside ws (fun j => E j ∨ j ∈ a0.heap.pos2id)) (ha : OfsInv c.clf B d a)
    (hsame : ∀ j, j ∈ a.heap.pos2id ↔ j ∈ a0.heap.pos2id) (hmv : ∀ w' ∈ ws', ∃ w ∈ ws, SameOff x w w') :
    Gives (prune cmp ((watched c.clf a.sig a.sum).drop 1) (ids x) ws' a.heap)
      (fun r => Vecs c.clf d r.1 ∧ ofsHeld E c.clf B d r.1 { a with heap := r.2 }) := by
  have hl := watched_length hc ha
  have hN := ha.heap.N
  have hK := ha.heap.K
  obtain ⟨ws'', h', e, b1, b2, b3, b4, b5⟩ := prune_spec cmp (vals := (watched c.clf a.sig a.sum).drop 1) (ids x) ws' a.heap
    hws ha.heap.wf hN h2 (by rw [List.length_drop]; omega)
    (fun i hi => by have := ids_lt hx hd i hi; omega)
    ((hin.moved hx hmv).mono fun j hj => hj.imp (Or.imp id (hsame j).2) id)
  exact ⟨(ws'', h'), e, b1, ⟨ha.sig, ha.sum, b2, by simp only; omega, by simp only; omega⟩, b5⟩

theorem able_sofs_held (E : Nat → Prop) (c : Cfg α) (hc : 1 ≤ c.clf) (r : α) {B : Nat} (hB : 1 ≤ B) :
    Able c (sofs r B c.clf) Proper (FitW c (ofsHeld E c.clf B)) (fun _ => FitW c (ofsHeld E c.clf B)) := by
  refine able_of (fun _ _ => rfl) (fun _ _ => rfl) (fun _ _ => rfl) (fun _ _ => rfl)
    (fun d n w a _ hdn hw h => ofsHeld_grow 1 d n w a hdn hw h) fun s x l h hx hd => ?_
  obtain ⟨hi, hin⟩ := h.alg
  refine (gives_confLoop _ hx.1 h.dim s.g s.alg.sig hi.sig.2 0).bind fun beta _ => ?_
  have hz := zip_vecs h.w hi.sig
  obtain ⟨ws, e, hws⟩ := gives_each1 (P := fun p : List α × List α => p.1.length = s.dim ∧ p.2.length = s.dim)
    (f := fun g (p : List α × List α) => do
      let w ← sigStep (l * (1 / (beta + r)) * g) (c.biasEta0 * (l * (1 / (beta + r))) * g) x p.1 p.2
      .ok (w, p.2)) (fun g p hp => (gives_sigStep _ _ hx.1 h.dim hp.1 hp.2).bind fun w hw => .ok ⟨hw, hp.2⟩) s.g _ hz.2
  have hv := unzip_vecs (hws.1.trans hz.1) hws.2
  have hmv : ∀ w' ∈ ws.map (·.1), ∃ w ∈ s.w, SameOff x w w' := by
    intro w' hw'
    obtain ⟨q, hq, rfl⟩ := List.mem_map.1 hw'
    obtain ⟨p, hp, hs⟩ := each1_same (x := x) (fun g p q hpq => by
      simp only [Res.bind_eq_ok] at hpq
      obtain ⟨w, h1, h2⟩ := hpq
      rw [← Res.ok.inj h2]
      exact sigStep_same h1) _ _ _ e q hq
    exact ⟨p.1, (List.of_mem_zip hp).1, hs⟩
  simp only [biasEta]
  rw [e, Res.bind_ok]
  refine (gives_sofsSig hc r h.dim h.dimMax h.g hi hx hd).bind fun a ha => ?_
  cases a with
  | none =>
    rw [each1_idle _ _ (ha.1 rfl)] at e
    have hw : ws.map (·.1) = s.w := by
      rw [← Res.ok.inj e]
      exact List.map_fst_zip (by rw [h.w.1, hi.sig.1])
    refine .ok ⟨⟨h.dim, h.dimMax, hv.1, h.g, hi, ?_⟩, ⟨rfl, rfl, rfl, rfl, rfl⟩⟩
    simp only [hw]
    exact hin
  | some a =>
    obtain ⟨ha1, ha2⟩ := ha.2 a rfl
    refine (gives_finish more hc h.dim h.dimMax hx hd hv.1 hin ha1 ha2 hmv).bind fun q hq => .ok ?_
    exact ⟨⟨h.dim, h.dimMax, hq.1, h.g, hq.2⟩, ⟨rfl, rfl, rfl, rfl, rfl⟩⟩

theorem gives_adaStep {d : Nat} (k b : α) {x : SVec α} {w H : List α} (hx : Good x) (hd : 1 ≤ d) (hw : w.length = d)
    (hs : H.length = d) : Gives (adaStep k b x w H) (fun w' => w'.length = d) :=
  (gives_calcExp hw hx.1 fun _ _ _ _ _ => (gives_lget (by omega)).bind fun _ _ => .ok trivial).bind fun w' hw' =>
    (gives_lget (by omega)).bind fun _ _ => (gives_atBias _ (by omega)).mono fun _ h => by omega

theorem able_adaFobosOfs_held (E : Nat → Prop) (c : Cfg α) (hc : 1 ≤ c.clf) (delta : α) {B : Nat} (hB : 1 ≤ B) :
    Able c (adaFobosOfs delta B c.clf) Proper (FitW c (ofsHeld E c.clf B)) (fun _ => FitW c (ofsHeld E c.clf B)) := by
  refine able_of (fun _ _ => rfl) (fun _ _ => rfl) (fun _ _ => rfl) (fun _ _ => rfl)
    (fun d n w a _ hdn hw h => ofsHeld_grow delta d n w a hdn hw h) fun s x l h hx hd => ?_
  obtain ⟨hi, hin⟩ := h.alg
  refine (gives_ofsScale hc delta h.dim h.dimMax h.g hi hx hd).bind fun a ha => ?_
  cases a with
  | none => exact .ok ⟨h, .refl s⟩
  | some a =>
    obtain ⟨ha1, ha2⟩ := ha.2 a rfl
    have hz := zip_vecs h.w ha1.sig
    obtain ⟨ws, e, hws⟩ := gives_each1 (P := fun p : List α × List α => p.1.length = s.dim ∧ p.2.length = s.dim)
      (f := fun g (p : List α × List α) => do
        let w ← adaStep (s.eta * g) (biasEta c s * g) x p.1 p.2
        .ok (w, p.2)) (fun g p hp => (gives_adaStep _ _ hx.1 h.dim hp.1 hp.2).bind fun w hw => .ok ⟨hw, hp.2⟩) s.g _ hz.2
    have hv := unzip_vecs (hws.1.trans hz.1) hws.2
    have hmv : ∀ w' ∈ ws.map (·.1), ∃ w ∈ s.w, SameOff x w w' := by
      intro w' hw'
      obtain ⟨q, hq, rfl⟩ := List.mem_map.1 hw'
      obtain ⟨p, hp, hs⟩ := each1_same (x := x) (fun g p q hpq => by
        simp only [Res.bind_eq_ok] at hpq
        obtain ⟨w, h1, h2⟩ := hpq
        rw [← Res.ok.inj h2]
        exact adaStep_same h1) _ _ _ e q hq
      exact ⟨p.1, (List.of_mem_zip hp).1, hs⟩
    simp only
    rw [e, Res.bind_ok]
    refine (gives_finish less hc h.dim h.dimMax hx hd hv.1 hin ha1 ha2 hmv).bind fun q hq => .ok ?_
    exact ⟨⟨h.dim, h.dimMax, hq.1, h.g, hq.2⟩, ⟨rfl, rfl, rfl, rfl, rfl⟩⟩

/-- Own state of AdaRDA_OFS; every feature with a weight is in the heap or in `E`. -/
def rdaHeld (E : Nat → Prop) (clf B : Nat) (d : Nat) (w : List (List α)) (a : RdaOfsSt α) : Prop :=
  ofsHeld E clf B d w a.ofs ∧ Vecs clf d a.ut

/-- Own state of AdaRDA_OFS and budget. -/
def rdaKept (clf B : Nat) (d : Nat) (w : List (List α)) (a : RdaOfsSt α) : Prop :=
  ofsKept clf B d w a.ofs ∧ Vecs clf d a.ut

theorem rdaHeld_false (clf B : Nat) : (rdaHeld (fun _ => False) clf B : Nat → List (List α) → RdaOfsSt α → Prop) = rdaKept clf B := by
  funext d w a
  simp only [rdaHeld, rdaKept, ofsHeld_false]

theorem gives_rdaOfsOne {d : Nat} (eta b0 g : α) {x : SVec α} {p : List α × List α × List α} (hx : Good x) (hd : 1 ≤ d)
    (hp : p.1.length = d ∧ p.2.1.length = d ∧ p.2.2.length = d) :
    Gives (rdaOfsOne eta b0 g x p) (fun q => q.1.length = d ∧ q.2.1.length = d ∧ q.2.2.length = d) := by
  refine (gives_addGrad g hx hd hp.2.2).bind fun u hu => ?_
  refine (gives_calcExp hp.1 hx.1 fun _ _ _ _ _ => (gives_lget (by omega)).bind fun _ _ =>
    (gives_lget (by omega)).bind fun _ _ => .ok trivial).bind fun w' hw' => ?_
  exact (gives_atBias _ (by omega)).bind fun w'' hw'' => .ok ⟨by simp only; omega, hp.2.1, hu⟩

theorem able_adaRdaOfs_held (E : Nat → Prop) (c : Cfg α) (hc : 1 ≤ c.clf) (delta : α) {B : Nat} (hB : 1 ≤ B) :
    Able c (adaRdaOfs delta B c.clf) Proper (FitW c (rdaHeld E c.clf B)) (fun _ => FitW c (rdaHeld E c.clf B)) := by
  refine able_of (fun _ _ => rfl) (fun _ _ => rfl) (fun _ _ => rfl) (fun _ _ => rfl)
    (fun d n w a _ hdn hw h => ⟨ofsHeld_grow delta d n w a.ofs hdn hw h.1, h.2.grow 0 (by omega)⟩) fun s x l h hx hd => ?_
  obtain ⟨⟨hi, hin⟩, hut⟩ := h.alg
  refine (gives_ofsScale hc delta h.dim h.dimMax h.g hi hx hd).bind fun a ha => ?_
  cases a with
  | none => exact .ok ⟨h, .refl s⟩
  | some a =>
    obtain ⟨ha1, ha2⟩ := ha.2 a rfl
    have hz : (s.w.zip (a.sig.zip s.alg.ut)).length = c.clf ∧ ∀ p ∈ s.w.zip (a.sig.zip s.alg.ut),
        p.1.length = s.dim ∧ p.2.1.length = s.dim ∧ p.2.2.length = s.dim := by
      refine ⟨by simp [h.w.1, ha1.sig.1, hut.1], ?_⟩
      rintro ⟨p, q, r⟩ hp
      have h2 := (List.of_mem_zip hp).2
      exact ⟨h.w.2 p (List.of_mem_zip hp).1, ha1.sig.2 q (List.of_mem_zip h2).1, hut.2 r (List.of_mem_zip h2).2⟩
    obtain ⟨ws, e, hws⟩ := gives_each1
      (P := fun p : List α × List α × List α => p.1.length = s.dim ∧ p.2.1.length = s.dim ∧ p.2.2.length = s.dim)
      (f := fun g p => rdaOfsOne s.eta c.biasEta0 g x p) (fun g p hp => gives_rdaOfsOne _ _ _ hx.1 h.dim hp) s.g _ hz.2
    have hv : Vecs c.clf s.dim (ws.map (·.1)) := ⟨by simp [hws.1, hz.1], fun v hv => by
      obtain ⟨q, hq, rfl⟩ := List.mem_map.1 hv
      exact (hws.2 q hq).1⟩
    have hv2 : Vecs c.clf s.dim (ws.map (·.2.2)) := ⟨by simp [hws.1, hz.1], fun v hv => by
      obtain ⟨q, hq, rfl⟩ := List.mem_map.1 hv
      exact (hws.2 q hq).2.2⟩
    have hmv : ∀ w' ∈ ws.map (·.1), ∃ w ∈ s.w, SameOff x w w' := by
      intro w' hw'
      obtain ⟨q, hq, rfl⟩ := List.mem_map.1 hw'
      obtain ⟨p, hp, hs⟩ := each1_same (x := x) (fun g p q hpq => rdaOfsOne_same hpq) _ _ _ e q hq
      exact ⟨p.1, (List.of_mem_zip hp).1, hs⟩
    simp only
    rw [e, Res.bind_ok]
    refine (gives_finish less hc h.dim h.dimMax hx hd hv hin ha1 ha2 hmv).bind fun q hq => .ok ?_
    exact ⟨⟨h.dim, h.dimMax, hq.1, h.g, hq.2, hv2⟩, ⟨rfl, rfl, rfl, rfl, rfl⟩⟩

/-- `AdaRDA_OFS::EndTrain` computes all weights anew and still keeps the budget. -/
theorem gives_adaRdaOfsEnd_held {E : Nat → Prop} {c : Cfg α} (hc : 1 ≤ c.clf) {B : Nat} (hB : 1 ≤ B) {s : St α (RdaOfsSt α)}
    (h : FitW c (rdaHeld E c.clf B) s) : Gives (adaRdaOfsEnd B c s) (FitW c (rdaHeld E c.clf B)) := by
  obtain ⟨⟨hi, hin⟩, hut⟩ := h.alg
  have hN := hi.heap.N
  have hK := hi.heap.K
  have hl := watched_length hc hi
  refine (gives_eachWith2 (d := s.dim) (fun w u H hw hu hH => ?_) c.clf s.w s.alg.ut s.alg.ofs.sig h.w hut hi.sig).bind
    fun w hw => ?_
  · refine (gives_dense2 _ hu hH).bind fun q hq => (gives_dense2 _ hw hq).bind fun w' hw' => ?_
    exact (gives_atBias _ (by have := h.dim; omega)).mono fun _ h => by omega
  · simp only
    rw [if_pos (by omega)]
    obtain ⟨ws', h', e, b1, b2, b3, b4, b5⟩ := prune_spec less
      (vals := (watched c.clf s.alg.ofs.sig s.alg.ofs.sum).drop 1) (List.range (s.dim - 1)) w s.alg.ofs.heap hw
      hi.heap.wf hN h.dimMax (by rw [List.length_drop]; omega)
      (fun i hi => by simp only [List.mem_range] at hi; omega) ((inside_range hw).mono fun j hj => Or.inr hj)
    rw [e, Res.bind_ok]
    exact .ok ⟨h.dim, h.dimMax, b1, h.g, ⟨⟨hi.sig, hi.sum, b2, by simp only; omega, by simp only; omega⟩, b5⟩, hut⟩

theorem able_sofs (c : Cfg α) (hc : 1 ≤ c.clf) (r : α) {B : Nat} (hB : 1 ≤ B) :
    Able c (sofs r B c.clf) Proper (FitW c (ofsKept c.clf B)) (fun _ => FitW c (ofsKept c.clf B)) := by
  rw [← ofsHeld_false]
  exact able_sofs_held _ c hc r hB

theorem able_adaFobosOfs (c : Cfg α) (hc : 1 ≤ c.clf) (delta : α) {B : Nat} (hB : 1 ≤ B) :
    Able c (adaFobosOfs delta B c.clf) Proper (FitW c (ofsKept c.clf B)) (fun _ => FitW c (ofsKept c.clf B)) := by
  rw [← ofsHeld_false]
  exact able_adaFobosOfs_held _ c hc delta hB

theorem able_adaRdaOfs (c : Cfg α) (hc : 1 ≤ c.clf) (delta : α) {B : Nat} (hB : 1 ≤ B) :
    Able c (adaRdaOfs delta B c.clf) Proper (FitW c (rdaKept c.clf B)) (fun _ => FitW c (rdaKept c.clf B)) := by
  rw [← rdaHeld_false]
  exact able_adaRdaOfs_held _ c hc delta hB

theorem gives_adaRdaOfsEnd {c : Cfg α} (hc : 1 ≤ c.clf) {B : Nat} (hB : 1 ≤ B) {s : St α (RdaOfsSt α)}
    (h : FitW c (rdaKept c.clf B) s) : Gives (adaRdaOfsEnd B c s) (FitW c (rdaKept c.clf B)) := by
  rw [← rdaHeld_false] at *
  exact gives_adaRdaOfsEnd_held hc hB h

/-! ### `BeginTrain` -/

theorem init_spec (cmp : α → α → Bool) {v : List α} {B d : Nat} (hv : v.length = d) (hB : 1 ≤ B) (hd : B + 1 ≤ d)
    (hd2 : d ≤ 4294967295) :
    ∃ h, Heap.init cmp (v.drop 1) (d - 1) B = .ok h ∧ HeapFit B d h ∧ ∀ j, j ∈ h.pos2id ↔ j < B := by
  obtain ⟨V, hV⟩ := Props.values_of_le (vals := v.drop 1) (N := d - 1) (by omega) (by rw [List.length_drop]; omega)
  obtain ⟨h, hb, hi, hN, hK, hp, -⟩ := build_spec cmp (init_inv (N := d - 1) (K := B) (by omega)) hB (by simp only; omega) hV
  simp only at hN hK hp
  refine ⟨h, hb, ⟨⟨hi, by omega, by omega, by omega⟩, by omega, hK⟩, fun j => ?_⟩
  rw [hp.mem_iff]
  simp

theorem gives_absAll {n d : Nat} (l : List (List α)) (v : List α) (hv : v.length = d) (hl : ∀ w ∈ l, w.length = d) :
    Gives (absAll l v) (fun v' => v'.length = d) := by
  induction l generalizing v with
  | nil => exact .ok hv
  | cons w l ih =>
    exact (gives_dense2 _ hv (hl w List.mem_cons_self)).bind fun v' hv' =>
      ih v' hv' fun w hw => hl w (List.mem_cons_of_mem _ hw)

theorem gives_sumAll {d : Nat} (l : List (List α)) (v : List α) (hv : v.length = d) (hl : ∀ w ∈ l, w.length = d) :
    Gives (sumAll l v) (fun v' => v'.length = d) := by
  induction l generalizing v with
  | nil => exact .ok hv
  | cons w l ih =>
    exact (gives_dense2 _ hv (hl w List.mem_cons_self)).bind fun v' hv' =>
      ih v' hv' fun w hw => hl w (List.mem_cons_of_mem _ hw)

/-- The dimension after `update_dim(B + 1)`. -/
theorem updateDim_dim (G : Alg α A) (s : St α A) (n : Nat) : (updateDim G s n).dim = max s.dim n := by
  unfold updateDim
  split
  · simp only; omega
  · omega

/-- Weights after `update_dim`. -/
theorem updateDim_inside {G : Alg α A} {s : St α A} {n m : Nat} {S : Nat → Prop} (hw : Vecs m s.dim s.w) (h : Inside s.w S) :
    Vecs m (updateDim G s n).dim (updateDim G s n).w ∧ Inside (updateDim G s n).w S := by
  unfold updateDim
  split
  · exact ⟨hw.grow 0 (by simp only; omega), h.grow hw⟩
  · exact ⟨hw, h⟩

theorem padded_length {β : Type} (a : β) (n : Nat) (v : List β) : (growTo (min n v.length) n a v).length = n := by
  unfold growTo
  simp

theorem gives_petBegin {c : Cfg α} {G : Alg α (PetSt α)} (hG : G.grow = petGrow) {B : Nat} {s : St α (PetSt α)}
    (h : Ready c B s) {S : Nat → Prop} (hin : Inside s.w S) :
    Gives (petBegin G B s) (fun s' => Ready c B s' ∧ petInv B s'.dim s'.alg ∧ Inside s'.w S ∧
      (∀ j, j ∈ s'.alg.heap.pos2id ↔ j < B)) := by
  obtain ⟨hB, hB2⟩ := h.budget
  have hd := h.dimMax
  unfold petBegin
  rw [if_pos (by omega)]
  simp only [Nat.mod_eq_of_lt (show B + 1 < 4294967296 by omega)]
  generalize hs0 : ({ s with alg := { s.alg with absW := growTo (min s.dim s.alg.absW.length) s.dim 0 s.alg.absW } } :
    St α (PetSt α)) = s0
  have e1 : s0.dim = s.dim := by rw [← hs0]
  have e2 : s0.w = s.w := by rw [← hs0]
  have e3 : s0.g = s.g := by rw [← hs0]
  have e4 : s0.alg.absW.length = s.dim := by rw [← hs0]; exact padded_length _ _ _
  have hw0 : Vecs c.clf s0.dim s0.w := by rw [e1, e2]; exact h.w
  have hu := updateDim_inside (G := G) (n := B + 1) hw0 (S := S) (by rw [e2]; exact hin)
  have hdim := updateDim_dim G s0 (B + 1)
  have hg : (updateDim G s0 (B + 1)).g = s.g := by
    unfold updateDim
    split
    · exact e3
    · exact e3
  have hlen : (updateDim G s0 (B + 1)).alg.absW.length = (updateDim G s0 (B + 1)).dim := by
    unfold updateDim
    split
    · rw [hG]
      exact growTo_length _ _ _ _ (e4.trans e1.symm) (by omega)
    · exact e4.trans e1.symm
  generalize updateDim G s0 (B + 1) = s1 at hu hdim hg hlen
  obtain ⟨v, ev, hv⟩ := gives_absAll (n := c.clf) (d := s1.dim) s1.w (List.replicate s1.alg.absW.length 0) (by simpa using hlen) hu.1.2
  rw [ev, Res.bind_ok]
  obtain ⟨hp, eh, hh, hm⟩ := init_spec less hv hB (by omega) (by omega)
  rw [eh, Res.bind_ok]
  exact .ok ⟨⟨by simp only; omega, by simp only; omega, hu.1, by rw [← h.g]; simp only [hg], h.budget⟩, ⟨hv, hh⟩, hu.2, hm⟩

/-- The own vectors of SOFS and the like before the first training call. -/
def ofsReady (clf d : Nat) (a : OfsSt α) : Prop := Vecs clf d a.sig

theorem gives_ofsBegin (cmp : α → α → Bool) {c : Cfg α} (hc : 1 ≤ c.clf) {G : Alg α (OfsSt α)} {v0 : α}
    (hG : G.grow = ofsGrow c.clf v0) {B : Nat} {s : St α (OfsSt α)} (h : Ready c B s) (ha : ofsReady c.clf s.dim s.alg)
    {S : Nat → Prop} (hin : Inside s.w S) :
    Gives (ofsBegin cmp G c B s) (fun s' => Ready c B s' ∧ OfsInv c.clf B s'.dim s'.alg ∧ Inside s'.w S ∧
      (∀ j, j ∈ s'.alg.heap.pos2id ↔ j < B)) := by
  obtain ⟨hB, hB2⟩ := h.budget
  have hd := h.dimMax
  unfold ofsBegin
  rw [if_pos (by omega)]
  simp only
  generalize hs0 : ({ s with alg := { s.alg with
      sum := if c.clf = 1 then s.alg.sum else growTo (min s.dim s.alg.sum.length) s.dim 0 s.alg.sum } } :
    St α (OfsSt α)) = s0
  have e1 : s0.dim = s.dim := by rw [← hs0]
  have e2 : s0.w = s.w := by rw [← hs0]
  have e3 : s0.g = s.g := by rw [← hs0]
  have e4 : c.clf ≠ 1 → s0.alg.sum.length = s.dim := by
    intro hne
    rw [← hs0]
    simp only [if_neg hne]
    exact padded_length _ _ _
  have e5 : s0.alg.sig = s.alg.sig := by rw [← hs0]
  have hw0 : Vecs c.clf s0.dim s0.w := by rw [e1, e2]; exact h.w
  have hu := updateDim_inside (G := G) (n := B + 1) hw0 (S := S) (by rw [e2]; exact hin)
  have hdim := updateDim_dim G s0 (B + 1)
  have hg : (updateDim G s0 (B + 1)).g = s.g := by
    unfold updateDim
    split
    · exact e3
    · exact e3
  have hsig : Vecs c.clf (updateDim G s0 (B + 1)).dim (updateDim G s0 (B + 1)).alg.sig := by
    have ha0 : Vecs c.clf s0.dim s0.alg.sig := by rw [e1, e5]; exact ha
    unfold updateDim
    split
    · rw [hG]
      exact ha0.grow v0 (by simp only; omega)
    · exact ha0
  have hlen : c.clf ≠ 1 → (updateDim G s0 (B + 1)).alg.sum.length = (updateDim G s0 (B + 1)).dim := by
    intro hne
    unfold updateDim
    split
    · rw [hG]
      simp only [ofsGrow, if_neg hne]
      exact growTo_length _ _ _ _ ((e4 hne).trans e1.symm) (by omega)
    · exact (e4 hne).trans e1.symm
  generalize updateDim G s0 (B + 1) = s1 at hu hdim hg hlen hsig
  obtain ⟨v, ev, hv⟩ : Gives (if c.clf = 1 then .ok s1.alg.sum
      else sumAll s1.alg.sig (List.replicate s1.alg.sum.length 0) : Res (List α)) (fun v => c.clf = 1 ∨ v.length = s1.dim) := by
    by_cases h1 : c.clf = 1
    · rw [if_pos h1]
      exact .ok (Or.inl h1)
    · rw [if_neg h1]
      exact (gives_sumAll (d := s1.dim) _ _ (by simpa using hlen h1) hsig.2).mono fun _ h => Or.inr h
  rw [ev, Res.bind_ok]
  have hl : (watched c.clf s1.alg.sig v).length = s1.dim := by
    unfold watched
    split
    · rename_i h1
      have := hsig.1
      cases hs : s1.alg.sig with
      | nil => rw [hs] at this; simp at this; omega
      | cons v l => exact hsig.2 v (by rw [hs]; exact List.mem_cons_self)
    · exact hv.resolve_left (by assumption)
  obtain ⟨hp, eh, hh, hm⟩ := init_spec cmp hl hB (by omega) (by omega)
  rw [eh, Res.bind_ok]
  exact .ok ⟨⟨by simp only; omega, by simp only; omega, hu.1, by rw [← h.g]; simp only [hg], h.budget⟩, ⟨hsig, hv, hh⟩, hu.2, hm⟩

theorem gives_adaRdaOfsBegin {c : Cfg α} (hc : 1 ≤ c.clf) {delta : α} {B : Nat} {s : St α (RdaOfsSt α)} (h : Ready c B s)
    (ha : ofsReady c.clf s.dim s.alg.ofs) (hut : Vecs c.clf s.dim s.alg.ut) {S : Nat → Prop} (hin : Inside s.w S) :
    Gives (adaRdaOfsBegin (adaRdaOfs delta B c.clf) c B s) (fun s' => Ready c B s' ∧ OfsInv c.clf B s'.dim s'.alg.ofs ∧
      Vecs c.clf s'.dim s'.alg.ut ∧ Inside s'.w S ∧ (∀ j, j ∈ s'.alg.ofs.heap.pos2id ↔ j < B)) := by
  obtain ⟨hB, hB2⟩ := h.budget
  have hd := h.dimMax
  unfold adaRdaOfsBegin
  rw [if_pos (by omega)]
  simp only
  generalize hs0 : ({ s with alg := { s.alg with ofs := { s.alg.ofs with
      sum := if c.clf = 1 then s.alg.ofs.sum else growTo (min s.dim s.alg.ofs.sum.length) s.dim 0 s.alg.ofs.sum } } } :
    St α (RdaOfsSt α)) = s0
  have e1 : s0.dim = s.dim := by rw [← hs0]
  have e2 : s0.w = s.w := by rw [← hs0]
  have e3 : s0.g = s.g := by rw [← hs0]
  have e4 : c.clf ≠ 1 → s0.alg.ofs.sum.length = s.dim := by
    intro hne
    rw [← hs0]
    simp only [if_neg hne]
    exact padded_length _ _ _
  have e5 : s0.alg.ofs.sig = s.alg.ofs.sig := by rw [← hs0]
  have e6 : s0.alg.ut = s.alg.ut := by rw [← hs0]
  have hw0 : Vecs c.clf s0.dim s0.w := by rw [e1, e2]; exact h.w
  have hu := updateDim_inside (G := adaRdaOfs delta B c.clf) (n := B + 1) hw0 (S := S) (by rw [e2]; exact hin)
  have hdim := updateDim_dim (adaRdaOfs delta B c.clf) s0 (B + 1)
  have hg : (updateDim (adaRdaOfs delta B c.clf) s0 (B + 1)).g = s.g := by
    unfold updateDim
    split
    · exact e3
    · exact e3
  have hsig : Vecs c.clf (updateDim (adaRdaOfs delta B c.clf) s0 (B + 1)).dim
      (updateDim (adaRdaOfs delta B c.clf) s0 (B + 1)).alg.ofs.sig := by
    have ha0 : Vecs c.clf s0.dim s0.alg.ofs.sig := by rw [e1, e5]; exact ha
    unfold updateDim
    split
    · exact ha0.grow delta (by simp only; omega)
    · exact ha0
  have hut' : Vecs c.clf (updateDim (adaRdaOfs delta B c.clf) s0 (B + 1)).dim
      (updateDim (adaRdaOfs delta B c.clf) s0 (B + 1)).alg.ut := by
    have ha0 : Vecs c.clf s0.dim s0.alg.ut := by rw [e1, e6]; exact hut
    unfold updateDim
    split
    · exact ha0.grow 0 (by simp only; omega)
    · exact ha0
  have hlen : c.clf ≠ 1 → (updateDim (adaRdaOfs delta B c.clf) s0 (B + 1)).alg.ofs.sum.length =
      (updateDim (adaRdaOfs delta B c.clf) s0 (B + 1)).dim := by
    intro hne
    unfold updateDim
    split
    · simp only [adaRdaOfs, ofsGrow, if_neg hne]
      exact growTo_length _ _ _ _ ((e4 hne).trans e1.symm) (by omega)
    · exact (e4 hne).trans e1.symm
  generalize updateDim (adaRdaOfs delta B c.clf) s0 (B + 1) = s1 at hu hdim hg hlen hsig hut'
  obtain ⟨v, ev, hv⟩ : Gives (if c.clf = 1 then .ok s1.alg.ofs.sum
      else sumAll s1.alg.ofs.sig (List.replicate s1.alg.ofs.sum.length 0) : Res (List α))
      (fun v => c.clf = 1 ∨ v.length = s1.dim) := by
    by_cases h1 : c.clf = 1
    · rw [if_pos h1]
      exact .ok (Or.inl h1)
    · rw [if_neg h1]
      exact (gives_sumAll (d := s1.dim) _ _ (by simpa using hlen h1) hsig.2).mono fun _ h => Or.inr h
  rw [ev, Res.bind_ok]
  have hl : (watched c.clf s1.alg.ofs.sig v).length = s1.dim := by
    unfold watched
    split
    · rename_i h1
      have := hsig.1
      cases hs : s1.alg.ofs.sig with
      | nil => rw [hs] at this; simp at this; omega
      | cons v l => exact hsig.2 v (by rw [hs]; exact List.mem_cons_self)
    · exact hv.resolve_left (by assumption)
  obtain ⟨hp, eh, hh, hm⟩ := init_spec less hl hB (by omega) (by omega)
  rw [eh, Res.bind_ok]
  exact .ok ⟨⟨by simp only; omega, by simp only; omega, hu.1, by rw [← h.g]; simp only [hg], h.budget⟩, ⟨hsig, hv, hh⟩,
    hut', hu.2, hm⟩

end Sol.Select
