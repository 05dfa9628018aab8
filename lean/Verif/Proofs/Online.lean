import Verif.Spec.Online
import Verif.Proofs.Sparse
import Verif.Proofs.Loss
/-! Training never leaves its arrays, and keeps its books. -/

set_option linter.unusedSectionVars false

namespace Sol.Online

open Sol.Sparse Sol.Loss Sol.Spec Sol.Olm

/-- The run ends well with a result satisfying `P`. -/
def Gives {β : Type} (r : Res β) (P : β → Prop) : Prop := ∃ a, r = .ok a ∧ P a

theorem Gives.bind {β γ : Type} {r : Res β} {f : β → Res γ} {P : β → Prop} {Q : γ → Prop}
    (h : Gives r P) (hf : ∀ a, P a → Gives (f a) Q) : Gives (r >>= f) Q := by
  obtain ⟨a, rfl, ha⟩ := h
  exact hf a ha

theorem Gives.ok {β : Type} {a : β} {P : β → Prop} (h : P a) : Gives (.ok a) P := ⟨a, rfl, h⟩

theorem Gives.mono {β : Type} {r : Res β} {P Q : β → Prop} (h : Gives r P) (hpq : ∀ a, P a → Q a) : Gives r Q := by
  obtain ⟨a, h, ha⟩ := h
  exact ⟨a, h, hpq a ha⟩

theorem Gives.ite {β : Type} {p : Prop} [Decidable p] {r r' : Res β} {P : β → Prop}
    (h : p → Gives r P) (h' : ¬p → Gives r' P) : Gives (if p then r else r') P := by
  split
  · exact h ‹_›
  · exact h' ‹_›

section basic
variable {β : Type}

theorem gives_lget {v : List β} {i : Nat} (h : i < v.length) : Gives (lget v i) (fun _ => True) :=
  ⟨v[i], lget_ok h, trivial⟩

theorem gives_lset {v : List β} {i : Nat} (a : β) (h : i < v.length) : Gives (lset v i a) (fun v' => v'.length = v.length) :=
  ⟨_, lset_ok a h, by simp⟩

theorem gives_atBias {v : List β} (f : β → β) (h : 1 ≤ v.length) :
    Gives (atBias f v) (fun v' => v'.length = v.length) :=
  (gives_lget (i := 0) (by omega)).bind fun _ _ => gives_lset _ (by omega)

theorem take_lt {x : SVec β} (hx : Ascending x) (d : Nat) : ∀ p ∈ x.take (trim x d x.length), p.1 < d := by
  rw [take_trim x hx d]
  intro p hp
  simpa using (List.mem_filter.1 hp).2

theorem gives_calcLoop (op : β → β → β) (f : List β → Nat → β → Res β) (d : Nat) (l : SVec β) (w : List β)
    (hw : w.length = d) (hl : ∀ p ∈ l, p.1 < d)
    (hf : ∀ (w' : List β) (i : Nat) (y : β), w'.length = d → i < d → Gives (f w' i y) (fun _ => True)) :
    Gives (calcLoop op f l w) (fun w' => w'.length = d) := by
  induction l generalizing w with
  | nil => exact .ok hw
  | cons p l ih =>
    obtain ⟨i, y⟩ := p
    have hi : i < d := hl (i, y) List.mem_cons_self
    exact (hf w i y hw hi).bind fun r _ => (gives_lget (by omega)).bind fun a _ =>
      (gives_lset _ (by omega)).bind fun w' hw' => ih w' (by omega) fun p hp => hl p (List.mem_cons_of_mem _ hp)

theorem gives_calcExp {op : β → β → β} {f : List β → Nat → β → Res β} {d : Nat} {x : SVec β} {w : List β}
    (hw : w.length = d) (hx : Ascending x)
    (hf : ∀ (w' : List β) (i : Nat) (y : β), w'.length = d → i < d → Gives (f w' i y) (fun _ => True)) :
    Gives (calcExp op f w x) (fun w' => w'.length = d) :=
  gives_calcLoop op f d _ w hw (fun p hp => by simpa [hw] using take_lt hx w.length p hp) hf

theorem gives_dotOp [Zero β] [Add β] (op : β → β → β) {x : SVec β} (w : List β) (hx : Ascending x) :
    Gives (dotOp op w x) (fun _ => True) :=
  ⟨_, dotLoop_ok op w _ (take_lt hx w.length) 0, trivial⟩

theorem _root_.Sol.Spec.Good.lt_dim {x : SVec β} (h : Good x) : ∀ p ∈ x, p.1 < Sparse.dim x := by
  intro p hp
  obtain ⟨hasc, hb⟩ := h
  unfold Sparse.dim
  cases hl : x.getLast? with
  | none => simp [List.getLast?_eq_none_iff.1 hl] at hp
  | some q =>
    obtain ⟨ys, rfl⟩ := List.getLast?_eq_some_iff.1 hl
    obtain ⟨i, y⟩ := q
    have hi := hb (i, y) (by simp)
    simp only
    rw [Nat.mod_eq_of_lt (by simp only at hi; omega)]
    rcases List.mem_append.1 hp with h | h
    · have := (List.pairwise_append.1 hasc).2.2 p h (i, y) (by simp)
      simp only at this
      omega
    · obtain rfl := List.mem_singleton.1 h
      simp

theorem growTo_length (d n : Nat) (a : β) (v : List β) (hv : v.length = d) (h : d ≤ n) : (growTo d n a v).length = n := by
  simp [growTo, hv]
  omega

theorem _root_.Sol.Spec.Vecs.map {n d d' : Nat} {l : List (List β)} (h : Vecs n d l) (f : List β → List β)
    (hf : ∀ v, v.length = d → (f v).length = d') : Vecs n d' (l.map f) := by
  refine ⟨by simpa using h.1, ?_⟩
  intro v hv
  obtain ⟨u, hu, rfl⟩ := List.mem_map.1 hv
  exact hf u (h.2 u hu)

theorem _root_.Sol.Spec.Vecs.grow {n d m : Nat} {l : List (List β)} (h : Vecs n d l) (a : β) (hm : d ≤ m) :
    Vecs n m (l.map (growTo d m a)) := h.map _ fun v hv => growTo_length d m a v hv hm

end basic

section
variable {α : Type} [Zero α] [One α] [Add α] [Sub α] [Mul α] [Div α] [Neg α] [FCmp α] [IntCast α] [FFun α]

theorem gives_get {a : List α} {i : Int} (h : 0 ≤ i) (h' : i < a.length) : Gives (Loss.get a i) (fun _ => True) := by
  simp only [Loss.get, h, if_true]
  exact gives_lget (by omega)

theorem gives_set {a : List α} {i : Int} (v : α) (h : 0 ≤ i) (h' : i < a.length) :
    Gives (Loss.set a i v) (fun b => b.length = a.length) := by
  simp only [Loss.set, h, if_true]
  exact gives_lset _ (by omega)

omit [Zero α] [One α] [Add α] [Sub α] [Mul α] [Div α] [Neg α] [IntCast α] [FFun α] in
theorem maxLoop_lt (best : Nat) (bv : α) (i : Nat) (l : List α) (h : best < i) : maxLoop best bv i l < i + l.length := by
  induction l generalizing best bv i with
  | nil => simpa [maxLoop] using h
  | cons v l ih =>
    simp only [maxLoop, List.length_cons]
    split
    · have := ih i v (i + 1) (by omega); omega
    · have := ih best bv (i + 1) (by omega); omega

omit [Zero α] [One α] [Add α] [Sub α] [Mul α] [Div α] [Neg α] [IntCast α] [FFun α] in
theorem maxElement_range (l : List α) (h : l ≠ []) : 0 ≤ maxElement l ∧ maxElement l < l.length := by
  cases l with
  | nil => exact absurd rfl h
  | cons v l =>
    have := maxLoop_lt 0 v 1 l (by omega)
    simp only [maxElement, List.length_cons]
    omega

theorem gives_rival {p : List α} {n : Nat} {label pl : Int} (hp : p.length = n) (hl : 0 ≤ label ∧ label < n)
    (hpl : 0 ≤ pl ∧ pl < n) : Gives (rival p label pl) (fun q => 0 ≤ q ∧ q < n) := by
  unfold rival
  refine .ite (fun _ => ?_) (fun _ => .ok hpl)
  refine (gives_get hl.1 (by omega)).bind fun _ _ => (gives_set _ hl.1 (by omega)).bind fun p' hp' => .ok ?_
  have := maxElement_range p' (by rintro rfl; simp at hp'; omega)
  omega

theorem gives_pairGrad {g : List α} {n : Nat} {q label : Int} (u v : α) (hg : g.length = n) (hq : 0 ≤ q ∧ q < n)
    (hl : 0 ≤ label ∧ label < n) : Gives (pairGrad g q u label v) (fun g' => g'.length = n) := by
  unfold pairGrad
  refine (gives_set u hq.1 (by simp; omega)).bind fun g' hg' => ?_
  simp only [List.length_map] at hg'
  exact (gives_set v hl.1 (by omega)).mono fun _ h => by omega

theorem gives_uniGrad {p : List α} {n : Nat} {label : Int} (u v : α) (hp : p.length = n)
    (hl : 0 ≤ label ∧ label < n) : Gives (uniGrad p label u v) (fun g' => g'.length = n) := by
  unfold uniGrad
  refine (gives_get hl.1 (by omega)).bind fun a _ => ?_
  exact (gives_set v hl.1 (by simp; omega)).mono fun _ h => by simpa [hp] using h

theorem gives_falses {p : List α} {n : Nat} {label : Int} (hp : p.length = n)
    (hl : 0 ≤ label ∧ label < n) : Gives (falses p label) (fun _ => True) :=
  (gives_get hl.1 (by omega)).bind fun _ _ => .ok trivial

/-- Any matching loss can be differentiated. -/
theorem gives_gradient {k : Kind} {n : Nat} {label pl : Int} {p g : List α} (margin : α)
    (handler : Option (List α → Res (α × α))) (v : α) (hk : Matches k n) (hlab : LabelOk n label)
    (hp : p.length = n) (hpl : n ≠ 1 → 0 ≤ pl ∧ pl < n) (hg : g.length = n)
    (hh : ∀ f, handler = some f → ∀ g : List α, g.length = n → Gives (f g) (fun _ => True)) :
    Gives (gradient k margin handler v label p pl g) (fun r => r.2.1.length = n) := by
  cases k
  case bool =>
    simp only [Matches] at hk
    exact (gives_lset _ (by omega)).bind fun g' hg' => .ok (by simpa [hg] using hg')
  case maxBool =>
    simp only [Matches] at hk
    have hl : 0 ≤ label ∧ label < n := hlab.resolve_left (by omega)
    have hpl := hpl (by omega)
    refine .ite (fun _ => .ok (by simpa using hg)) fun _ => ?_
    exact (gives_pairGrad _ _ hg hpl hl).bind fun g' hg' => .ok (by simpa using hg')
  case uniBool =>
    simp only [Matches] at hk
    have hl : 0 ≤ label ∧ label < n := hlab.resolve_left (by omega)
    refine .ite (fun _ => .ok (by simpa using hg)) fun _ => ?_
    refine Gives.bind (P := fun _ => True) ?_ fun m _ => ?_
    · exact (gives_get hl.1 (by omega)).bind fun _ _ => .ok trivial
    · exact (gives_uniGrad _ _ hp hl).bind fun g' hg' => .ok (by simpa using hg')
  case hinge =>
    simp only [Matches] at hk
    refine (gives_lget (by omega)).bind fun a _ => ?_
    refine Gives.bind (P := fun _ => True) ?_ fun m _ => ?_
    · cases hf : handler with
      | none => exact .ok trivial
      | some f => exact (gives_lset _ (by omega)).bind fun g' hg' => hh f hf g' (by omega)
    · exact (gives_lset _ (by omega)).bind fun g' hg' => .ok (by simpa [hg] using hg')
  case maxHinge =>
    simp only [Matches] at hk
    have hl : 0 ≤ label ∧ label < n := hlab.resolve_left (by omega)
    have hpl := hpl (by omega)
    refine (gives_rival hp hl hpl).bind fun q hq => (gives_get hl.1 (by omega)).bind fun a _ =>
      (gives_get hq.1 (by omega)).bind fun b _ => ?_
    cases hf : handler with
    | none =>
      refine .ite (fun _ => ?_) fun _ => .ok (by simpa using hg)
      exact (gives_pairGrad _ _ hg hq hl).bind fun g' hg' => .ok (by simpa using hg')
    | some f =>
      refine (gives_pairGrad _ _ hg hq hl).bind fun g' hg' => (hh f hf g' hg').bind fun r _ => ?_
      refine .ite (fun _ => ?_) fun _ => .ok (by simpa using hg')
      refine (gives_set _ hq.1 (by omega)).bind fun g1 h1 => (gives_set _ hl.1 (by omega)).bind fun g2 h2 => .ok ?_
      simp only
      omega
  case uniHinge =>
    simp only [Matches] at hk
    have hl : 0 ≤ label ∧ label < n := hlab.resolve_left (by omega)
    refine (gives_falses hp hl).bind fun q hq => (gives_get hl.1 (by omega)).bind fun a _ => ?_
    cases hf : handler with
    | none =>
      refine .ite (fun _ => ?_) fun _ => .ok (by simpa using hg)
      exact (gives_uniGrad _ _ hp hl).bind fun g' hg' => .ok (by simpa using hg')
    | some f =>
      refine (gives_uniGrad _ _ hp hl).bind fun g' hg' => (hh f hf g' hg').bind fun r _ => ?_
      exact .ite (fun _ => .ok (by simpa using hg')) fun _ => .ok (by simpa using hg')
  case logistic =>
    simp only [Matches] at hk
    exact (gives_lget (by omega)).bind fun a _ => (gives_lset _ (by omega)).bind fun g' hg' =>
      .ok (by simpa [hg] using hg')
  case maxLogistic =>
    simp only [Matches] at hk
    have hl : 0 ≤ label ∧ label < n := hlab.resolve_left (by omega)
    have hpl := hpl (by omega)
    exact (gives_rival hp hl hpl).bind fun q hq => (gives_get hl.1 (by omega)).bind fun a _ =>
      (gives_get hq.1 (by omega)).bind fun b _ =>
        (gives_pairGrad _ _ hg hq hl).bind fun g' hg' => .ok (by simpa using hg')
  case uniLogistic =>
    simp only [Matches] at hk
    have hl : 0 ≤ label ∧ label < n := hlab.resolve_left (by omega)
    refine (gives_falses hp hl).bind fun q hq => (gives_get hl.1 (by omega)).bind fun a _ => ?_
    refine .ite (fun _ => ?_) fun _ => .ite (fun _ => .ok (by simpa using hg)) fun _ => ?_
    · exact (gives_uniGrad _ _ hp hl).bind fun g' hg' => .ok (by simpa using hg')
    · exact (gives_uniGrad _ _ hp hl).bind fun g' hg' => .ok (by simpa using hg')
  case square =>
    simp only [Matches] at hk
    exact (gives_lget (by omega)).bind fun a _ => (gives_lset _ (by omega)).bind fun g' hg' =>
      .ok (by simpa [hg] using hg')

/-! ### The loop -/

theorem gives_scores {d : Nat} {x : SVec α} (hx : Ascending x) (hd : 1 ≤ d) (l : List (List α)) (hl : ∀ v ∈ l, v.length = d) :
    Gives (scores l x) (fun p => p.length = l.length) := by
  induction l with
  | nil => exact .ok rfl
  | cons w l ih =>
    have hw : w.length = d := hl w List.mem_cons_self
    refine Gives.bind (P := fun _ => True) ?_ fun a _ => ?_
    · exact (gives_dotOp _ w hx).bind fun _ _ => (gives_lget (by omega)).bind fun _ _ => .ok trivial
    · exact (ih fun v hv => hl v (List.mem_cons_of_mem _ hv)).bind fun r hr => .ok (by simp [hr])

/-- The label belongs to the classes. -/
def InRange (clf : Nat) (label : Int) : Prop := clf ≠ 1 → 0 ≤ label ∧ label < clf

variable {A : Type}

theorem gives_predict {c : Cfg α} {s : St α A} {x : SVec α} (hc : 1 ≤ c.clf) (hx : Ascending x) (hd : 1 ≤ s.dim)
    (hw : Vecs c.clf s.dim s.w) :
    Gives (predict c s x) (fun r => r.1.length = c.clf ∧ InRange c.clf r.2) := by
  refine (gives_scores hx hd s.w hw.2).bind fun p hp => ?_
  have hp : p.length = c.clf := hp.trans hw.1
  refine Gives.bind (P := InRange c.clf) ?_ fun l hl => .ok ⟨hp, hl⟩
  unfold labelOf
  refine .ite (fun h => ?_) fun h => .ok fun _ => ?_
  · exact (gives_lget (by omega)).bind fun _ _ => .ok fun h' => absurd h h'
  · have := maxElement_range p (by rintro rfl; simp at hp; omega)
    omega

theorem gives_skipped {c : Cfg α} {p : List α} {label : Int} (rnd : α) (hc : 1 ≤ c.clf) (hp : p.length = c.clf)
    (hl : InRange c.clf label) : Gives (skipped c p label rnd) (fun _ => True) := by
  unfold skipped
  refine .ite (fun _ => ?_) fun _ => .ok trivial
  refine Gives.bind (P := fun _ => True) ?_ fun _ _ => .ok trivial
  unfold activeMargin
  refine .ite (fun h => ?_) fun h => ?_
  · exact (gives_lget (by omega)).bind fun _ _ => .ok trivial
  · have hl := hl h
    refine (gives_get hl.1 (by omega)).bind fun _ _ => (gives_set _ hl.1 (by omega)).bind fun p' hp' => ?_
    have := maxElement_range p' (by rintro rfl; simp at hp'; omega)
    exact (gives_get this.1 this.2).bind fun _ _ => .ok trivial

/-- Dimension and counters agree. -/
structure Same (s s' : St α A) : Prop where
  dim : s'.dim = s.dim
  t : s'.t = s.t
  data : s'.data = s.data
  upd : s'.upd = s.upd
  err : s'.err = s.err

omit [Zero α] [One α] [Add α] [Sub α] [Mul α] [Div α] [Neg α] [FCmp α] [IntCast α] [FFun α] in
theorem Same.refl (s : St α A) : Same s s := ⟨rfl, rfl, rfl, rfl, rfl⟩

/-- What a subclass owes the training loop: every overridden function ends well on a model of consistent shape, keeps
    the shape and does not touch the counters.  `mid` holds while an example is being processed. -/
structure Safe (c : Cfg α) (G : Alg α A) (inv : Nat → A → Prop) (mid : SVec α → Nat → A → Prop) : Prop where
  start : ∀ s x, Fit c inv s → Good x → Gives (G.beginIter (enter G s x) x)
    (fun s' => Fit c (mid x) s' ∧ Same (enter G s x) s')
  prep : ∀ s x, Fit c (mid x) s → Good x → Sparse.dim x ≤ s.dim →
    Gives (G.prep c s x) (fun s' => Fit c (mid x) s' ∧ Same s s')
  handler : ∀ s x, Fit c (mid x) s → Good x → Sparse.dim x ≤ s.dim → ∀ f, G.handler c s x = some f →
    ∀ g : List α, g.length = c.clf → Gives (f g) (fun _ => True)
  update : ∀ s x l, Fit c (mid x) s → Good x → Sparse.dim x ≤ s.dim →
    Gives (G.update c s x l) (fun s' => Fit c (mid x) s' ∧ Same s s')
  finish : ∀ s x, Fit c (mid x) s → Good x → Sparse.dim x ≤ s.dim →
    Gives (G.endIter s x) (fun s' => Fit c inv s' ∧ Same s s')
  skip : ∀ x d a, mid x d a → inv d a

theorem enter_dim (G : Alg α A) (s : St α A) (x : SVec α) : (enter G s x).dim = max s.dim (Sparse.dim x) := by
  simp only [enter, updateDim]
  split
  · simp only; omega
  · omega

/-- Bookkeeping of one example. -/
structure Books (s : St α A) (e : Ex α) (ev : Event) (s' : St α A) : Prop where
  dim : s'.dim = max s.dim (Sparse.dim e.x)
  t : s'.t = s.t + (if ev.skip then 0 else 1)
  data : s'.data = s.data + 1
  upd : s'.upd = s.upd + (if ev.fired then 1 else 0)
  err : s'.err = s.err + (if ev.pred = e.label then 0 else 1)

/-- What the training loop needs of a subclass, with any condition `X` on the feature vectors and any conditions `F`
    between examples and `M` while an example is being processed. -/
structure Able (c : Cfg α) (G : Alg α A) (X : SVec α → Prop) (F : St α A → Prop) (M : SVec α → St α A → Prop) : Prop where
  asc : ∀ x, X x → Ascending x
  shape : ∀ x s, M x s → 1 ≤ s.dim ∧ Vecs c.clf s.dim s.w ∧ s.g.length = c.clf
  start : ∀ s x, F s → X x → Gives (G.beginIter (enter G s x) x) (fun s' => M x s' ∧ Same (enter G s x) s')
  prep : ∀ s x, M x s → X x → Sparse.dim x ≤ s.dim → Gives (G.prep c s x) (fun s' => M x s' ∧ Same s s')
  handler : ∀ s x, M x s → X x → Sparse.dim x ≤ s.dim → ∀ f, G.handler c s x = some f →
    ∀ g : List α, g.length = c.clf → Gives (f g) (fun _ => True)
  update : ∀ s x l, M x s → X x → Sparse.dim x ≤ s.dim → Gives (G.update c s x l) (fun s' => M x s' ∧ Same s s')
  finish : ∀ s x, M x s → X x → Sparse.dim x ≤ s.dim → Gives (G.endIter s x) (fun s' => F s' ∧ Same s s')
  scored : ∀ x s g m v u, M x s → g.length = c.clf → M x { s with g := g, margin := m, vi := v, upd := u }
  skip : ∀ x s t, M x s → F { s with t := t }
  count : ∀ s n, F s → F { s with err := n }

theorem Safe.able {c : Cfg α} {G : Alg α A} {inv : Nat → A → Prop} {mid : SVec α → Nat → A → Prop}
    (h : Safe c G inv mid) : Able c G Good (Fit c inv) (fun x => Fit c (mid x)) where
  asc _ hx := hx.1
  shape _ _ h := ⟨h.dim, h.w, h.g⟩
  start := h.start
  prep := h.prep
  handler := h.handler
  update := h.update
  finish := h.finish
  scored _ _ _ _ _ _ hf hg := ⟨hf.dim, hf.w, hg, hf.alg⟩
  skip _ _ _ hf := ⟨hf.dim, hf.w, hf.g, h.skip _ _ _ hf.alg⟩
  count _ _ hf := ⟨hf.dim, hf.w, hf.g, hf.alg⟩

theorem Able.happens {c : Cfg α} {G : Alg α A} {X : SVec α → Prop} {F : St α A → Prop} {M : SVec α → St α A → Prop}
    (hG : Able c G X F M) (hk : Matches c.kind c.clf) (s : St α A) (hs : F s) (e : Ex α) (r : α)
    (hx : X e.x) (hl : LabelOk c.clf e.label) :
    ∃ ev s', Happens G c s e r ev s' ∧ F s' ∧ Books s e ev s' := by
  have hc : 1 ≤ c.clf := by
    unfold Matches at hk
    split at hk <;> omega
  obtain ⟨s0, h0, hf0, hs0⟩ := hG.start s e.x hs hx
  have hd0 : Sparse.dim e.x ≤ s0.dim := by rw [hs0.dim, enter_dim]; omega
  obtain ⟨s1, h1, hf1, hs1⟩ := hG.prep s0 e.x hf0 hx hd0
  have hd1 : Sparse.dim e.x ≤ s1.dim := by rw [hs1.dim]; exact hd0
  obtain ⟨⟨p, pred⟩, h2, hp, hr⟩ := gives_predict (x := e.x) hc (hG.asc _ hx) (hG.shape _ _ hf1).1 (hG.shape _ _ hf1).2.1
  obtain ⟨sk, h3, -⟩ := gives_skipped r hc hp hr
  have hdim : s1.dim = max s.dim (Sparse.dim e.x) := by rw [hs1.dim, hs0.dim, enter_dim]
  have ht : s1.t = s.t + 1 := by rw [hs1.t, hs0.t]; simp [enter, updateDim]; split <;> rfl
  have hdata : s1.data = s.data + 1 := by rw [hs1.data, hs0.data]; simp [enter, updateDim]; split <;> rfl
  have hupd : s1.upd = s.upd := by rw [hs1.upd, hs0.upd]; simp [enter, updateDim]; split <;> rfl
  have herr : s1.err = s.err := by rw [hs1.err, hs0.err]; simp [enter, updateDim]; split <;> rfl
  cases sk with
  | true =>
    have hi : iterate G c s e r = .ok ({ s1 with t := s1.t - 1 }, pred) := by
      simp only [iterate, h0, Res.bind_ok, h1, h2, h3, if_true]
    refine ⟨⟨pred, true, false⟩, if pred ≠ e.label then { s1 with t := s1.t - 1, err := s1.err + 1 }
      else { s1 with t := s1.t - 1 }, ⟨s0, s1, p, h0, h1, h2, h3, by simp, by simp [trainOne, hi]⟩, ?_, ?_⟩
    · split
      · exact hG.count { s1 with t := s1.t - 1 } (s1.err + 1) (hG.skip _ _ _ hf1)
      · exact hG.skip _ _ _ hf1
    · split
      · rename_i h; exact ⟨hdim, by simp [ht], hdata, by simp [hupd], by simp [herr, h]⟩
      · rename_i h; exact ⟨hdim, by simp [ht], hdata, by simp [hupd], by simp [herr, not_not.1 h]⟩
  | false =>
    obtain ⟨⟨l, g, m, v⟩, h4, hg⟩ := gives_gradient (k := c.kind) (label := e.label) (pl := pred) (p := p) (g := s1.g)
      (costMargin c e.label s1.margin) (G.handler c s1 e.x) s1.vi hk hl hp hr (hG.shape _ _ hf1).2.2
      (fun f hf g hg => hG.handler s1 e.x hf1 hx hd1 f hf g hg)
    simp only at hg
    have hf2 : M e.x { s1 with g := g, margin := m, vi := v } := hG.scored _ _ g m v s1.upd hf1 hg
    obtain ⟨s2, h5, hf5, hd5, ht5, hda5, hu5, he5⟩ : ∃ s2, maybeUpdate G c { s1 with g := g, margin := m, vi := v } e pred l = .ok s2 ∧
        M e.x s2 ∧ s2.dim = s1.dim ∧ s2.t = s1.t ∧ s2.data = s1.data ∧
        s2.upd = s1.upd + (if fires c pred e.label l then 1 else 0) ∧ s2.err = s1.err := by
      unfold maybeUpdate
      by_cases hfire : fires c pred e.label l
      · simp only [hfire, if_true]
        obtain ⟨s2, h, hf, hs⟩ := hG.update { s1 with g := g, margin := m, vi := v, upd := s1.upd + 1 } e.x l
          (hG.scored _ _ g m v _ hf1 hg) hx hd1
        exact ⟨s2, h, hf, hs.dim, hs.t, hs.data, hs.upd, hs.err⟩
      · simp only [hfire]
        exact ⟨_, rfl, hf2, rfl, rfl, rfl, rfl, rfl⟩
    obtain ⟨s3, h6, hf6, hs6⟩ := hG.finish s2 e.x hf5 hx (by omega)
    have hi : iterate G c s e r = .ok (s3, pred) := by
      simp only [iterate, h0, Res.bind_ok, h1, h2, h3, Bool.false_eq_true, if_false, learn, h4, h5, h6]
    refine ⟨⟨pred, false, fires c pred e.label l⟩, if pred ≠ e.label then { s3 with err := s3.err + 1 }
      else s3, ⟨s0, s1, p, h0, h1, h2, h3, ?_, by simp [trainOne, hi]⟩, ?_, ?_⟩
    · simp only [true_and]
      constructor
      · intro h
        refine ⟨l, g, m, v, h4, ?_⟩
        unfold fires at h
        split at h
        · rename_i hz; simpa [hz] using h
        · rename_i hz; simpa [hz] using h
      · rintro ⟨l', g', m', v', h', hrule⟩
        rw [h4] at h'
        obtain ⟨rfl, -⟩ := Prod.mk.inj (Res.ok.inj h')
        unfold fires
        split
        · rename_i hz; simpa [hz] using hrule
        · rename_i hz; simpa [hz] using hrule
    · split
      · exact hG.count _ _ hf6
      · exact hf6
    · have a1 := hs6.dim
      have a2 := hs6.t
      have a3 := hs6.data
      have a4 := hs6.upd
      have a5 := hs6.err
      split
      · rename_i h
        exact ⟨by simp only; omega, by simp only [Bool.false_eq_true, if_false]; omega, by simp only; omega,
          by simp only; omega, by simp only [h, if_false]; omega⟩
      · rename_i h
        exact ⟨by omega, by simp only [Bool.false_eq_true, if_false]; omega, by omega,
          by simp only; omega, by simp only [not_not.1 h, if_true]; omega⟩

theorem happens {c : Cfg α} {G : Alg α A} {inv : Nat → A → Prop} {mid : SVec α → Nat → A → Prop}
    (hG : Safe c G inv mid) (hk : Matches c.kind c.clf) (s : St α A) (hs : Fit c inv s) (e : Ex α) (r : α)
    (hx : Good e.x) (hl : LabelOk c.clf e.label) :
    ∃ ev s', Happens G c s e r ev s' ∧ Fit c inv s' ∧ Books s e ev s' := hG.able.happens hk s hs e r hx hl

theorem Able.trace {c : Cfg α} {G : Alg α A} {X : SVec α → Prop} {F : St α A → Prop} {M : SVec α → St α A → Prop}
    (hG : Able c G X F M) (hk : Matches c.kind c.clf) (l : List (Ex α × α))
    (hl : ∀ p ∈ l, X p.1.x ∧ LabelOk c.clf p.1.label) (s : St α A) (hs : F s) :
    ∃ evs s', Trace G c s l evs s' ∧ trainLoop G c s l = .ok s' ∧ F s' ∧ evs.length = l.length ∧
      s.dim ≤ s'.dim ∧
      s'.t = s.t + (evs.countP fun ev => !ev.skip) ∧ s'.data = s.data + l.length ∧
      s'.upd = s.upd + (evs.countP fun ev => ev.fired) ∧ s'.err = s.err + wrong l evs := by
  induction l generalizing s with
  | nil => exact ⟨[], s, .nil s, rfl, hs, rfl, le_refl _, by simp, by simp, by simp, by simp [wrong]⟩
  | cons q l ih =>
    obtain ⟨e, r⟩ := q
    obtain ⟨hx, hlab⟩ := hl (e, r) List.mem_cons_self
    obtain ⟨ev, s1, hh, hf1, hb⟩ := hG.happens hk s hs e r hx hlab
    obtain ⟨evs, s2, ht, htl, hf2, hlen, hd, h1, h2, h3, h4⟩ := ih (fun p hp => hl p (List.mem_cons_of_mem _ hp)) s1 hf1
    have hone : trainOne G c s e r = .ok s1 := by obtain ⟨_, _, _, _, _, _, _, _, h⟩ := hh; exact h
    refine ⟨ev :: evs, s2, .cons hh ht, by simp [trainLoop, hone, htl], hf2, by simp [hlen], ?_, ?_, ?_, ?_, ?_⟩
    · have := hb.dim; omega
    · rw [h1, hb.t]
      cases hsk : ev.skip
      · rw [List.countP_cons_of_pos (by simp [hsk])]; simp; omega
      · rw [List.countP_cons_of_neg (by simp [hsk])]; simp
    · rw [h2, hb.data, List.length_cons]; omega
    · rw [h3, hb.upd]
      cases hsk : ev.fired
      · rw [List.countP_cons_of_neg (by simp [hsk])]; simp
      · rw [List.countP_cons_of_pos (by simp [hsk])]; simp; omega
    · rw [h4, hb.err, wrong]; omega

theorem trace {c : Cfg α} {G : Alg α A} {inv : Nat → A → Prop} {mid : SVec α → Nat → A → Prop}
    (hG : Safe c G inv mid) (hk : Matches c.kind c.clf) (l : List (Ex α × α)) (hl : Usable c l) (s : St α A)
    (hs : Fit c inv s) :
    ∃ evs s', Trace G c s l evs s' ∧ trainLoop G c s l = .ok s' ∧ Fit c inv s' ∧ evs.length = l.length ∧
      s.dim ≤ s'.dim ∧
      s'.t = s.t + (evs.countP fun ev => !ev.skip) ∧ s'.data = s.data + l.length ∧
      s'.upd = s.upd + (evs.countP fun ev => ev.fired) ∧ s'.err = s.err + wrong l evs :=
  hG.able.trace hk l hl s hs

end

end Sol.Online
