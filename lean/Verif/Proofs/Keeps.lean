import Verif.Proofs.Closed
import Verif.Spec.Moves
/-! Conditions that training keeps. -/

set_option linter.unusedSectionVars false
set_option linter.unusedVariables false

namespace Sol.Online

open Sol.Sparse Sol.Loss Sol.Spec

section
variable {α A : Type} [Zero α] [One α] [Add α] [Sub α] [Mul α] [Div α] [Neg α] [FCmp α] [IntCast α] [FFun α]

/-- A condition `K` that the functions of a subclass keep. -/
structure Keeps (c : Cfg α) (G : Alg α A) (X : SVec α → Prop) (F : St α A → Prop) (M : SVec α → St α A → Prop)
    (K : St α A → Prop) : Prop where
  enter : ∀ s x, F s → X x → K s → K (enter G s x)
  start : ∀ s x s', X x → K s → G.beginIter s x = .ok s' → K s'
  prep : ∀ s x s', M x s → X x → K s → G.prep c s x = .ok s' → K s'
  update : ∀ s x s' label p pl l g m v u, M x s → X x → Sparse.dim x ≤ s.dim → K s → g.length = c.clf →
    gradient c.kind (costMargin c label s.margin) (G.handler c s x) s.vi label p pl s.g = .ok (l, g, m, v) →
    G.update c { s with g := g, margin := m, vi := v, upd := u } x l = .ok s' → K s'
  finish : ∀ s x s', M x s → X x → Sparse.dim x ≤ s.dim → K s → G.endIter s x = .ok s' → K s'
  other : ∀ s g m v t u e, K s → K { s with g := g, margin := m, vi := v, t := t, upd := u, err := e }

theorem Keeps.one {c : Cfg α} {G : Alg α A} {X : SVec α → Prop} {F : St α A → Prop} {M : SVec α → St α A → Prop}
    {K : St α A → Prop} (hA : Able c G X F M) (hK : Keeps c G X F M K) (hk : Matches c.kind c.clf) {s : St α A} (hs : F s)
    (hKs : K s) {e : Ex α} {r : α} (hx : X e.x) (hl : LabelOk c.clf e.label) {s' : St α A}
    (h : trainOne G c s e r = .ok s') : K s' := by
  have hc : 1 ≤ c.clf := by
    unfold Matches at hk
    split at hk <;> omega
  obtain ⟨s0, h0, hf0, hs0⟩ := hA.start s e.x hs hx
  have hd0 : Sparse.dim e.x ≤ s0.dim := by rw [hs0.dim, enter_dim]; omega
  obtain ⟨s1, h1, hf1, hs1⟩ := hA.prep s0 e.x hf0 hx hd0
  have hd1 : Sparse.dim e.x ≤ s1.dim := by rw [hs1.dim]; exact hd0
  have k1 : K s1 := hK.prep _ _ _ hf0 hx (hK.start _ _ _ hx (hK.enter s e.x hs hx hKs) h0) h1
  simp only [trainOne, iterate, h0, h1, Res.bind_ok] at h
  obtain ⟨⟨s2, pred⟩, h2, h3⟩ := Res.bind_eq_ok.1 h
  have k2 : K s2 := by
    obtain ⟨⟨p, pl⟩, h4, h5⟩ := Res.bind_eq_ok.1 h2
    obtain ⟨⟨p', pl'⟩, h4', hp, hr⟩ := gives_predict (x := e.x) hc (hA.asc _ hx) (hA.shape _ _ hf1).1 (hA.shape _ _ hf1).2.1
    rw [h4] at h4'
    obtain ⟨rfl, rfl⟩ := Prod.mk.inj (Res.ok.inj h4')
    obtain ⟨sk, h6, h7⟩ := Res.bind_eq_ok.1 h5
    cases sk with
    | true =>
      simp only [if_true, Res.ok.injEq, Prod.mk.injEq] at h7
      rw [← h7.1]
      exact hK.other _ _ _ _ _ _ _ k1
    | false =>
      simp only [Bool.false_eq_true, if_false] at h7
      obtain ⟨s3, h8, h9⟩ := Res.bind_eq_ok.1 h7
      simp only [Res.ok.injEq, Prod.mk.injEq] at h9
      obtain ⟨rfl, -⟩ := h9
      simp only [learn] at h8
      obtain ⟨⟨l, g, m, v⟩, h10, h11⟩ := Res.bind_eq_ok.1 h8
      obtain ⟨s4, h12, h13⟩ := Res.bind_eq_ok.1 h11
      obtain ⟨⟨l', g', m', v'⟩, h10', hg⟩ := gives_gradient (k := c.kind) (label := e.label) (pl := pl) (p := p) (g := s1.g)
        (costMargin c e.label s1.margin) (G.handler c s1 e.x) s1.vi hk hl hp hr (hA.shape _ _ hf1).2.2
        (fun f hf g hg => hA.handler s1 e.x hf1 hx hd1 f hf g hg)
      rw [h10] at h10'
      obtain ⟨rfl, rfl, rfl, rfl⟩ : l = l' ∧ g = g' ∧ m = m' ∧ v = v' := by simpa using h10'
      simp only at hg
      obtain ⟨k4, m4, d4⟩ : K s4 ∧ M e.x s4 ∧ Sparse.dim e.x ≤ s4.dim := by
        simp only [maybeUpdate] at h12
        split at h12
        · obtain ⟨s5, h14, m5, hs5⟩ := hA.update { s1 with g := g, margin := m, vi := v, upd := s1.upd + 1 } e.x l
            (hA.scored _ _ g m v _ hf1 hg) hx hd1
          rw [h12] at h14
          obtain rfl := Res.ok.inj h14
          exact ⟨hK.update _ _ _ _ _ _ _ _ _ _ _ hf1 hx hd1 k1 hg h10 h12, m5, by rw [hs5.dim]; exact hd1⟩
        · obtain rfl := Res.ok.inj h12
          exact ⟨hK.other s1 g m v s1.t s1.upd s1.err k1, hA.scored _ _ g m v s1.upd hf1 hg, hd1⟩
      exact hK.finish _ _ _ m4 hx d4 k4 h13
  simp only [Res.ok.injEq] at h3
  rw [← h3]
  split
  · exact hK.other s2 _ _ _ _ _ _ k2
  · exact k2

/-- Training succeeds and keeps the condition. -/
theorem Keeps.loop {c : Cfg α} {G : Alg α A} {X : SVec α → Prop} {F : St α A → Prop} {M : SVec α → St α A → Prop}
    {K : St α A → Prop} (hA : Able c G X F M) (hK : Keeps c G X F M K) (hk : Matches c.kind c.clf) (l : List (Ex α × α))
    (hl : ∀ p ∈ l, X p.1.x ∧ LabelOk c.clf p.1.label) (s : St α A) (hs : F s) (hKs : K s) :
    ∃ s', trainLoop G c s l = .ok s' ∧ F s' ∧ K s' := by
  induction l generalizing s with
  | nil => exact ⟨s, rfl, hs, hKs⟩
  | cons q l ih =>
    obtain ⟨e, r⟩ := q
    obtain ⟨hx, hlab⟩ := hl (e, r) List.mem_cons_self
    obtain ⟨ev, s1, hh, hf1, hb⟩ := hA.happens hk s hs e r hx hlab
    have hone : trainOne G c s e r = .ok s1 := by obtain ⟨_, _, _, _, _, _, _, _, h⟩ := hh; exact h
    obtain ⟨s2, h1, h2, h3⟩ := ih (fun p hp => hl p (List.mem_cons_of_mem _ hp)) s1 hf1 (hK.one hA hk hs hKs hx hlab hone)
    exact ⟨s2, by simp [trainLoop, hone, h1], h2, h3⟩

end
end Sol.Online

namespace Sol.Olm

open Sol.Online Sol.Sparse Sol.Loss Sol.Spec

/-! ### Relations between the old and the new numbers -/

section
variable {β : Type}

/-- The same length, and numbers in relation `R`. -/
def Rel (R : Nat → β → β → Prop) (v v' : List β) : Prop :=
  v'.length = v.length ∧ ∀ (i : Nat) b, v'[i]? = some b → ∃ a, v[i]? = some a ∧ R i a b

/-- Reflexive and transitive. -/
structure Pre (R : Nat → β → β → Prop) : Prop where
  refl : ∀ i a, R i a a
  trans : ∀ i a b d, R i a b → R i b d → R i a d

variable {R : Nat → β → β → Prop}

theorem Rel.refl (hR : Pre R) (v : List β) : Rel R v v := ⟨rfl, fun i b h => ⟨b, h, hR.refl i b⟩⟩

theorem Rel.trans (hR : Pre R) {u v w : List β} (h1 : Rel R u v) (h2 : Rel R v w) : Rel R u w := by
  refine ⟨h2.1.trans h1.1, fun i d h => ?_⟩
  obtain ⟨b, hb, r1⟩ := h2.2 i d h
  obtain ⟨a, ha, r2⟩ := h1.2 i b hb
  exact ⟨a, ha, hR.trans i a b d r2 r1⟩

theorem lset_rel (hR : Pre R) {v v' : List β} {i : Nat} {a b : β} (ha : v[i]? = some a) (hab : R i a b)
    (h : lset v i b = .ok v') : Rel R v v' := by
  rw [lset_eq_ok] at h
  obtain ⟨hi, rfl⟩ := h
  refine ⟨by simp, fun j d hj => ?_⟩
  rw [List.getElem?_set] at hj
  split at hj
  · rename_i hij
    subst hij
    obtain rfl := Option.some.inj hj
    exact ⟨a, ha, hab⟩
  · exact ⟨d, hj, hR.refl _ _⟩

theorem calcLoop_rel (hR : Pre R) {op : β → β → β} {f : List β → Nat → β → Res β} (x : SVec β)
    (hf : ∀ i y, (i, y) ∈ x → ∀ (u : List β) (a r : β), u[i]? = some a → f u i y = .ok r → R i a (op a r)) (w w' : List β)
    (h : calcLoop op f x w = .ok w') : Rel R w w' := by
  induction x generalizing w with
  | nil =>
    obtain rfl := Res.ok.inj h
    exact Rel.refl hR w
  | cons p x ih =>
    obtain ⟨i, y⟩ := p
    simp only [calcLoop, Res.bind_eq_ok] at h
    obtain ⟨r, h1, a, h2, w1, h3, h4⟩ := h
    have ha : w[i]? = some a := by
      rw [lget_eq_ok] at h2
      exact h2
    exact (lset_rel hR ha (hf i y List.mem_cons_self w a r ha h1) h3).trans hR
      (ih (fun i y hi => hf i y (List.mem_cons_of_mem _ hi)) w1 h4)

theorem calcExp_rel (hR : Pre R) {op : β → β → β} {f : List β → Nat → β → Res β} {x : SVec β}
    (hf : ∀ i y, (i, y) ∈ x → ∀ (u : List β) (a r : β), u[i]? = some a → f u i y = .ok r → R i a (op a r)) {w w' : List β}
    (h : calcExp op f w x = .ok w') : Rel R w w' :=
  calcLoop_rel hR _ (fun i y hi => hf i y (List.mem_of_mem_take hi)) w w' h

theorem atBias_rel (hR : Pre R) {f : β → β} (hf : ∀ a, R 0 a (f a)) {v v' : List β} (h : atBias f v = .ok v') : Rel R v v' := by
  simp only [atBias, Res.bind_eq_ok] at h
  obtain ⟨a, h1, h2⟩ := h
  rw [lget_eq_ok] at h1
  exact lset_rel hR h1 (hf a) h2

theorem each1_rel {α : Type} [Zero α] [FCmp α] {γ : Type} {Q : γ → γ → Prop} (hrefl : ∀ v, Q v v) {f : α → γ → Res γ}
    (hf : ∀ g v v', f g v = .ok v' → Q v v') (gl : List α) (l l' : List γ) (h : each1 f gl l = .ok l') :
    List.Forall₂ Q l l' := by
  induction gl generalizing l l' with
  | nil =>
    obtain rfl : l = l' := by cases l <;> exact Res.ok.inj h
    exact List.forall₂_same.2 fun v _ => hrefl v
  | cons g gl ih =>
    cases l with
    | nil =>
      obtain rfl := Res.ok.inj h
      exact .nil
    | cons v l =>
      simp only [each1, Res.bind_eq_ok] at h
      obtain ⟨r, h1, rest, h2, h3⟩ := h
      obtain rfl := Res.ok.inj h3
      refine .cons ?_ (ih l rest h2)
      split at h1
      · rw [Res.ok.inj h1]; exact hrefl _
      · exact hf _ _ _ h1

theorem moved_of_forall {a : β} {v v' : List (List β)} (h : List.Forall₂ (Rel R) v v') : Moved R a v v' := by
  have key : ∀ k : Nat, (v[k]? = none ∧ v'[k]? = none) ∨ ∃ p q, v[k]? = some p ∧ v'[k]? = some q ∧ Rel R p q := by
    intro k
    induction h generalizing k with
    | nil => exact .inl ⟨by simp, by simp⟩
    | cons h1 _ ih =>
      cases k with
      | zero => exact .inr ⟨_, _, rfl, rfl, h1⟩
      | succ k => simpa using ih k
  refine ⟨h.length_eq.symm, fun k i hk => ?_, fun k i b hb => ?_⟩
  · rcases key k with ⟨h1, h2⟩ | ⟨p, q, h1, h2, h3⟩
    · simp [entry, h1] at hk
    · simp only [entry, h1, h2, Option.bind_some] at hk ⊢
      simp only [isSome_getElem?] at hk ⊢
      have := h3.1
      omega
  · rcases key k with ⟨h1, h2⟩ | ⟨p, q, h1, h2, h3⟩
    · simp [entry, h2] at hb
    · simp only [entry, h1, h2, Option.bind_some] at hb ⊢
      obtain ⟨a', ha, hr⟩ := h3.2 i b hb
      rw [ha]
      exact hr

theorem _root_.Sol.Spec.Moved.trans (hR : Pre R) {a : β} {u v w : List (List β)} (h1 : Moved R a u v) (h2 : Moved R a v w) :
    Moved R a u w := by
  refine ⟨h2.classes.trans h1.classes, fun k i h => h2.kept k i (h1.kept k i h), fun k i d h => ?_⟩
  have r2 := h2.rel k i d h
  cases hv : entry v k i with
  | none =>
    have : entry u k i = none := by
      by_contra hc
      have := h1.kept k i (Option.isSome_iff_ne_none.2 hc)
      simp [hv] at this
    rw [this]
    rw [hv] at r2
    exact r2
  | some b =>
    rw [hv] at r2
    exact hR.trans i _ b d (h1.rel k i b hv) r2

theorem _root_.Sol.Spec.Moved.refl (hR : Pre R) {a : β} (v : List (List β)) : Moved R a v v :=
  ⟨rfl, fun _ _ h => h, fun k i b h => by rw [h]; exact hR.refl i b⟩

theorem _root_.Sol.Spec.Moved.mono {S : Nat → β → β → Prop} {a : β} {v v' : List (List β)} (h : Moved R a v v')
    (hRS : ∀ i x y, R i x y → S i x y) : Moved S a v v' :=
  ⟨h.classes, h.kept, fun k i b hb => hRS _ _ _ (h.rel k i b hb)⟩

theorem moved_grow (hR : Pre R) {a : β} {n d m : Nat} {v : List (List β)} (hv : Vecs n d v) : Moved R a v (v.map (growTo d m a)) := by
  have key : ∀ k i, entry (v.map (growTo d m a)) k i = entry v k i ∨
      (entry v k i = none ∧ entry (v.map (growTo d m a)) k i = some a) ∨
      (entry v k i = none ∧ entry (v.map (growTo d m a)) k i = none) := by
    intro k i
    by_cases hk : k < v.length
    · have hlen : (v[k]).length = d := hv.2 _ (List.getElem_mem hk)
      simp only [entry, List.getElem?_map, List.getElem?_eq_getElem hk, Option.map_some, Option.bind_some, growTo,
        List.take_of_length_le (Nat.le_of_eq hlen)]
      by_cases hi : i < d
      · left
        rw [List.getElem?_append_left (by omega)]
      · rw [List.getElem?_append_right (by omega), List.getElem?_eq_none (l := v[k]) (by omega), List.getElem?_replicate]
        split <;> simp
    · left
      simp [entry, List.getElem?_eq_none (l := v) (i := k) (by omega)]
  refine ⟨by simp, fun k i h => ?_, fun k i b h => ?_⟩
  · rcases key k i with h1 | ⟨h1, h2⟩ | ⟨h1, h2⟩
    · rw [h1]; exact h
    · simp [h1] at h
    · simp [h1] at h
  · rcases key k i with h1 | ⟨h1, h2⟩ | ⟨h1, h2⟩
    · rw [← h1, h]; exact hR.refl i b
    · rw [h2] at h
      rw [h1, ← Option.some.inj h]
      exact hR.refl i a
    · simp [h2] at h

theorem forall_snd {γ : Type} {l l' : List (γ × List β)} (h : List.Forall₂ (fun p q => Rel R p.2 q.2) l l') :
    List.Forall₂ (Rel R) (l.map (·.2)) (l'.map (·.2)) := by
  induction h with
  | nil => exact .nil
  | cons h _ ih => exact .cons h ih

theorem map_snd_zip' {γ δ : Type} (u : List γ) (v : List δ) (h : v.length ≤ u.length) : (u.zip v).map (·.2) = v := by
  have := List.map_snd_zip h
  exact this

end

end Sol.Olm
