import Verif.Proofs.Eval
import Verif.Proofs.Keeps
/-! Algorithms that compute their weights anew for every example: what the weights were before does not matter. -/

set_option linter.unusedSectionVars false
set_option linter.unusedVariables false

namespace Sol.Olm

open Sol.Online Sol.Sparse Sol.Loss Sol.Spec

section
variable {α A : Type} [Zero α] [One α] [Add α] [Sub α] [Mul α] [Div α] [Neg α] [FCmp α] [IntCast α] [FFun α] [FSqrt α]

/-- Same state but for the weights, the flag and (if `free`) the step size. -/
def Apart (c : Cfg α) (free : Bool) (s h : St α A) : Prop :=
  ∃ w e b, h = { s with w := w, eta := e, fresh := b } ∧ Vecs c.clf s.dim w ∧ (free = false → e = s.eta)

/-- … and predictions for `x` agree. -/
def ApartMid (c : Cfg α) (x : SVec α) (s h : St α A) : Prop :=
  ∃ w b, h = { s with w := w, fresh := b } ∧ Vecs c.clf s.dim w ∧ List.Forall₂ (Agree x) s.w w

structure Renews (c : Cfg α) (G : Alg α A) (inv : Nat → A → Prop) (free : Bool) : Prop where
  start : ∀ s x, G.beginIter s x = .ok s
  finish : ∀ s x, G.endIter s x = .ok s
  handler : ∀ s x, G.handler c s x = none
  prep : ∀ s h x s1, Fit c inv s → Good x → Apart c free s h → G.prep c s x = .ok s1 →
    ∃ h1, G.prep c h x = .ok h1 ∧ ApartMid c x s1 h1
  update : ∀ s h x l s1, Fit c inv s → Good x → ApartMid c x s h → G.update c s x l = .ok s1 →
    ∃ h1, G.update c h x l = .ok h1 ∧ ApartMid c x s1 h1
  close : ∀ s h, Fit c inv s → Apart c free s h → G.endTrain c h = G.endTrain c s

theorem ApartMid.apart {c : Cfg α} {x : SVec α} {s h : St α A} (free : Bool) (hm : ApartMid c x s h) : Apart c free s h := by
  obtain ⟨w, b, rfl, h1, h2⟩ := hm
  exact ⟨w, s.eta, b, rfl, h1, fun _ => rfl⟩

theorem Apart.enter {c : Cfg α} {G : Alg α A} {free : Bool} {s h : St α A} (ha : Apart c free s h) (x : SVec α) :
    Apart c free (enter G s x) (enter G h x) := by
  obtain ⟨w, e, b, rfl, h1, h2⟩ := ha
  simp only [Online.enter, updateDim]
  split
  · rename_i hd
    exact ⟨_, e, b, rfl, h1.grow 0 (Nat.le_of_lt hd), h2⟩
  · exact ⟨w, e, b, rfl, h1, h2⟩

theorem Apart.fit {c : Cfg α} {inv : Nat → A → Prop} {free : Bool} {s h : St α A} (ha : Apart c free s h) (hs : Fit c inv s) :
    Fit c inv h := by
  obtain ⟨w, e, b, rfl, h1, h2⟩ := ha
  exact ⟨hs.dim, h1, hs.g, hs.alg⟩

theorem Apart.symm {c : Cfg α} {inv : Nat → A → Prop} {free : Bool} {s h : St α A} (ha : Apart c free s h) (hs : Fit c inv s) :
    Apart c free h s := by
  obtain ⟨w, e, b, rfl, h1, h2⟩ := ha
  exact ⟨s.w, s.eta, s.fresh, rfl, hs.w, fun h => (h2 h).symm⟩

theorem Apart.trans {c : Cfg α} {free : Bool} {s h u : St α A} (h1 : Apart c free s h) (h2 : Apart c free h u) : Apart c free s u := by
  obtain ⟨w, e, b, rfl, h3, h4⟩ := h1
  obtain ⟨w', e', b', rfl, h5, h6⟩ := h2
  exact ⟨w', e', b', rfl, h5, fun h => (h6 h).trans (h4 h)⟩

theorem Renews.sim {c : Cfg α} {G : Alg α A} {inv : Nat → A → Prop} {free : Bool} (h : Renews c G inv free) :
    Sim c G G Good (Fit c inv) (fun _ => Fit c inv) (Apart c free) (ApartMid c) where
  start := by
    intro s u x s0 s1 hf hR hx h0 hf0 h1 hf1
    rw [h.start] at h0
    obtain rfl := Res.ok.inj h0
    obtain ⟨u1, k1, k2⟩ := h.prep _ _ x s1 hf0 hx (hR.enter (G := G) x) h1
    exact ⟨_, u1, h.start _ _, k1, k2⟩
  same := by
    rintro s u x hP hM hx
    obtain ⟨w, b, rfl, h1, h2⟩ := hP
    exact ⟨predict_agree h2, rfl, rfl, rfl, by rw [h.handler, h.handler]⟩
  skip := by
    rintro s _ x ⟨w, b, rfl, h1, h2⟩
    exact ⟨w, s.eta, b, rfl, h1, fun _ => rfl⟩
  scored := by
    rintro s _ x g m v ⟨w, b, rfl, h1, h2⟩
    exact ⟨w, b, rfl, h1, h2⟩
  update := by
    rintro s _ x l s' ⟨w, b, rfl, h1, h2⟩ hM hx hd hu
    exact h.update { s with upd := s.upd + 1 } _ x l s' ⟨hM.dim, hM.w, hM.g, hM.alg⟩ hx ⟨w, b, rfl, h1, h2⟩ hu
  finish := by
    intro s u x s' hP hM hx h1
    rw [h.finish] at h1
    obtain rfl := Res.ok.inj h1
    exact ⟨u, h.finish _ _, hP.apart free⟩
  count := by
    rintro s _ ⟨w, e, b, rfl, h1, h2⟩
    exact ⟨w, e, b, rfl, h1, h2⟩

/-! ### Two runs side by side -/

theorem with_agree {d : Nat} {x : SVec α} {f : List α → List α → Res (List α)} {l l' us r : List (List α)}
    (hl : List.Forall₂ (fun v v' => v.length = d ∧ v'.length = d) l l') (hlen : l.length = us.length) (hus : ∀ u ∈ us, u.length = d)
    (hf : ∀ v v' u, v.length = d → v'.length = d → u.length = d → ∃ a a', f v u = .ok a ∧ f v' u = .ok a' ∧ Agree x a a' ∧ a'.length = d)
    (h : eachWith f l us = .ok r) :
    ∃ r', eachWith f l' us = .ok r' ∧ List.Forall₂ (Agree x) r r' ∧ ∀ v ∈ r', v.length = d := by
  induction hl generalizing us r with
  | nil => exact ⟨[], rfl, by rw [← Res.ok.inj h]; exact .nil, by simp⟩
  | cons h1 _ ih =>
    rename_i v v' l l' _
    cases us with
    | nil => simp at hlen
    | cons u us =>
      obtain ⟨a, a', e1, e2, e3, e4⟩ := hf v v' u h1.1 h1.2 (hus u List.mem_cons_self)
      simp only [eachWith, e1, Res.bind_ok, Res.bind_eq_ok] at h
      obtain ⟨r2, h2, h3⟩ := h
      obtain ⟨r', k1, k2, k3⟩ := ih (by simpa using hlen) (fun u hu => hus u (List.mem_cons_of_mem _ hu)) h2
      refine ⟨a' :: r', by simp only [eachWith, e2, k1, Res.bind_ok], by rw [← Res.ok.inj h3]; exact .cons e3 k2, ?_⟩
      intro v hv
      rcases List.mem_cons.1 hv with rfl | hv
      · exact e4
      · exact k3 v hv

theorem with2_agree {d : Nat} {Q : List α → List α → Prop} {f : List α → List α → List α → Res (List α)} {l l' us hs r : List (List α)}
    (hl : List.Forall₂ (fun v v' => v.length = d ∧ v'.length = d) l l') (hlen : l.length = us.length) (hlen' : l.length = hs.length)
    (hus : ∀ u ∈ us, u.length = d) (hhs : ∀ u ∈ hs, u.length = d)
    (hf : ∀ v v' u H, v.length = d → v'.length = d → u.length = d → H.length = d →
      ∃ a a', f v u H = .ok a ∧ f v' u H = .ok a' ∧ Q a a' ∧ a'.length = d)
    (h : eachWith2 f l us hs = .ok r) :
    ∃ r', eachWith2 f l' us hs = .ok r' ∧ List.Forall₂ Q r r' ∧ ∀ v ∈ r', v.length = d := by
  induction hl generalizing us hs r with
  | nil => exact ⟨[], rfl, by rw [← Res.ok.inj h]; exact .nil, by simp⟩
  | cons h1 _ ih =>
    rename_i v v' l l' _
    cases us with
    | nil => simp at hlen
    | cons u us =>
      cases hs with
      | nil => simp at hlen'
      | cons H hs =>
        obtain ⟨a, a', e1, e2, e3, e4⟩ := hf v v' u H h1.1 h1.2 (hus u List.mem_cons_self) (hhs H List.mem_cons_self)
        simp only [eachWith2, e1, Res.bind_ok, Res.bind_eq_ok] at h
        obtain ⟨r2, h2, h3⟩ := h
        obtain ⟨r', k1, k2, k3⟩ := ih (by simpa using hlen) (by simpa using hlen') (fun u hu => hus u (List.mem_cons_of_mem _ hu))
          (fun u hu => hhs u (List.mem_cons_of_mem _ hu)) h2
        refine ⟨a' :: r', by simp only [eachWith2, e2, k1, Res.bind_ok], by rw [← Res.ok.inj h3]; exact .cons e3 k2, ?_⟩
        intro v hv
        rcases List.mem_cons.1 hv with rfl | hv
        · exact e4
        · exact k3 v hv

theorem vecs_forall₂ {n d : Nat} {l l' : List (List α)} (h : Vecs n d l) (h' : Vecs n d l') :
    List.Forall₂ (fun v v' => v.length = d ∧ v'.length = d) l l' := by
  rw [List.forall₂_iff_get]
  exact ⟨h.1.trans h'.1.symm, fun i h1 h2 => ⟨h.2 _ (List.getElem_mem h1), h'.2 _ (List.getElem_mem h2)⟩⟩

theorem forall₂_length' {β γ : Type} {Q : β → γ → Prop} {l : List β} {l' : List γ} (h : List.Forall₂ Q l l') : l.length = l'.length := by
  induction h with
  | nil => rfl
  | cons _ _ ih => simp [ih]

theorem fromDual_agree {d : Nat} (f b : α → α) {x : SVec α} (hx : Ascending x) (hd : 1 ≤ d) {v v' u : List α} (h1 : v.length = d)
    (h2 : v'.length = d) (h3 : u.length = d) : ∃ a a', fromDual f b x v u = .ok a ∧ fromDual f b x v' u = .ok a' ∧ Agree x a a' ∧
      a'.length = d :=
  ⟨_, _, fromDual_closed f b hx (by omega) (by omega), fromDual_closed f b hx (by omega) (by omega),
    Agree.of_overwrite (d := d) hx (fun i => f (u.getD i 0)) (b (u.getD 0 0)) (by omega), by simpa using h2⟩

/-- `prep` of the three dual averaging algorithms. -/
theorem dual_prep {c : Cfg α} {s : St α (List (List α))} {x : SVec α} (eta : α) (f b : α → α) (hs : Fit c (vecs c.clf) s) (hx : Good x)
    {h : St α (List (List α))} (ha : Apart c true s h) {s1 : St α (List (List α))}
    (hp : (do let w ← eachWith (fromDual f b x) s.w s.alg
              .ok { s with eta := eta, w := w } : Res (St α (List (List α)))) = .ok s1) :
    ∃ h1, (do let w ← eachWith (fromDual f b x) h.w h.alg
              .ok { h with eta := eta, w := w } : Res (St α (List (List α)))) = .ok h1 ∧ ApartMid c x s1 h1 := by
  obtain ⟨w, e, fl, rfl, h1, -⟩ := ha
  obtain ⟨r, h2, h3⟩ := Res.bind_eq_ok.1 hp
  have hal : s.alg.length = c.clf := hs.alg.1
  obtain ⟨r', k1, k2, k3⟩ := with_agree (x := x) (f := fromDual f b x) (vecs_forall₂ hs.w h1) (by rw [hs.w.1, hal]) hs.alg.2
    (fun v v' u hv hv' hu => fromDual_agree f b hx.1 hs.dim hv hv' hu) h2
  refine ⟨{ s with w := r', eta := eta, fresh := fl }, by simp only [k1, Res.bind_ok], r', fl, ?_, ⟨?_, ?_⟩, ?_⟩
  · rw [← Res.ok.inj h3]
  · have hr := forall₂_length' k2
    have : r.length = s.w.length := by
      have := gives_eachWith (α := α) (d := s.dim) (f := fromDual f b x) (fun w u hw hu => gives_fromDual _ _ hx hs.dim hw hu) c.clf s.w s.alg hs.w hs.alg
      obtain ⟨r2, q1, q2⟩ := this
      rw [h2] at q1
      rw [Res.ok.inj q1, q2.1, hs.w.1]
    rw [← hr, this, hs.w.1]
  · rw [← Res.ok.inj h3]
    exact k3
  · rw [← Res.ok.inj h3]
    exact k2

/-- `Update` of the three dual averaging algorithms. -/
theorem dual_update {c : Cfg α} {s h s1 : St α (List (List α))} {x : SVec α} (hm : ApartMid c x s h)
    (hu : (do let u ← each1 (fun g u => addGrad g x u) s.g s.alg
              .ok { s with alg := u } : Res (St α (List (List α)))) = .ok s1) :
    ∃ h1, (do let u ← each1 (fun g u => addGrad g x u) h.g h.alg
              .ok { h with alg := u } : Res (St α (List (List α)))) = .ok h1 ∧ ApartMid c x s1 h1 := by
  obtain ⟨w, b, rfl, h1, h2⟩ := hm
  obtain ⟨u, h3, h4⟩ := Res.bind_eq_ok.1 hu
  simp only [h3, Res.bind_ok]
  rw [← Res.ok.inj h4]
  exact ⟨_, rfl, w, b, rfl, h1, h2⟩

theorem fromDualAll_with {d n : Nat} (f b : α → α) (hd : 1 ≤ d) {l l' us : List (List α)} (h1 : Vecs n d l) (h2 : Vecs n d l')
    (h3 : Vecs n d us) : eachWith (fromDualAll f b) l us = eachWith (fromDualAll f b) l' us := by
  have key : ∀ l : List (List α), Vecs n d l → eachWith (fromDualAll f b) l us =
      .ok (us.map fun u => (u.map f).mapIdx (atZero fun _ => b (u.getD 0 0))) := by
    intro l hl
    rw [eachWith_closed (fun _ u => (u.map f).mapIdx (atZero fun _ => b (u.getD 0 0))) l us (hl.1.trans h3.1.symm)
      fun v hv u hu => fromDualAll_closed f b (by rw [h3.2 u hu]; exact hd) (by rw [hl.2 v hv, h3.2 u hu])]
    congr 1
    apply List.ext_getElem (by simp [hl.1, h3.1])
    intro i h4 h5
    simp
  rw [key l h1, key l' h2]

theorem renews_rda (c : Cfg α) (sigma eps : α) : Renews c (rda sigma eps) (vecs c.clf) true where
  start _ _ := rfl
  finish _ _ := rfl
  handler _ _ := rfl
  prep s h x s1 hs hx ha hp := by
    have := dual_prep (1 / ((((s.t - 1 : Int) : α) + eps) * sigma)) (fun a => -(1 / ((((s.t - 1 : Int) : α) + eps) * sigma)) * a)
      (fun a => -(c.biasEta0 * (1 / ((((s.t - 1 : Int) : α) + eps) * sigma))) * a) hs hx ha hp
    obtain ⟨w, e, fl, rfl, h1, h2⟩ := ha
    exact this
  update s h x l s1 hs hx hm hu := dual_update hm hu
  close s h hs ha := by
    obtain ⟨w, e, fl, rfl, h1, h2⟩ := ha
    simp only [rda, biasEta]
    rw [fromDualAll_with _ _ hs.dim h1 hs.w hs.alg]

theorem renews_rdaL1 (c : Cfg α) (sigma eps lambda thresh : α) : Renews c (rdaL1 sigma eps lambda thresh) (vecs c.clf) true where
  start _ _ := rfl
  finish _ _ := rfl
  handler _ _ := rfl
  prep s h x s1 hs hx ha hp := by
    have := dual_prep (1 / (((s.t - 1 : Int) : α) * sigma))
      (fun a => -(1 / (((s.t - 1 : Int) : α) * sigma)) * trunc a (lambda * ((s.t - 1 : Int) : α)))
      (fun a => -(c.biasEta0 * (1 / (((s.t - 1 : Int) : α) * sigma))) * trunc a (lambda * ((s.t - 1 : Int) : α))) hs hx ha hp
    obtain ⟨w, e, fl, rfl, h1, h2⟩ := ha
    exact this
  update s h x l s1 hs hx hm hu := dual_update hm hu
  close s h hs ha := by
    obtain ⟨w, e, fl, rfl, h1, h2⟩ := ha
    simp only [rdaL1, biasEta]
    rw [fromDualAll_with _ _ hs.dim h1 hs.w hs.alg]

theorem renews_erdaL1 (c : Cfg α) (sigma eps lambda rou thresh : α) :
    Renews c (erdaL1 sigma eps lambda rou thresh) (vecs c.clf) true where
  start _ _ := rfl
  finish _ _ := rfl
  handler _ _ := rfl
  prep s h x s1 hs hx ha hp := by
    have := dual_prep (1 / (FSqrt.sqrt (((s.t - 1 : Int) : α) + eps) * sigma))
      (fun a => -(1 / (FSqrt.sqrt (((s.t - 1 : Int) : α) + eps) * sigma)) *
        trunc a (lambda * (((s.t - 1 : Int) : α) + eps) + sigma * rou * FSqrt.sqrt (((s.t - 1 : Int) : α) + eps)))
      (fun a => -(c.biasEta0 * (1 / (FSqrt.sqrt (((s.t - 1 : Int) : α) + eps) * sigma))) *
        trunc a (lambda * (((s.t - 1 : Int) : α) + eps) + sigma * rou * FSqrt.sqrt (((s.t - 1 : Int) : α) + eps))) hs hx ha hp
    obtain ⟨w, e, fl, rfl, h1, h2⟩ := ha
    exact this
  update s h x l s1 hs hx hm hu := dual_update hm hu
  close s h hs ha := by
    obtain ⟨w, e, fl, rfl, h1, h2⟩ := ha
    simp only [erdaL1, biasEta]
    rw [fromDualAll_with _ _ hs.dim h1 hs.w hs.alg]

/-! ### AdaRDA_L1 -/

/-- `prep` of one class of AdaRDA_L1. -/
def adaPrep (eta bias th : α) (x : SVec α) (w u H : List α) : Res (List α) := do
  let w ← calcExp (fun _ r => r) (fun _ i _ => do
    let a ← lget u i
    let h ← lget H i
    .ok (-eta * trunc a th / h)) w x
  let u0 ← lget u 0
  let h0 ← lget H 0
  lset w 0 (-bias * trunc u0 th / h0)

theorem adaPrep_agree {d : Nat} (eta bias th : α) {x : SVec α} (hx : Ascending x) (hd : 1 ≤ d) {v v' u H : List α} (h1 : v.length = d)
    (h2 : v'.length = d) (h3 : u.length = d) (h4 : H.length = d) :
    ∃ a a', adaPrep eta bias th x v u H = .ok a ∧ adaPrep eta bias th x v' u H = .ok a' ∧ Agree x a a' ∧ a'.length = d := by
  have key : ∀ v : List α, v.length = d → adaPrep eta bias th x v u H =
      .ok ((v.mapIdx (touch x fun i _ _ => -eta * trunc (u.getD i 0) th / H.getD i 0)).mapIdx
        (atZero fun _ => -bias * trunc (u.getD 0 0) th / H.getD 0 0)) := by
    intro v hv
    unfold adaPrep
    rw [calcExp_closed (fun i _ _ => -eta * trunc (u.getD i 0) th / H.getD i 0) hx (fun w' i y a _ hi _ _ => by
      rw [lget_ok (by omega), Res.bind_ok, lget_ok (by omega), Res.bind_ok]
      simp [List.getD_eq_getElem?_getD, show i < u.length by omega, show i < H.length by omega]), Res.bind_ok,
      lget_ok (by omega), Res.bind_ok, lget_ok (by omega), Res.bind_ok]
    have := atBias_closed (fun _ => -bias * trunc (u.getD 0 0) th / H.getD 0 0)
      (v := v.mapIdx (touch x fun i _ _ => -eta * trunc (u.getD i 0) th / H.getD i 0)) (by simp; omega)
    rw [← this, atBias, lget_ok (by simp; omega), Res.bind_ok]
    simp [List.getD_eq_getElem?_getD, show 0 < u.length by omega, show 0 < H.length by omega]
  exact ⟨_, _, key v h1, key v' h2, Agree.of_overwrite (d := d) hx _ _ (by omega), by simpa using h2⟩

theorem each1_two {β : Type} {Q : β → β → Prop} {f : α → β → Res β} (hf : ∀ g v v' r, Q v v' → f g v = .ok r → ∃ r', f g v' = .ok r' ∧ Q r r')
    {gl : List α} {l l' r : List β} (hl : List.Forall₂ Q l l') (h : each1 f gl l = .ok r) :
    ∃ r', each1 f gl l' = .ok r' ∧ List.Forall₂ Q r r' := by
  induction hl generalizing gl r with
  | nil =>
    have : ∀ gl : List α, each1 f gl ([] : List β) = .ok [] := fun gl => by cases gl <;> rfl
    rw [this] at h
    exact ⟨[], this gl, by rw [← Res.ok.inj h]; exact .nil⟩
  | cons h1 h2 ih =>
    rename_i v v' l l'
    cases gl with
    | nil =>
      refine ⟨v' :: l', rfl, ?_⟩
      rw [← Res.ok.inj (show Res.ok (v :: l) = Res.ok r from h)]
      exact .cons h1 h2
    | cons g gl =>
      simp only [each1, Res.bind_eq_ok] at h
      obtain ⟨a, h3, b, h4, h5⟩ := h
      obtain ⟨r', k1, k2⟩ := ih h4
      rw [← Res.ok.inj h5]
      split at h3
      · rename_i hg
        refine ⟨v' :: r', by simp only [each1, hg, if_true, Res.bind_ok, k1], .cons ?_ k2⟩
        rw [← Res.ok.inj h3]
        exact h1
      · rename_i hg
        obtain ⟨a', k3, k4⟩ := hf g v v' a h1 h3
        exact ⟨a' :: r', by simp only [each1, hg, if_false, Bool.false_eq_true, Res.bind_ok, k1, k3], .cons k4 k2⟩

theorem calcExp_overwrite {d : Nat} {x : SVec α} (hx : Ascending x) {f : List α → Nat → α → Res α} (r : Nat → α)
    (hf : ∀ (w : List α) (i : Nat) (y : α), i < d → f w i y = .ok (r i)) {w : List α} (hw : w.length = d) :
    calcExp (fun _ r => r) f w x = .ok (w.mapIdx (touch x fun i _ _ => r i)) :=
  calcExp_closed (fun i _ _ => r i) hx fun w' i y a _ hi _ _ => hf w' i y (by omega)

/-- One class of `AdaRDA::Update` does not see the weights before. -/
theorem adaRdaOne_two {d : Nat} (hd : 1 ≤ d) (delta eta bias0 g : α) {x : SVec α} (hx : Good x) {p p' r : List α × List α × List α}
    (hp : (p.1.length = d ∧ p'.1.length = d ∧ p.2.1.length = d ∧ p.2.2.length = d) ∧ p.2 = p'.2 ∧ Agree x p.1 p'.1)
    (h : adaRdaOne delta eta bias0 g x p = .ok r) :
    ∃ r', adaRdaOne delta eta bias0 g x p' = .ok r' ∧
      ((r.1.length = d ∧ r'.1.length = d ∧ r.2.1.length = d ∧ r.2.2.length = d) ∧ r.2 = r'.2 ∧ Agree x r.1 r'.1) := by
  obtain ⟨⟨h1, h2, h3, h4⟩, h5, h6⟩ := hp
  simp only [adaRdaOne, Res.bind_eq_ok] at h
  obtain ⟨H, e1, u, e2, w, e3, w2, e4, e5⟩ := h
  obtain ⟨H', q1, q2⟩ := gives_adaH delta g hx hd h3
  rw [e1] at q1
  obtain rfl := Res.ok.inj q1
  obtain ⟨u', q3, q4⟩ := gives_addGrad g hx hd h4
  rw [e2] at q3
  obtain rfl := Res.ok.inj q3
  have hf : ∀ (w : List α) (i : Nat) (y : α), i < d → (do
      let a ← lget u i
      let h ← lget H i
      .ok (-eta * a / h) : Res α) = .ok (-eta * u.getD i 0 / H.getD i 0) := by
    intro w i y hi
    rw [lget_ok (by omega), Res.bind_ok, lget_ok (by omega), Res.bind_ok]
    simp [List.getD_eq_getElem?_getD, show i < u.length by omega, show i < H.length by omega]
  rw [calcExp_overwrite hx.1 _ hf h1] at e3
  obtain rfl := Res.ok.inj e3
  rw [atBias_closed _ (by simp; omega)] at e4
  obtain rfl := Res.ok.inj e4
  rw [← Res.ok.inj e5]
  refine ⟨((p'.1.mapIdx (touch x fun i _ _ => -eta * u.getD i 0 / H.getD i 0)).mapIdx (atZero (· * bias0)), H, u), by
    simp only [adaRdaOne, ← h5, e1, e2, Res.bind_ok]
    rw [calcExp_overwrite hx.1 _ hf h2, Res.bind_ok, atBias_closed _ (by simp; omega), Res.bind_ok],
    ⟨by simpa using h1, by simpa using h2, q2, q4⟩, rfl, by simp [h1, h2], fun i hi => ?_⟩
  simp only [List.getElem?_mapIdx, Option.map_map]
  have h7 := h6.2 i hi
  rw [h7]

theorem zip_two {n d : Nat} {x : SVec α} {l l' H u : List (List α)} (hl : Vecs n d l) (hl' : Vecs n d l') (hH : Vecs n d H)
    (hu : Vecs n d u) (ha : List.Forall₂ (Agree x) l l') :
    List.Forall₂ (fun p p' : List α × List α × List α => (p.1.length = d ∧ p'.1.length = d ∧ p.2.1.length = d ∧ p.2.2.length = d) ∧
      p.2 = p'.2 ∧ Agree x p.1 p'.1) (l.zip (H.zip u)) (l'.zip (H.zip u)) := by
  rw [List.forall₂_iff_get] at ha ⊢
  refine ⟨by simp [hl.1, hl'.1], fun i h1 h2 => ?_⟩
  have hi : i < n := by
    simp only [List.length_zip, hl.1, hH.1, hu.1] at h1
    omega
  simp only [List.get_eq_getElem, List.getElem_zip]
  refine ⟨⟨hl.2 _ (List.getElem_mem _), hl'.2 _ (List.getElem_mem _), hH.2 _ (List.getElem_mem _), hu.2 _ (List.getElem_mem _)⟩, trivial, ?_⟩
  exact ha.2 i (by rw [hl.1]; exact hi) (by rw [hl'.1]; exact hi)

theorem adaRdaEnd_closed {d : Nat} (hd : 1 ≤ d) (f : α → α) (eta bias0 : α) {w u H : List α} (h1 : w.length = d) (h2 : u.length = d)
    (h3 : H.length = d) : adaRdaEnd f eta bias0 w u H =
      .ok ((List.zipWith (fun a h => -eta * f a / h) u H).mapIdx (atZero (· * bias0))) := by
  unfold adaRdaEnd dense2
  rw [if_pos (by omega), Res.bind_ok, if_pos (by simp; omega), Res.bind_ok]
  have hz : List.zipWith (fun _ r => r) w (List.zipWith (fun a h => -eta * f a / h) u H)
      = List.zipWith (fun a h => -eta * f a / h) u H := by
    apply List.ext_getElem (by simp; omega)
    intro i h4 h5
    simp
  rw [hz, atBias_closed _ (by simp; omega)]

theorem adaRdaEnd_with {d n : Nat} (hd : 1 ≤ d) (f : α → α) (eta bias0 : α) {l l' us hs : List (List α)} (h1 : Vecs n d l)
    (h2 : Vecs n d l') (h3 : Vecs n d us) (h4 : Vecs n d hs) :
    eachWith2 (adaRdaEnd f eta bias0) l us hs = eachWith2 (adaRdaEnd f eta bias0) l' us hs := by
  obtain ⟨r, q1, -⟩ := gives_eachWith2 (d := d) (f := adaRdaEnd f eta bias0)
    (fun w u H hw hu hH => gives_adaRdaEnd f eta bias0 hd hw hu hH) n l us hs h1 h3 h4
  obtain ⟨r', k1, k2, -⟩ := with2_agree (Q := (· = ·)) (f := adaRdaEnd f eta bias0) (vecs_forall₂ h1 h2) (h1.1.trans h3.1.symm)
    (h1.1.trans h4.1.symm) h3.2 h4.2 (fun v v' u H e1 e2 e3 e4 => ⟨_, _, adaRdaEnd_closed hd f eta bias0 e1 e3 e4,
      adaRdaEnd_closed hd f eta bias0 e2 e3 e4, rfl, by simp; omega⟩) q1
  have e : r = r' := (congrFun (congrFun List.forall₂_eq_eq_eq r) r').mp k2
  rw [q1, k1, e]

theorem renews_adaRdaL1 (c : Cfg α) (delta lambda thresh : α) : Renews c (adaRdaL1 delta lambda thresh) (adaRdaInv c.clf) false where
  start _ _ := rfl
  finish _ _ := rfl
  handler _ _ := rfl
  prep s h x s1 hs hx ha hp := by
    obtain ⟨w, e, fl, rfl, h1, h2⟩ := ha
    obtain rfl := h2 rfl
    have hp : (do let w ← eachWith2 (adaPrep s.eta (biasEta c s) (lambda * (s.t : α)) x) s.w s.alg.ut s.alg.H
                  .ok { s with w := w } : Res (St α (AdaRdaSt α))) = .ok s1 := hp
    obtain ⟨r, h3, h4⟩ := Res.bind_eq_ok.1 hp
    obtain ⟨r', k1, k2, k3⟩ := with2_agree (f := adaPrep s.eta (biasEta c s) (lambda * (s.t : α)) x) (Q := Agree x) (vecs_forall₂ hs.w h1)
      (hs.w.1.trans hs.alg.2.1.symm) (hs.w.1.trans hs.alg.1.1.symm) hs.alg.2.2 hs.alg.1.2
      (fun v v' u H e1 e2 e3 e4 => adaPrep_agree _ _ _ hx.1 hs.dim e1 e2 e3 e4) h3
    refine ⟨{ s with w := r', fresh := fl }, ?_, r', fl, ?_, ⟨?_, ?_⟩, ?_⟩
    · show (do let w ← eachWith2 (adaPrep s.eta (biasEta c s) (lambda * (s.t : α)) x) w s.alg.ut s.alg.H
               .ok { s with w := w, fresh := fl } : Res (St α (AdaRdaSt α))) = _
      simp only [k1, Res.bind_ok]
    · rw [← Res.ok.inj h4]
    · obtain ⟨r2, q1, q2⟩ := gives_eachWith2 (d := s.dim) (f := adaPrep s.eta (biasEta c s) (lambda * (s.t : α)) x)
        (fun w u H hw hu hH => by
          obtain ⟨_, a', _, e2, _, e4⟩ := adaPrep_agree s.eta (biasEta c s) (lambda * (s.t : α)) hx.1 hs.dim hw hw hu hH
          exact ⟨a', e2, e4⟩) c.clf s.w s.alg.ut s.alg.H hs.w hs.alg.2 hs.alg.1
      rw [h3] at q1
      rw [← forall₂_length' k2, Res.ok.inj q1, q2.1]
    · rw [← Res.ok.inj h4]
      exact k3
    · rw [← Res.ok.inj h4]
      exact k2
  update s h x l s1 hs hx hm hu := by
    obtain ⟨w, b, rfl, h1, h2⟩ := hm
    obtain ⟨ws, h3, h4⟩ := Res.bind_eq_ok.1 hu
    obtain ⟨ws', k1, k2⟩ := each1_two (fun g v v' r hv hr => adaRdaOne_two hs.dim delta s.eta c.biasEta0 g hx hv hr)
      (zip_two hs.w h1 hs.alg.1 hs.alg.2 h2) h3
    have e1 : ws.map (·.2) = ws'.map (·.2) := by
      clear h3 k1 hu h4
      induction k2 with
      | nil => rfl
      | cons a _ ih => rw [List.map_cons, List.map_cons, a.2.1, ih]
    have e2 : ws.map (·.2.1) = ws'.map (·.2.1) := by
      have := congrArg (List.map Prod.fst) e1
      rw [List.map_map, List.map_map] at this
      exact this
    have e3 : ws.map (·.2.2) = ws'.map (·.2.2) := by
      have := congrArg (List.map Prod.snd) e1
      rw [List.map_map, List.map_map] at this
      exact this
    have hlen : ws'.length = c.clf := by
      have hz := gives_each1 (P := fun _ : List α × List α × List α => True) (f := fun g p => adaRdaOne delta s.eta c.biasEta0 g x p)
      have : ∀ (gl : List α) (l r : List (List α × List α × List α)),
          each1 (fun g p => adaRdaOne delta s.eta c.biasEta0 g x p) gl l = .ok r → r.length = l.length := by
        clear k2 k1 e1 e2 e3 hz h3 h4 hu
        intro gl l
        induction l generalizing gl with
        | nil => intro r hr; cases gl <;> (rw [← Res.ok.inj (show Res.ok [] = Res.ok r from hr)])
        | cons v l ih =>
          intro r hr
          cases gl with
          | nil => rw [← Res.ok.inj (show Res.ok (v :: l) = Res.ok r from hr)]
          | cons g gl =>
            simp only [each1, Res.bind_eq_ok] at hr
            obtain ⟨a, -, b, h5, h6⟩ := hr
            rw [← Res.ok.inj h6, List.length_cons, List.length_cons, ih gl b h5]
      rw [this _ _ _ k1]
      have := hs.alg.1.1
      have := hs.alg.2.1
      simp only [List.length_zip, h1.1]
      omega
    refine ⟨{ s with w := ws'.map (·.1), fresh := b, alg := ⟨ws'.map (·.2.1), ws'.map (·.2.2)⟩ }, ?_, ws'.map (·.1), b, ?_, ⟨?_, ?_⟩, ?_⟩
    · show (do let ws ← each1 (fun g p => adaRdaOne delta s.eta c.biasEta0 g x p) s.g (w.zip (s.alg.H.zip s.alg.ut))
               .ok { s with w := ws.map (·.1), fresh := b, alg := ⟨ws.map (·.2.1), ws.map (·.2.2)⟩ } : Res (St α (AdaRdaSt α))) = _
      rw [k1, Res.bind_ok]
    · rw [← Res.ok.inj h4, ← e2, ← e3]
    · simpa using hlen
    · rw [← Res.ok.inj h4]
      intro v hv
      obtain ⟨p, hp, rfl⟩ := List.mem_map.1 hv
      obtain ⟨i, hi, rfl⟩ := List.getElem_of_mem hp
      rw [List.forall₂_iff_get] at k2
      exact (k2.2 i (by rw [k2.1]; exact hi) hi).1.2.1
    · rw [← Res.ok.inj h4]
      clear e1 e2 e3 h3 k1 h4 hlen hu
      induction k2 with
      | nil => exact .nil
      | cons a _ ih => exact .cons a.2.2 ih
  close s h hs ha := by
    obtain ⟨w, e, fl, rfl, h1, h2⟩ := ha
    obtain rfl := h2 rfl
    simp only [adaRdaL1]
    rw [adaRdaEnd_with hs.dim _ _ _ h1 hs.w hs.alg.2 hs.alg.1]

end

end Sol.Olm

/-! ### AdaRDA without bias -/

namespace Sol.Olm

open Sol.Online Sol.Sparse Sol.Loss Sol.Spec

section
variable {α A : Type} [Field α] [LinearOrder α] [IsStrictOrderedRing α] [FFun α] [FSqrt α]

/-- The weights are what `EndTrain` of AdaRDA would compute, without bias. -/
def Derived (eta : α) (p : List α × List α × List α) : Prop :=
  p.1 = (List.zipWith (fun a h => -eta * a / h) p.2.2 p.2.1).mapIdx (atZero (· * 0))

/-- … for every class. -/
def AllDerived (s : St α (AdaRdaSt α)) : Prop := ∀ p ∈ s.w.zip (s.alg.H.zip s.alg.ut), Derived s.eta p

theorem adaH_closed (delta g : α) {x : SVec α} {H : List α} (hx : Ascending x) (hd : 1 ≤ H.length) :
    ∃ (F : Nat → α → α → α) (f0 : α → α), adaH delta g x H = .ok ((H.mapIdx (touch x F)).mapIdx (atZero f0)) := by
  unfold adaH
  refine ⟨fun _ h y => FSqrt.sqrt ((h - delta) * (h - delta) + (g * y) * (g * y)) + delta,
    fun h => FSqrt.sqrt ((h - delta) * (h - delta) + g * g) + delta, ?_⟩
  rw [calcExp_closed (fun _ h y => FSqrt.sqrt ((h - delta) * (h - delta) + (g * y) * (g * y)) + delta) hx
    (fun w' i y a hlen hi h1 h2 => by
      rw [lget_ok (by omega), Res.bind_ok]
      rw [List.getElem?_eq_getElem (by omega)] at h1
      rw [Option.some.inj h1]), Res.bind_ok, atBias_closed _ (by simpa using hd)]

theorem adaRdaOne_settled {d : Nat} (hd : 1 ≤ d) (delta eta g : α) {x : SVec α} (hx : Good x) {p : List α × List α × List α}
    (hp : (p.1.length = d ∧ p.2.1.length = d ∧ p.2.2.length = d) ∧ Derived eta p) :
    Gives (adaRdaOne delta eta 0 g x p) (fun r => (r.1.length = d ∧ r.2.1.length = d ∧ r.2.2.length = d) ∧ Derived eta r) := by
  obtain ⟨w, H, u⟩ := p
  obtain ⟨⟨h1, h3, h4⟩, h5⟩ := hp
  simp only at h1 h3 h4
  obtain ⟨F, f0, hH⟩ := adaH_closed delta g (H := H) hx.1 (by omega)
  have hu := addGrad_closed g (u := u) hx.1 (by omega)
  simp only [adaRdaOne, hH, hu, Res.bind_ok]
  generalize hH' : (H.mapIdx (touch x F)).mapIdx (atZero f0) = H'
  generalize hu' : (u.mapIdx (touch x fun _ a y => a + g * y)).mapIdx (atZero (· + g)) = u'
  have hHl : H'.length = d := by rw [← hH']; simpa using h3
  have hul : u'.length = d := by rw [← hu']; simpa using h4
  have hf : ∀ (w : List α) (i : Nat) (y : α), i < d → (do
      let a ← lget u' i
      let h ← lget H' i
      .ok (-eta * a / h) : Res α) = .ok (-eta * u'.getD i 0 / H'.getD i 0) := by
    intro w i y hi
    rw [lget_ok (by omega), Res.bind_ok, lget_ok (by omega), Res.bind_ok]
    simp [List.getD_eq_getElem?_getD, show i < u'.length by omega, show i < H'.length by omega]
  rw [calcExp_overwrite hx.1 _ hf h1, Res.bind_ok, atBias_closed _ (by simp; omega), Res.bind_ok]
  refine .ok ⟨⟨by simpa using h1, hHl, hul⟩, ?_⟩
  unfold Derived at h5 ⊢
  simp only at h5 ⊢
  apply List.ext_getElem (by simp; omega)
  intro i h6 h7
  have hi : i < d := by simpa [h1] using h6
  simp only [List.getElem_mapIdx, List.getElem_zipWith]
  by_cases h0 : i = 0
  · simp [atZero, h0]
  · simp only [atZero, h0, if_false, touch]
    cases hfa : featureAt x i with
    | some y => simp [List.getD_eq_getElem?_getD, show i < u'.length by omega, show i < H'.length by omega]
    | none =>
      have e1 : H'[i] = H[i] := by simp [← hH', atZero, h0, touch, hfa]
      have e2 : u'[i] = u[i] := by simp [← hu', atZero, h0, touch, hfa]
      simp only [e1, e2]
      simp only [h5]
      simp [atZero, h0]

theorem zip_unzip3 (ws : List (List α × List α × List α)) :
    (ws.map (·.1)).zip ((ws.map (·.2.1)).zip (ws.map (·.2.2))) = ws := by
  induction ws with
  | nil => rfl
  | cons p ws ih => simp [ih]

theorem settled_grow {d n : Nat} {delta eta : α} (hd : 1 ≤ d) {v H u : List α} (h1 : v.length = d) (h2 : H.length = d)
    (h3 : u.length = d) (h : Derived eta (v, H, u)) : Derived eta (growTo d n 0 v, growTo d n delta H, growTo d n 0 u) := by
  unfold Derived at h ⊢
  simp only at h ⊢
  have e1 : v.take d = v := List.take_of_length_le (by omega)
  have e2 : H.take d = H := List.take_of_length_le (by omega)
  have e3 : u.take d = u := List.take_of_length_le (by omega)
  simp only [growTo, e1, e2, e3]
  rw [List.zipWith_append (by omega), List.mapIdx_append, ← h]
  congr 1
  apply List.ext_getElem (by simp)
  intro j h4 h5
  simp [atZero]

theorem keeps_adaRda_settled (c : Cfg α) (hb : c.biasEta0 = 0) (delta : α) : Keeps c (adaRda delta) Good (Fit c (adaRdaInv c.clf))
    (fun _ => Fit c (adaRdaInv c.clf)) AllDerived where
  enter s x hf _ hK := by
    simp only [Online.enter, updateDim]
    split
    · rename_i hd
      intro p hp
      have hm : ∃ q ∈ s.w.zip (s.alg.H.zip s.alg.ut), p =
          (growTo s.dim (Sparse.dim x) 0 q.1, growTo s.dim (Sparse.dim x) delta q.2.1, growTo s.dim (Sparse.dim x) 0 q.2.2) := by
        have hp : p ∈ (s.w.map (growTo s.dim (Sparse.dim x) 0)).zip ((s.alg.H.map (growTo s.dim (Sparse.dim x) delta)).zip
          (s.alg.ut.map (growTo s.dim (Sparse.dim x) 0))) := hp
        obtain ⟨i, hi, rfl⟩ := List.getElem_of_mem hp
        refine ⟨(s.w.zip (s.alg.H.zip s.alg.ut))[i]'(by simpa using hi), List.getElem_mem _, by simp⟩
      obtain ⟨⟨v, H, u⟩, hq, rfl⟩ := hm
      have hm1 := List.of_mem_zip hq
      have hm2 := List.of_mem_zip hm1.2
      exact settled_grow hf.dim (hf.w.2 v hm1.1) (hf.alg.1.2 H hm2.1) (hf.alg.2.2 u hm2.2) (hK _ hq)
    · exact hK
  start s x s' _ hK h := by rw [← Res.ok.inj h]; exact hK
  prep s x s' _ _ hK h := by rw [← Res.ok.inj h]; exact hK
  update s x s' label p pl l g m v u hM hx _ hK hg hgr h := by
    simp only [adaRda, adaRdaUpdate, Res.bind_eq_ok, hb] at h
    obtain ⟨ws, h1, h2⟩ := h
    rw [← Res.ok.inj h2]
    have hz : ∀ p ∈ s.w.zip (s.alg.H.zip s.alg.ut), (p.1.length = s.dim ∧ p.2.1.length = s.dim ∧ p.2.2.length = s.dim) ∧
        Derived s.eta p := by
      rintro ⟨a, b, c'⟩ hm
      have hm1 := List.of_mem_zip hm
      have hm2 := List.of_mem_zip hm1.2
      exact ⟨⟨hM.w.2 a hm1.1, hM.alg.1.2 b hm2.1, hM.alg.2.2 c' hm2.2⟩, hK _ hm⟩
    obtain ⟨ws', k1, k2⟩ := gives_each1 (f := fun g p => adaRdaOne delta s.eta 0 g x p)
      (fun g v hv => adaRdaOne_settled hM.dim delta s.eta g hx hv) g _ hz
    rw [h1] at k1
    obtain rfl := Res.ok.inj k1
    intro p hp
    rw [zip_unzip3] at hp
    exact (k2.2 p hp).2
  finish s x s' _ _ _ hK h := by rw [← Res.ok.inj h]; exact hK
  other s g m v t u e hK := hK

theorem settled_end {c : Cfg α} (hb : c.biasEta0 = 0) (delta : α) {s : St α (AdaRdaSt α)} (hf : Fit c (adaRdaInv c.clf) s)
    (hK : AllDerived s) : (adaRda delta).endTrain c s = .ok { s with fresh := false } := by
  have h1 := hf.w
  have h2 := hf.alg.1
  have h3 := hf.alg.2
  simp only [adaRda]
  have key : ∀ (l us hs : List (List α)), l.length = us.length → l.length = hs.length → (∀ v ∈ l, v.length = s.dim) →
      (∀ v ∈ us, v.length = s.dim) → (∀ v ∈ hs, v.length = s.dim) → (∀ p ∈ l.zip (hs.zip us), Derived s.eta p) →
      eachWith2 (adaRdaEnd (fun a => a) s.eta c.biasEta0) l us hs = .ok l := by
    intro l
    induction l with
    | nil => intros; rfl
    | cons v l ih =>
      intro us hs e1 e2 e3 e4 e5 e6
      cases us with
      | nil => simp at e1
      | cons u us =>
        cases hs with
        | nil => simp at e2
        | cons H hs =>
          have hv := e6 (v, H, u) (by simp)
          unfold Derived at hv
          simp only at hv
          simp only [eachWith2]
          rw [adaRdaEnd_closed hf.dim _ _ _ (e3 v List.mem_cons_self) (e4 u List.mem_cons_self) (e5 H List.mem_cons_self), Res.bind_ok,
            ih us hs (by simpa using e1) (by simpa using e2) (fun v hv => e3 v (List.mem_cons_of_mem _ hv))
              (fun v hv => e4 v (List.mem_cons_of_mem _ hv)) (fun v hv => e5 v (List.mem_cons_of_mem _ hv))
              (fun p hp => e6 p (by simp only [List.zip_cons_cons]; exact List.mem_cons_of_mem _ hp)), Res.bind_ok, hb, ← hv]
  rw [key _ _ _ (h1.1.trans h3.1.symm) (h1.1.trans h2.1.symm) h1.2 h3.2 h2.2 hK, Res.bind_ok]

end
end Sol.Olm
