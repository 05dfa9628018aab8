import Verif.Proofs.Sim
import Verif.Proofs.Exact
import Verif.Spec.Dual
/-! Dual averaging: the weights used are computed from the sums, whatever the weights were before. -/

set_option linter.unusedSectionVars false
set_option linter.unusedVariables false

namespace Sol.Olm

open Sol.Online Sol.Sparse Sol.Loss Sol.Spec

/-- Two weight vectors that a prediction for `x` cannot tell apart. -/
def Agree {α : Type} (x : SVec α) (v v' : List α) : Prop :=
  v.length = v'.length ∧ ∀ i, (i = 0 ∨ ∃ y, (i, y) ∈ x) → v[i]? = v'[i]?

section
variable {α A B : Type} [Zero α] [One α] [Add α] [Sub α] [Mul α] [Div α] [Neg α] [FCmp α] [IntCast α] [FFun α] [FSqrt α]

theorem lget_congr {v v' : List α} {i : Nat} (h : v[i]? = v'[i]?) : lget v i = lget v' i := by
  unfold lget
  rw [h]

theorem dotLoop_congr (op : α → α → α) {v v' : List α} {x : SVec α} (h : ∀ p ∈ x, v[p.1]? = v'[p.1]?) (a : α) :
    dotLoop op v x a = dotLoop op v' x a := by
  induction x generalizing a with
  | nil => rfl
  | cons p x ih =>
    obtain ⟨i, y⟩ := p
    simp only [dotLoop]
    rw [lget_congr (h _ List.mem_cons_self)]
    congr 1
    funext b
    exact ih (fun p hp => h p (List.mem_cons_of_mem _ hp)) _

theorem score_congr {v v' : List α} {x : SVec α} (h : Agree x v v') : score v x = score v' x := by
  unfold score dotmul dotOp
  rw [h.1, dotLoop_congr _ (fun p hp => h.2 p.1 (.inr ⟨p.2, List.mem_of_mem_take hp⟩)), lget_congr (h.2 0 (.inl rfl))]

theorem scores_congr {l l' : List (List α)} {x : SVec α} (h : List.Forall₂ (Agree x) l l') : scores l x = scores l' x := by
  induction h with
  | nil => rfl
  | cons h1 _ ih => simp only [scores, score_congr h1, ih]

theorem predict_agree {c : Cfg α} {s : St α A} {h : St α B} {x : SVec α} (hw : List.Forall₂ (Agree x) s.w h.w) :
    predict c s x = predict c h x := by
  unfold predict
  rw [scores_congr hw]

theorem Agree.of_overwrite {d : Nat} {x : SVec α} (hx : Ascending x) (F : Nat → α) (b : α) {w w' : List α} (h : w.length = w'.length) :
    Agree x ((w.mapIdx (touch x fun i _ _ => F i)).mapIdx (atZero fun _ => b))
      ((w'.mapIdx (touch x fun i _ _ => F i)).mapIdx (atZero fun _ => b)) := by
  refine ⟨by simpa using h, fun i hi => ?_⟩
  simp only [List.getElem?_mapIdx, Option.map_map]
  by_cases hlt : i < w.length
  · rw [List.getElem?_eq_getElem hlt, List.getElem?_eq_getElem (show i < w'.length by omega)]
    simp only [Option.map_some, Function.comp, Option.some.injEq]
    by_cases h0 : i = 0
    · simp [atZero, h0]
    · obtain ⟨y, hy⟩ := hi.resolve_left h0
      simp [atZero, h0, touch, featureAt_mem hx hy]
  · rw [List.getElem?_eq_none (by omega), List.getElem?_eq_none (by omega)]

theorem fromDual_closed (f b : α → α) {x : SVec α} {w u : List α} (hx : Ascending x) (hd : 1 ≤ w.length)
    (hu : u.length = w.length) : fromDual f b x w u =
      .ok ((w.mapIdx (touch x fun i _ _ => f (u.getD i 0))).mapIdx (atZero fun _ => b (u.getD 0 0))) := by
  unfold fromDual
  rw [calcExp_closed (fun i _ _ => f (u.getD i 0)) hx (fun w' i y a _ hi _ _ => by
    rw [lget_ok (by omega), Res.bind_ok]
    simp [List.getD_eq_getElem?_getD, show i < u.length by omega]), Res.bind_ok, lget_ok (by omega), Res.bind_ok]
  have := atBias_closed (fun _ => b (u.getD 0 0)) (v := w.mapIdx (touch x fun i _ _ => f (u.getD i 0))) (by simpa using hd)
  rw [← this, atBias, lget_ok (by simp; omega), Res.bind_ok]
  simp [List.getD_eq_getElem?_getD, show 0 < u.length by omega]

theorem fromDualAll_closed (f b : α → α) {w u : List α} (hd : 1 ≤ u.length) (hu : w.length = u.length) : fromDualAll f b w u =
      .ok ((u.map f).mapIdx (atZero fun _ => b (u.getD 0 0))) := by
  have hz : List.zipWith (fun _ a => f a) w u = u.map f := by
    apply List.ext_getElem (by simp [hu])
    intro i h1 h2
    simp
  unfold fromDualAll dense2
  rw [if_pos hu, Res.bind_ok, lget_ok (by omega), Res.bind_ok, hz]
  have := atBias_closed (fun _ => b (u.getD 0 0)) (v := u.map f) (by simpa using hd)
  rw [← this, atBias, lget_ok (by simp; omega), Res.bind_ok]
  simp [List.getD_eq_getElem?_getD, show 0 < u.length by omega]

theorem addGrad_closed (g : α) {x : SVec α} {u : List α} (hx : Ascending x) (hu : 1 ≤ u.length) :
    addGrad g x u = .ok ((u.mapIdx (touch x fun _ a y => a + g * y)).mapIdx (atZero (· + g))) := by
  unfold addGrad
  rw [calcExp_closed (fun _ _ y => g * y) hx (fun _ _ _ _ _ _ _ _ => rfl), Res.bind_ok,
    atBias_closed _ (by simpa using hu)]

end

section
variable {α A : Type} [Field α] [LinearOrder α] [IsStrictOrderedRing α] [FFun α] [FSqrt α]

theorem coord_addGrad (g : α) {x : SVec α} {u : List α} (hu : 1 ≤ u.length) (hr : ∀ p ∈ x, p.1 < u.length) (i : Nat) :
    coord ((u.mapIdx (touch x fun _ a y => a + g * y)).mapIdx (atZero (· + g))) i = coord u i + g * (feat x i + if i = 0 then 1 else 0) := by
  by_cases hi : i < u.length
  · rw [coord_mapIdx _ (by simpa using hi), coord_mapIdx _ hi]
    simp only [atZero, touch, feat]
    cases featureAt x i <;> simp only [Option.getD_some, Option.getD_none] <;> split <;> ring
  · rw [coord_eq_zero (by simpa using hi), coord_eq_zero (by omega)]
    have : feat x i = 0 := feat_eq_zero fun p hp h => hi (h ▸ hr p hp)
    simp [this, show i ≠ 0 by omega]

/-- The sums of the algorithm are the sums of the history. -/
def Sums (clf : Nat) (u : List (List α)) (hist : List (List α × SVec α)) : Prop :=
  ∀ k i : Nat, k < clf → cell u k i = gradTotal hist k i

/-- States of `rda` and of `gradSum` between examples. -/
def DualRel (c : Cfg α) (s : St α (List (List α))) (h : St α (List (List α × SVec α))) : Prop :=
  ∃ w e hist, h = { dim := s.dim, w := w, g := s.g, eta := e, margin := s.margin, vi := s.vi, t := s.t, data := s.data,
                    upd := s.upd, err := s.err, fresh := s.fresh, alg := hist } ∧ Sums c.clf s.alg hist

/-- … and while an example is processed. -/
def DualMid (c : Cfg α) (x : SVec α) (s : St α (List (List α))) (h : St α (List (List α × SVec α))) : Prop :=
  DualRel c s h ∧ h.eta = s.eta ∧ List.Forall₂ (Agree x) s.w h.w

theorem grow_cell {n d m : Nat} {u : List (List α)} (h : Vecs n d u) (k i : Nat) (hk : k < n) :
    cell (growSig 0 d m u) k i = cell u k i := by
  have hlt : k < u.length := by rw [h.1]; exact hk
  have h1 : u.getD k [] = u[k] := by simp [List.getD_eq_getElem?_getD, hlt]
  have h2 : (growSig 0 d m u).getD k [] = growTo d m 0 u[k] := by simp [growSig, List.getD_eq_getElem?_getD, hlt]
  simp only [cell, h1, h2]
  exact coord_grow _ _ _ (h.2 _ (List.getElem_mem hlt)) i

theorem range_agree {clf d : Nat} {x : SVec α} {l : List (List α)} (hl : Vecs clf d l) (F : Nat → Nat → α)
    (h : ∀ k i : Nat, k < clf → i < d → (i = 0 ∨ ∃ y, (i, y) ∈ x) → cell l k i = F k i) :
    List.Forall₂ (Agree x) l ((List.range clf).map fun k => (List.range d).map (F k)) := by
  rw [List.forall₂_iff_get]
  refine ⟨by simp [hl.1], fun k hk hk' => ?_⟩
  have hkc : k < clf := by rw [← hl.1]; exact hk
  have hlen : l[k].length = d := hl.2 _ (List.getElem_mem hk)
  simp only [List.get_eq_getElem, List.getElem_map, List.getElem_range]
  refine ⟨by simp [hlen], fun i hi => ?_⟩
  by_cases hid : i < d
  · have := h k i hkc hid hi
    simp only [cell, coord, List.getD_eq_getElem?_getD, List.getElem?_eq_getElem hk, Option.getD_some,
      List.getElem?_eq_getElem (show i < l[k].length by omega)] at this
    rw [List.getElem?_eq_getElem (by omega), this]
    simp [hid]
  · rw [List.getElem?_eq_none (by omega), List.getElem?_eq_none (by simp; omega)]

theorem cell_with {clf : Nat} {l us : List (List α)} (F : List α → List α → List α) (h1 : l.length = clf) (h2 : us.length = clf)
    (k i : Nat) (hk : k < clf) : cell (List.zipWith F l us) k i = coord (F (l.getD k []) (us.getD k [])) i := by
  subst h1
  simp [cell, List.getD_eq_getElem?_getD, hk, show k < us.length by omega]

theorem rda_prep (c : Cfg α) (sigma eps : α) {s : St α (List (List α))} (hf : Fit c (vecs c.clf) s) {x : SVec α} (hx : Good x)
    {hist : List (List α × SVec α)} (hs : Sums c.clf s.alg hist) {s' : St α (List (List α))}
    (h : (rda sigma eps).prep c s x = .ok s') :
    ∃ w, s' = { s with eta := 1 / ((((s.t - 1 : Int) : α) + eps) * sigma), w := w } ∧
      List.Forall₂ (Agree x) w (dualWeights c (1 / ((((s.t - 1 : Int) : α) + eps) * sigma)) s.dim hist) := by
  have hlw : ∀ v ∈ s.w, v.length = s.dim := hf.w.2
  have hlu : ∀ v ∈ s.alg, v.length = s.dim := hf.alg.2
  have hd := hf.dim
  simp only [rda] at h
  rw [eachWith_closed _ _ _ (hf.w.1.trans hf.alg.1.symm) fun v hv u hu => fromDual_closed _ _ hx.1 (by rw [hlw v hv]; exact hd)
    (by rw [hlu u hu, hlw v hv]), Res.bind_ok] at h
  refine ⟨_, (Res.ok.inj h).symm, ?_⟩
  refine range_agree (d := s.dim) ?_ (fun k i => -(if i = 0 then c.biasEta0 * (1 / ((((s.t - 1 : Int) : α) + eps) * sigma)) else
    1 / ((((s.t - 1 : Int) : α) + eps) * sigma)) * gradTotal hist k i) ?_
  · refine ⟨by simp [hf.w.1, hf.alg.1], fun v hv => ?_⟩
    obtain ⟨i, hi, rfl⟩ := List.getElem_of_mem hv
    simp only [List.getElem_zipWith, List.length_mapIdx]
    exact hlw _ (List.getElem_mem _)
  · intro k i hk hi hix
    have hvl : (s.w.getD k []).length = s.dim := hlw _ (cell_mem hf.w.1 hk)
    rw [cell_with _ hf.w.1 hf.alg.1 k i hk, coord_mapIdx _ (by rw [List.length_mapIdx, hvl]; exact hi), coord_mapIdx _ (by omega)]
    have hsum := hs k i hk
    simp only [cell, coord] at hsum
    by_cases h0 : i = 0
    · subst h0
      simp only [atZero, if_true, biasEta, hsum]
    · obtain ⟨y, hy⟩ := hix.resolve_left h0
      simp only [atZero, h0, if_false, touch, featureAt_mem hx.1 hy, hsum]

theorem rda_end (c : Cfg α) (sigma eps : α) {s : St α (List (List α))} (hf : Fit c (vecs c.clf) s)
    {hist : List (List α × SVec α)} (hs : Sums c.clf s.alg hist) : (rda sigma eps).endTrain c s =
      .ok { s with eta := 1 / (((s.t : α) + eps) * sigma), w := dualWeights c (1 / (((s.t : α) + eps) * sigma)) s.dim hist,
                   fresh := false } := by
  have hlw : ∀ v ∈ s.w, v.length = s.dim := hf.w.2
  have hlu : ∀ v ∈ s.alg, v.length = s.dim := hf.alg.2
  have hd := hf.dim
  simp only [rda]
  rw [eachWith_closed _ _ _ (hf.w.1.trans hf.alg.1.symm) fun v hv u hu => fromDualAll_closed _ _ (by rw [hlu u hu]; exact hd)
    (by rw [hlu u hu, hlw v hv]), Res.bind_ok]
  congr 2
  unfold dualWeights
  apply List.ext_getElem (by simp [hf.w.1, hf.alg.1])
  intro k h1 h2
  have hk : k < c.clf := by simpa using h2
  have hka : k < s.alg.length := by rw [hf.alg.1]; exact hk
  have hul : s.alg[k].length = s.dim := hlu _ (List.getElem_mem _)
  simp only [List.getElem_zipWith, List.getElem_map, List.getElem_range]
  apply List.ext_getElem (by simp [hul])
  intro i h3 h4
  have hi : i < s.dim := by simpa using h4
  have hsum := hs k i hk
  simp only [cell, coord, List.getD_eq_getElem?_getD, List.getElem?_eq_getElem hka, Option.getD_some,
    List.getElem?_eq_getElem (show i < s.alg[k].length by omega)] at hsum
  simp only [List.getElem_mapIdx, List.getElem_map, List.getElem_range, ← hsum]
  by_cases h0 : i = 0
  · subst h0
    simp [atZero, biasEta, show 0 < s.alg[k].length by omega]
  · simp [atZero, h0]

theorem rda_update (c : Cfg α) (sigma eps : α) {s : St α (List (List α))} (hf : Fit c (vecs c.clf) s) {x : SVec α} (hx : Good x)
    (hdx : Sparse.dim x ≤ s.dim) {l : α}
    {hist : List (List α × SVec α)} (hs : Sums c.clf s.alg hist) {s' : St α (List (List α))}
    (h : (rda sigma eps).update c s x l = .ok s') : ∃ u, s' = { s with alg := u } ∧ Sums c.clf u ((s.g, x) :: hist) := by
  have hlu : ∀ v ∈ s.alg, v.length = s.dim := hf.alg.2
  have hd := hf.dim
  simp only [rda] at h
  rw [each1_closed _ _ _ (by rw [hf.g, hf.alg.1]) fun g v hv => addGrad_closed g hx.1 (by rw [hlu v hv]; exact hd),
    Res.bind_ok] at h
  refine ⟨_, (Res.ok.inj h).symm, fun k i hk => ?_⟩
  have hul : (s.alg.getD k []).length = s.dim := hlu _ (cell_mem hf.alg.1 hk)
  rw [cell_zipWith _ hf.g hf.alg.1 k i hk]
  have hsum := hs k i hk
  unfold cell at hsum
  rw [gradTotal, List.map_cons, List.sum_cons, ← gradTotal, ← hsum]
  split
  · rename_i h0
    have h0 : s.g.getD k 0 = 0 := (feq_iff _ _).1 h0
    simp [List.getD_eq_getElem?_getD] at h0 ⊢
    simp [h0]
  · rw [coord_addGrad _ (by omega) (fun p hp => by rw [hul]; exact lt_of_lt_of_le (hx.lt_dim p hp) hdx)]
    ring

theorem sim_rda (c : Cfg α) (sigma eps : α) : Sim c (rda sigma eps) (gradSum sigma eps) Good (Fit c (vecs c.clf))
    (fun _ => Fit c (vecs c.clf)) (DualRel c) (DualMid c) where
  start := by
    rintro s _ x s0 s1 hf ⟨w, e, hist, rfl, hs⟩ hx h0 hf0 h1 hf1
    obtain rfl := Res.ok.inj (show Res.ok _ = Res.ok s0 from h0)
    have hs' : Sums c.clf (enter (rda sigma eps) s x).alg hist := by
      intro k i hk
      rw [← hs k i hk]
      simp only [enter, updateDim]
      split
      · exact grow_cell hf.alg k i hk
      · rfl
    obtain ⟨w', rfl, hw'⟩ := rda_prep c sigma eps hf0 hx hs' h1
    obtain ⟨w2, hw2⟩ : ∃ w2, enter (gradSum sigma eps) { dim := s.dim, w := w, g := s.g, eta := e, margin := s.margin, vi := s.vi, t := s.t, data := s.data, upd := s.upd, err := s.err, fresh := s.fresh, alg := hist } x
        = (fun s : St α (List (List α)) => { dim := s.dim, w := w2, g := s.g, eta := e, margin := s.margin, vi := s.vi, t := s.t, data := s.data, upd := s.upd, err := s.err, fresh := s.fresh, alg := hist }) (enter (rda sigma eps) s x) := by
      simp only [enter, updateDim, gradSum]
      split
      · exact ⟨_, rfl⟩
      · exact ⟨_, rfl⟩
    refine ⟨_, _, rfl, rfl, ⟨dualWeights c (1 / (((((enter (rda sigma eps) s x).t - 1 : Int) : α) + eps) * sigma))
      (enter (rda sigma eps) s x).dim hist, 1 / (((((enter (rda sigma eps) s x).t - 1 : Int) : α) + eps) * sigma), hist, ?_, hs'⟩, ?_, ?_⟩
    · rw [hw2]
    · rw [hw2]
    · rw [hw2]
      exact hw'
  same := by
    rintro s _ x ⟨⟨w, e, hist, rfl, hs⟩, h2, h3⟩ hM hx
    exact ⟨predict_agree h3, rfl, rfl, rfl, rfl⟩
  skip := by
    rintro s _ x ⟨⟨w, e, hist, rfl, hs⟩, h2, h3⟩
    exact ⟨w, e, hist, rfl, hs⟩
  scored := by
    rintro s _ x g m v ⟨⟨w, e, hist, rfl, hs⟩, h2, h3⟩
    exact ⟨⟨w, e, hist, rfl, hs⟩, h2, h3⟩
  update := by
    rintro s _ x l s' ⟨⟨w, e, hist, rfl, hs⟩, h2, h3⟩ hM hx hd h
    obtain ⟨u, rfl, hu⟩ := rda_update c sigma eps (s := { s with upd := s.upd + 1 }) ⟨hM.dim, hM.w, hM.g, hM.alg⟩ hx hd hs h
    exact ⟨_, rfl, ⟨w, e, _, rfl, hu⟩, h2, h3⟩
  finish := by
    rintro s h x s' ⟨hR, h2, h3⟩ hM hx h'
    obtain rfl := Res.ok.inj (show Res.ok s = Res.ok s' from h')
    exact ⟨h, rfl, hR⟩
  count := by
    rintro s _ ⟨w, e, hist, rfl, hs⟩
    exact ⟨w, e, hist, rfl, hs⟩

end

end Sol.Olm
