import Verif.Proofs.Exact
import Verif.Proofs.Novikoff
import Verif.Spec.Eager
/-! FOBOS-L1 against the algorithm that shrinks every weight after every example. -/

set_option linter.unusedSectionVars false
set_option linter.unusedVariables false

namespace Sol.Olm

open Sol.Online Sol.Sparse Sol.Loss Sol.Spec

variable {α A B : Type} [Field α] [LinearOrder α] [IsStrictOrderedRing α] [FFun α] [FSqrt α]

theorem trunc_soft {a b : α} (hb : 0 ≤ b) : trunc a b = soft a b := by
  unfold trunc soft
  simp only [fle_iff, flt_iff]
  by_cases h : 0 ≤ a
  · rw [if_pos h]
    split
    · rfl
    · rw [if_neg (by linarith)]
  · rw [if_neg h, if_neg (show ¬ b < a by linarith)]
    by_cases h2 : b < -a
    · rw [if_pos h2, if_pos (by linarith)]
    · rw [if_neg h2, if_neg (by linarith)]

theorem soft_zero_right (a : α) : soft a 0 = a := by
  unfold soft
  rcases lt_trichotomy a 0 with h | h | h
  · rw [if_neg (by linarith), if_pos (by linarith)]; ring
  · subst h; simp
  · rw [if_pos h]; ring

theorem soft_zero {b : α} (hb : 0 ≤ b) : soft 0 b = (0 : α) := by
  unfold soft
  rw [if_neg (by linarith), if_neg (by linarith)]

/-- Shrinking twice is shrinking by the sum. -/
theorem soft_soft (a : α) {b c : α} (hb : 0 ≤ b) (hc : 0 ≤ c) : soft (soft a b) c = soft a (b + c) := by
  unfold soft
  by_cases h1 : b < a
  · rw [if_pos h1]
    by_cases h2 : c < a - b
    · rw [if_pos h2, if_pos (by linarith)]; ring
    · rw [if_neg h2, if_neg (show ¬ a - b < -c by linarith), if_neg (by linarith), if_neg (by linarith)]
  · rw [if_neg h1]
    by_cases h2 : a < -b
    · rw [if_pos h2, if_neg (show ¬ c < a + b by linarith), if_neg (show ¬ b + c < a by linarith)]
      by_cases h3 : a + b < -c
      · rw [if_pos h3, if_pos (by linarith)]; ring
      · rw [if_neg h3, if_neg (by linarith)]
    · rw [if_neg h2, if_neg (show ¬ c < 0 by linarith), if_neg (show ¬ (0 : α) < -c by linarith), if_neg (by linarith),
        if_neg (by linarith)]

theorem cell_map {n : Nat} {l : List (List α)} (F : List α → List α) (h : l.length = n) (k i : Nat) (hk : k < n) :
    cell (l.map F) k i = coord (F (l.getD k [])) i := by
  subst h
  simp [cell, List.getD_eq_getElem?_getD, hk]

theorem cell_shrink {n d : Nat} {l : List (List α)} (h : Vecs n d l) (r b : α) (k i : Nat) (hk : k < n) (hi : i < d) :
    cell (l.map (shrink r b)) k i = soft (cell l k i) (if i = 0 then b else r) := by
  rw [cell_map _ h.1 k i hk]
  unfold shrink
  rw [coord_mapIdx _ (by rw [h.2 _ (cell_mem h.1 hk)]; exact hi)]
  rfl

/-- Scores depend only on the bias and the weights of the features. -/
theorem predict_congr {c : Cfg α} {inv : Nat → A → Prop} {inv' : Nat → B → Prop} {s : St α A} {u : St α B} {x : SVec α}
    (hs : Fit c inv s) (hu : Fit c inv' u) (hx : Ascending x)
    (h : ∀ k < c.clf, ∀ i, (i = 0 ∨ ∃ y, (i, y) ∈ x) → cell s.w k i = cell u.w k i) : predict c s x = predict c u x := by
  unfold predict
  rw [scores_eq hx fun v hv => by rw [hs.w.2 v hv]; exact hs.dim, scores_eq hx fun v hv => by rw [hu.w.2 v hv]; exact hu.dim]
  have : (s.w.map fun w => linear (coord w) x + coord w 0) = u.w.map fun w => linear (coord w) x + coord w 0 := by
    apply List.ext_getElem
    · simp [hs.w.1, hu.w.1]
    · intro k h1 h2
      have hk : k < c.clf := by simpa [hs.w.1] using h1
      have e1 : ∀ i, cell s.w k i = coord (s.w[k]'(by rw [hs.w.1]; exact hk)) i := fun i => by
        simp [cell, List.getD_eq_getElem?_getD, hs.w.1, hk]
      have e2 : ∀ i, cell u.w k i = coord (u.w[k]'(by rw [hu.w.1]; exact hk)) i := fun i => by
        simp [cell, List.getD_eq_getElem?_getD, hu.w.1, hk]
      simp only [List.getElem_map]
      have h0 := h k hk 0 (.inl rfl)
      rw [e1, e2] at h0
      rw [h0]
      congr 1
      unfold linear
      congr 1
      apply List.map_congr_left
      rintro ⟨i, y⟩ hp
      have := h k hk i (.inr ⟨y, hp⟩)
      rw [e1, e2] at this
      simp only [this]
  rw [this]

open Classical in
/-- Time stamps after `EndIterate`. -/
theorem stampLoop_spec (ts : Int) (x : SVec α) (last last' : List Int) (h : stampLoop ts x last = .ok last') :
    last'.length = last.length ∧ ∀ (i : Nat), i < last.length →
      last'.getD i 0 = if (∃ y, (i, y) ∈ x) then ts else last.getD i 0 := by
  induction x generalizing last with
  | nil =>
    simp only [stampLoop, Res.ok.injEq] at h
    subst h
    simp
  | cons p x ih =>
    obtain ⟨j, y⟩ := p
    simp only [stampLoop] at h
    obtain ⟨l1, h1, h2⟩ := Res.bind_eq_ok.1 h
    obtain ⟨hj, rfl⟩ := lset_eq_ok.1 h1
    obtain ⟨h3, h4⟩ := ih _ h2
    refine ⟨by simpa using h3, fun i hi => ?_⟩
    rw [h4 i (by simpa using hi)]
    by_cases hx : ∃ y, (i, y) ∈ x
    · rw [if_pos hx, if_pos (by obtain ⟨z, hz⟩ := hx; exact ⟨z, List.mem_cons_of_mem _ hz⟩)]
    · rw [if_neg hx]
      by_cases hij : i = j
      · subst hij
        rw [if_pos ⟨y, List.mem_cons_self⟩]
        simp [List.getD_eq_getElem?_getD, hi]
      · rw [if_neg (by
          rintro ⟨z, hz⟩
          rcases List.mem_cons.1 hz with h | h
          · exact hij (Prod.mk.inj h).1
          · exact hx ⟨z, h⟩)]
        simp [List.getD_eq_getElem?_getD, show ¬ j = i from fun h => hij h.symm]

open Classical in
theorem lazyEnd_spec (s : St α A) (last last' : List Int) (x : SVec α) (h : lazyEnd s last x = .ok last') :
    last'.length = last.length ∧ ∀ (i : Nat), i < last.length →
      last'.getD i 0 = if i = 0 ∨ (∃ y, (i, y) ∈ x) then s.t - 1 else last.getD i 0 := by
  unfold lazyEnd at h
  obtain ⟨l1, h1, h2⟩ := Res.bind_eq_ok.1 h
  obtain ⟨h3, h4⟩ := stampLoop_spec _ x last l1 h1
  obtain ⟨h0, rfl⟩ := lset_eq_ok.1 h2
  refine ⟨by simpa using h3, fun i hi => ?_⟩
  by_cases hi0 : i = 0
  · subst hi0
    simp [List.getD_eq_getElem?_getD, show 0 < l1.length by omega]
  · have : (l1.set 0 (s.t - 1)).getD i 0 = l1.getD i 0 := by
      simp [List.getD_eq_getElem?_getD, show ¬ 0 = i from fun h => hi0 h.symm]
    rw [this, h4 i hi]
    simp [hi0]

/-- FOBOS-L1 in state `s` owes the weights what the eager algorithm in state `u` has already taken. -/
structure Owes (c : Cfg α) (eta0 lambda : α) (t0 : Int) (s : St α (List Int)) (u : St α Unit) : Prop where
  fit : Fit c stamps s
  fit' : Fit c (none' Unit) u
  dim : u.dim = s.dim
  g : u.g = s.g
  eta : u.eta = s.eta
  margin : u.margin = s.margin
  vi : u.vi = s.vi
  t : u.t = s.t
  data : u.data = s.data
  upd : u.upd = s.upd
  err : u.err = s.err
  pos : 0 ≤ s.eta
  before : t0 ≤ s.t
  past : ∀ (i : Nat), i < s.dim → s.alg.getD i 0 ≤ s.t
  rate : s.eta = eta0 ∨ ∀ k < c.clf, ∀ i, cell s.w k i = 0
  bias : ∀ k < c.clf, cell u.w k 0 = soft (cell s.w k 0) (c.biasEta0 * s.eta * lambda)
  weights : ∀ k < c.clf, ∀ i, 1 ≤ i → i < s.dim →
    cell u.w k i = soft (cell s.w k i) (s.eta * lambda * ((s.t - s.alg.getD i 0 : Int) : α))

theorem enter_fields (G : Alg α A) (s : St α A) (x : SVec α) : (enter G s x).g = s.g ∧ (enter G s x).eta = s.eta ∧
    (enter G s x).margin = s.margin ∧ (enter G s x).vi = s.vi ∧ (enter G s x).t = s.t + 1 ∧ (enter G s x).data = s.data + 1 ∧
    (enter G s x).upd = s.upd ∧ (enter G s x).err = s.err := by
  simp only [enter, updateDim]
  split <;> exact ⟨rfl, rfl, rfl, rfl, rfl, rfl, rfl, rfl⟩

theorem lazyBegin_getD (t0 : Int) (last : List Int) (n i : Nat) (hi : i < max last.length n) :
    (lazyBegin t0 last n).getD i 0 = if i < last.length then last.getD i 0 else t0 := by
  unfold lazyBegin
  split
  · unfold growTo
    rw [List.take_length]
    by_cases h : i < last.length
    · rw [if_pos h, List.getD_eq_getElem?_getD, List.getElem?_append_left h, List.getD_eq_getElem?_getD]
    · rw [if_neg h, List.getD_eq_getElem?_getD, List.getElem?_append_right (by omega), List.getElem?_replicate,
        if_pos (by omega)]
      rfl
  · rw [if_pos (by omega)]

/-- The closed form of the truncation before the prediction. -/
theorem fobosTrunc_closed (rate b : α) (t : Int) {last : List Int} {x : SVec α} {w : List α} (hx : Ascending x)
    (hw : 1 ≤ w.length) (hl : last.length = w.length) :
    fobosTrunc rate b t last x w
      = .ok ((w.mapIdx (touch x fun i a _ => trunc a (rate * ((t - last.getD i 0 : Int) : α)))).mapIdx
          (atZero fun v => trunc v b)) := by
  unfold fobosTrunc
  rw [calcExp_closed (fun i a _ => trunc a (rate * ((t - last.getD i 0 : Int) : α))) hx, Res.bind_ok,
    atBias_closed _ (by simpa using hw)]
  intro w' i y a h1 h2 h3 h4
  have hi : i < last.length := by omega
  obtain ⟨h5, h6⟩ := List.getElem?_eq_some_iff.1 h3
  rw [lget_ok h5, Res.bind_ok, lget_ok hi, Res.bind_ok, h6]
  simp [List.getD_eq_getElem?_getD, hi]

theorem cell_out {n d : Nat} {l : List (List α)} (h : Vecs n d l) (k i : Nat) (hk : k < n) (hi : d ≤ i) : cell l k i = 0 := by
  unfold cell
  exact coord_eq_zero (by rw [h.2 _ (cell_mem h.1 hk)]; exact hi)

open Classical in
/-- The end of the example: FOBOS-L1 stamps the features, the eager algorithm shrinks all weights. -/
theorem owes_close {c : Cfg α} {eta0 lambda : α} {t0 : Int} (hl : 0 ≤ lambda) (hb : 0 ≤ c.biasEta0)
    {s s2 : St α (List Int)} {u u2 : St α Unit} {x : SVec α} {last : List Int} {δ : Nat → α}
    (h : Owes c eta0 lambda t0 s u) (hx : Ascending x) (hx1 : ∀ p ∈ x, 1 ≤ p.1)
    (hd : s.dim ≤ s2.dim) (hfit : Fit c stamps s2) (hfit' : Fit c (none' Unit) u2) (hdim : u2.dim = s2.dim) (hg : u2.g = s2.g)
    (heta : u2.eta = s2.eta) (hmargin : u2.margin = s2.margin) (hvi : u2.vi = s2.vi) (ht : u2.t = s2.t)
    (hdata : u2.data = s2.data) (hupd : u2.upd = s2.upd) (herr : u2.err = s2.err) (hpos : 0 ≤ s2.eta) (hst : s2.t = s.t + 1)
    (hlast : ∀ (i : Nat), i < s2.dim → s2.alg.getD i 0 = if i < s.dim then s.alg.getD i 0 else t0)
    (hw : ∀ k < c.clf, ∀ i < s2.dim, cell s2.w k i
      = (if i = 0 ∨ (∃ y, (i, y) ∈ x) then cell u.w k i else cell s.w k i) - δ k * dir c.biasEta0 x i)
    (hw' : ∀ k < c.clf, ∀ i, cell u2.w k i = cell u.w k i - δ k * dir c.biasEta0 x i)
    (hrate : s2.eta = eta0 ∨ (s2.eta = s.eta ∧ ∀ k < c.clf, δ k = 0))
    (hend : lazyEnd s2 s2.alg x = .ok last) (n : Nat) :
    Owes c eta0 lambda t0 { s2 with alg := last, err := n }
      { u2 with w := u2.w.map (shrink (u2.eta * lambda) (c.biasEta0 * u2.eta * lambda)), err := n } := by
  obtain ⟨hlen, hstamp⟩ := lazyEnd_spec _ _ _ _ hend
  have hal : s2.alg.length = s2.dim := hfit.alg
  have hsh : Vecs c.clf u2.dim (u2.w.map (shrink (u2.eta * lambda) (c.biasEta0 * u2.eta * lambda))) := by
    refine ⟨by simpa using hfit'.w.1, fun v hv => ?_⟩
    obtain ⟨v', hv', rfl⟩ := List.mem_map.1 hv
    simpa [shrink] using hfit'.w.2 v' hv'
  have hzero : ∀ k < c.clf, ∀ i, s.dim ≤ i → cell s.w k i = 0 := fun k hk i hi => cell_out h.fit.w k i hk hi
  have hzero' : ∀ k < c.clf, ∀ i, s.dim ≤ i → cell u.w k i = 0 := fun k hk i hi =>
    cell_out h.fit'.w k i hk (by rw [h.dim]; exact hi)
  refine ⟨⟨hfit.dim, hfit.w, hfit.g, hlen.trans hal⟩, ⟨hfit'.dim, hsh, hfit'.g, trivial⟩, hdim, hg, heta, hmargin, hvi, ht, hdata,
    hupd, rfl, hpos, ?_, ?_, ?_, ?_, ?_⟩
  · have := h.before
    show t0 ≤ s2.t
    omega
  · intro i hi
    show last.getD i 0 ≤ s2.t
    rw [hstamp i (by rw [hal]; exact hi)]
    split
    · omega
    · rw [hlast i hi]
      split
      · rename_i h1
        have := h.past i h1
        omega
      · have := h.before
        omega
  · rcases hrate with h1 | ⟨h1, h2⟩
    · exact .inl h1
    · rcases h.rate with h3 | h3
      · exact .inl (h1.trans h3)
      · refine .inr fun k hk i => ?_
        show cell s2.w k i = 0
        by_cases hi : i < s2.dim
        · rw [hw k hk i hi, h2 k hk, zero_mul, sub_zero]
          split
          · by_cases h0 : i = 0
            · subst h0
              rw [h.bias k hk, h3 k hk, soft_zero (by have := h.pos; positivity)]
            · by_cases h4 : i < s.dim
              · rw [h.weights k hk i (by omega) h4, h3 k hk, soft_zero]
                have := h.past i h4
                have h5 : (0 : α) ≤ ((s.t - s.alg.getD i 0 : Int) : α) := by exact_mod_cast (by omega : (0:Int) ≤ s.t - s.alg.getD i 0)
                have := h.pos
                positivity
              · exact hzero' k hk i (by omega)
          · exact h3 k hk i
        · exact cell_out hfit.w k i hk (by omega)
  · intro k hk
    show cell (u2.w.map _) k 0 = soft (cell s2.w k 0) (c.biasEta0 * s2.eta * lambda)
    rw [cell_shrink hfit'.w _ _ k 0 hk hfit'.dim, if_pos rfl, hw' k hk, hw k hk 0 hfit.dim, if_pos (.inl rfl), heta]
  · intro k hk i hi1 hi
    show cell (u2.w.map _) k i = soft (cell s2.w k i) (s2.eta * lambda * ((s2.t - last.getD i 0 : Int) : α))
    have hi' : i < s2.dim := hi
    rw [cell_shrink hfit'.w _ _ k i hk (by rw [hdim]; exact hi), if_neg (by omega), hw' k hk, hw k hk i hi,
      hstamp i (by rw [hal]; exact hi), heta]
    by_cases hin : ∃ y, (i, y) ∈ x
    · rw [if_pos (.inr hin), if_pos (.inr hin)]
      simp
    · have hnot : ¬ (i = 0 ∨ ∃ y, (i, y) ∈ x) := by
        rintro (h1 | h1)
        · omega
        · exact hin h1
      have hdir : dir c.biasEta0 x i = 0 := by
        unfold dir
        rw [feat_eq_zero fun p hp hpi => hin ⟨p.2, by rw [← hpi]; exact hp⟩, if_neg (by omega), add_zero]
      rw [if_neg hnot, if_neg hnot, hdir, mul_zero, sub_zero, sub_zero, hlast i hi]
      by_cases h4 : i < s.dim
      · rw [if_pos h4, h.weights k hk i hi1 h4]
        have hp := h.past i h4
        have h5 : (0 : α) ≤ ((s.t - s.alg.getD i 0 : Int) : α) := by exact_mod_cast (by omega : (0:Int) ≤ s.t - s.alg.getD i 0)
        have h6 : (0 : α) ≤ ((s2.t - s.alg.getD i 0 : Int) : α) := by exact_mod_cast (by omega : (0:Int) ≤ s2.t - s.alg.getD i 0)
        have hp0 := h.pos
        have same : s2.eta = s.eta → soft (soft (cell s.w k i) (s.eta * lambda * ((s.t - s.alg.getD i 0 : Int) : α)))
            (s2.eta * lambda) = soft (cell s.w k i) (s2.eta * lambda * ((s2.t - s.alg.getD i 0 : Int) : α)) := by
          intro he
          rw [soft_soft _ (by positivity) (by positivity), he, hst]
          congr 1
          push_cast
          ring
        have zero : cell s.w k i = 0 → soft (soft (cell s.w k i) (s.eta * lambda * ((s.t - s.alg.getD i 0 : Int) : α)))
            (s2.eta * lambda) = soft (cell s.w k i) (s2.eta * lambda * ((s2.t - s.alg.getD i 0 : Int) : α)) := by
          intro hz
          rw [hz, soft_zero (by positivity), soft_zero (by positivity), soft_zero (by positivity)]
        rcases h.rate with h7 | h7
        · rcases hrate with h8 | ⟨h8, -⟩
          · exact same (h8.trans h7.symm)
          · exact same h8
        · exact zero (h7 k hk i)
      · rw [if_neg h4, hzero' k hk i (by omega), hzero k hk i (by omega)]
        have hb' := h.before
        have h6 : (0 : α) ≤ ((s2.t - t0 : Int) : α) := by exact_mod_cast (by omega : (0:Int) ≤ s2.t - t0)
        rw [soft_zero (by positivity), soft_zero (by positivity)]

open Classical in
/-- One example: whatever FOBOS-L1 does, the eager algorithm does the same, and the relation is kept. -/
theorem owes_step {c : Cfg α} {eta0 lambda thresh thresh' : α} {t0 : Int} (hl : 0 ≤ lambda) (hb : 0 ≤ c.biasEta0) (he0 : 0 ≤ eta0)
    (hsm : c.smooth = 0) (hk : Matches c.kind c.clf) {s s' : St α (List Int)} {u : St α Unit} {e : Ex α} {r : α} {ev : Event}
    (hx : Good e.x) (hx1 : ∀ p ∈ e.x, 1 ≤ p.1) (hlab : LabelOk c.clf e.label) (h : Owes c eta0 lambda t0 s u)
    (hh : Happens (fobosL1 eta0 (fun _ => 1) lambda thresh t0) c s e r ev s') :
    ∃ u', Happens (eagerL1 eta0 lambda c.biasEta0 thresh') c u e r ev u' ∧ Owes c eta0 lambda t0 s' u' ∧
      ∃ s0 s1 p, (fobosL1 eta0 (fun _ => 1) lambda thresh t0).beginIter (enter (fobosL1 eta0 (fun _ => 1) lambda thresh t0) s e.x) e.x
          = .ok s0 ∧ (fobosL1 eta0 (fun _ => 1) lambda thresh t0).prep c s0 e.x = .ok s1 ∧ predict c s1 e.x = .ok (p, ev.pred) ∧
        predict c (enter (eagerL1 eta0 lambda c.biasEta0 thresh') u e.x) e.x = .ok (p, ev.pred) := by
  set G := fobosL1 eta0 (fun _ => 1) lambda thresh t0 with hG
  set E : Alg α Unit := eagerL1 eta0 lambda c.biasEta0 thresh' with hE
  have hsafe : Safe c G stamps (fun _ => stamps) := safe_fobosL1_fresh c eta0 _ lambda thresh t0
  obtain ⟨s0, s1, p, h0, h1, h2, h3, h4, h5⟩ := hh
  obtain ⟨s0', h0', hf0, hs0⟩ := hsafe.start s e.x h.fit hx
  rw [h0] at h0'
  obtain rfl := Res.ok.inj h0'
  have hd0 : s0.dim = max s.dim (Sparse.dim e.x) := by rw [hs0.dim, enter_dim]
  obtain ⟨s1', h1', hf1, hs1⟩ := hsafe.prep s0 e.x hf0 hx (by omega)
  rw [h1] at h1'
  obtain rfl := Res.ok.inj h1'
  have hd1 : s1.dim = max s.dim (Sparse.dim e.x) := by rw [hs1.dim, hd0]
  obtain ⟨ef1, ef2, ef3, ef4, ef5, ef6, ef7, ef8⟩ := enter_fields G s e.x
  have hfe : Fit c (none' _) (enter G s e.x) := enter_fit h.fit e.x
  have h0eq : s0 = { enter G s e.x with alg := lazyBegin t0 (enter G s e.x).alg (Sparse.dim e.x) } := (Res.ok.inj h0).symm
  have halg : (enter G s e.x).alg = s.alg := by
    simp only [enter, updateDim]
    split <;> rfl
  have h0alg : s0.alg = lazyBegin t0 s.alg (Sparse.dim e.x) := by rw [h0eq]; simp only; rw [halg]
  have h0w : s0.w = (enter G s e.x).w := by rw [h0eq]
  have hlen0 : s0.alg.length = s0.dim := hf0.alg
  have hprep : s1 = { s0 with w := s0.w.map (fun w => (w.mapIdx (touch e.x fun i a _ =>
      trunc a (s0.eta * lambda * ((s0.t - 1 - s0.alg.getD i 0 : Int) : α)))).mapIdx (atZero fun v => trunc v (biasEta c s0 * lambda))) } := by
    have : G.prep c s0 e.x = .ok { s0 with w := s0.w.map (fun w => (w.mapIdx (touch e.x fun i a _ =>
      trunc a (s0.eta * lambda * ((s0.t - 1 - s0.alg.getD i 0 : Int) : α)))).mapIdx (atZero fun v => trunc v (biasEta c s0 * lambda))) } := by
      show (eachAll (fobosTrunc (s0.eta * lambda) (biasEta c s0 * lambda) (s0.t - 1) s0.alg e.x) s0.w >>= _) = _
      rw [eachAll_closed _ s0.w fun v hv => fobosTrunc_closed _ _ _ hx.1 (by rw [hf0.w.2 v hv]; exact hf0.dim)
        (by rw [hlen0, hf0.w.2 v hv])]
      rfl
    rw [this] at h1
    exact (Res.ok.inj h1).symm
  have e0 : s0.eta = s.eta ∧ s0.t = s.t + 1 ∧ s0.g = s.g ∧ s0.margin = s.margin ∧ s0.vi = s.vi ∧ s0.data = s.data + 1 ∧
      s0.upd = s.upd ∧ s0.err = s.err := by
    rw [h0eq]
    exact ⟨ef2, ef5, ef1, ef3, ef4, ef6, ef7, ef8⟩
  obtain ⟨e01, e02, e03, e04, e05, e06, e07, e08⟩ := e0
  have e1 : s1.eta = s.eta ∧ s1.t = s.t + 1 ∧ s1.g = s.g ∧ s1.margin = s.margin ∧ s1.vi = s.vi ∧ s1.data = s.data + 1 ∧
      s1.upd = s.upd ∧ s1.err = s.err ∧ s1.alg = s0.alg := by
    rw [hprep]
    exact ⟨e01, e02, e03, e04, e05, e06, e07, e08, rfl⟩
  obtain ⟨e11, e12, e13, e14, e15, e16, e17, e18, e19⟩ := e1
  have hlast : ∀ (i : Nat), i < s1.dim → s1.alg.getD i 0 = if i < s.dim then s.alg.getD i 0 else t0 := by
    intro i hi
    have hsl : s.alg.length = s.dim := h.fit.alg
    rw [e19, h0alg, lazyBegin_getD _ _ _ _ (by rw [hsl, ← hd1]; exact hi), hsl]
  have h00 : featureAt e.x 0 = none := by
    cases hf : featureAt e.x 0 with
    | none => rfl
    | some y => have := hx1 _ (featureAt_some hf); simp at this
  have hcell : ∀ k < c.clf, ∀ i < s1.dim, cell s1.w k i
      = if i = 0 ∨ (∃ y, (i, y) ∈ e.x) then cell u.w k i else cell s.w k i := by
    intro k hkc i hi
    have hv : (s0.w.getD k []).length = s0.dim := hf0.w.2 _ (cell_mem hf0.w.1 hkc)
    have hi0 : i < s0.dim := by omega
    have hcs : coord (s0.w.getD k []) i = cell s.w k i := by
      rw [h0w]
      exact enter_cell h.fit e.x k i hkc
    rw [hprep]
    show cell (s0.w.map _) k i = _
    rw [cell_map _ hf0.w.1 k i hkc, coord_mapIdx _ (by rw [List.length_mapIdx, hv]; exact hi0), coord_mapIdx _ (by rw [hv]; exact hi0), hcs]
    by_cases hz : i = 0
    · subst hz
      have hpos := h.pos
      rw [if_pos (.inl rfl)]
      simp only [atZero, if_true, touch, h00, biasEta, e01]
      rw [trunc_soft (by positivity), h.bias k hkc]
    · simp only [atZero, hz, if_false, false_or]
      by_cases hin : ∃ y, (i, y) ∈ e.x
      · obtain ⟨y, hy⟩ := hin
        rw [if_pos ⟨y, hy⟩]
        simp only [touch, featureAt_mem hx.1 hy]
        rw [e02, e01, ← e19, hlast i hi, add_sub_cancel_right]
        have hpos := h.pos
        by_cases h4 : i < s.dim
        · have h5 : (0 : α) ≤ ((s.t - s.alg.getD i 0 : Int) : α) := by
            have := h.past i h4
            exact_mod_cast (by omega : (0:Int) ≤ s.t - s.alg.getD i 0)
          rw [if_pos h4, h.weights k hkc i (by omega) h4, trunc_soft (by positivity)]
        · have h5 : (0 : α) ≤ ((s.t - t0 : Int) : α) := by
            have := h.before
            exact_mod_cast (by omega : (0:Int) ≤ s.t - t0)
          rw [if_neg h4, trunc_soft (by positivity), cell_out h.fit.w k i hkc (by omega), soft_zero (by positivity),
            cell_out h.fit'.w k i hkc (by rw [h.dim]; omega)]
      · rw [if_neg hin]
        have : featureAt e.x i = none := by
          cases hf : featureAt e.x i with
          | none => rfl
          | some y => exact absurd ⟨y, featureAt_some hf⟩ hin
        simp only [touch, this]
  -- the eager algorithm
  set u1 := enter E u e.x with hu1
  obtain ⟨g1, g2, g3, g4, g5, g6, g7, g8⟩ := enter_fields E u e.x
  have hfu : Fit c (none' Unit) u1 := enter_fit h.fit' e.x
  have hdu : u1.dim = s1.dim := by rw [hu1, enter_dim, hd1, h.dim]
  have hcu : ∀ k < c.clf, ∀ i, cell u1.w k i = cell u.w k i := fun k hkc i => enter_cell h.fit' e.x k i hkc
  have hpred : predict c u1 e.x = .ok (p, ev.pred) := by
    rw [← h2]
    refine (predict_congr hf1 hfu hx.1 fun k hkc i hi => ?_).symm
    have hid : i < s1.dim := by
      rcases hi with rfl | ⟨y, hy⟩
      · exact hf1.dim
      · have := hx.lt_dim _ hy
        simp only at this
        omega
    rw [hcell k hkc i hid, if_pos hi, hcu k hkc]
  have hskip : ev.skip = false := by
    unfold skipped at h3
    rw [hsm] at h3
    simpa using h3
  have hinput : costMargin c e.label u1.margin = costMargin c e.label s1.margin ∧ u1.vi = s1.vi ∧ u1.g = s1.g := by
    rw [show u1.margin = s1.margin by rw [g3, h.margin, e14]]
    exact ⟨rfl, by rw [g4, h.vi, e15], by rw [g1, h.g, e13]⟩
  simp only [trainOne, iterate, h0, h1, h2, h3, Res.bind_ok, hskip, Bool.false_eq_true, if_false] at h5
  obtain ⟨⟨sx, pred⟩, h6, h7⟩ := Res.bind_eq_ok.1 h5
  obtain ⟨sy, h8, h9⟩ := Res.bind_eq_ok.1 h6
  simp only [Res.ok.injEq, Prod.mk.injEq] at h9
  obtain ⟨rfl, rfl⟩ := h9
  simp only [learn] at h8
  obtain ⟨⟨l, g, m, v⟩, h10, h11⟩ := Res.bind_eq_ok.1 h8
  obtain ⟨s2, h12, h13⟩ := Res.bind_eq_ok.1 h11
  have hc : 1 ≤ c.clf := by
    unfold Matches at hk
    split at hk <;> omega
  obtain ⟨⟨p', pr'⟩, hp1, hp2, hp3⟩ := gives_predict (s := s1) hc hx.1 hf1.dim hf1.w
  rw [h2] at hp1
  obtain ⟨rfl, rfl⟩ := Prod.mk.inj (Res.ok.inj hp1)
  have hgl : g.length = c.clf := gradient_length hk hp2 hf1.g hlab hp3 h10
  have h10' : gradient c.kind (costMargin c e.label u1.margin) none u1.vi e.label p ev.pred u1.g = .ok (l, g, m, v) := by
    rw [hinput.1, hinput.2.1, hinput.2.2]
    exact h10
  obtain ⟨last, h14, h15⟩ := Res.bind_eq_ok.1 (show (lazyEnd s2 s2.alg e.x >>= fun last => .ok { s2 with alg := last }) = .ok sy from h13)
  obtain rfl := Res.ok.inj h15
  -- both update in the same way
  have main : ∃ (u2 : St α Unit) (δ : Nat → α), maybeUpdate E c { u1 with g := g, margin := m, vi := v } e ev.pred l = .ok u2 ∧
      s2.dim = s1.dim ∧ Fit c stamps s2 ∧ Fit c (none' Unit) u2 ∧ u2.dim = s2.dim ∧ u2.g = s2.g ∧ u2.eta = s2.eta ∧
      u2.margin = s2.margin ∧ u2.vi = s2.vi ∧ u2.t = s2.t ∧ u2.data = s2.data ∧ u2.upd = s2.upd ∧ u2.err = s2.err ∧
      0 ≤ s2.eta ∧ s2.t = s.t + 1 ∧ s2.alg = s1.alg ∧
      (∀ k < c.clf, ∀ i, cell s2.w k i = cell s1.w k i - δ k * dir c.biasEta0 e.x i) ∧
      (∀ k < c.clf, ∀ i, cell u2.w k i = cell u1.w k i - δ k * dir c.biasEta0 e.x i) ∧
      (s2.eta = eta0 ∨ (s2.eta = s.eta ∧ ∀ k < c.clf, δ k = 0)) := by
    unfold maybeUpdate at h12 ⊢
    by_cases hf : fires c ev.pred e.label l = true
    · rw [if_pos hf] at h12 ⊢
      have hupd : G.update c { s1 with g := g, margin := m, vi := v, upd := s1.upd + 1 } e.x l
          = etaStep c { s1 with g := g, margin := m, vi := v, upd := s1.upd + 1, eta := eta0 } e.x := by
        show etaStep c { s1 with g := g, margin := m, vi := v, upd := s1.upd + 1, eta := eta0 / 1 } e.x = _
        rw [div_one]
      obtain ⟨w2, q1, q2, q3⟩ := etaStep_cell (c := c) (inv := stamps)
        (s := { s1 with g := g, margin := m, vi := v, upd := s1.upd + 1, eta := eta0 }) ⟨hf1.dim, hf1.w, hgl, hf1.alg⟩ hx
        (by show _ ≤ s1.dim; omega)
      obtain ⟨w2', q1', q2', q3'⟩ := etaStep_cell (c := c) (inv := none' Unit)
        (s := { u1 with g := g, margin := m, vi := v, upd := u1.upd + 1, eta := eta0 }) ⟨hfu.dim, hfu.w, hgl, trivial⟩ hx
        (by show _ ≤ u1.dim; omega)
      have h12' : G.update c { s1 with g := g, margin := m, vi := v, upd := s1.upd + 1 } e.x l = .ok s2 := h12
      rw [hupd, q1] at h12'
      obtain rfl := Res.ok.inj h12'
      refine ⟨_, fun k => eta0 * g.getD k 0, q1', rfl, ⟨hf1.dim, q2, hgl, hf1.alg⟩, ⟨hfu.dim, q2', hgl, trivial⟩, hdu, rfl, rfl, rfl, rfl,
        ?_, ?_, ?_, ?_, he0, e12, rfl, q3, q3', .inl rfl⟩
      · show u1.t = s1.t
        rw [g5, h.t, e12]
      · show u1.data = s1.data
        rw [g6, h.data, e16]
      · show u1.upd + 1 = s1.upd + 1
        rw [g7, h.upd, e17]
      · show u1.err = s1.err
        rw [g8, h.err, e18]
    · rw [if_neg hf] at h12 ⊢
      obtain rfl := Res.ok.inj h12
      refine ⟨_, fun _ => 0, rfl, rfl, ⟨hf1.dim, hf1.w, hgl, hf1.alg⟩, ⟨hfu.dim, hfu.w, hgl, trivial⟩, hdu, rfl, ?_, rfl, rfl,
        ?_, ?_, ?_, ?_, ?_, e12, rfl, fun k _ i => by simp, fun k _ i => by simp, .inr ⟨e11, fun _ _ => rfl⟩⟩
      · show u1.eta = s1.eta
        rw [g2, h.eta, e11]
      · show u1.t = s1.t
        rw [g5, h.t, e12]
      · show u1.data = s1.data
        rw [g6, h.data, e16]
      · show u1.upd = s1.upd
        rw [g7, h.upd, e17]
      · show u1.err = s1.err
        rw [g8, h.err, e18]
      · show 0 ≤ s1.eta
        rw [e11]
        exact h.pos
  obtain ⟨u2, δ, m1, m2, m3, m4, m5, m6, m7, m8, m9, m10, m11, m12, m13, m14, m15, m16, m17, m18, m19⟩ := main
  have hclose := fun n => owes_close (t0 := t0) (last := last) (δ := δ) hl hb h hx.1 hx1 (by omega) m3 m4 m5 m6 m7 m8 m9 m10 m11 m12 m13
    m14 m15 (fun i hi => by rw [m16]; exact hlast i (by omega)) (fun k hkc i hi => by rw [m17 k hkc, hcell k hkc i (by omega)])
    (fun k hkc i => by rw [m18 k hkc, hcu k hkc]) m19 h14 n
  have htrain : trainOne E c u e r = .ok (if ev.pred ≠ e.label then
      { u2 with w := u2.w.map (shrink (u2.eta * lambda) (c.biasEta0 * u2.eta * lambda)), err := u2.err + 1 } else
      { u2 with w := u2.w.map (shrink (u2.eta * lambda) (c.biasEta0 * u2.eta * lambda)) }) := by
    have hskipE : skipped c p ev.pred r = .ok false := by rw [h3, hskip]
    have hi : iterate E c u e r = .ok ({ u2 with w := u2.w.map (shrink (u2.eta * lambda) (c.biasEta0 * u2.eta * lambda)) }, ev.pred) := by
      show (predict c u1 e.x >>= _) = _
      rw [hpred, Res.bind_ok]
      simp only [hskipE, Res.bind_ok, Bool.false_eq_true, if_false]
      have : learn E c u1 e p ev.pred
          = .ok { u2 with w := u2.w.map (shrink (u2.eta * lambda) (c.biasEta0 * u2.eta * lambda)) } := by
        unfold learn
        rw [show E.handler c u1 e.x = none from rfl, h10', Res.bind_ok]
        simp only [m1, Res.bind_ok]
        rfl
      rw [this, Res.bind_ok]
    unfold trainOne
    rw [hi, Res.bind_ok]
  refine ⟨_, ⟨u1, u1, p, rfl, rfl, hpred, h3, ?_, htrain⟩, ?_, s0, s1, p, h0, h1, h2, hpred⟩
  · rw [h4]
    constructor
    · rintro ⟨a, l', g', m', v', b, d⟩
      refine ⟨a, l', g', m', v', ?_, d⟩
      show gradient c.kind (costMargin c e.label u1.margin) none u1.vi e.label p ev.pred u1.g = _
      rw [hinput.1, hinput.2.1, hinput.2.2]
      exact b
    · rintro ⟨a, l', g', m', v', b, d⟩
      refine ⟨a, l', g', m', v', ?_, d⟩
      have b' : gradient c.kind (costMargin c e.label u1.margin) none u1.vi e.label p ev.pred u1.g = .ok (l', g', m', v') := b
      rw [hinput.1, hinput.2.1, hinput.2.2] at b'
      exact b'
  · obtain rfl := Res.ok.inj h7
    by_cases hne : ev.pred ≠ e.label
    · rw [if_pos hne, if_pos hne]
      have := hclose (u2.err + 1)
      rw [m13] at this ⊢
      exact this
    · rw [if_neg hne, if_neg hne]
      have := hclose u2.err
      rw [show ({ s2 with alg := last, err := u2.err } : St α (List Int)) = { s2 with alg := last } by rw [m13]] at this
      exact this

/-- `EndTrain` of both algorithms. -/
theorem owes_end {c : Cfg α} {eta0 lambda thresh : α} {t0 : Int} (hl : 0 ≤ lambda) (hb : 0 ≤ c.biasEta0)
    {s : St α (List Int)} {u : St α Unit} (h : Owes c eta0 lambda t0 s u) :
    ∃ s' u', (fobosL1 eta0 (fun _ => 1) lambda thresh t0).endTrain c s = .ok s' ∧
      (eagerL1 eta0 lambda c.biasEta0 thresh).endTrain c u = .ok u' ∧ s'.dim = u'.dim ∧
      (∀ k < c.clf, ∀ i, 1 ≤ i → cell s'.w k i = cell u'.w k i) ∧
      ∀ k < c.clf, cell s.w k 0 = 0 → cell s'.w k 0 = 0 ∧ cell u'.w k 0 = 0 := by
  have hal : s.alg.length = s.dim := h.fit.alg
  set F : List α → List α := fun w => List.zipWith (fun a l => trunc a (s.eta * lambda * ((s.t - l : Int) : α))) w s.alg with hF
  have h1 : stgEnd lambda s s.alg = .ok (s.w.map F) := by
    unfold stgEnd
    refine eachAll_closed _ s.w fun v hv => ?_
    unfold dense2
    rw [if_pos (by rw [h.fit.w.2 v hv, hal])]
  have hFlen : ∀ v ∈ s.w, (F v).length = s.dim := fun v hv => by simp [hF, h.fit.w.2 v hv, hal]
  have h2 : eachAll (atBias fun v => trunc v (biasEta c s * lambda)) (s.w.map F)
      = .ok ((s.w.map F).map fun v => v.mapIdx (atZero fun v => trunc v (biasEta c s * lambda))) := by
    refine eachAll_closed _ _ fun v hv => ?_
    obtain ⟨v', hv', rfl⟩ := List.mem_map.1 hv
    exact atBias_closed _ (by rw [hFlen v' hv']; exact h.fit.dim)
  have hth : ∀ v : α, (if v <? thresh && -thresh <? v then 0 else v) = if |v| < thresh then 0 else v := by
    intro v
    by_cases hv : |v| < thresh
    · rw [if_pos hv, if_pos (by have := abs_lt.1 hv; simp [this.1, this.2])]
    · rw [if_neg hv, if_neg (by
        intro hc
        simp only [Bool.and_eq_true, flt_iff] at hc
        exact hv (abs_lt.2 ⟨hc.2, hc.1⟩))]
  have hcellS : ∀ k < c.clf, ∀ i < s.dim, cell (((s.w.map F).map fun v => v.mapIdx (atZero fun v => trunc v (biasEta c s * lambda))).map
      (sparsify thresh)) k i = (fun v => if |v| < thresh then 0 else v) (atZero (fun v => trunc v (biasEta c s * lambda)) i
        (trunc (cell s.w k i) (s.eta * lambda * ((s.t - s.alg.getD i 0 : Int) : α)))) := by
    intro k hk i hi
    have hmem := cell_mem h.fit.w.1 hk
    have hlen := h.fit.w.2 _ hmem
    rw [List.map_map, List.map_map, cell_map _ h.fit.w.1 k i hk]
    simp only [Function.comp, sparsify]
    have hcm : ∀ (f : α → α) (w : List α), i < w.length → coord (w.map f) i = f (coord w i) := by
      intro f w hw
      rw [coord_lt (by simpa using hw), coord_lt hw]
      simp
    rw [hcm _ _ (by rw [List.length_mapIdx, hFlen _ hmem]; exact hi), coord_mapIdx _ (by rw [hFlen _ hmem]; exact hi), hth]
    have : coord (F (s.w.getD k [])) i = trunc (cell s.w k i) (s.eta * lambda * ((s.t - s.alg.getD i 0 : Int) : α)) := by
      rw [coord_lt (by rw [hFlen _ hmem]; exact hi)]
      simp only [hF, List.getElem_zipWith]
      rw [show cell s.w k i = (s.w.getD k [])[i]'(by rw [hlen]; exact hi) from coord_lt _]
      congr 4
      simp [List.getD_eq_getElem?_getD, show i < s.alg.length by omega]
    rw [this]
  have hcellU : ∀ k < c.clf, ∀ i < u.dim, cell (u.w.map (List.map fun v => if |v| < thresh then 0 else v)) k i
      = (fun v => if |v| < thresh then 0 else v) (cell u.w k i) := by
    intro k hk i hi
    have hlen := h.fit'.w.2 _ (cell_mem h.fit'.w.1 hk)
    rw [cell_map _ h.fit'.w.1 k i hk, coord_lt (by rw [List.length_map, hlen]; exact hi),
      show cell u.w k i = (u.w.getD k [])[i]'(by rw [hlen]; exact hi) from coord_lt _]
    simp
  refine ⟨{ s with w := ((s.w.map F).map (fun v => v.mapIdx (atZero fun v => trunc v (biasEta c s * lambda)))).map (sparsify thresh), fresh := false },
    _, ?_, rfl, h.dim.symm, ?_, ?_⟩
  · show (stgEnd lambda s s.alg >>= _) = _
    rw [h1, Res.bind_ok, h2, Res.bind_ok]
  · intro k hk i hi1
    show cell (((s.w.map F).map _).map _) k i = cell (u.w.map _) k i
    by_cases hi : i < s.dim
    · rw [hcellS k hk i hi, hcellU k hk i (by rw [h.dim]; exact hi)]
      congr 1
      have hp := h.past i hi
      have h5 : (0 : α) ≤ ((s.t - s.alg.getD i 0 : Int) : α) := by exact_mod_cast (by omega : (0:Int) ≤ s.t - s.alg.getD i 0)
      have := h.pos
      rw [h.weights k hk i hi1 hi, ← trunc_soft (by positivity)]
      simp [atZero, show i ≠ 0 by omega]
    · rw [cell_out (n := c.clf) (d := s.dim) ⟨by simpa using h.fit.w.1, fun v hv => ?_⟩ k i hk (by omega),
        cell_out (n := c.clf) (d := s.dim) ⟨by simpa using h.fit'.w.1, fun v hv => ?_⟩ k i hk (by omega)]
      · obtain ⟨v', hv', rfl⟩ := List.mem_map.1 hv
        simpa [h.dim] using h.fit'.w.2 v' hv'
      · obtain ⟨v1, hv1, rfl⟩ := List.mem_map.1 hv
        obtain ⟨v2, hv2, rfl⟩ := List.mem_map.1 hv1
        obtain ⟨v3, hv3, rfl⟩ := List.mem_map.1 hv2
        simpa [sparsify] using hFlen v3 hv3
  · intro k hk hz
    have hp := h.past 0 h.fit.dim
    have h5 : (0 : α) ≤ ((s.t - s.alg.getD 0 0 : Int) : α) := by exact_mod_cast (by omega : (0:Int) ≤ s.t - s.alg.getD 0 0)
    have hpos := h.pos
    constructor
    · show cell (((s.w.map F).map _).map _) k 0 = 0
      rw [hcellS k hk 0 h.fit.dim, hz, trunc_soft (by positivity), soft_zero (by positivity)]
      simp only [atZero, if_true, biasEta]
      rw [trunc_soft (by positivity), soft_zero (by positivity)]
      simp
    · show cell (u.w.map _) k 0 = 0
      rw [hcellU k hk 0 (by rw [h.dim]; exact h.fit.dim), h.bias k hk, hz, soft_zero (by positivity)]
      simp

end Sol.Olm
