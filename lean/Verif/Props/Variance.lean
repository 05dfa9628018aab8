import Verif.Proofs.Variance
import Verif.Base.F32Sqrt
import Verif.Props.Select
/-! C38: variances; C39: scales. -/

set_option linter.unusedSectionVars false

namespace Sol.Props

open Sol.Online Sol.Olm Sol.Select Sol.Sparse Sol.Loss Sol.Spec

/-! ### C38 -/

section
variable {α : Type} [Field α] [LinearOrder α] [IsStrictOrderedRing α] [FFun α] [FSqrt α]

/-- C38 for AROW with `r > 0`: starting with variances in `(0, 1]`, after any training every variance is in `(0, 1]` and at
    most what it was (1 for new features). -/
theorem C38_arow_partial (c : Cfg α) (hk : Matches c.kind c.clf) {r : α} (hr : 0 < r) (s : St α (List (List α)))
    (hs : Fit c (vecs c.clf) s) (hc : Confident 1 s.alg) (l : List (Ex α × α)) (hl : Usable c l) :
    ∃ s', trainLoop (arow r) c s l = .ok s' ∧ Moved NotUp 1 s.alg s'.alg ∧ Confident 1 s'.alg := by
  obtain ⟨s', h1, -, h2⟩ := Keeps.loop (safe_arow c r).able (keeps_arow c hr s.alg) hk l hl s hs (Moved.refl pre_down _)
  exact ⟨s', h1, confident_down one_pos hc h2⟩

/-- C38 for SOFS with `r > 0`, on a model that went through `BeginTrain`. -/
theorem C38_sofs_partial (c : Cfg α) (hk : Matches c.kind c.clf) {r : α} (hr : 0 < r) {B : Nat} (s s0 : St α (OfsSt α))
    (hs : Ready c B s) (hv : Vecs c.clf s.dim s.alg.sig) (h0 : Bare s.w) (hb : ofsBegin more (sofs r B c.clf) c B s = .ok s0)
    (hc : Confident 1 s0.alg.sig) (l : List (Ex α × α)) (hl : ∀ p ∈ l, Proper p.1.x ∧ LabelOk c.clf p.1.label) :
    ∃ s', trainLoop (sofs r B c.clf) c s0 l = .ok s' ∧ Moved NotUp 1 s0.alg.sig s'.alg.sig ∧ Confident 1 s'.alg.sig := by
  have hc1 := clf_pos hk
  obtain ⟨s1, h1, h2, h3, h4, -⟩ := gives_ofsBegin more hc1 (G := sofs r B c.clf) rfl hs hv (inside_of_bare h0)
  rw [hb] at h1
  obtain rfl := Res.ok.inj h1
  obtain ⟨s', h5, -, h6⟩ := Keeps.loop (able_sofs c hc1 r hs.budget.1) (keeps_sofs c hr B s0.alg.sig) hk l hl s0
    ⟨h2.dim, h2.dimMax, h2.w, h2.g, h3, h4.mono fun _ h => h.elim⟩ (Moved.refl pre_down _)
  exact ⟨s', h5, confident_down one_pos hc h6⟩

end

/-- C38 for CW with `phi > 0`, `a > 0`, and the losses it accepts. -/
theorem C38_cw_partial (c : Cfg ℝ) (hk : Matches c.kind c.clf) (hh : c.kind.Hinge) {a phi : ℝ} (hp : 0 < phi) (ha : 0 < a)
    (bias : Bool) (s : St ℝ (List (List ℝ))) (hs : Fit c (vecs c.clf) s) (hc : Confident a s.alg) (l : List (Ex ℝ × ℝ))
    (hl : Usable c l) :
    ∃ s', trainLoop (cw a phi bias) c s l = .ok s' ∧ Moved NotUp a s.alg s'.alg ∧ Confident a s'.alg := by
  obtain ⟨s', h1, -, h2⟩ := Keeps.loop (safe_cw c a phi bias).able (keeps_cw c hh hp ha bias s.alg hc) hk l hl s hs
    (Moved.refl pre_down _)
  exact ⟨s', h1, confident_down ha hc h2⟩

/-- C38 for ECCW with `phi > 0`, `a > 0`, two classes, no bias, and examples of norm at most `1/√a` (with the default `a`
    these are examples of norm at most one, as after normalisation). -/
theorem C38_eccw_partial (c : Cfg ℝ) (hh : c.kind = .hinge) (h1 : c.clf = 1) {a phi : ℝ} (hp : 0 < phi) (ha : 0 < a)
    (s : St ℝ (List (List ℝ))) (hs : Fit c (vecs c.clf) s) (hc : Confident a s.alg) (l : List (Ex ℝ × ℝ)) (hl : Usable c l)
    (hn : ∀ p ∈ l, a * sqnorm p.1.x ≤ 1) :
    ∃ s', trainLoop (eccw a phi false) c s l = .ok s' ∧ Moved NotUp a s.alg s'.alg ∧ Confident a s'.alg := by
  obtain ⟨s', h2, -, h3⟩ := Keeps.loop ((safe_eccw c a phi false).able.narrow fun x hx => hx.1)
    (keeps_eccw c hh h1 hp ha s.alg hc) (by rw [hh]; exact h1) l
    (fun p hp' => ⟨⟨(hl p hp').1, hn p hp'⟩, (hl p hp').2⟩) s hs (Moved.refl pre_down _)
  exact ⟨s', h2, confident_down ha hc h3⟩

/-- Two examples for a new model. -/
def stream2 {α : Type} [Zero α] [One α] [Add α] [Neg α] : List (Ex α × α) :=
  [(⟨1, [(1, 1)]⟩, 0), (⟨-1, [(1, 1), (3, 1 + 1)]⟩, 0)]

/-- A new model, whose own numbers are all 1, and a stream meet the hypotheses (also for the reals). -/
theorem C38_hypotheses : Matches (cfg1 (α := ℝ)).kind 1 ∧ Fit (cfg1 (α := ℝ)) (vecs 1) (model1 [[1]]) ∧
    Confident (1 : ℝ) [[1]] ∧ Usable (cfg1 (α := ℝ)) stream2 ∧ (cfg1 (α := ℝ)).kind.Hinge ∧
    (1 / 8 : ℝ) * sqnorm [(1, (1 : ℝ)), (3, 1 + 1)] ≤ 1 := by
  refine ⟨rfl, ⟨by decide, ⟨rfl, by simp [model1]⟩, rfl, ⟨rfl, by simp [model1]⟩⟩, ?_, ?_, .inl rfl, ?_⟩
  · intro k i b hb
    match k, i with
    | 0, 0 => obtain rfl : (1 : ℝ) = b := by simpa [entry] using hb
              norm_num
    | 0, i + 1 => simp [entry] at hb
    | k + 1, i => simp [entry] at hb
  · intro p hp
    simp only [stream2, List.mem_cons, List.not_mem_nil, or_false] at hp
    rcases hp with rfl | rfl <;> simp [Good, Ascending, LabelOk, cfg1]
  · norm_num [sqnorm]

/-- AROW and SOFS on the stream. -/
theorem C38_instance :
    letI : FFun Rat := unusedFun
    letI : FSqrt Rat := ⟨fun a => a⟩
    (Yields (trainLoop (arow (α := Rat) 1) cfg1 (model1 [[1]]) stream2) fun s => s.alg = [[1 / 3, 1 / 3, 1, 1 / 5]]) ∧
    (Yields (do let s ← ofsBegin more (sofs (α := Rat) 1 1 1) cfg1 1 (model1 (noOfs 1))
                trainLoop (sofs 1 1 1) cfg1 s stream2) fun s => s.alg.sig = [[1 / 3, 1 / 3, 1, 1 / 5]]) ∧
    (Yields (do let s ← ofsBegin more (sofs (α := Rat) 1 2 3) cfg3 2 (model3 (noOfs3 1))
                trainLoop (sofs 1 2 3) cfg3 s (stream5.take 2)) fun s => s.alg.sig =
      [[1 / 3, 4 / 5, 1 / 2, 1, 1 / 5], [1 / 2, 1, 1, 1, 1 / 5], [1 / 2, 4 / 5, 1 / 2, 1, 1]]) := by
  decide +kernel

/-- CW on the stream, with `phi = 1/2`, in binary32. -/
theorem C38_instance_cw :
    letI : FFun F32 := unusedFun
    Yields (trainLoop (cw (α := F32) 1 (.fin (1 / 2)) false) cfg1 (model1 [[1]]) stream2) fun s =>
      s.alg = [[.fin (10139125 / 16777216), .fin (10139125 / 16777216), .fin 1, .fin (7786333 / 16777216)]] := by
  decide +kernel

/-- C38 fails.  The parameter `r` of AROW is not checked: with -2 the variances double.
    ECCW uses `phi * v` where the algorithm needs `phi * sqrt v`, so with the default parameters (`a = 1`, `phi = 0.5244`)
    seeing the same example twice lowers the variance from 1 to 0.537 and then raises it to 0.604; the second
    update also moves the weight away from the label, from 0.464 to 0.394. -/
theorem C38_is_violated :
    letI : FFun Rat := unusedFun
    letI : FSqrt Rat := ⟨fun a => a⟩
    letI : FFun F32 := unusedFun
    let phi := F32.round (5244 / 10000)
    let e : Ex F32 × F32 := (⟨1, [(1, .fin 2)]⟩, 0)
    (Yields (trainLoop (arow (α := Rat) (-2)) cfg1 (model1 [[1]]) [(⟨1, [(1, 1)]⟩, 0)]) fun s => s.alg = [[2, 2]]) ∧
    (Yields (trainLoop (eccw (α := F32) 1 phi false) cfg1 (model1 [[1]]) [e]) fun s =>
      s.alg = [[.fin (13800645 / 16777216), .fin (9006771 / 16777216)]] ∧ s.w = [[0, .fin (15583259 / 33554432)]]) ∧
    (Yields (trainLoop (eccw (α := F32) 1 phi false) cfg1 (model1 [[1]]) [e, e]) fun s =>
      s.alg = [[.fin (7206589 / 8388608), .fin (2532675 / 4194304)]] ∧ s.w = [[0, .fin (3305337 / 8388608)]]) := by
  decide +kernel

/-- With rounding C38 fails for CW too: when the square of a feature value underflows, `Vi_` is 0 while the loss is not, the
    step size is 0/0, and weights and variances become NaN. -/
theorem C38_underflow_is_violated :
    letI : FFun F32 := unusedFun
    Yields (trainLoop (cw (α := F32) 1 (F32.round (5244 / 10000)) false) cfg1 (model1 [[1]])
      [(⟨1, [(1, 1)]⟩, 0), (⟨-1, [(1, .fin (1 / 2 ^ 80))]⟩, 0)]) fun s => s.alg = [[.nan, .nan]] ∧ s.w = [[.nan, .nan]] := by
  decide +kernel

/-! ### C39 -/

theorem up_not_down {delta : ℝ} {T : Nat → Prop} {v v' : List (List ℝ)} (hv : Above delta v) (h : Moved (Up delta T) delta v v') :
    Moved (NotDown T) delta v v' ∧ Above delta v' := by
  have h0 : ∀ k i, delta ≤ (entry v k i).getD delta := by
    intro k i
    cases he : entry v k i with
    | none => exact le_rfl
    | some b => exact hv k i b he
  exact ⟨⟨h.classes, h.kept, fun k i b hb => ⟨(h.rel k i b hb).1 (h0 k i), (h.rel k i b hb).2⟩⟩,
    fun k i b hb => (h0 k i).trans ((h.rel k i b hb).1 (h0 k i))⟩

theorem within_occurs {l : List (Ex ℝ × ℝ)} {p : Ex ℝ × ℝ} (hp : p ∈ l) : Within (Occurs l) p.1.x :=
  fun q hq => ⟨p, hp, q.2, hq⟩

/-- C39 for AdaFOBOS: scales stay at least `delta` and never decrease; those of features that do not occur stay. -/
theorem C39_adaFobos (c : Cfg ℝ) (hk : Matches c.kind c.clf) (delta : ℝ) (s : St ℝ (List (List ℝ)))
    (hs : Fit c (vecs c.clf) s) (hd : Above delta s.alg) (l : List (Ex ℝ × ℝ)) (hl : Usable c l) :
    ∃ s', trainLoop (adaFobos delta) c s l = .ok s' ∧ Moved (NotDown (Occurs l)) delta s.alg s'.alg ∧ Above delta s'.alg := by
  obtain ⟨s', h1, -, h2⟩ := Keeps.loop ((safe_adaFobos c delta).able.narrow fun x hx => hx.1)
    (keeps_adaFobos c delta (Occurs l) s.alg) hk l (fun p hp => ⟨⟨(hl p hp).1, within_occurs hp⟩, (hl p hp).2⟩) s hs
    (Moved.refl (pre_up _ _) _)
  exact ⟨s', h1, up_not_down hd h2⟩

/-- C39 for AdaFOBOS-L1. -/
theorem C39_adaFobosL1 (c : Cfg ℝ) (hk : Matches c.kind c.clf) (delta lambda thresh : ℝ) (t0 : Int) (s : St ℝ (AdaL1 ℝ))
    (hs : Fit c (adaL1Inv c.clf) s) (hd : Above delta s.alg.H) (l : List (Ex ℝ × ℝ)) (hl : Usable c l) :
    ∃ s', trainLoop (adaFobosL1 delta lambda thresh t0) c s l = .ok s' ∧
      Moved (NotDown (Occurs l)) delta s.alg.H s'.alg.H ∧ Above delta s'.alg.H := by
  obtain ⟨s', h1, -, h2⟩ := Keeps.loop ((safe_adaFobosL1 c delta lambda thresh t0).able.narrow fun x hx => hx.1)
    (keeps_adaFobosL1 c delta lambda thresh t0 (Occurs l) s.alg.H) hk l
    (fun p hp => ⟨⟨(hl p hp).1, within_occurs hp⟩, (hl p hp).2⟩) s hs (Moved.refl (pre_up _ _) _)
  exact ⟨s', h1, up_not_down hd h2⟩

/-- C39 for AdaRDA. -/
theorem C39_adaRda (c : Cfg ℝ) (hk : Matches c.kind c.clf) (delta : ℝ) (s : St ℝ (AdaRdaSt ℝ))
    (hs : Fit c (adaRdaInv c.clf) s) (hd : Above delta s.alg.H) (l : List (Ex ℝ × ℝ)) (hl : Usable c l) :
    ∃ s', trainLoop (adaRda delta) c s l = .ok s' ∧
      Moved (NotDown (Occurs l)) delta s.alg.H s'.alg.H ∧ Above delta s'.alg.H := by
  obtain ⟨s', h1, -, h2⟩ := Keeps.loop ((safe_adaRda c delta).able.narrow fun x hx => hx.1)
    (keeps_adaRda c delta (Occurs l) s.alg.H) hk l (fun p hp => ⟨⟨(hl p hp).1, within_occurs hp⟩, (hl p hp).2⟩) s hs
    (Moved.refl (pre_up _ _) _)
  exact ⟨s', h1, up_not_down hd h2⟩

/-- C39 for AdaRDA-L1. -/
theorem C39_adaRdaL1 (c : Cfg ℝ) (hk : Matches c.kind c.clf) (delta lambda thresh : ℝ) (s : St ℝ (AdaRdaSt ℝ))
    (hs : Fit c (adaRdaInv c.clf) s) (hd : Above delta s.alg.H) (l : List (Ex ℝ × ℝ)) (hl : Usable c l) :
    ∃ s', trainLoop (adaRdaL1 delta lambda thresh) c s l = .ok s' ∧
      Moved (NotDown (Occurs l)) delta s.alg.H s'.alg.H ∧ Above delta s'.alg.H := by
  obtain ⟨s', h1, -, h2⟩ := Keeps.loop ((safe_adaRdaL1 c delta lambda thresh).able.narrow fun x hx => hx.1)
    (keeps_adaRdaL1 c delta lambda thresh (Occurs l) s.alg.H) hk l
    (fun p hp => ⟨⟨(hl p hp).1, within_occurs hp⟩, (hl p hp).2⟩) s hs (Moved.refl (pre_up _ _) _)
  exact ⟨s', h1, up_not_down hd h2⟩

/-- C39 for AdaFOBOS-OFS, on a model that went through `BeginTrain`. -/
theorem C39_adaFobosOfs (c : Cfg ℝ) (hk : Matches c.kind c.clf) (delta : ℝ) {B : Nat} (s s0 : St ℝ (OfsSt ℝ))
    (hs : Ready c B s) (hv : Vecs c.clf s.dim s.alg.sig) (h0 : Bare s.w)
    (hb : ofsBegin less (adaFobosOfs delta B c.clf) c B s = .ok s0)
    (hd : Above delta s0.alg.sig) (l : List (Ex ℝ × ℝ)) (hl : ∀ p ∈ l, Proper p.1.x ∧ LabelOk c.clf p.1.label) :
    ∃ s', trainLoop (adaFobosOfs delta B c.clf) c s0 l = .ok s' ∧
      Moved (NotDown (Occurs l)) delta s0.alg.sig s'.alg.sig ∧ Above delta s'.alg.sig := by
  have hc1 := clf_pos hk
  obtain ⟨s1, h1, h2, h3, h4, -⟩ := gives_ofsBegin less hc1 (G := adaFobosOfs delta B c.clf) rfl hs hv (inside_of_bare h0)
  rw [hb] at h1
  obtain rfl := Res.ok.inj h1
  obtain ⟨s', h5, -, h6⟩ := Keeps.loop ((able_adaFobosOfs c hc1 delta hs.budget.1).narrow fun x hx => hx.1)
    (keeps_adaFobosOfs c delta B (Occurs l) s0.alg.sig) hk l
    (fun p hp => ⟨⟨(hl p hp).1, within_occurs hp⟩, (hl p hp).2⟩) s0
    ⟨h2.dim, h2.dimMax, h2.w, h2.g, h3, h4.mono fun _ h => h.elim⟩ (Moved.refl (pre_up _ _) _)
  exact ⟨s', h5, up_not_down hd h6⟩

/-- C39 for AdaRDA-OFS, on a model that went through `BeginTrain`. -/
theorem C39_adaRdaOfs (c : Cfg ℝ) (hk : Matches c.kind c.clf) (delta : ℝ) {B : Nat} (s s0 : St ℝ (RdaOfsSt ℝ))
    (hs : Ready c B s) (hv : Vecs c.clf s.dim s.alg.ofs.sig) (hu : Vecs c.clf s.dim s.alg.ut) (h0 : Bare s.w)
    (hb : adaRdaOfsBegin (adaRdaOfs delta B c.clf) c B s = .ok s0)
    (hd : Above delta s0.alg.ofs.sig) (l : List (Ex ℝ × ℝ)) (hl : ∀ p ∈ l, Proper p.1.x ∧ LabelOk c.clf p.1.label) :
    ∃ s', trainLoop (adaRdaOfs delta B c.clf) c s0 l = .ok s' ∧
      Moved (NotDown (Occurs l)) delta s0.alg.ofs.sig s'.alg.ofs.sig ∧ Above delta s'.alg.ofs.sig := by
  have hc1 := clf_pos hk
  obtain ⟨s1, h1, h2, h3, h5, h4, -⟩ := gives_adaRdaOfsBegin hc1 (delta := delta) hs hv hu (inside_of_bare h0)
  rw [hb] at h1
  obtain rfl := Res.ok.inj h1
  obtain ⟨s', h5, -, h6⟩ := Keeps.loop ((able_adaRdaOfs c hc1 delta hs.budget.1).narrow fun x hx => hx.1)
    (keeps_adaRdaOfs c delta B (Occurs l) s0.alg.ofs.sig) hk l
    (fun p hp => ⟨⟨(hl p hp).1, within_occurs hp⟩, (hl p hp).2⟩) s0
    ⟨h2.dim, h2.dimMax, h2.w, h2.g, ⟨h3, h4.mono fun _ h => h.elim⟩, h5⟩ (Moved.refl (pre_up _ _) _)
  exact ⟨s', h5, up_not_down hd h6⟩

/-- A new model meets the hypotheses of C39. -/
theorem C39_hypotheses (delta : ℝ) : Above delta [[delta]] ∧ Fit (cfg1 (α := ℝ)) (adaRdaInv 1) (model1 ⟨[[delta]], [[0]]⟩) ∧
    ¬ Occurs (stream2 (α := ℝ)) 2 := by
  refine ⟨?_, ⟨le_rfl, ⟨rfl, by simp [model1]⟩, rfl, ⟨rfl, by simp [model1]⟩, ⟨rfl, by simp [model1]⟩⟩, ?_⟩
  · intro k i b hb
    match k, i with
    | 0, 0 => exact le_of_eq (by simpa [entry] using hb)
    | 0, i + 1 => simp [entry] at hb
    | k + 1, i => simp [entry] at hb
  · rintro ⟨p, hp, y, hy⟩
    simp only [stream2, List.mem_cons, List.not_mem_nil, or_false] at hp
    rcases hp with rfl | rfl <;> simp at hy

/-- AdaFOBOS, AdaRDA and AdaFOBOS-OFS in binary32 with `delta` 1: 3-4-5 triangles make the roots exact. -/
theorem C39_instance :
    letI : FFun F32 := unusedFun
    let l : List (Ex F32 × F32) := [(⟨1, [(1, .fin 3)]⟩, 0), (⟨-1, [(1, .fin 4), (3, .fin 2)]⟩, 0)]
    let noOfs : OfsSt F32 := ⟨[[1]], [], ⟨0, 0, [], []⟩⟩
    (Yields (trainLoop (adaFobos (α := F32) 1) cfg1 (model1 [[1]]) l) fun s =>
      s.alg = [[F32.fin (5062973 / 2097152), .fin 6, .fin 1, .fin 3]]) ∧
    (Yields (trainLoop (adaRda (α := F32) 1) cfg1 (model1 ⟨[[1]], [[0]]⟩) l) fun s =>
      s.alg.H = [[F32.fin (5062973 / 2097152), .fin 6, .fin 1, .fin 3]]) ∧
    (Yields (do let s ← ofsBegin less (adaFobosOfs (α := F32) 1 1 1) cfg1 1 (model1 noOfs)
                trainLoop (adaFobosOfs 1 1 1) cfg1 s l) fun s =>
      s.alg.sig = [[F32.fin (5062973 / 2097152), .fin 6, .fin 1, .fin 3]]) := by
  decide +kernel

end Sol.Props
