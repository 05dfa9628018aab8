import Verif.Proofs.Keeps
import Verif.Proofs.Select
import Verif.Proofs.Loss
import Mathlib.Analysis.Real.Sqrt
/-! Variances and scales during training, in exact arithmetic. -/

set_option linter.unusedSectionVars false
set_option linter.unusedVariables false

namespace Sol

/-- Square roots of real numbers. -/
noncomputable instance : FSqrt ℝ := ⟨Real.sqrt⟩

end Sol

namespace Sol.Online

open Sol.Sparse Sol.Loss Sol.Spec

variable {α A : Type} [Zero α] [One α] [Add α] [Sub α] [Mul α] [Div α] [Neg α] [FCmp α] [IntCast α] [FFun α]

/-- Fewer feature vectors. -/
theorem Able.narrow {c : Cfg α} {G : Alg α A} {X Y : SVec α → Prop} {F : St α A → Prop} {M : SVec α → St α A → Prop}
    (h : Able c G X F M) (hXY : ∀ x, Y x → X x) : Able c G Y F M where
  asc x hx := h.asc x (hXY x hx)
  shape := h.shape
  start s x hf hx := h.start s x hf (hXY x hx)
  prep s x hm hx := h.prep s x hm (hXY x hx)
  handler s x hm hx := h.handler s x hm (hXY x hx)
  update s x l hm hx := h.update s x l hm (hXY x hx)
  finish s x hm hx := h.finish s x hm (hXY x hx)
  scored := h.scored
  skip := h.skip
  count := h.count

end Sol.Online

namespace Sol.Olm

open Sol.Online Sol.Sparse Sol.Loss Sol.Spec Sol.Select

section
variable {α A : Type} [Field α] [LinearOrder α] [IsStrictOrderedRing α] [FFun α] [FSqrt α]

/-! ### Variances -/

/-- Positive numbers stay positive and do not grow. -/
def Down (_ : Nat) (old new : α) : Prop := 0 < old → 0 < new ∧ new ≤ old

theorem pre_down : Pre (Down (α := α)) :=
  ⟨fun _ _ h => ⟨h, le_refl _⟩, fun _ _ _ _ h1 h2 h => ⟨(h2 (h1 h).1).1, (h2 (h1 h).1).2.trans (h1 h).2⟩⟩

theorem down_div {i : Nat} {a b : α} (hb : 0 < a → 1 ≤ b) : Down i a (a / b) := fun h => by
  have h1 := hb h
  exact ⟨div_pos h (by linarith), div_le_self h.le h1⟩

theorem arowSig_rel {r1 : α} (hr : 0 ≤ r1) {x : SVec α} {sig sig' : List α} (h : arowSig r1 x sig = .ok sig') :
    Rel Down sig sig' := by
  simp only [arowSig, Res.bind_eq_ok] at h
  obtain ⟨s1, h1, h2⟩ := h
  refine (calcExp_rel pre_down (fun i y _ u a r hu hr' => ?_) h1).trans pre_down
    (atBias_rel pre_down (fun a => down_div fun ha => ?_) h2)
  · obtain ⟨b, hb, hb'⟩ := Res.bind_eq_ok.1 hr'
    rw [lget_eq_ok, hu] at hb
    obtain rfl := Option.some.inj hb
    obtain rfl := Res.ok.inj hb'
    refine down_div fun ha => ?_
    have := mul_nonneg (mul_nonneg ha.le (mul_self_nonneg y)) hr
    linarith
  · have := mul_nonneg ha.le hr
    linarith

theorem cwSig_rel {tmp : α} (ht : 0 ≤ tmp) {x : SVec α} {sig sig' : List α} (h : cwSig tmp x sig = .ok sig') :
    Rel Down sig sig' := by
  simp only [cwSig, Res.bind_eq_ok] at h
  obtain ⟨s1, h1, h2⟩ := h
  refine (calcExp_rel pre_down (fun i y _ u a r hu hr' => ?_) h1).trans pre_down
    (atBias_rel pre_down (fun a => down_div fun ha => ?_) h2)
  · obtain ⟨b, hb, hb'⟩ := Res.bind_eq_ok.1 hr'
    rw [lget_eq_ok, hu] at hb
    obtain rfl := Option.some.inj hb
    obtain rfl := Res.ok.inj hb'
    refine down_div fun ha => ?_
    have := mul_nonneg (mul_nonneg ht ha.le) (mul_self_nonneg y)
    linarith
  · have := mul_nonneg ht ha.le
    linarith

/-- Numbers between 0 and `a` that only went down. -/
theorem confident_down {a : α} (ha : 0 < a) {v v' : List (List α)} (hv : Confident a v) (h : Moved Down a v v') :
    Moved NotUp a v v' ∧ Confident a v' := by
  have key : ∀ k i, 0 < (entry v k i).getD a ∧ (entry v k i).getD a ≤ a := by
    intro k i
    cases he : entry v k i with
    | none => exact ⟨ha, le_refl _⟩
    | some b => exact hv k i b he
  refine ⟨⟨h.classes, h.kept, fun k i b hb => h.rel k i b hb (key k i).1⟩, fun k i b hb => ?_⟩
  have := h.rel k i b hb (key k i).1
  exact ⟨this.1, this.2.trans (key k i).2⟩

/-- `update_dim` with new numbers `a`. -/
theorem enter_moved {R : Nat → α → α → Prop} (hR : Pre R) {c : Cfg α} {G : Alg α A} {a : α} (P : A → List (List α))
    (hg : ∀ d n b, P (G.grow d n b) = growSig a d n (P b)) {s : St α A} (hv : Vecs c.clf s.dim (P s.alg)) {v : List (List α)}
    (h : Moved R a v (P s.alg)) (x : SVec α) : Moved R a v (P (enter G s x).alg) := by
  unfold enter updateDim
  split
  · simp only [hg]
    exact h.trans hR (moved_grow hR hv)
  · exact h

/-- The pairs of weights and variances after the loop over the classes. -/
theorem each1_moved {R : Nat → α → α → Prop} (hR : Pre R) {a : α} {f : α → List α × List α → Res (List α × List α)}
    (hf : ∀ g p q, f g p = .ok q → Rel R p.2 q.2) {gl : List α} {n d : Nat} {w v : List (List α)} (hw : Vecs n d w)
    (hv : Vecs n d v) {ws : List (List α × List α)} (h : each1 f gl (w.zip v) = .ok ws) :
    Moved R a v (ws.map (·.2)) := by
  have := forall_snd (each1_rel (Q := fun p q => Rel R p.2 q.2) (fun p => Rel.refl hR _) hf gl _ _ h)
  rw [map_snd_zip' _ _ (by rw [hw.1, hv.1])] at this
  exact moved_of_forall this

theorem keeps_arow (c : Cfg α) {r : α} (hr : 0 < r) (v : List (List α)) :
    Keeps c (arow r) Good (Fit c (vecs c.clf)) (fun _ => Fit c (vecs c.clf)) (fun s => Moved Down 1 v s.alg) where
  enter s x hf _ hK := enter_moved (c := c) pre_down (fun a => a) (fun _ _ _ => rfl) hf.alg hK x
  start s x s' _ hK h := by rw [← Res.ok.inj h]; exact hK
  prep s x s' _ _ hK h := by rw [← Res.ok.inj h]; exact hK
  update s x s' label p pl l g m v' u hM _ _ hK hg _ h := by
    simp only [arow, Res.bind_eq_ok] at h
    obtain ⟨beta, -, ws, h1, h2⟩ := h
    rw [← Res.ok.inj h2]
    refine hK.trans pre_down (each1_moved pre_down (fun g p q hq => ?_) hM.w hM.alg h1)
    simp only [Res.bind_eq_ok] at hq
    obtain ⟨w', -, sig, h3, h4⟩ := hq
    rw [← Res.ok.inj h4]
    exact arowSig_rel (div_nonneg (mul_self_nonneg g) hr.le) h3
  finish s x s' _ _ _ hK h := by rw [← Res.ok.inj h]; exact hK
  other s g m v t u e hK := hK

/-! ### SOFS -/

theorem settleOne_rel {R : Nat → α → α → Prop} (hR : Pre R) {cmp : α → α → Bool} {f : α → α → α} {B : Nat} (x : SVec α)
    (hf : ∀ i y, (i, y) ∈ x → ∀ a, R i a (f a y))
    (sig : List α) (h : Heap.State) (r : List α × Heap.State) (he : settleOne cmp f B x sig h = .ok r) : Rel R sig r.1 := by
  induction x generalizing sig h with
  | nil =>
    rw [← Res.ok.inj he]
    exact Rel.refl hR _
  | cons p x ih =>
    obtain ⟨i, y⟩ := p
    simp only [settleOne, Res.bind_eq_ok] at he
    obtain ⟨a, h1, sig', h2, h', h3, h4⟩ := he
    rw [lget_eq_ok] at h1
    exact (lset_rel hR h1 (hf i y List.mem_cons_self a) h2).trans hR
      (ih (fun i y hi => hf i y (List.mem_cons_of_mem _ hi)) _ _ h4)

theorem forall_single {R : Nat → α → α → Prop} {l : List (List α)} {v v' : List α} (h1 : l.length = 1) (h : lget l 0 = .ok v)
    (hv : Rel R v v') : List.Forall₂ (Rel R) l [v'] := by
  obtain ⟨u, rfl⟩ := List.length_eq_one_iff.1 h1
  rw [lget_eq_ok] at h
  obtain rfl : u = v := by simpa using h
  exact .cons hv .nil

theorem sofsSig_moved {c : Cfg α} {r : α} (hr : 0 < r) {B d : Nat} {g : List α} {a : OfsSt α} (ha : Vecs c.clf d a.sig)
    {x : SVec α} {a' : OfsSt α} (h : sofsSig r B c g a x = .ok (some a')) : Moved Down 1 a.sig a'.sig := by
  unfold sofsSig at h
  split at h
  · rename_i hc
    obtain ⟨g0, -, h⟩ := Res.bind_eq_ok.1 h
    split at h
    · simp at h
    · simp only [Res.bind_eq_ok] at h
      obtain ⟨sig, h1, sig1, h2, ⟨sig2, hp⟩, h3, h4⟩ := h
      simp only [Res.ok.injEq, Option.some.injEq] at h4
      rw [← h4]
      have hr1 : 0 ≤ g0 * g0 / r := div_nonneg (mul_self_nonneg g0) hr.le
      refine moved_of_forall (forall_single (ha.1.trans hc) h1 ((atBias_rel pre_down (fun b => down_div fun hb => ?_) h2).trans
        pre_down (settleOne_rel pre_down x (fun i y _ b => down_div fun hb => ?_) _ _ _ h3)))
      · have := mul_nonneg hb.le hr1
        linarith
      · have := mul_nonneg (mul_nonneg hb.le (mul_self_nonneg y)) hr1
        rw [mul_assoc b y y]
        linarith
  · simp only [Res.bind_eq_ok] at h
    obtain ⟨sigs, h1, ⟨sum, hp⟩, -, h2⟩ := h
    simp only [Res.ok.injEq, Option.some.injEq] at h2
    rw [← h2]
    exact moved_of_forall (each1_rel (Rel.refl pre_down) (fun g p q hq =>
      arowSig_rel (div_nonneg (mul_self_nonneg g) hr.le) hq) _ _ _ h1)

theorem keeps_sofs (c : Cfg α) {r : α} (hr : 0 < r) (B : Nat) (v : List (List α)) :
    Keeps c (sofs r B c.clf) Proper (FitW c (ofsKept c.clf B)) (fun _ => FitW c (ofsKept c.clf B))
      (fun s => Moved Down 1 v s.alg.sig) where
  enter s x hf _ hK := enter_moved (c := c) pre_down (fun a : OfsSt α => a.sig) (fun _ _ _ => rfl) hf.alg.1.sig hK x
  start s x s' _ hK h := by rw [← Res.ok.inj h]; exact hK
  prep s x s' _ _ hK h := by rw [← Res.ok.inj h]; exact hK
  update s x s' label p pl l g m v' u hM _ _ hK hg _ h := by
    simp only [sofs, sofsUpdate, Res.bind_eq_ok] at h
    obtain ⟨beta, -, ws, h1, a, h2, h3⟩ := h
    cases a with
    | none =>
      rw [← Res.ok.inj h3]
      exact hK
    | some a =>
      simp only [Res.bind_eq_ok] at h3
      obtain ⟨q, h4, h5⟩ := h3
      rw [← Res.ok.inj h5]
      show Moved Down 1 v a.sig
      exact hK.trans pre_down (sofsSig_moved hr hM.alg.1.sig h2)
  finish s x s' _ _ _ hK h := by rw [← Res.ok.inj h]; exact hK
  other s g m v t u e hK := hK

/-! ### The margin handler of CW and ECCW -/

theorem dotLoop_nonneg {op : α → α → α} {w : List α} (hop : ∀ a ∈ w, ∀ y, 0 ≤ op a y) (x : SVec α) (v : α) (hv : 0 ≤ v)
    {v' : α} (h : dotLoop op w x v = .ok v') : 0 ≤ v' := by
  induction x generalizing v with
  | nil =>
    rw [← Res.ok.inj h]
    exact hv
  | cons p x ih =>
    obtain ⟨i, y⟩ := p
    simp only [dotLoop, Res.bind_eq_ok] at h
    obtain ⟨a, h1, h2⟩ := h
    rw [lget_eq_ok] at h1
    exact ih _ (add_nonneg hv (hop a (List.mem_of_getElem? h1) y)) h2

theorem confLoop_nonneg {bias : Bool} {x : SVec α} (gl : List α) (l : List (List α)) (hl : ∀ sig ∈ l, ∀ a ∈ sig, 0 ≤ a) (v : α)
    (hv : 0 ≤ v) {v' : α} (h : confLoop bias x gl l v = .ok v') : 0 ≤ v' := by
  induction gl generalizing l v with
  | nil =>
    simp only [confLoop] at h
    rw [← Res.ok.inj h]
    exact hv
  | cons g gl ih =>
    cases l with
    | nil =>
      simp only [confLoop] at h
      rw [← Res.ok.inj h]
      exact hv
    | cons sig l =>
      simp only [confLoop, Res.bind_eq_ok] at h
      obtain ⟨v1, h1, h2⟩ := h
      refine ih l (fun s hs => hl s (List.mem_cons_of_mem _ hs)) v1 ?_ h2
      have hsig := hl sig List.mem_cons_self
      unfold confOne at h1
      split at h1
      · rw [← Res.ok.inj h1]; exact hv
      · obtain ⟨d, h3, h4⟩ := Res.bind_eq_ok.1 h1
        have hd : 0 ≤ d := dotLoop_nonneg (fun a ha y => mul_nonneg (hsig a ha) (mul_self_nonneg y)) _ 0 le_rfl h3
        have hd' : 0 ≤ v + d * (g * g) := add_nonneg hv (mul_nonneg hd (mul_self_nonneg g))
        split at h4
        · obtain ⟨s0, h5, h6⟩ := Res.bind_eq_ok.1 h4
          rw [lget_eq_ok] at h5
          rw [← Res.ok.inj h6]
          exact add_nonneg hd' (mul_nonneg (hsig s0 (List.mem_of_getElem? h5)) (mul_self_nonneg g))
        · rw [← Res.ok.inj h4]
          exact hd'

theorem fmax_nonneg (a : α) : 0 ≤ Loss.fmax 0 a := by
  unfold Loss.fmax
  split
  · rename_i h
    exact ((flt_iff _ _).1 h).le
  · exact le_rfl

/-- The hinge losses, the only ones AROW, CW and ECCW accept (`Loss::Type::HINGE`). -/
def _root_.Sol.Loss.Kind.Hinge (k : Kind) : Prop := k = .hinge ∨ k = .maxHinge ∨ k = .uniHinge

/-- With a margin handler the reported loss is not negative, and `Vi_` was computed by the handler. -/
theorem gradient_handler {k : Kind} (hk : k.Hinge) {margin v0 : α} {f : List α → Res (α × α)} {label pl : Int} {p g0 : List α}
    {l m v : α} {g : List α} (h : gradient k margin (some f) v0 label p pl g0 = .ok (l, g, m, v)) :
    0 ≤ l ∧ ∃ g', f g' = .ok (m, v) := by
  rcases hk with rfl | rfl | rfl
  · simp only [gradient, Res.bind_eq_ok, Res.ok.injEq, Prod.mk.injEq] at h
    obtain ⟨q, -, ⟨m', v'⟩, ⟨g1, -, h2⟩, g2, -, rfl, -, rfl, rfl⟩ := h
    exact ⟨fmax_nonneg _, g1, h2⟩
  · simp only [gradient, Res.bind_eq_ok] at h
    obtain ⟨q, -, a, -, b, -, g1, -, ⟨m', v'⟩, h2, h3⟩ := h
    simp only at h3
    split at h3
    · simp only [Res.bind_eq_ok, Res.ok.injEq, Prod.mk.injEq] at h3
      obtain ⟨_, -, _, -, rfl, -, rfl, rfl⟩ := h3
      exact ⟨fmax_nonneg _, g1, h2⟩
    · simp only [Res.ok.injEq, Prod.mk.injEq] at h3
      obtain ⟨rfl, -, rfl, rfl⟩ := h3
      exact ⟨fmax_nonneg _, g1, h2⟩
  · simp only [gradient, Res.bind_eq_ok] at h
    obtain ⟨⟨fp, fn⟩, -, a, -, g1, -, ⟨m', v'⟩, h2, h3⟩ := h
    simp only at h3
    split at h3 <;>
    · simp only [Res.ok.injEq, Prod.mk.injEq] at h3
      obtain ⟨rfl, -, rfl, rfl⟩ := h3
      exact ⟨le_rfl, g1, h2⟩

theorem entry_of_mem {v : List (List α)} {sig : List α} {a : α} (hs : sig ∈ v) (ha : a ∈ sig) : ∃ k i, entry v k i = some a := by
  obtain ⟨k, hk, rfl⟩ := List.getElem_of_mem hs
  obtain ⟨i, hi, rfl⟩ := List.getElem_of_mem ha
  exact ⟨k, i, by simp [entry, hk, hi]⟩

end

section
variable {α : Type}

theorem num_real (n : Int) : (num n : ℝ) = n := rfl

theorem cwAlpha_nonneg {phi vi l : ℝ} (hp : 0 < phi) (hv : 0 ≤ vi) (hl : 0 ≤ l) : 0 ≤ cwAlpha phi vi l := by
  unfold cwAlpha
  simp only [num_real]
  apply div_nonneg
  · have h : (1 + ((2 : Int) : ℝ) * phi * (phi * vi - l)) ^ 2 ≤ (1 + ((2 : Int) : ℝ) * phi * (phi * vi - l)) *
        (1 + ((2 : Int) : ℝ) * phi * (phi * vi - l)) - ((8 : Int) : ℝ) * phi * (phi * vi - l - phi * vi) := by
      have := mul_nonneg hp.le hl
      push_cast
      nlinarith
    have := (le_abs_self _).trans (Real.abs_le_sqrt h)
    show 0 ≤ -_ + Real.sqrt _
    linarith
  · push_cast
    positivity

theorem keeps_cw (c : Cfg ℝ) (hc : c.kind.Hinge) {a phi : ℝ} (hp : 0 < phi) (ha : 0 < a) (bias : Bool) (v : List (List ℝ))
    (hv : Confident a v) :
    Keeps c (cw a phi bias) Good (Fit c (vecs c.clf)) (fun _ => Fit c (vecs c.clf)) (fun s => Moved Down a v s.alg) where
  enter s x hf _ hK := enter_moved (c := c) pre_down (fun a => a) (fun _ _ _ => rfl) hf.alg hK x
  start s x s' _ hK h := by rw [← Res.ok.inj h]; exact hK
  prep s x s' _ _ hK h := by rw [← Res.ok.inj h]; exact hK
  update s x s' label p pl l g m v' u hM _ _ hK hg hgr h := by
    simp only [cw, Res.bind_eq_ok] at h
    obtain ⟨ws, h1, h2⟩ := h
    obtain ⟨hl, g', hh⟩ := gradient_handler hc hgr
    simp only [cwHandler, Res.bind_eq_ok, Res.ok.injEq, Prod.mk.injEq] at hh
    obtain ⟨v1, hcl, -, rfl⟩ := hh
    have hv1 : 0 ≤ v1 := confLoop_nonneg _ _ (fun sig hs b hb => by
      obtain ⟨k, i, he⟩ := entry_of_mem hs hb
      exact ((confident_down ha hv hK).2 k i b he).1.le) 0 le_rfl hcl
    rw [← Res.ok.inj h2]
    refine hK.trans pre_down (each1_moved pre_down (fun g p q hq => ?_) hM.w hM.alg h1)
    simp only [Res.bind_eq_ok] at hq
    obtain ⟨w', -, sig, h3, h4⟩ := hq
    rw [← Res.ok.inj h4]
    refine cwSig_rel ?_ h3
    have := cwAlpha_nonneg hp hv1 hl
    rw [num_real]
    push_cast
    positivity
  finish s x s' _ _ _ hK h := by rw [← Res.ok.inj h]; exact hK
  other s g m v t u e hK := hK

/-- The step size of ECCW is not negative when the score is at most `phi * sqrt(v)`. -/
theorem eccwAlpha_nonneg {phi vi l : ℝ} (hp : 0 < phi) (hv : 0 ≤ vi) (h : phi * vi - l ≤ phi * Real.sqrt vi) :
    0 ≤ eccwAlpha phi vi l := by
  unfold eccwAlpha
  simp only [num_real]
  apply div_nonneg
  · show 0 ≤ -(phi * vi - l) * _ + Real.sqrt _
    by_cases hm : 0 ≤ phi * vi - l
    · have h1 : ((phi * vi - l) * (1 + phi * phi / ((2 : Int) : ℝ))) ^ 2 ≤
          (phi * vi - l) * phi * phi * ((phi * vi - l) * phi * phi) * (1 / ((4 : Int) : ℝ)) + vi * phi * phi * (1 + phi * phi) := by
        have h2 : (phi * vi - l) ^ 2 ≤ phi ^ 2 * vi := by
          have := pow_le_pow_left₀ hm h 2
          rwa [mul_pow, Real.sq_sqrt hv] at this
        have h3 : 0 ≤ (phi ^ 2 * vi - (phi * vi - l) ^ 2) * (1 + phi * phi) :=
          mul_nonneg (by linarith) (by positivity)
        push_cast
        nlinarith
      have := (le_abs_self _).trans (Real.abs_le_sqrt h1)
      linarith
    · have h1 : 0 ≤ -(phi * vi - l) * (1 + phi * phi / ((2 : Int) : ℝ)) := by
        apply mul_nonneg (by linarith)
        push_cast
        positivity
      have := Real.sqrt_nonneg ((phi * vi - l) * phi * phi * ((phi * vi - l) * phi * phi) * (1 / ((4 : Int) : ℝ)) + vi * phi * phi * (1 + phi * phi))
      linarith
  · positivity

theorem dotLoop_le {w : List ℝ} {a : ℝ} (hw : ∀ b ∈ w, b ≤ a) (x : SVec ℝ) (v : ℝ) {v' : ℝ}
    (h : dotLoop (fun s y => s * (y * y)) w x v = .ok v') : v' ≤ v + a * sqnorm x := by
  induction x generalizing v with
  | nil =>
    rw [← Res.ok.inj h]
    simp [sqnorm]
  | cons p x ih =>
    obtain ⟨i, y⟩ := p
    simp only [dotLoop, Res.bind_eq_ok] at h
    obtain ⟨b, h1, h2⟩ := h
    rw [lget_eq_ok] at h1
    have h3 := ih _ h2
    have h4 := mul_le_mul_of_nonneg_right (hw b (List.mem_of_getElem? h1)) (mul_self_nonneg y)
    simp only [sqnorm, List.map_cons, List.sum_cons] at h3 ⊢
    linarith

theorem sqnorm_take (x : SVec ℝ) (n : Nat) : sqnorm (x.take n) ≤ sqnorm x := by
  unfold sqnorm
  conv_rhs => rw [← List.take_append_drop n x]
  rw [List.map_append, List.sum_append]
  have : 0 ≤ ((x.drop n).map fun p => p.2 * p.2).sum :=
    List.sum_nonneg fun a ha => by
      obtain ⟨p, -, rfl⟩ := List.mem_map.1 ha
      exact mul_self_nonneg _
  linarith

/-- With one classifier and without bias, `Vi_` is at most the largest variance times the squared norm. -/
theorem confLoop_le {x : SVec ℝ} {a : ℝ} (ha : 0 ≤ a) {l : List (List ℝ)} (hl : ∀ sig ∈ l, ∀ b ∈ sig, b ≤ a) {v : ℝ}
    (h : confLoop false x [1] l 0 = .ok v) : v ≤ a * sqnorm x := by
  have hn : 0 ≤ sqnorm x := List.sum_nonneg fun a ha => by
    obtain ⟨p, -, rfl⟩ := List.mem_map.1 ha
    exact mul_self_nonneg _
  cases l with
  | nil =>
    rw [← Res.ok.inj h]
    positivity
  | cons sig l =>
    have h1 : ((1 : ℝ) =? 0) = false := by
      rw [Bool.eq_false_iff]
      intro hc
      rw [feq_iff] at hc
      exact one_ne_zero hc
    simp only [confLoop, confOne, h1, Bool.false_eq_true, if_false, Res.bind_eq_ok, Res.ok.injEq, dotOp] at h
    obtain ⟨v1, ⟨d, h2, rfl⟩, rfl⟩ := h
    have := dotLoop_le (hl sig List.mem_cons_self) _ _ h2
    have h3 := mul_le_mul_of_nonneg_left (sqnorm_take x (trim x sig.length x.length)) ha
    linarith

theorem keeps_eccw (c : Cfg ℝ) (hc : c.kind = .hinge) (h1 : c.clf = 1) {a phi : ℝ} (hp : 0 < phi) (ha : 0 < a)
    (v : List (List ℝ)) (hv : Confident a v) :
    Keeps c (eccw a phi false) (fun x => Good x ∧ a * sqnorm x ≤ 1) (Fit c (vecs c.clf)) (fun _ => Fit c (vecs c.clf))
      (fun s => Moved Down a v s.alg) where
  enter s x hf _ hK := enter_moved (c := c) pre_down (fun a => a) (fun _ _ _ => rfl) hf.alg hK x
  start s x s' _ hK h := by rw [← Res.ok.inj h]; exact hK
  prep s x s' _ _ hK h := by rw [← Res.ok.inj h]; exact hK
  update s x s' label p pl l g m v' u hM hx _ hK hg hgr h := by
    simp only [eccw, Res.bind_eq_ok] at h
    obtain ⟨ws, h3, h2⟩ := h
    have hl := (gradient_handler (.inl hc) hgr).1
    rw [hc] at hgr
    simp only [gradient, eccw, cwHandler, Res.bind_eq_ok, Res.ok.injEq, Prod.mk.injEq] at hgr
    obtain ⟨q, -, ⟨m', w'⟩, ⟨g1, hg1, b1, hcl, hb1⟩, g2, -, -, -, -, hw'⟩ := hgr
    replace hw' : w' = v' := hw'
    replace hb1 : b1 = v' := (congrArg Prod.snd hb1).trans hw'
    rw [hb1] at hcl
    have hconf := (confident_down ha hv hK).2
    have hg1' : g1 = [1] := by
      rw [lset_eq_ok] at hg1
      obtain ⟨h4, rfl⟩ := hg1
      have := hM.g
      rw [h1] at this
      obtain ⟨z, hz⟩ := List.length_eq_one_iff.1 this
      rw [hz]
      rfl
    rw [hg1'] at hcl
    have hv0 : 0 ≤ v' := confLoop_nonneg _ _ (fun sig hs b hb => by
      obtain ⟨k, i, he⟩ := entry_of_mem hs hb
      exact (hconf k i b he).1.le) 0 le_rfl hcl
    have hv1 : v' ≤ 1 := (confLoop_le ha.le (fun sig hs b hb => by
      obtain ⟨k, i, he⟩ := entry_of_mem hs hb
      exact (hconf k i b he).2) hcl).trans hx.2
    have hsq : v' ≤ Real.sqrt v' := Real.le_sqrt_of_sq_le (by nlinarith)
    rw [← Res.ok.inj h2]
    refine hK.trans pre_down (each1_moved pre_down (fun g p q hq => ?_) hM.w hM.alg h3)
    simp only [Res.bind_eq_ok] at hq
    obtain ⟨w', -, sig, h5, h4⟩ := hq
    rw [← Res.ok.inj h4]
    refine cwSig_rel (mul_nonneg (mul_nonneg (eccwAlpha_nonneg hp hv0 ?_) hp.le) (Real.sqrt_nonneg _)) h5
    have := mul_le_mul_of_nonneg_left hsq hp.le
    linarith
  finish s x s' _ _ _ hK h := by rw [← Res.ok.inj h]; exact hK
  other s g m v t u e hK := hK

end

/-! ### Scales -/

section

/-- Numbers from `delta` on do not decrease; where feature `i` is not in `T` nothing changes. -/
def Up (delta : ℝ) (T : Nat → Prop) (i : Nat) (old new : ℝ) : Prop :=
  (delta ≤ old → old ≤ new) ∧ (i ≠ 0 → ¬ T i → new = old)

theorem pre_up (delta : ℝ) (T : Nat → Prop) : Pre (Up delta T) :=
  ⟨fun _ _ => ⟨fun _ => le_rfl, fun _ _ => rfl⟩, fun _ _ _ _ h1 h2 => ⟨fun h => (h1.1 h).trans (h2.1 (h.trans (h1.1 h))),
    fun h h' => (h2.2 h h').trans (h1.2 h h')⟩⟩

theorem scale_up {delta h q : ℝ} (hd : delta ≤ h) (hq : 0 ≤ q) : h ≤ Real.sqrt ((h - delta) * (h - delta) + q) + delta := by
  have h1 : (h - delta) ^ 2 ≤ (h - delta) * (h - delta) + q := by nlinarith
  have := (le_abs_self _).trans (Real.abs_le_sqrt h1)
  linarith

theorem adaH_rel {delta g : ℝ} {T : Nat → Prop} {x : SVec ℝ} (hx : ∀ p ∈ x, T p.1) {H H' : List ℝ}
    (h : adaH delta g x H = .ok H') : Rel (Up delta T) H H' := by
  simp only [adaH, Res.bind_eq_ok] at h
  obtain ⟨s1, h1, h2⟩ := h
  refine (calcExp_rel (pre_up delta T) (fun i y hi u a r hu hr' => ?_) h1).trans (pre_up delta T)
    (atBias_rel (pre_up delta T) (fun a => ⟨fun ha => scale_up ha (mul_self_nonneg g), fun h => absurd rfl h⟩) h2)
  obtain ⟨b, hb, hb'⟩ := Res.bind_eq_ok.1 hr'
  rw [lget_eq_ok, hu] at hb
  obtain rfl := Option.some.inj hb
  obtain rfl := Res.ok.inj hb'
  exact ⟨fun ha => scale_up ha (mul_self_nonneg _), fun _ h => absurd (hx _ hi) h⟩

/-- Features in `T` only. -/
def Within (T : Nat → Prop) (x : SVec ℝ) : Prop := ∀ p ∈ x, T p.1

theorem adaFobosUpdate_moved {A : Type} {delta : ℝ} {T : Nat → Prop} {c : Cfg ℝ} {s : St ℝ A} {H : List (List ℝ)} {x : SVec ℝ}
    {n d : Nat} {ws : List (List ℝ × List ℝ)} (h : adaFobosUpdate delta c s H x = .ok ws)
    (hx : Within T x) (hw : Vecs n d s.w) (hH : Vecs n d H) : Moved (Up delta T) delta H (ws.map (·.2)) := by
  refine each1_moved (pre_up delta T) (fun g p q hq => ?_) hw hH h
  simp only [Res.bind_eq_ok] at hq
  obtain ⟨H1, h1, w', -, h4⟩ := hq
  rw [← Res.ok.inj h4]
  exact adaH_rel hx h1

theorem keeps_adaFobos (c : Cfg ℝ) (delta : ℝ) (T : Nat → Prop) (v : List (List ℝ)) :
    Keeps c (adaFobos delta) (fun x => Good x ∧ Within T x) (Fit c (vecs c.clf)) (fun _ => Fit c (vecs c.clf))
      (fun s => Moved (Up delta T) delta v s.alg) where
  enter s x hf _ hK := enter_moved (c := c) (pre_up delta T) (fun a => a) (fun _ _ _ => rfl) hf.alg hK x
  start s x s' _ hK h := by rw [← Res.ok.inj h]; exact hK
  prep s x s' _ _ hK h := by rw [← Res.ok.inj h]; exact hK
  update s x s' label p pl l g m v' u hM hx _ hK hg hgr h := by
    simp only [adaFobos, Res.bind_eq_ok] at h
    obtain ⟨ws, h1, h2⟩ := h
    rw [← Res.ok.inj h2]
    exact hK.trans (pre_up delta T) (adaFobosUpdate_moved h1 hx.2 hM.w hM.alg)
  finish s x s' _ _ _ hK h := by rw [← Res.ok.inj h]; exact hK
  other s g m v t u e hK := hK

theorem keeps_adaFobosL1 (c : Cfg ℝ) (delta lambda thresh : ℝ) (t0 : Int) (T : Nat → Prop) (v : List (List ℝ)) :
    Keeps c (adaFobosL1 delta lambda thresh t0) (fun x => Good x ∧ Within T x) (Fit c (adaL1Inv c.clf))
      (fun _ => Fit c (adaL1Inv c.clf)) (fun s => Moved (Up delta T) delta v s.alg.H) where
  enter s x hf _ hK := enter_moved (c := c) (pre_up delta T) (fun a : AdaL1 ℝ => a.H) (fun _ _ _ => rfl) hf.alg.1 hK x
  start s x s' _ hK h := by rw [← Res.ok.inj h]; exact hK
  prep s x s' _ _ hK h := by
    simp only [adaFobosL1, Res.bind_eq_ok] at h
    obtain ⟨w, -, h2⟩ := h
    rw [← Res.ok.inj h2]
    exact hK
  update s x s' label p pl l g m v' u hM hx _ hK hg hgr h := by
    simp only [adaFobosL1, Res.bind_eq_ok] at h
    obtain ⟨ws, h1, h2⟩ := h
    rw [← Res.ok.inj h2]
    exact hK.trans (pre_up delta T) (adaFobosUpdate_moved h1 hx.2 hM.w hM.alg.1)
  finish s x s' _ _ _ hK h := by
    simp only [adaFobosL1, Res.bind_eq_ok] at h
    obtain ⟨w, -, h2⟩ := h
    rw [← Res.ok.inj h2]
    exact hK
  other s g m v t u e hK := hK

theorem adaRdaUpdate_moved {A : Type} {delta : ℝ} {T : Nat → Prop} {c : Cfg ℝ} {s : St ℝ A} {a : AdaRdaSt ℝ} {x : SVec ℝ}
    {n d : Nat} {ws : List (List ℝ × List ℝ × List ℝ)} (h : adaRdaUpdate delta c s a x = .ok ws)
    (hx : Within T x) (hw : Vecs n d s.w) (ha : adaRdaInv n d a) : Moved (Up delta T) delta a.H (ws.map (·.2.1)) := by
  have h1 := each1_rel (Q := fun p q : List ℝ × List ℝ × List ℝ => Rel (Up delta T) p.2.1 q.2.1)
    (fun p => Rel.refl (pre_up delta T) _) (fun g p q hq => by
      simp only [adaRdaOne, Res.bind_eq_ok] at hq
      obtain ⟨H1, h1, u, -, w1, -, w2, -, h4⟩ := hq
      rw [← Res.ok.inj h4]
      exact adaH_rel hx h1) _ _ _ h
  have h2 : List.Forall₂ (Rel (Up delta T)) ((s.w.zip (a.H.zip a.ut)).map (·.2.1)) (ws.map (·.2.1)) := by
    clear h
    generalize s.w.zip (a.H.zip a.ut) = l at h1
    induction h1 with
    | nil => exact .nil
    | cons h _ ih => exact .cons h ih
  have h3 : (s.w.zip (a.H.zip a.ut)).map (·.2.1) = a.H := by
    have : (s.w.zip (a.H.zip a.ut)).map (·.2.1) = ((s.w.zip (a.H.zip a.ut)).map (·.2)).map (·.1) := by
      rw [List.map_map]; rfl
    rw [this, map_snd_zip' _ _ (by rw [List.length_zip, ha.1.1, ha.2.1, hw.1]; simp)]
    exact List.map_fst_zip (by rw [ha.1.1, ha.2.1])
  rw [h3] at h2
  exact moved_of_forall h2

theorem keeps_adaRda (c : Cfg ℝ) (delta : ℝ) (T : Nat → Prop) (v : List (List ℝ)) :
    Keeps c (adaRda delta) (fun x => Good x ∧ Within T x) (Fit c (adaRdaInv c.clf)) (fun _ => Fit c (adaRdaInv c.clf))
      (fun s => Moved (Up delta T) delta v s.alg.H) where
  enter s x hf _ hK := enter_moved (c := c) (pre_up delta T) (fun a : AdaRdaSt ℝ => a.H) (fun _ _ _ => rfl) hf.alg.1 hK x
  start s x s' _ hK h := by rw [← Res.ok.inj h]; exact hK
  prep s x s' _ _ hK h := by rw [← Res.ok.inj h]; exact hK
  update s x s' label p pl l g m v' u hM hx _ hK hg hgr h := by
    simp only [adaRda, Res.bind_eq_ok] at h
    obtain ⟨ws, h1, h2⟩ := h
    rw [← Res.ok.inj h2]
    exact hK.trans (pre_up delta T) (adaRdaUpdate_moved h1 hx.2 hM.w hM.alg)
  finish s x s' _ _ _ hK h := by rw [← Res.ok.inj h]; exact hK
  other s g m v t u e hK := hK

theorem keeps_adaRdaL1 (c : Cfg ℝ) (delta lambda thresh : ℝ) (T : Nat → Prop) (v : List (List ℝ)) :
    Keeps c (adaRdaL1 delta lambda thresh) (fun x => Good x ∧ Within T x) (Fit c (adaRdaInv c.clf))
      (fun _ => Fit c (adaRdaInv c.clf)) (fun s => Moved (Up delta T) delta v s.alg.H) where
  enter s x hf _ hK := enter_moved (c := c) (pre_up delta T) (fun a : AdaRdaSt ℝ => a.H) (fun _ _ _ => rfl) hf.alg.1 hK x
  start s x s' _ hK h := by rw [← Res.ok.inj h]; exact hK
  prep s x s' _ _ hK h := by
    simp only [adaRdaL1, Res.bind_eq_ok] at h
    obtain ⟨w, -, h2⟩ := h
    rw [← Res.ok.inj h2]
    exact hK
  update s x s' label p pl l g m v' u hM hx _ hK hg hgr h := by
    simp only [adaRdaL1, Res.bind_eq_ok] at h
    obtain ⟨ws, h1, h2⟩ := h
    rw [← Res.ok.inj h2]
    exact hK.trans (pre_up delta T) (adaRdaUpdate_moved h1 hx.2 hM.w hM.alg)
  finish s x s' _ _ _ hK h := by rw [← Res.ok.inj h]; exact hK
  other s g m v t u e hK := hK

theorem ofsScale_moved {c : Cfg ℝ} {delta : ℝ} {T : Nat → Prop} {B d : Nat} {g : List ℝ} {a : OfsSt ℝ} {x : SVec ℝ}
    {a' : OfsSt ℝ} (h : ofsScale delta B c g a x = .ok (some a')) (hx : Within T x) (ha : Vecs c.clf d a.sig) :
    Moved (Up delta T) delta a.sig a'.sig := by
  unfold ofsScale at h
  split at h
  · rename_i hc
    obtain ⟨g0, -, h⟩ := Res.bind_eq_ok.1 h
    split at h
    · simp at h
    · simp only [Res.bind_eq_ok] at h
      obtain ⟨sig, h1, sig1, h2, ⟨sig2, hp⟩, h3, h4⟩ := h
      simp only [Res.ok.injEq, Option.some.injEq] at h4
      rw [← h4]
      refine moved_of_forall (forall_single (ha.1.trans hc) h1 ((atBias_rel (pre_up delta T) (fun b => ?_) h2).trans
        (pre_up delta T) (settleOne_rel (pre_up delta T) x (fun i y hi b => ?_) _ _ _ h3)))
      · exact ⟨fun hb => scale_up hb (mul_self_nonneg g0), fun h => absurd rfl h⟩
      · refine ⟨fun hb => scale_up hb ?_, fun _ h => absurd (hx _ hi) h⟩
        rw [mul_assoc]
        exact mul_nonneg (mul_self_nonneg g0) (mul_self_nonneg y)
  · simp only [Res.bind_eq_ok] at h
    obtain ⟨sigs, h1, ⟨sum, hp⟩, -, h2⟩ := h
    simp only [Res.ok.injEq, Option.some.injEq] at h2
    rw [← h2]
    exact moved_of_forall (each1_rel (Rel.refl (pre_up delta T)) (fun g p q hq => adaH_rel hx hq) _ _ _ h1)

theorem keeps_adaFobosOfs (c : Cfg ℝ) (delta : ℝ) (B : Nat) (T : Nat → Prop) (v : List (List ℝ)) :
    Keeps c (adaFobosOfs delta B c.clf) (fun x => Proper x ∧ Within T x) (FitW c (ofsKept c.clf B))
      (fun _ => FitW c (ofsKept c.clf B)) (fun s => Moved (Up delta T) delta v s.alg.sig) where
  enter s x hf _ hK := enter_moved (c := c) (pre_up delta T) (fun a : OfsSt ℝ => a.sig) (fun _ _ _ => rfl) hf.alg.1.sig hK x
  start s x s' _ hK h := by rw [← Res.ok.inj h]; exact hK
  prep s x s' _ _ hK h := by rw [← Res.ok.inj h]; exact hK
  update s x s' label p pl l g m v' u hM hx _ hK hg _ h := by
    simp only [adaFobosOfs, adaFobosOfsUpdate, Res.bind_eq_ok] at h
    obtain ⟨a, h2, h3⟩ := h
    cases a with
    | none =>
      rw [← Res.ok.inj h3]
      exact hK
    | some a =>
      simp only [Res.bind_eq_ok] at h3
      obtain ⟨ws, -, q, h4, h5⟩ := h3
      rw [← Res.ok.inj h5]
      show Moved (Up delta T) delta v a.sig
      exact hK.trans (pre_up delta T) (ofsScale_moved h2 hx.2 hM.alg.1.sig)
  finish s x s' _ _ _ hK h := by rw [← Res.ok.inj h]; exact hK
  other s g m v t u e hK := hK

theorem keeps_adaRdaOfs (c : Cfg ℝ) (delta : ℝ) (B : Nat) (T : Nat → Prop) (v : List (List ℝ)) :
    Keeps c (adaRdaOfs delta B c.clf) (fun x => Proper x ∧ Within T x) (FitW c (rdaKept c.clf B))
      (fun _ => FitW c (rdaKept c.clf B)) (fun s => Moved (Up delta T) delta v s.alg.ofs.sig) where
  enter s x hf _ hK := enter_moved (c := c) (pre_up delta T) (fun a : RdaOfsSt ℝ => a.ofs.sig) (fun _ _ _ => rfl)
    hf.alg.1.1.sig hK x
  start s x s' _ hK h := by rw [← Res.ok.inj h]; exact hK
  prep s x s' _ _ hK h := by rw [← Res.ok.inj h]; exact hK
  update s x s' label p pl l g m v' u hM hx _ hK hg _ h := by
    simp only [adaRdaOfs, adaRdaOfsUpdate, Res.bind_eq_ok] at h
    obtain ⟨a, h2, h3⟩ := h
    cases a with
    | none =>
      rw [← Res.ok.inj h3]
      exact hK
    | some a =>
      simp only [Res.bind_eq_ok] at h3
      obtain ⟨ws, -, q, h4, h5⟩ := h3
      rw [← Res.ok.inj h5]
      show Moved (Up delta T) delta v a.sig
      exact hK.trans (pre_up delta T) (ofsScale_moved h2 hx.2 hM.alg.1.1.sig)
  finish s x s' _ _ _ hK h := by rw [← Res.ok.inj h]; exact hK
  other s g m v t u e hK := hK

end
end Sol.Olm
