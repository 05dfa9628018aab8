import Verif.Proofs.Eval
import Verif.Proofs.Keeps
import Verif.Proofs.Reached
import Verif.Proofs.Select
import Verif.Spec.Whole
/-! Every class can be trained with the settings and the vectors of a model. -/

set_option linter.unusedSectionVars false

namespace Sol.Whole
open Sol.Params Sol.Online Sol.Olm Sol.Select Sol.Loss Sol.Sparse Sol.Spec

variable [FFun F32]

/-! ### Shapes -/

theorem vecs_of_lengths {n d : Nat} {l : List (List F32)} (h : l.map List.length = List.replicate n d) : Vecs n d l := by
  obtain ⟨h1, h2⟩ := List.eq_replicate_iff.1 h
  exact ⟨by simpa using h1, fun v hv => h2 _ (List.mem_map_of_mem hv)⟩

theorem lengths_of_vecs {n d : Nat} {l : List (List F32)} (h : Vecs n d l) : l.map List.length = List.replicate n d := by
  refine List.eq_replicate_iff.2 ⟨by simpa using h.1, fun v hv => ?_⟩
  obtain ⟨u, hu, rfl⟩ := List.mem_map.1 hv
  exact h.2 u hu

theorem vectors_pos {n : Int} (h : 1 < n) : 1 ≤ vectors n := by
  unfold vectors
  split <;> omega

theorem matches_of {c : Cls} {n : Int} {k : Kind} (h : Admits c n k) (hn : 1 < n) : Matches k (vectors n) := by
  have h := h.1
  unfold vectors
  split_ifs at h ⊢ with h2
  · cases k <;> simp_all [isBC, Matches]
  · cases k <;> simp_all [isMC, Matches] <;> omega

/-- What training has changed, from the shape of the result. -/
theorem trained_of {m m' : M} (hm : Checked m) (hc : m'.cls = m.cls) (hn : m'.classNum = m.classNum) (hd : 1 ≤ m'.dim)
    (hw : Vecs (vectors m.classNum) m'.dim m'.w)
    (hscale : if hasScale m.cls then Vecs (vectors m.classNum) m'.dim m'.scale else m'.scale = m.scale)
    (hsum : if hasSum m.cls then Vecs (vectors m.classNum) m'.dim m'.sum else m'.sum = m.sum)
    (hX : if m.cls = .sop then m'.X.length = m'.dim else m'.X = m.X)
    (ht : m.t ≤ m'.t) (hk : m.k ≤ m'.k) (hk2 : m.cls ≠ .alma2 → m'.k = m.k) (hst : Stamped m → Stamped m')
    (he : m' = { m with t := m'.t, reinit := m'.reinit, dim := m'.dim, lastTime := m'.lastTime, w := m'.w, scale := m'.scale,
                        sum := m'.sum, X := m'.X, k := m'.k }) : Trained m m' := by
  have ht0 := hm.t
  have hk0 := hm.k
  refine ⟨⟨hd, ?_, ?_, ?_, ?_⟩, by omega, by omega, hk2, hst, he⟩
  · rw [hn]; exact lengths_of_vecs hw
  · rw [hc, hn]
    have := hm.shape.scale
    split_ifs at hscale this ⊢
    · exact lengths_of_vecs hscale
    · rw [hscale, this]
  · rw [hc, hn]
    have := hm.shape.sum
    split_ifs at hsum this ⊢
    · exact lengths_of_vecs hsum
    · rw [hsum, this]
  · rw [hc]
    have := hm.shape.X
    split_ifs at hX this ⊢
    · exact hX
    · rw [hX, this]

/-! ### Training and `EndTrain` -/

/-- The loop of `Train` and `EndTrain`. -/
def runTrain {A : Type} (G : Alg F32 A) (c : Cfg F32) (s : St F32 A) (l : List (Ex F32 × F32)) : Res (St F32 A) := do
  let s ← trainLoop G c s l
  G.endTrain c { s with fresh := true }

theorem gives_runTrain {A : Type} {c : Cfg F32} {G : Alg F32 A} {X : SVec F32 → Prop} {F Q : St F32 A → Prop}
    {M : SVec F32 → St F32 A → Prop} (hA : Able c G X F M) (hk : Matches c.kind c.clf) {l : List (Ex F32 × F32)}
    (hl : ∀ p ∈ l, X p.1.x ∧ LabelOk c.clf p.1.label) {s : St F32 A} (hs : F s) (hf : ∀ s, F s → F { s with fresh := true })
    (he : ∀ s, F s → Gives (G.endTrain c s) (fun s' => Q s' ∧ s'.dim = s.dim ∧ s'.t = s.t)) :
    Gives (runTrain G c s l) (fun s' => Q s' ∧ s.dim ≤ s'.dim ∧ s.t ≤ s'.t) := by
  obtain ⟨evs, s1, -, h1, h2, -, hd, ht, -⟩ := hA.trace hk l hl s hs
  unfold runTrain
  rw [h1, Res.bind_ok]
  refine (he _ (hf _ h2)).mono fun s' h => ⟨h.1, ?_, ?_⟩
  · rw [h.2.1]; exact hd
  · rw [h.2.2]
    show s.t ≤ s1.t
    omega

theorem gives_safe {A : Type} {c : Cfg F32} {G : Alg F32 A} {inv : Nat → A → Prop} {mid : SVec F32 → Nat → A → Prop}
    (hS : Safe c G inv mid) (hC : Closes c G inv) (hk : Matches c.kind c.clf) {l : List (Ex F32 × F32)} (hl : Usable c l)
    {s : St F32 A} (hs : Fit c inv s) :
    Gives (runTrain G c s l) (fun s' => Fit c inv s' ∧ s.dim ≤ s'.dim ∧ s.t ≤ s'.t) :=
  gives_runTrain hS.able hk hl hs (fun _ h => ⟨h.dim, h.w, h.g, h.alg⟩)
    fun s h => (hC s h).mono fun _ h => ⟨h.1, h.2.1.dim, h.2.1.t⟩

/-! ### ALMA2 counts its updates -/

theorem safe_alma2_count (c : Cfg F32) (C alpha sqp1 : F32) (k : Int) :
    Safe c (alma2 C alpha sqp1) (fun _ a => k ≤ a) (fun _ _ a => k ≤ a) := by
  refine safe_of (fun _ _ => rfl) (fun _ _ => rfl) (fun _ _ _ _ h => h) (fun s _ h _ _ => ⟨s, rfl, h, .refl s⟩)
    (fun _ _ _ _ _ _ hf => by simp [alma2] at hf) fun s x l h hx _ => ?_
  have hk : k ≤ s.alg := h.alg
  refine (gives_each1 (P := fun v : List F32 => v.length = s.dim) (fun g v hv => ?_) s.g s.w h.w.2).bind
    fun w hw => .ok ⟨⟨h.dim, ⟨hw.1.trans h.w.1, hw.2⟩, h.g, by show k ≤ s.alg + 1; omega⟩, ⟨rfl, rfl, rfl, rfl, rfl⟩⟩
  exact (gives_step _ _ hx h.dim hv).bind fun w hw => .ok ((project_length w).trans hw)

/-! ### The lazy regularizers of a model whose dimension was set or loaded -/

/-- The time stamps of a model of dimension `d0` at first, after a data point of dimension `n`: one for every dimension, unless
    the model has not grown. -/
def lateInv (d0 n : Nat) (d : Nat) (l : List Int) : Prop :=
  1 ≤ l.length ∧ n ≤ l.length ∧ l.length ≤ max d n ∧ (max d n ≠ d0 → l.length = max d n)

theorem lateInv_grow {d0 n d k : Nat} {l : List Int} (t0 : Int) (h : lateInv d0 n d l) (hd : d0 ≤ d) :
    lateInv d0 n (max d k) (lazyBegin t0 l k) ∧ k ≤ (lazyBegin t0 l k).length := by
  obtain ⟨h1, h2, h3, h4⟩ := h
  unfold lateInv
  rw [lazyBegin_length]
  omega

theorem lateInv_see {d0 d n : Nat} {l : List Int} (t0 : Int) (h : lateInv d0 0 d l) (hd : d0 ≤ d) :
    lateInv d0 n d (lazyBegin t0 l n) := by
  obtain ⟨h1, h2, h3, h4⟩ := h
  unfold lateInv
  rw [lazyBegin_length]
  omega

/-- Dimension and time stamps. -/
def lateAll (d0 n : Nat) (d : Nat) (l : List Int) : Prop := d0 ≤ d ∧ lateInv d0 n d l

/-- The same while an example is processed. -/
def lateMid (d0 n : Nat) (x : SVec F32) (d : Nat) (l : List Int) : Prop := lateAll d0 n d l ∧ Sparse.dim x ≤ l.length

theorem lateAll_length {d0 n d : Nat} {l l' : List Int} (h : lateAll d0 n d l) (he : l'.length = l.length) : lateAll d0 n d l' := by
  unfold lateAll lateInv at *
  rw [he]
  exact h

theorem safe_fobosL1_late (c : Cfg F32) (eta0 : F32) (pow : Int → F32) (lambda thresh : F32) (t0 : Int) (d0 n : Nat) :
    Safe c (fobosL1 eta0 pow lambda thresh t0) (lateAll d0 n) (lateMid d0 n) where
  start s x h hx := by
    have hf := fit_enter (inv := none' _) (G := fobosL1 eta0 pow lambda thresh t0) x ⟨h.dim, h.w, h.g, trivial⟩
      (fun _ _ _ _ h => h)
    refine .ok ⟨⟨hf.dim, hf.w, hf.g, ?_⟩, ⟨rfl, rfl, rfl, rfl, rfl⟩⟩
    have h2 : (enter (fobosL1 eta0 pow lambda thresh t0) s x).alg = s.alg := by
      simp only [enter, Online.updateDim]; split <;> rfl
    show lateMid d0 n x (enter (fobosL1 eta0 pow lambda thresh t0) s x).dim
      (lazyBegin t0 (enter (fobosL1 eta0 pow lambda thresh t0) s x).alg (Sparse.dim x))
    obtain ⟨ha, hb⟩ := h.alg
    have := lateInv_grow (k := Sparse.dim x) t0 hb ha
    rw [h2, enter_dim]
    exact ⟨⟨by omega, this.1⟩, this.2⟩
  prep s x h hx hd :=
    (gives_eachAll (P := fun v : List F32 => v.length = s.dim)
      (fun v hv => gives_fobosTrunc _ _ _ hx h.dim h.alg.2 hv) s.w h.w.2).bind
      fun w hw => .ok ⟨⟨h.dim, ⟨hw.1.trans h.w.1, hw.2⟩, h.g, h.alg⟩, ⟨rfl, rfl, rfl, rfl, rfl⟩⟩
  handler _ _ _ _ _ _ hf := by simp [fobosL1] at hf
  update s x l h hx _ :=
    gives_etaStep (s := { s with eta := eta0 / pow s.t }) ⟨h.dim, h.w, h.g, h.alg⟩ hx s ⟨rfl, rfl, rfl, rfl, rfl⟩
  finish s x h hx hd :=
    (gives_lazyEnd s hx h.alg.1.2.1 h.alg.2).bind fun l hl => .ok ⟨⟨h.dim, h.w, h.g, lateAll_length h.alg.1 hl⟩,
      ⟨rfl, rfl, rfl, rfl, rfl⟩⟩
  skip _ _ _ h := h.1

/-- The invariant of AdaFOBOS_L1 with `lateAll`. -/
def lateAda (clf d0 n : Nat) (d : Nat) (a : AdaL1 F32) : Prop := Vecs clf d a.H ∧ lateAll d0 n d a.last

/-- The same while an example is processed. -/
def lateAdaMid (clf d0 n : Nat) (x : SVec F32) (d : Nat) (a : AdaL1 F32) : Prop := Vecs clf d a.H ∧ lateMid d0 n x d a.last

theorem safe_adaFobosL1_late (c : Cfg F32) (delta lambda thresh : F32) (t0 : Int) (d0 n : Nat) :
    Safe c (adaFobosL1 delta lambda thresh t0) (lateAda c.clf d0 n) (lateAdaMid c.clf d0 n) where
  start s x h hx := by
    have hf := fit_enter (inv := fun d (a : AdaL1 F32) => Vecs c.clf d a.H) (G := adaFobosL1 delta lambda thresh t0) x
      ⟨h.dim, h.w, h.g, h.alg.1⟩ (fun _ _ _ hd h => h.grow delta (by omega))
    refine .ok ⟨⟨hf.dim, hf.w, hf.g, hf.alg, ?_⟩, ⟨rfl, rfl, rfl, rfl, rfl⟩⟩
    have h2 : (enter (adaFobosL1 delta lambda thresh t0) s x).alg.last = s.alg.last := by
      simp only [enter, Online.updateDim]; split <;> rfl
    show lateMid d0 n x (enter (adaFobosL1 delta lambda thresh t0) s x).dim
      (lazyBegin t0 (enter (adaFobosL1 delta lambda thresh t0) s x).alg.last (Sparse.dim x))
    obtain ⟨ha, hb⟩ := h.alg.2
    have := lateInv_grow (k := Sparse.dim x) t0 hb ha
    rw [h2, enter_dim]
    exact ⟨⟨by omega, this.1⟩, this.2⟩
  prep s x h hx hd := by
    have hl := h.alg.2.2
    have hd1 := h.dim
    refine (gives_eachWith (d := s.dim) (fun w H hw hH => ?_) c.clf s.w s.alg.H h.w h.alg.1).bind fun w hw =>
      .ok ⟨⟨h.dim, hw, h.g, h.alg⟩, ⟨rfl, rfl, rfl, rfl, rfl⟩⟩
    refine (gives_calcExp_dim hw hx fun w' i y hw' hi hi' => (gives_lget (by omega)).bind fun _ _ =>
      (gives_lget (by omega)).bind fun _ _ => (gives_lget (by omega)).bind fun _ _ => .ok trivial).bind fun w' hw' => ?_
    exact (gives_lget (by omega)).bind fun _ _ => (gives_atBias _ (by omega)).mono fun _ h => by omega
  handler _ _ _ _ _ _ hf := by simp [adaFobosL1] at hf
  update s x l h hx _ := (gives_adaFobosUpdate delta h.dim h.w h.alg.1 hx).bind fun ws hws =>
        .ok ⟨⟨h.dim, hws.1, h.g, ⟨hws.2, h.alg.2⟩⟩, ⟨rfl, rfl, rfl, rfl, rfl⟩⟩
  finish s x h hx hd :=
    (gives_lazyEnd s hx h.alg.2.1.2.1 h.alg.2.2).bind fun l hl' => .ok ⟨⟨h.dim, h.w, h.g, h.alg.1, lateAll_length h.alg.2.1 hl'⟩,
      ⟨rfl, rfl, rfl, rfl, rfl⟩⟩
  skip _ _ _ h := ⟨h.1, h.2.1⟩

/-- Training with a lazy regularizer when some data point has the model's dimension. -/
theorem gives_late {A : Type} {c : Cfg F32} {G : Alg F32 A} {inv : Nat → Nat → A → Prop} {mid : Nat → SVec F32 → Nat → A → Prop}
    {strict : Nat → A → Prop} {d0 : Nat}
    (hS : ∀ n, Safe c G (inv n) (mid n)) (hC : Closes c G strict)
    (hsee : ∀ n d a, inv 0 d a → ∀ e : Ex F32, Sparse.dim e.x = n → ∃ a', inv n d a' ∧
      ∀ (s : St F32 A) (r : F32), s.dim = d → s.alg = a → trainOne G c s e r = trainOne G c { s with alg := a' } e r)
    (hend : ∀ n d a, inv n d a → d0 ≤ n → n ≤ d → strict d a)
    (hk : Matches c.kind c.clf) {l : List (Ex F32 × F32)} (hl : Usable c l)
    {s : St F32 A} (hs : Fit c (inv 0) s) (hd : s.dim = d0)
    (hcov : inv d0 s.dim s.alg ∨ ∃ p ∈ l, d0 ≤ Sparse.dim p.1.x) :
    Gives (runTrain G c s l) (fun s' => Fit c strict s' ∧ s.dim ≤ s'.dim ∧ s.t ≤ s'.t) := by
  have close : ∀ n (s s1 : St F32 A) (l : List (Ex F32 × F32)), Usable c l → Fit c (inv n) s → d0 ≤ n → n ≤ s.dim →
      trainLoop G c s l = .ok s1 → Fit c strict s1 ∧ s.dim ≤ s1.dim ∧ s.t ≤ s1.t := by
    intro n s s1 l hl hs h0 hn h1
    obtain ⟨evs, s1', -, h1', h2, -, hd, ht, -⟩ := (hS n).able.trace hk l hl s hs
    rw [h1] at h1'
    obtain rfl := Res.ok.inj h1'
    exact ⟨⟨h2.dim, h2.w, h2.g, hend n _ _ h2.alg h0 (by omega)⟩, hd, by omega⟩
  suffices h : ∃ s1, trainLoop G c s l = .ok s1 ∧ Fit c strict s1 ∧ s.dim ≤ s1.dim ∧ s.t ≤ s1.t by
    obtain ⟨s1, h1, h2, h3, h4⟩ := h
    unfold runTrain
    rw [h1, Res.bind_ok]
    refine (hC { s1 with fresh := true } ⟨h2.dim, h2.w, h2.g, h2.alg⟩).mono fun s' h => ⟨h.1, ?_, ?_⟩
    · rw [h.2.1.dim]; exact h3
    · rw [h.2.1.t]; exact h4
  rcases hcov with hin | ⟨⟨e, r⟩, hp, hp2⟩
  · have hs' : Fit c (inv d0) s := ⟨hs.dim, hs.w, hs.g, hin⟩
    obtain ⟨evs, s1, -, h1, -⟩ := (hS d0).able.trace hk l hl s hs'
    exact ⟨s1, h1, close d0 s s1 l hl hs' le_rfl hd.ge h1⟩
  · obtain ⟨l1, l2, rfl⟩ := List.append_of_mem hp
    have hl1 : Usable c l1 := fun p hp => hl p (List.mem_append_left _ hp)
    have hl2 : Usable c l2 := fun p hp => hl p (List.mem_append_right _ (List.mem_cons_of_mem _ hp))
    have he := hl (e, r) (List.mem_append_right _ List.mem_cons_self)
    obtain ⟨evs, s1, -, h1, h2, -, hd1, ht1, -⟩ := (hS 0).able.trace hk l1 hl1 s hs
    obtain ⟨a', ha', heq⟩ := hsee (Sparse.dim e.x) _ _ h2.alg e rfl
    have hf : Fit c (inv (Sparse.dim e.x)) { s1 with alg := a' } := ⟨h2.dim, h2.w, h2.g, ha'⟩
    obtain ⟨ev, s2, hh, hf2, hb⟩ := happens (hS (Sparse.dim e.x)) hk _ hf e r he.1 he.2
    have hone : trainOne G c s1 e r = .ok s2 := by
      rw [heq s1 r rfl rfl]
      obtain ⟨_, _, _, _, _, _, _, _, h⟩ := hh
      exact h
    obtain ⟨evs', s3, -, h3, -⟩ := (hS (Sparse.dim e.x)).able.trace hk l2 hl2 s2 hf2
    have hbd := hb.dim
    have hbt := hb.t
    simp only at hbd hbt
    have := close (Sparse.dim e.x) s2 s3 l2 hl2 hf2 hp2 (by omega) h3
    have happ : ∀ (l1 l2 : List (Ex F32 × F32)) (s : St F32 A), trainLoop G c s (l1 ++ l2) =
        trainLoop G c s l1 >>= fun s => trainLoop G c s l2 := by
      intro l1 l2
      induction l1 with
      | nil => intro s; rfl
      | cons p l1 ih =>
        intro s
        simp only [List.cons_append, trainLoop, bind_bind]
        cases trainOne G c s p.1 p.2 with
        | ub k => rfl
        | ok s => exact ih s
    refine ⟨s3, ?_, this.1, by omega, ?_⟩
    · rw [happ, h1, Res.bind_ok]
      simp only [trainLoop, hone, Res.bind_ok, h3]
    · have := this.2.2
      have : (0 : Int) ≤ if ev.skip = true then 0 else 1 := by split <;> omega
      omega

theorem lazyBegin_twice (t0 : Int) (l : List Int) (n : Nat) : lazyBegin t0 (lazyBegin t0 l n) n = lazyBegin t0 l n := by
  have h := lazyBegin_length t0 l n
  conv_lhs => unfold lazyBegin
  rw [if_neg]
  · rfl
  · unfold lazyBegin at h
    omega

/-! ### The classes -/

/-- Training of a model with the algorithm of its class, on examples that are already pre-processed. -/
def kitTrain (m : M) (k : Kind) {A : Type} (K : Kit A) (l : List (Ex F32 × F32)) : Res M := do
  let s ← K.begin (cfgOf m k) (startSt m K.first)
  let s ← runTrain K.G (cfgOf m k) s l
  .ok (K.last s.alg { m with dim := s.dim, w := s.w, t := s.t, reinit := false })

/-- What training needs. -/
structure Fitted (m : M) (k : Kind) (l : List (Ex F32 × F32)) : Prop where
  checked : Checked m
  loss : m.loss = some k
  hinge : m.cls ∈ [Cls.alma2, .cw, .eccw] → m.hinge = true
  stamped : Stamped m
  usable : Usable (cfgOf m k) l
  proper : m.cls ∈ choosing → ∀ p ∈ l, Proper p.1.x
  budget : m.cls ∈ [Cls.pet, .sofs, .adaFobosOfs, .adaRdaOfs] → ∃ q, m.lambda = .fin q ∧ -1 < q ∧ q < 4294967295
  features : m.cls = .fofs → m.fofsB < 4294967295
  dim : m.cls ∈ choosing → m.dim ≤ 4294967295
  covered : m.cls = .fobosL1 ∨ m.cls = .adaFobosL1 → m.lastTime.length = m.dim ∨ ∃ p ∈ l, m.dim ≤ Sparse.dim p.1.x

section
variable {m : M} {k : Kind} {l : List (Ex F32 × F32)}

theorem Fitted.matches (h : Fitted m k l) : Matches (cfgOf m k).kind (cfgOf m k).clf := by
  obtain ⟨k', h1, h2⟩ := h.checked.loss
  rw [h.loss] at h1
  obtain rfl := Option.some.inj h1
  exact matches_of h2 h.checked.classNum

theorem gives_kit {A : Type} {K : Kit A} {Q : St F32 A → Prop}
    (hb : Gives (K.begin (cfgOf m k) (startSt m K.first)) fun s => m.dim ≤ s.dim ∧ s.t = m.t ∧
      Gives (runTrain K.G (cfgOf m k) s l) (fun s' => Q s' ∧ s.dim ≤ s'.dim ∧ s.t ≤ s'.t))
    (hl : ∀ s', Q s' → m.dim ≤ s'.dim → m.t ≤ s'.t →
      Trained m (K.last s'.alg { m with dim := s'.dim, w := s'.w, t := s'.t, reinit := false })) :
    Gives (kitTrain m k K l) (Trained m) := by
  obtain ⟨s, h1, h2, h3, h4⟩ := hb
  unfold kitTrain
  rw [h1, Res.bind_ok]
  exact h4.bind fun s' h => .ok (hl s' h.1 (by omega) (by omega))

theorem fit_start (h : Checked m) {A : Type} {inv : Nat → A → Prop} {a : A} (ha : inv m.dim a) :
    Fit (cfgOf m k) inv (startSt m a) :=
  ⟨h.shape.dim, vecs_of_lengths h.shape.w, by simp [startSt, cfgOf], ha⟩

theorem ready_start (h : Checked m) (hd : m.dim ≤ 4294967295) {A : Type} {a : A} {B : Nat} (hB : 1 ≤ B ∧ B < 4294967295) :
    Ready (cfgOf m k) B (startSt m a) :=
  ⟨h.shape.dim, hd, vecs_of_lengths h.shape.w, by simp [startSt, cfgOf], hB⟩

/-- Classes without `BeginTrain`. -/
theorem gives_simple (h : Fitted m k l) {A : Type} {K : Kit A} {inv : Nat → A → Prop} {mid : SVec F32 → Nat → A → Prop}
    (hS : Safe (cfgOf m k) K.G inv mid) (hC : Closes (cfgOf m k) K.G inv)
    (hb : K.begin (cfgOf m k) (startSt m K.first) = .ok (startSt m K.first)) (ha : inv m.dim K.first)
    (hl : ∀ s', Fit (cfgOf m k) inv s' → m.dim ≤ s'.dim → m.t ≤ s'.t →
      Trained m (K.last s'.alg { m with dim := s'.dim, w := s'.w, t := s'.t, reinit := false })) :
    Gives (kitTrain m k K l) (Trained m) := by
  refine gives_kit (Q := Fit (cfgOf m k) inv) ?_ hl
  rw [hb]
  exact .ok ⟨le_rfl, rfl, gives_safe hS hC h.matches h.usable (fit_start h.checked ha)⟩

theorem stamped_more {d : Nat} (hd : m.dim ≤ d) (h : Stamped m) : 1 ≤ m.lastTime.length ∧ m.lastTime.length ≤ d :=
  ⟨h.1, h.2.trans hd⟩

theorem last_bare (h : Checked m) (h1 : hasScale m.cls = false) (h2 : hasSum m.cls = false) (h3 : m.cls ≠ .sop) {A : Type}
    {inv : Nat → A → Prop} (s' : St F32 A) (hf : Fit (cfgOf m k) inv s') (hd : m.dim ≤ s'.dim) (ht : m.t ≤ s'.t) :
    Trained m { m with dim := s'.dim, w := s'.w, t := s'.t, reinit := false } :=
  trained_of h rfl rfl hf.dim hf.w (by simp [h1]) (by simp [h2]) (by simp [h3]) ht le_rfl (fun _ => rfl)
    (fun h => stamped_more (m := m) hd h) rfl

theorem last_scaled (h : Checked m) (h1 : hasScale m.cls = true) (h2 : hasSum m.cls = false) (h3 : m.cls ≠ .sop)
    (s' : St F32 (List (List F32))) (hf : Fit (cfgOf m k) (vecs (cfgOf m k).clf) s') (hd : m.dim ≤ s'.dim) (ht : m.t ≤ s'.t) :
    Trained m { { m with dim := s'.dim, w := s'.w, t := s'.t, reinit := false } with scale := s'.alg } :=
  trained_of h rfl rfl hf.dim hf.w (by rw [if_pos h1]; exact hf.alg) (by simp [h2]) (by simp [h3]) ht le_rfl (fun _ => rfl)
    (fun h => stamped_more (m := m) hd h) rfl

theorem last_summed (h : Checked m) (h1 : hasScale m.cls = false) (h2 : hasSum m.cls = true) (h3 : m.cls ≠ .sop)
    (s' : St F32 (List (List F32))) (hf : Fit (cfgOf m k) (vecs (cfgOf m k).clf) s') (hd : m.dim ≤ s'.dim) (ht : m.t ≤ s'.t) :
    Trained m { { m with dim := s'.dim, w := s'.w, t := s'.t, reinit := false } with sum := s'.alg } :=
  trained_of h rfl rfl hf.dim hf.w (by simp [h1]) (by rw [if_pos h2]; exact hf.alg) (by simp [h3]) ht le_rfl (fun _ => rfl)
    (fun h => stamped_more (m := m) hd h) rfl

theorem last_ada (h : Checked m) (h1 : hasScale m.cls = true) (h2 : hasSum m.cls = true) (h3 : m.cls ≠ .sop)
    (s' : St F32 (AdaRdaSt F32)) (hf : Fit (cfgOf m k) (adaRdaInv (cfgOf m k).clf) s') (hd : m.dim ≤ s'.dim) (ht : m.t ≤ s'.t) :
    Trained m { { m with dim := s'.dim, w := s'.w, t := s'.t, reinit := false } with scale := s'.alg.H, sum := s'.alg.ut } :=
  trained_of h rfl rfl hf.dim hf.w (by rw [if_pos h1]; exact hf.alg.1) (by rw [if_pos h2]; exact hf.alg.2) (by simp [h3]) ht le_rfl
    (fun _ => rfl) (fun h => stamped_more (m := m) hd h) rfl

theorem scale_vecs (h : Checked m) (h1 : hasScale m.cls = true) : Vecs (vectors m.classNum) m.dim m.scale := by
  have := h.shape.scale
  rw [if_pos h1] at this
  exact vecs_of_lengths this

theorem sum_vecs (h : Checked m) (h1 : hasSum m.cls = true) : Vecs (vectors m.classNum) m.dim m.sum := by
  have := h.shape.sum
  rw [if_pos h1] at this
  exact vecs_of_lengths this

/-! ### Selecting classes -/

theorem updateDim_t {A : Type} (G : Alg F32 A) (s : St F32 A) (n : Nat) : (Online.updateDim G s n).t = s.t ∧ s.dim ≤ (Online.updateDim G s n).dim := by
  unfold Online.updateDim
  split
  · exact ⟨rfl, by simp only; omega⟩
  · exact ⟨rfl, le_rfl⟩

theorem petBegin_t {G : Alg F32 (PetSt F32)} {B : Nat} {s s' : St F32 (PetSt F32)} (h : petBegin G B s = .ok s') :
    s.dim ≤ s'.dim ∧ s'.t = s.t := by
  unfold petBegin at h
  split at h
  · simp only [Res.bind_eq_ok] at h
    obtain ⟨v, -, hp, -, h⟩ := h
    have := updateDim_t G ({ s with alg := { s.alg with absW := growTo (min s.dim s.alg.absW.length) s.dim 0 s.alg.absW } } :
      St F32 (PetSt F32)) ((B + 1) % 4294967296)
    rw [← Res.ok.inj h]
    exact ⟨this.2, this.1⟩
  · rw [← Res.ok.inj h]
    exact ⟨le_rfl, rfl⟩

theorem ofsBegin_t {cmp : F32 → F32 → Bool} {G : Alg F32 (OfsSt F32)} {c : Cfg F32} {B : Nat} {s s' : St F32 (OfsSt F32)}
    (h : ofsBegin cmp G c B s = .ok s') : s.dim ≤ s'.dim ∧ s'.t = s.t := by
  unfold ofsBegin at h
  split at h
  · simp only [Res.bind_eq_ok] at h
    obtain ⟨v, -, hp, -, h⟩ := h
    have := updateDim_t G ({ s with alg := { s.alg with
      sum := if c.clf = 1 then s.alg.sum else growTo (min s.dim s.alg.sum.length) s.dim 0 s.alg.sum } } :
      St F32 (OfsSt F32)) (B + 1)
    rw [← Res.ok.inj h]
    exact ⟨this.2, this.1⟩
  · rw [← Res.ok.inj h]
    exact ⟨le_rfl, rfl⟩

theorem adaRdaOfsBegin_t {G : Alg F32 (RdaOfsSt F32)} {c : Cfg F32} {B : Nat} {s s' : St F32 (RdaOfsSt F32)}
    (h : adaRdaOfsBegin G c B s = .ok s') : s.dim ≤ s'.dim ∧ s'.t = s.t := by
  unfold adaRdaOfsBegin at h
  split at h
  · simp only [Res.bind_eq_ok] at h
    obtain ⟨v, -, hp, -, h⟩ := h
    have := updateDim_t G ({ s with alg := { s.alg with ofs := { s.alg.ofs with
      sum := if c.clf = 1 then s.alg.ofs.sum else growTo (min s.dim s.alg.ofs.sum.length) s.dim 0 s.alg.ofs.sum } } } :
      St F32 (RdaOfsSt F32)) (B + 1)
    rw [← Res.ok.inj h]
    exact ⟨this.2, this.1⟩
  · rw [← Res.ok.inj h]
    exact ⟨le_rfl, rfl⟩

theorem adaRdaOfsEnd_t {c : Cfg F32} {B : Nat} {s s' : St F32 (RdaOfsSt F32)}
    (h : adaRdaOfsEnd B c s = .ok s') : s'.dim = s.dim ∧ s'.t = s.t := by
  unfold adaRdaOfsEnd at h
  simp only [Res.bind_eq_ok] at h
  obtain ⟨v, -, ⟨w, hp⟩, -, h⟩ := h
  rw [← Res.ok.inj h]
  exact ⟨rfl, rfl⟩

theorem inside_all (ws : List (List F32)) : Inside ws (fun _ => True) := fun _ _ _ _ _ _ => trivial

theorem Fitted.clf (h : Fitted m k l) : 1 ≤ (cfgOf m k).clf := vectors_pos h.checked.classNum

/-- PET and FOFS. -/
theorem gives_petKit (h : Fitted m k l) (hc : m.cls ∈ choosing) (h1 : hasScale m.cls = false) (h2 : hasSum m.cls = false)
    (h3 : m.cls ≠ .sop) {G : Alg F32 (PetSt F32)} {B : Nat} (hB : 1 ≤ B ∧ B < 4294967295) (hG : G.grow = petGrow)
    (hE : G.endTrain = finish)
    (hA : Able (cfgOf m k) G Proper (FitW (cfgOf m k) (petLoose B)) (fun _ => FitW (cfgOf m k) (petLoose B))) :
    Gives (kitTrain m k (⟨G, ⟨[], noHeap⟩, fun _ s => petBegin G B s, fun _ m => m⟩ : Kit (PetSt F32)) l) (Trained m) := by
  refine gives_kit (Q := FitW (cfgOf m k) (petLoose B)) ?_ ?_
  · obtain ⟨s0, e, b1, b2, -⟩ := gives_petBegin (c := cfgOf m k) hG (s := startSt m ⟨[], noHeap⟩)
      (ready_start h.checked (h.dim hc) hB) (inside_all _)
    have ht := petBegin_t e
    refine ⟨s0, e, ht.1, ht.2, gives_runTrain hA h.matches (fun p hp => ⟨h.proper hc p hp, (h.usable p hp).2⟩)
      ⟨b1.dim, b1.dimMax, b1.w, b1.g, b2⟩ (fun _ h => ⟨h.dim, h.dimMax, h.w, h.g, h.alg⟩) fun s hs => ?_⟩
    rw [hE]
    exact .ok ⟨⟨hs.dim, hs.dimMax, hs.w, hs.g, hs.alg⟩, rfl, rfl⟩
  · intro s' hf hd ht
    exact last_bare (inv := none' _) h.checked h1 h2 h3 s' ⟨hf.dim, hf.w, hf.g, trivial⟩ hd ht

/-- SOFS and AdaFOBOS_OFS. -/
theorem gives_ofsKit (h : Fitted m k l) (hc : m.cls ∈ choosing) (h1 : hasScale m.cls = true) (h2 : hasSum m.cls = false)
    (h3 : m.cls ≠ .sop) {G : Alg F32 (OfsSt F32)} {B : Nat} (hB : 1 ≤ B ∧ B < 4294967295) {v0 : F32}
    (hG : G.grow = ofsGrow (cfgOf m k).clf v0) (hE : G.endTrain = finish) (cmp : F32 → F32 → Bool)
    (hA : Able (cfgOf m k) G Proper (FitW (cfgOf m k) (ofsHeld (fun _ => True) (cfgOf m k).clf B))
      (fun _ => FitW (cfgOf m k) (ofsHeld (fun _ => True) (cfgOf m k).clf B))) :
    Gives (kitTrain m k (⟨G, ⟨m.scale, [], noHeap⟩, fun c s => ofsBegin cmp G c B s, fun a m => { m with scale := a.sig }⟩ :
      Kit (OfsSt F32)) l) (Trained m) := by
  refine gives_kit (Q := FitW (cfgOf m k) (ofsHeld (fun _ => True) (cfgOf m k).clf B)) ?_ ?_
  · obtain ⟨s0, e, b1, b2, -⟩ := gives_ofsBegin cmp h.clf hG (s := startSt m ⟨m.scale, [], noHeap⟩)
      (ready_start h.checked (h.dim hc) hB) (scale_vecs h.checked h1) (inside_all _)
    have ht := ofsBegin_t e
    refine ⟨s0, e, ht.1, ht.2, gives_runTrain hA h.matches (fun p hp => ⟨h.proper hc p hp, (h.usable p hp).2⟩)
      ⟨b1.dim, b1.dimMax, b1.w, b1.g, b2, (inside_all _).mono fun _ _ => Or.inl trivial⟩
      (fun _ h => ⟨h.dim, h.dimMax, h.w, h.g, h.alg⟩) fun s hs => ?_⟩
    rw [hE]
    exact .ok ⟨⟨hs.dim, hs.dimMax, hs.w, hs.g, hs.alg⟩, rfl, rfl⟩
  · intro s' hf hd ht
    exact trained_of h.checked rfl rfl hf.dim hf.w (by rw [if_pos h1]; exact hf.alg.1.sig) (by simp [h2]) (by simp [h3]) ht le_rfl
      (fun _ => rfl) (fun h => stamped_more (m := m) hd h) rfl

/-- AdaRDA_OFS. -/
theorem gives_rdaOfsKit (h : Fitted m k l) (hc : m.cls = .adaRdaOfs) {B : Nat} (hB : 1 ≤ B ∧ B < 4294967295) :
    Gives (kitTrain m k (⟨adaRdaOfs m.delta B (cfgOf m k).clf, ⟨⟨m.scale, [], noHeap⟩, m.sum⟩,
      fun c s => adaRdaOfsBegin (adaRdaOfs m.delta B (cfgOf m k).clf) c B s, fun a m => { m with scale := a.ofs.sig, sum := a.ut }⟩ :
      Kit (RdaOfsSt F32)) l) (Trained m) := by
  have hc' : m.cls ∈ choosing := by rw [hc]; decide
  have h1 : hasScale m.cls = true := by rw [hc]; rfl
  have h2 : hasSum m.cls = true := by rw [hc]; rfl
  refine gives_kit (Q := FitW (cfgOf m k) (rdaHeld (fun _ => True) (cfgOf m k).clf B)) ?_ ?_
  · obtain ⟨s0, e, b1, b2, b3, -⟩ := gives_adaRdaOfsBegin (c := cfgOf m k) (delta := m.delta) h.clf
      (s := startSt m ⟨⟨m.scale, [], noHeap⟩, m.sum⟩)
      (ready_start h.checked (h.dim hc') hB) (scale_vecs h.checked h1) (sum_vecs h.checked h2) (inside_all _)
    have ht := adaRdaOfsBegin_t e
    refine ⟨s0, e, ht.1, ht.2, gives_runTrain (able_adaRdaOfs_held (fun _ => True) _ h.clf m.delta hB.1) h.matches
      (fun p hp => ⟨h.proper hc' p hp, (h.usable p hp).2⟩)
      ⟨b1.dim, b1.dimMax, b1.w, b1.g, ⟨b2, (inside_all _).mono fun _ _ => Or.inl trivial⟩, b3⟩
      (fun _ h => ⟨h.dim, h.dimMax, h.w, h.g, h.alg⟩) fun s hs => ?_⟩
    obtain ⟨s2, e2, q⟩ := gives_adaRdaOfsEnd_held h.clf hB.1 hs
    have := adaRdaOfsEnd_t e2
    exact ⟨s2, e2, q, this.1, this.2⟩
  · intro s' hf hd ht
    exact trained_of h.checked rfl rfl hf.dim hf.w (by rw [if_pos h1]; exact hf.alg.1.1.sig) (by rw [if_pos h2]; exact hf.alg.2)
      (by simp [hc]) ht le_rfl (fun _ => rfl) (fun h => stamped_more (m := m) hd h) rfl

/-- FOFS without a number of features. -/
theorem safe_fofs_none (c : Cfg F32) (nc mo : F32) : Safe c (fofs nc mo 0) (none' (PetSt F32)) (fun _ => none' (PetSt F32)) := by
  refine safe_of (fun _ _ => rfl) (fun _ _ => rfl) (fun _ _ _ _ _ => trivial) (fun s _ h _ _ => ⟨s, rfl, h, .refl s⟩)
    (fun _ _ _ _ _ _ hf => by simp [fofs] at hf) fun s x l h hx _ => ?_
  refine (gives_each1 (P := fun v : List F32 => v.length = s.dim) (fun g v hv => gives_fofsStep nc mo _ _ hx h.dim hv)
    s.g s.w h.w.2).bind fun w hw => .ok ⟨⟨h.dim, ⟨hw.1.trans h.w.1, hw.2⟩, h.g, trivial⟩, ⟨rfl, rfl, rfl, rfl, rfl⟩⟩

theorem gives_budget (h : ∃ q, m.lambda = .fin q ∧ -1 < q ∧ q < 4294967295) : ∃ B, budget m.lambda = .ok B ∧ B < 4294967295 := by
  obtain ⟨q, h1, h2, h3⟩ := h
  refine ⟨⌊q⌋.toNat, ?_, ?_⟩
  · rw [h1]
    simp only [budget]
    rw [if_pos ⟨h2, by linarith⟩]
  · have : ⌊q⌋ < 4294967295 := Int.floor_lt.2 (by exact_mod_cast h3)
    omega

theorem stamps_back (a : List Int) : (a.map fun t => ((t : Int) : F32)).length = a.length := by simp

theorem kit_ok {K : AnyKit} {P : AnyKit → Prop} (h : P K) : ∃ K', (Res.ok K : Res AnyKit) = .ok K' ∧ P K' := ⟨K, rfl, h⟩

/-- Every class: training ends well, and changes only what `Trained` says. -/
theorem kit_trained (powf : F32 → F32 → F32) (h : Fitted m k l) :
    ∃ K, kitOf powf m = .ok K ∧ Gives (kitTrain m k K.2 l) (Trained m) := by
  have hm := h.checked
  cases hc : m.cls <;> simp only [kitOf, hc]
  case perceptron =>
    exact kit_ok (gives_simple h (K := bare perceptron) (safe_perceptron _) (closes_finish rfl) rfl trivial
      (last_bare hm (by rw [hc]; rfl) (by rw [hc]; rfl) (by rw [hc]; decide)))
  case ogd =>
    exact kit_ok (gives_simple h (K := bare _) (safe_ogd _ _ _) (closes_finish rfl) rfl trivial
      (last_bare hm (by rw [hc]; rfl) (by rw [hc]; rfl) (by rw [hc]; decide)))
  case stg =>
    refine kit_ok (gives_kit (Q := Fit (cfgOf m k) stamps) ?_ ?_)
    · refine .ok ⟨le_rfl, rfl, gives_safe (safe_stg _ _ _ _ _ _ _) (closes_stg _ _ _ _ _ _ _) h.matches h.usable ?_⟩
      have := fit_start (k := k) hm (inv := none' (List Int)) (a := []) trivial
      exact ⟨this.dim, this.w, this.g, by simp [stamps]⟩
    · exact last_bare hm (by rw [hc]; rfl) (by rw [hc]; rfl) (by rw [hc]; decide)
  case fobosL1 =>
    refine kit_ok (gives_kit (Q := Fit (cfgOf m k) stamps) ?_ ?_)
    · refine .ok ⟨le_rfl, rfl, gives_late (d0 := m.dim) (inv := fun n => lateAll m.dim n) (mid := fun n => lateMid m.dim n)
        (fun n => safe_fobosL1_late _ _ _ _ _ _ _ _) (closes_fobosL1 _ _ _ _ _ _) ?_ ?_ h.matches h.usable
        (fit_start hm ⟨le_rfl, ?_⟩) rfl ?_⟩
      · rintro n d a ⟨h1, h2⟩ e rfl
        refine ⟨lazyBegin (timeOf m.t0) a (Sparse.dim e.x), ⟨h1, lateInv_see _ h2 h1⟩, ?_⟩
        rintro s r rfl rfl
        have key : ∀ a : List Int, (fobosL1 m.eta (powOf powf m.powerT) m.lambda m.thresh (timeOf m.t0)).beginIter
            (enter (fobosL1 m.eta (powOf powf m.powerT) m.lambda m.thresh (timeOf m.t0)) { s with alg := a } e.x) e.x =
            .ok { (enter (fobosL1 m.eta (powOf powf m.powerT) m.lambda m.thresh (timeOf m.t0)) s e.x) with
              alg := lazyBegin (timeOf m.t0) a (Sparse.dim e.x) } := by
          intro a
          simp only [fobosL1, enter, Online.updateDim]
          split <;> rfl
        have k1 := key s.alg
        have k2 := key (lazyBegin (timeOf m.t0) s.alg (Sparse.dim e.x))
        rw [lazyBegin_twice] at k2
        simp only [trainOne, iterate]
        rw [k2, ← k1]
      · rintro n d a ⟨h1, h2, h3, h4, h5⟩ h6 h7
        show a.length = d
        omega
      · have := h.stamped
        unfold Stamped at this
        unfold lateInv
        rw [List.length_map]
        omega
      · rcases h.covered (Or.inl hc) with h1 | h1
        · left
          refine ⟨le_rfl, ?_⟩
          have := h.stamped
          unfold Stamped at this
          show lateInv m.dim m.dim m.dim (m.lastTime.map timeOf)
          unfold lateInv
          rw [List.length_map]
          omega
        · exact Or.inr h1
    · intro s' hf hd ht
      have hl : s'.alg.length = s'.dim := hf.alg
      have h1 := hf.dim
      exact trained_of hm rfl rfl hf.dim hf.w (by simp [hc, hasScale]) (by simp [hc, hasSum]) (by simp [hc]) ht le_rfl
        (fun _ => rfl) (fun _ => ⟨by rw [stamps_back]; omega, by rw [stamps_back]; exact hl.le⟩) rfl
  case pet =>
    obtain ⟨B, hB, hB2⟩ := gives_budget (h.budget (by rw [hc]; decide))
    rw [hB]
    refine kit_ok ?_
    unfold petKit
    by_cases h0 : B = 0
    · rw [if_pos h0]
      exact gives_simple h (K := bare _) (safe_ogd _ _ _) (closes_finish rfl) rfl trivial
        (last_bare hm (by rw [hc]; rfl) (by rw [hc]; rfl) (by rw [hc]; decide))
    · rw [if_neg h0]
      exact gives_petKit h (by rw [hc]; decide) (by rw [hc]; rfl) (by rw [hc]; rfl) (by rw [hc]; decide) ⟨by omega, hB2⟩ rfl rfl
        (able_pet_loose _ h.clf _ _ (by omega))
  case pa =>
    exact kit_ok (gives_simple h (K := bare _) (safe_pa _ _) (closes_finish rfl) rfl trivial
      (last_bare hm (by rw [hc]; rfl) (by rw [hc]; rfl) (by rw [hc]; decide)))
  case pa1 =>
    exact kit_ok (gives_simple h (K := bare _) (safe_pa1 _ _ _) (closes_finish rfl) rfl trivial
      (last_bare hm (by rw [hc]; rfl) (by rw [hc]; rfl) (by rw [hc]; decide)))
  case pa2 =>
    exact kit_ok (gives_simple h (K := bare _) (safe_pa2 _ _ _) (closes_finish rfl) rfl trivial
      (last_bare hm (by rw [hc]; rfl) (by rw [hc]; rfl) (by rw [hc]; decide)))
  case alma2 =>
    have hh := h.hinge (by rw [hc]; decide)
    refine kit_ok (gives_kit (Q := Fit (cfgOf m k) (fun _ a => m.k ≤ a)) ?_ ?_)
    · simp only [needHinge, hh, if_true]
      refine .ok ⟨le_rfl, rfl, gives_safe (safe_alma2_count _ _ _ _ m.k) (closes_finish rfl) h.matches h.usable ?_⟩
      have := fit_start (k := k) hm (inv := fun _ a => m.k ≤ a) (a := m.k) le_rfl
      exact ⟨this.dim, this.w, this.g, this.alg⟩
    · intro s' hf hd ht
      exact trained_of hm rfl rfl hf.dim hf.w (by simp [hc, hasScale]) (by simp [hc, hasSum]) (by simp [hc]) ht hf.alg
        (fun h => absurd hc h) (fun h => stamped_more (m := m) hd h) rfl
  case arow =>
    exact kit_ok (gives_simple h (K := scaled _ m) (safe_arow _ _) (closes_finish rfl) rfl (scale_vecs hm (by rw [hc]; rfl))
      (last_scaled hm (by rw [hc]; rfl) (by rw [hc]; rfl) (by rw [hc]; decide)))
  case sofs =>
    obtain ⟨B, hB, hB2⟩ := gives_budget (h.budget (by rw [hc]; decide))
    rw [hB]
    refine kit_ok ?_
    unfold sofsKit
    by_cases h0 : B = 0
    · rw [if_pos h0]
      exact gives_simple h (K := scaled _ m) (safe_arow _ _) (closes_finish rfl) rfl (scale_vecs hm (by rw [hc]; rfl))
        (last_scaled hm (by rw [hc]; rfl) (by rw [hc]; rfl) (by rw [hc]; decide))
    · rw [if_neg h0]
      exact gives_ofsKit h (by rw [hc]; decide) (by rw [hc]; rfl) (by rw [hc]; rfl) (by rw [hc]; decide) ⟨by omega, hB2⟩ rfl rfl more
        (able_sofs_held (fun _ => True) (cfgOf m k) h.clf _ (by omega))
  case cw =>
    have hh := h.hinge (by rw [hc]; decide)
    exact kit_ok (gives_simple h (safe_cw _ _ _ _) (closes_finish rfl) (by simp only [needHinge, hh, if_true, id])
      (scale_vecs hm (by rw [hc]; rfl)) (last_scaled hm (by rw [hc]; rfl) (by rw [hc]; rfl) (by rw [hc]; decide)))
  case eccw =>
    have hh := h.hinge (by rw [hc]; decide)
    exact kit_ok (gives_simple h (safe_eccw _ _ _ _) (closes_finish rfl) (by simp only [needHinge, hh, if_true, id])
      (scale_vecs hm (by rw [hc]; rfl)) (last_scaled hm (by rw [hc]; rfl) (by rw [hc]; rfl) (by rw [hc]; decide)))
  case rda =>
    exact kit_ok (gives_simple h (K := summed _ m) (safe_rda _ _ _) (closes_rda _ _ _) rfl (sum_vecs hm (by rw [hc]; rfl))
      (last_summed hm (by rw [hc]; rfl) (by rw [hc]; rfl) (by rw [hc]; decide)))
  case rdaL1 =>
    exact kit_ok (gives_simple h (K := summed _ m) (safe_rdaL1 _ _ _ _ _) (closes_rdaL1 _ _ _ _ _) rfl (sum_vecs hm (by rw [hc]; rfl))
      (last_summed hm (by rw [hc]; rfl) (by rw [hc]; rfl) (by rw [hc]; decide)))
  case erdaL1 =>
    exact kit_ok (gives_simple h (K := summed _ m) (safe_erdaL1 _ _ _ _ _ _) (closes_erdaL1 _ _ _ _ _ _) rfl
      (sum_vecs hm (by rw [hc]; rfl)) (last_summed hm (by rw [hc]; rfl) (by rw [hc]; rfl) (by rw [hc]; decide)))
  case sop =>
    have hX := hm.shape.X
    rw [if_pos hc] at hX
    refine kit_ok (gives_simple h (safe_sop _ _) (closes_sop _ _) rfl ⟨hX, sum_vecs hm (by rw [hc]; rfl)⟩ ?_)
    intro s' hf hd ht
    exact trained_of hm rfl rfl hf.dim hf.w (by simp [hc, hasScale]) (by rw [hc, if_pos (by rfl)]; exact hf.alg.2)
      (by rw [if_pos hc]; exact hf.alg.1) ht le_rfl (fun _ => rfl) (fun h => stamped_more (m := m) hd h) rfl
  case adaFobos =>
    exact kit_ok (gives_simple h (K := scaled _ m) (safe_adaFobos _ _) (closes_finish rfl) rfl (scale_vecs hm (by rw [hc]; rfl))
      (last_scaled hm (by rw [hc]; rfl) (by rw [hc]; rfl) (by rw [hc]; decide)))
  case adaFobosL1 =>
    refine kit_ok (gives_kit (Q := Fit (cfgOf m k) (adaL1Inv (cfgOf m k).clf)) ?_ ?_)
    · refine .ok ⟨le_rfl, rfl, gives_late (d0 := m.dim) (inv := fun n => lateAda (cfgOf m k).clf m.dim n)
        (mid := fun n => lateAdaMid (cfgOf m k).clf m.dim n)
        (fun n => safe_adaFobosL1_late _ _ _ _ _ _ _) (closes_adaFobosL1 _ _ _ _ _) ?_ ?_ h.matches h.usable
        (fit_start hm ⟨scale_vecs hm (by rw [hc]; rfl), le_rfl, ?_⟩) rfl ?_⟩
      · rintro n d a ⟨h0, h1, h2⟩ e rfl
        refine ⟨{ a with last := lazyBegin (timeOf m.t0) a.last (Sparse.dim e.x) }, ⟨h0, h1, lateInv_see _ h2 h1⟩, ?_⟩
        rintro s r rfl rfl
        have key : ∀ a : List Int, (adaFobosL1 m.delta m.lambda m.thresh (timeOf m.t0)).beginIter
            (enter (adaFobosL1 m.delta m.lambda m.thresh (timeOf m.t0)) { s with alg := { s.alg with last := a } } e.x) e.x =
            .ok { (enter (adaFobosL1 m.delta m.lambda m.thresh (timeOf m.t0)) s e.x) with
              alg := { (enter (adaFobosL1 m.delta m.lambda m.thresh (timeOf m.t0)) s e.x).alg with
                last := lazyBegin (timeOf m.t0) a (Sparse.dim e.x) } } := by
          intro a
          simp only [adaFobosL1, enter, Online.updateDim]
          split <;> rfl
        have k1 := key s.alg.last
        have k2 := key (lazyBegin (timeOf m.t0) s.alg.last (Sparse.dim e.x))
        rw [lazyBegin_twice] at k2
        simp only [trainOne, iterate]
        rw [k2, ← k1]
      · rintro n d a ⟨h0, h1, h2, h3, h4, h5⟩ h6 h7
        refine ⟨h0, ?_⟩
        omega
      · have := h.stamped
        unfold Stamped at this
        unfold lateInv
        rw [List.length_map]
        omega
      · rcases h.covered (Or.inr hc) with h1 | h1
        · left
          refine ⟨scale_vecs hm (by rw [hc]; rfl), le_rfl, ?_⟩
          have := h.stamped
          unfold Stamped at this
          show lateInv m.dim m.dim m.dim (m.lastTime.map timeOf)
          unfold lateInv
          rw [List.length_map]
          omega
        · exact Or.inr h1
    · intro s' hf hd ht
      have hl : s'.alg.last.length = s'.dim := hf.alg.2
      have h1 := hf.dim
      exact trained_of hm rfl rfl hf.dim hf.w (by rw [hc, if_pos (by rfl)]; exact hf.alg.1) (by simp [hc, hasSum]) (by simp [hc]) ht le_rfl
        (fun _ => rfl) (fun _ => ⟨by rw [stamps_back]; omega, by rw [stamps_back]; exact hl.le⟩) rfl
  case adaFobosOfs =>
    obtain ⟨B, hB, hB2⟩ := gives_budget (h.budget (by rw [hc]; decide))
    rw [hB]
    refine kit_ok ?_
    unfold adaFobosOfsKit
    by_cases h0 : B = 0
    · rw [if_pos h0]
      exact gives_simple h (K := scaled _ m) (safe_adaFobos _ _) (closes_finish rfl) rfl (scale_vecs hm (by rw [hc]; rfl))
        (last_scaled hm (by rw [hc]; rfl) (by rw [hc]; rfl) (by rw [hc]; decide))
    · rw [if_neg h0]
      exact gives_ofsKit h (by rw [hc]; decide) (by rw [hc]; rfl) (by rw [hc]; rfl) (by rw [hc]; decide) ⟨by omega, hB2⟩ rfl rfl less
        (able_adaFobosOfs_held (fun _ => True) (cfgOf m k) h.clf _ (by omega))
  case adaRda =>
    exact kit_ok (gives_simple h (K := adaKit _ m) (safe_adaRda _ _) (closes_adaRda _ _) rfl
      ⟨scale_vecs hm (by rw [hc]; rfl), sum_vecs hm (by rw [hc]; rfl)⟩
      (last_ada hm (by rw [hc]; rfl) (by rw [hc]; rfl) (by rw [hc]; decide)))
  case adaRdaL1 =>
    exact kit_ok (gives_simple h (K := adaKit _ m) (safe_adaRdaL1 _ _ _ _) (closes_adaRdaL1 _ _ _ _) rfl
      ⟨scale_vecs hm (by rw [hc]; rfl), sum_vecs hm (by rw [hc]; rfl)⟩
      (last_ada hm (by rw [hc]; rfl) (by rw [hc]; rfl) (by rw [hc]; decide)))
  case adaRdaOfs =>
    obtain ⟨B, hB, hB2⟩ := gives_budget (h.budget (by rw [hc]; decide))
    rw [hB]
    refine kit_ok ?_
    unfold adaRdaOfsKit
    by_cases h0 : B = 0
    · rw [if_pos h0]
      exact gives_simple h (K := adaKit _ m) (safe_adaRda _ _) (closes_adaRda _ _) rfl
        ⟨scale_vecs hm (by rw [hc]; rfl), sum_vecs hm (by rw [hc]; rfl)⟩
        (last_ada hm (by rw [hc]; rfl) (by rw [hc]; rfl) (by rw [hc]; decide))
    · rw [if_neg h0]
      exact gives_rdaOfsKit h hc ⟨by omega, hB2⟩
  case fofs =>
    refine kit_ok ?_
    by_cases h0 : m.fofsB = 0
    · rw [h0]
      exact gives_simple h (safe_fofs_none _ _ _) (closes_finish rfl) rfl trivial
        (last_bare hm (by rw [hc]; rfl) (by rw [hc]; rfl) (by rw [hc]; decide))
    · exact gives_petKit h (by rw [hc]; decide) (by rw [hc]; rfl) (by rw [hc]; rfl) (by rw [hc]; decide)
        ⟨by omega, h.features hc⟩ rfl rfl (able_fofs_loose _ h.clf _ _ (by omega))

end

end Sol.Whole
