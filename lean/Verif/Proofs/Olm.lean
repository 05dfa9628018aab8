import Verif.Proofs.Online
/-! Every algorithm meets the demands of the training loop. -/

set_option linter.unusedSectionVars false
set_option linter.unusedVariables false

namespace Sol.Olm

open Sol.Online Sol.Sparse Sol.Loss Sol.Spec

variable {α A : Type} [Zero α] [One α] [Add α] [Sub α] [Mul α] [Div α] [Neg α] [FCmp α] [IntCast α] [FFun α] [FSqrt α]

section loops
variable {β : Type}

theorem gives_each1 {P : β → Prop} {f : α → β → Res β} (hf : ∀ g v, P v → Gives (f g v) P) (gl : List α) (l : List β)
    (hl : ∀ v ∈ l, P v) : Gives (each1 f gl l) (fun l' => l'.length = l.length ∧ ∀ v ∈ l', P v) := by
  induction l generalizing gl with
  | nil =>
    cases gl <;> exact .ok ⟨rfl, by simp⟩
  | cons v l ih =>
    cases gl with
    | nil => exact .ok ⟨rfl, hl⟩
    | cons g gl =>
      have hv := hl v List.mem_cons_self
      refine Gives.bind (P := P) (.ite (fun _ => .ok hv) fun _ => hf g v hv) fun r hr => ?_
      refine (ih gl fun v hv => hl v (List.mem_cons_of_mem _ hv)).bind fun l' hl' => .ok ⟨by simp [hl'.1], ?_⟩
      intro u hu
      rcases List.mem_cons.1 hu with rfl | hu
      · exact hr
      · exact hl'.2 u hu

theorem gives_eachAll {P : β → Prop} {f : β → Res β} (hf : ∀ v, P v → Gives (f v) P) (l : List β)
    (hl : ∀ v ∈ l, P v) : Gives (eachAll f l) (fun l' => l'.length = l.length ∧ ∀ v ∈ l', P v) := by
  induction l with
  | nil => exact .ok ⟨rfl, by simp⟩
  | cons v l ih =>
    refine (hf v (hl v List.mem_cons_self)).bind fun r hr => ?_
    refine (ih fun v hv => hl v (List.mem_cons_of_mem _ hv)).bind fun l' hl' => .ok ⟨by simp [hl'.1], ?_⟩
    intro u hu
    rcases List.mem_cons.1 hu with rfl | hu
    · exact hr
    · exact hl'.2 u hu

theorem gives_eachWith {d : Nat} {f : List α → List α → Res (List α)}
    (hf : ∀ w u, w.length = d → u.length = d → Gives (f w u) (fun w' => w'.length = d)) (n : Nat)
    (l us : List (List α)) (hl : Vecs n d l) (hu : Vecs n d us) : Gives (eachWith f l us) (Vecs n d) := by
  induction l generalizing us n with
  | nil => exact .ok hl
  | cons w l ih =>
    cases us with
    | nil => exact .ok hl
    | cons u us =>
      obtain ⟨hl1, hl2⟩ := hl
      obtain ⟨hu1, hu2⟩ := hu
      refine (hf w u (hl2 w List.mem_cons_self) (hu2 u List.mem_cons_self)).bind fun r hr => ?_
      obtain ⟨m, rfl⟩ : ∃ m, n = m + 1 := ⟨l.length, by simpa using hl1.symm⟩
      refine (ih m us ⟨by simpa using hl1, fun v hv => hl2 v (List.mem_cons_of_mem _ hv)⟩
        ⟨by simpa using hu1, fun v hv => hu2 v (List.mem_cons_of_mem _ hv)⟩).bind fun l' hl' => .ok ⟨by simp [hl'.1], ?_⟩
      intro v hv
      rcases List.mem_cons.1 hv with rfl | hv
      · exact hr
      · exact hl'.2 v hv

theorem gives_eachWith2 {d : Nat} {f : List α → List α → List α → Res (List α)}
    (hf : ∀ w u h, w.length = d → u.length = d → h.length = d → Gives (f w u h) (fun w' => w'.length = d)) (n : Nat)
    (l us hs : List (List α)) (hl : Vecs n d l) (hu : Vecs n d us) (hh : Vecs n d hs) :
    Gives (eachWith2 f l us hs) (Vecs n d) := by
  induction l generalizing us hs n with
  | nil => exact .ok hl
  | cons w l ih =>
    cases us with
    | nil => exact .ok hl
    | cons u us =>
      cases hs with
      | nil => exact .ok hl
      | cons h hs =>
        obtain ⟨hl1, hl2⟩ := hl
        obtain ⟨hu1, hu2⟩ := hu
        obtain ⟨hh1, hh2⟩ := hh
        refine (hf w u h (hl2 w List.mem_cons_self) (hu2 u List.mem_cons_self) (hh2 h List.mem_cons_self)).bind
          fun r hr => ?_
        obtain ⟨m, rfl⟩ : ∃ m, n = m + 1 := ⟨l.length, by simpa using hl1.symm⟩
        refine (ih m us hs ⟨by simpa using hl1, fun v hv => hl2 v (List.mem_cons_of_mem _ hv)⟩
          ⟨by simpa using hu1, fun v hv => hu2 v (List.mem_cons_of_mem _ hv)⟩
          ⟨by simpa using hh1, fun v hv => hh2 v (List.mem_cons_of_mem _ hv)⟩).bind fun l' hl' => .ok ⟨by simp [hl'.1], ?_⟩
        intro v hv
        rcases List.mem_cons.1 hv with rfl | hv
        · exact hr
        · exact hl'.2 v hv

theorem gives_dense2 {d : Nat} {γ : Type} (f : α → γ → α) {w : List α} {u : List γ} (hw : w.length = d) (hu : u.length = d) :
    Gives (dense2 f w u) (fun w' => w'.length = d) := by
  unfold dense2
  rw [if_pos (by omega)]
  exact .ok (by simp [hw, hu])

theorem zip_vecs {n d : Nat} {l m : List (List β)} (hl : Vecs n d l) (hm : Vecs n d m) :
    (l.zip m).length = n ∧ ∀ p ∈ l.zip m, p.1.length = d ∧ p.2.length = d := by
  refine ⟨by simp [hl.1, hm.1], ?_⟩
  rintro ⟨a, b⟩ h
  exact ⟨hl.2 a (List.of_mem_zip h).1, hm.2 b (List.of_mem_zip h).2⟩

end loops

/-! ### The shape of the loop -/

theorem fit_enter {c : Cfg α} {G : Alg α A} {inv : Nat → A → Prop} {s : St α A} (x : SVec α) (h : Fit c inv s)
    (hg : ∀ d n a, d < n → inv d a → inv n (G.grow d n a)) : Fit c inv (enter G s x) := by
  simp only [enter, updateDim]
  split
  · rename_i hd
    exact ⟨by have := h.dim; show 1 ≤ Sparse.dim x; omega, h.w.grow 0 (Nat.le_of_lt hd), h.g, hg _ _ _ hd h.alg⟩
  · exact ⟨h.dim, h.w, h.g, h.alg⟩

/-- Algorithms without lazy regularisation. -/
theorem safe_of {c : Cfg α} {G : Alg α A} {inv : Nat → A → Prop}
    (hb : ∀ s x, G.beginIter s x = .ok s) (he : ∀ s x, G.endIter s x = .ok s)
    (hg : ∀ d n a, d < n → inv d a → inv n (G.grow d n a))
    (hp : ∀ s x, Fit c inv s → Good x → Sparse.dim x ≤ s.dim → Gives (G.prep c s x) (fun s' => Fit c inv s' ∧ Same s s'))
    (hh : ∀ s x, Fit c inv s → Good x → Sparse.dim x ≤ s.dim → ∀ f, G.handler c s x = some f →
      ∀ g : List α, g.length = c.clf → Gives (f g) (fun _ => True))
    (hu : ∀ s x l, Fit c inv s → Good x → Sparse.dim x ≤ s.dim →
      Gives (G.update c s x l) (fun s' => Fit c inv s' ∧ Same s s')) :
    Safe c G inv (fun _ => inv) where
  start s x h _ := ⟨_, hb _ _, fit_enter x h hg, .refl _⟩
  prep := hp
  handler := hh
  update := hu
  finish s x h _ _ := ⟨s, he s x, h, .refl s⟩
  skip _ _ _ h := h

theorem gives_step {d : Nat} (k b : α) {x : SVec α} {w : List α} (hx : Good x) (hd : 1 ≤ d) (hw : w.length = d) :
    Gives (step k b x w) (fun w' => w'.length = d) :=
  (gives_calcExp hw hx.1 fun _ _ _ _ _ => .ok trivial).bind fun w' hw' =>
    (gives_atBias _ (by omega)).mono fun _ h => by omega

theorem gives_etaStep {c : Cfg α} {inv : Nat → A → Prop} {s : St α A} {x : SVec α} (h : Fit c inv s) (hx : Good x)
    (s0 : St α A) (h0 : Same s0 s) : Gives (etaStep c s x) (fun s' => Fit c inv s' ∧ Same s0 s') :=
  (gives_each1 (P := fun v : List α => v.length = s.dim) (fun g v hv => gives_step _ _ hx h.dim hv) s.g s.w h.w.2).bind
    fun w hw => .ok ⟨⟨h.dim, ⟨hw.1.trans h.w.1, hw.2⟩, h.g, h.alg⟩, ⟨h0.dim, h0.t, h0.data, h0.upd, h0.err⟩⟩

theorem safe_plain (c : Cfg α) (upd : Cfg α → St α Unit → SVec α → α → Res (St α Unit))
    (hu : ∀ s x l, Fit c (none' Unit) s → Good x → Sparse.dim x ≤ s.dim →
      Gives (upd c s x l) (fun s' => Fit c (none' Unit) s' ∧ Same s s')) :
    Safe c (plain upd) (none' Unit) (fun _ => none' Unit) :=
  safe_of (fun _ _ => rfl) (fun _ _ => rfl) (fun _ _ _ _ _ => trivial) (fun s _ h _ _ => ⟨s, rfl, h, .refl s⟩)
    (fun _ _ _ _ _ _ hf => by simp [plain] at hf) hu

theorem safe_perceptron (c : Cfg α) : Safe c (perceptron (α := α)) (none' Unit) (fun _ => none' Unit) := by
  refine safe_plain c _ fun s x l h hx _ => ?_
  exact (gives_each1 (P := fun v : List α => v.length = s.dim) (fun g v hv => gives_step _ _ hx h.dim hv) s.g s.w h.w.2).bind
    fun w hw => .ok ⟨⟨h.dim, ⟨hw.1.trans h.w.1, hw.2⟩, h.g, h.alg⟩, ⟨rfl, rfl, rfl, rfl, rfl⟩⟩

theorem safe_eta (c : Cfg α) (eta : St α Unit → SVec α → α → α) :
    Safe c (plain fun c s x l => etaStep c { s with eta := eta s x l } x) (none' Unit) (fun _ => none' Unit) :=
  safe_plain c _ fun s x l h hx _ => gives_etaStep (s := { s with eta := eta s x l }) ⟨h.dim, h.w, h.g, h.alg⟩ hx s
    ⟨rfl, rfl, rfl, rfl, rfl⟩

theorem safe_ogd (c : Cfg α) (eta0 : α) (pow : Int → α) : Safe c (ogd eta0 pow) (none' Unit) (fun _ => none' Unit) :=
  safe_eta c _

theorem safe_pa (c : Cfg α) (coeff : α) : Safe c (pa coeff) (none' Unit) (fun _ => none' Unit) :=
  safe_eta c _

theorem safe_pa1 (c : Cfg α) (C coeff : α) : Safe c (pa1 C coeff) (none' Unit) (fun _ => none' Unit) :=
  safe_eta c _

theorem safe_pa2 (c : Cfg α) (C coeff : α) : Safe c (pa2 C coeff) (none' Unit) (fun _ => none' Unit) :=
  safe_eta c _

theorem project_length (w : List α) : (project w).length = w.length := by
  unfold project
  simp only
  split <;> simp

theorem safe_alma2 (c : Cfg α) (C alpha sqp1 : α) : Safe c (alma2 C alpha sqp1) (none' Int) (fun _ => none' Int) := by
  refine safe_of (fun _ _ => rfl) (fun _ _ => rfl) (fun _ _ _ _ _ => trivial) (fun s _ h _ _ => ⟨s, rfl, h, .refl s⟩)
    (fun _ _ _ _ _ _ hf => by simp [alma2] at hf) fun s x l h hx _ => ?_
  refine (gives_each1 (P := fun v : List α => v.length = s.dim) (fun g v hv => ?_) s.g s.w h.w.2).bind
    fun w hw => .ok ⟨⟨h.dim, ⟨hw.1.trans h.w.1, hw.2⟩, h.g, trivial⟩, ⟨rfl, rfl, rfl, rfl, rfl⟩⟩
  exact (gives_step _ _ hx h.dim hv).bind fun w hw => .ok ((project_length w).trans hw)

/-! ### Confidence-weighted algorithms -/

theorem gives_confLoop (b : Bool) {x : SVec α} {d : Nat} (hx : Good x) (hd : 1 ≤ d) (gl : List α) (l : List (List α))
    (hl : ∀ v ∈ l, v.length = d) (v : α) : Gives (confLoop b x gl l v) (fun _ => True) := by
  induction l generalizing gl v with
  | nil => cases gl <;> exact .ok trivial
  | cons w l ih =>
    cases gl with
    | nil => exact .ok trivial
    | cons g gl =>
      have hw := hl w List.mem_cons_self
      refine Gives.bind (P := fun _ => True) (.ite (fun _ => .ok trivial) fun _ => ?_)
        fun r _ => ih gl (fun v hv => hl v (List.mem_cons_of_mem _ hv)) r
      refine (gives_dotOp _ w hx.1).bind fun _ _ => .ite (fun _ => ?_) fun _ => .ok trivial
      exact (gives_lget (by omega)).bind fun _ _ => .ok trivial

theorem gives_sigStep {d : Nat} (k b : α) {x : SVec α} {w sig : List α} (hx : Good x) (hd : 1 ≤ d) (hw : w.length = d)
    (hs : sig.length = d) : Gives (sigStep k b x w sig) (fun w' => w'.length = d) :=
  (gives_calcExp hw hx.1 fun _ _ _ _ _ => (gives_lget (by omega)).bind fun _ _ => .ok trivial).bind fun w' hw' =>
    (gives_lget (by omega)).bind fun _ _ => (gives_atBias _ (by omega)).mono fun _ h => by omega

theorem gives_arowSig {d : Nat} (r : α) {x : SVec α} {sig : List α} (hx : Good x) (hd : 1 ≤ d)
    (hs : sig.length = d) : Gives (arowSig r x sig) (fun w' => w'.length = d) :=
  (gives_calcExp hs hx.1 fun _ _ _ _ _ => (gives_lget (by omega)).bind fun _ _ => .ok trivial).bind fun w' hw' =>
    (gives_atBias _ (by omega)).mono fun _ h => by omega

theorem gives_cwSig {d : Nat} (r : α) {x : SVec α} {sig : List α} (hx : Good x) (hd : 1 ≤ d)
    (hs : sig.length = d) : Gives (cwSig r x sig) (fun w' => w'.length = d) :=
  (gives_calcExp hs hx.1 fun _ _ _ _ _ => (gives_lget (by omega)).bind fun _ _ => .ok trivial).bind fun w' hw' =>
    (gives_atBias _ (by omega)).mono fun _ h => by omega

theorem unzip_vecs {n d : Nat} {l : List (List α × List α)} (h1 : l.length = n)
    (h2 : ∀ p ∈ l, p.1.length = d ∧ p.2.length = d) : Vecs n d (l.map (·.1)) ∧ Vecs n d (l.map (·.2)) := by
  refine ⟨⟨by simpa using h1, ?_⟩, ⟨by simpa using h1, ?_⟩⟩
  · intro v hv
    obtain ⟨p, hp, rfl⟩ := List.mem_map.1 hv
    exact (h2 p hp).1
  · intro v hv
    obtain ⟨p, hp, rfl⟩ := List.mem_map.1 hv
    exact (h2 p hp).2

theorem grow_vecs (a : α) (n : Nat) (d m : Nat) (l : List (List α)) (h : d < m) (hl : vecs n d l) :
    vecs n m (growSig a d m l) := Vecs.grow hl a (by omega)

theorem safe_arow (c : Cfg α) (r : α) : Safe c (arow r) (vecs c.clf) (fun _ => vecs c.clf) := by
  refine safe_of (fun _ _ => rfl) (fun _ _ => rfl) (grow_vecs 1 c.clf) (fun s _ h _ _ => ⟨s, rfl, h, .refl s⟩)
    (fun _ _ _ _ _ _ hf => by simp [arow] at hf) fun s x l h hx _ => ?_
  refine (gives_confLoop _ hx h.dim s.g s.alg h.alg.2 0).bind fun beta _ => ?_
  have hz := zip_vecs h.w h.alg
  refine (gives_each1 (P := fun p : List α × List α => p.1.length = s.dim ∧ p.2.length = s.dim) (fun g p hp => ?_)
    s.g _ hz.2).bind fun ws hws => .ok ?_
  · exact (gives_sigStep _ _ hx h.dim hp.1 hp.2).bind fun w hw => (gives_arowSig _ hx h.dim hp.2).bind
      fun sig hsig => .ok ⟨hw, hsig⟩
  · have hv := unzip_vecs (hws.1.trans hz.1) hws.2
    exact ⟨⟨h.dim, hv.1, h.g, hv.2⟩, ⟨rfl, rfl, rfl, rfl, rfl⟩⟩

theorem gives_cwStep {c : Cfg α} {s : St α (List (List α))} {x : SVec α} (tmp : α) (h : Fit c (vecs c.clf) s) (hx : Good x) :
    Gives (cwStep c s s.alg tmp x) (fun ws => ws.length = c.clf ∧ ∀ p ∈ ws, p.1.length = s.dim ∧ p.2.length = s.dim) := by
  have hz := zip_vecs h.w h.alg
  refine (gives_each1 (P := fun p : List α × List α => p.1.length = s.dim ∧ p.2.length = s.dim) (fun g p hp => ?_)
    s.g _ hz.2).mono fun ws hws => ⟨hws.1.trans hz.1, hws.2⟩
  exact (gives_sigStep _ _ hx h.dim hp.1 hp.2).bind fun w hw => (gives_cwSig _ hx h.dim hp.2).bind
      fun sig hsig => .ok ⟨hw, hsig⟩

theorem gives_cwHandler {d n : Nat} {x : SVec α} (phi : α) (bias : Bool) {sigs : List (List α)} (hx : Good x) (hd : 1 ≤ d)
    (hs : Vecs n d sigs) (g : List α) : Gives (cwHandler phi bias sigs x g) (fun _ => True) :=
  (gives_confLoop bias hx hd g sigs hs.2 0).bind fun _ _ => .ok trivial

theorem safe_cw (c : Cfg α) (a phi : α) (bias : Bool) : Safe c (cw a phi bias) (vecs c.clf) (fun _ => vecs c.clf) := by
  refine safe_of (fun _ _ => rfl) (fun _ _ => rfl) (grow_vecs a c.clf) (fun s _ h _ _ => ⟨s, rfl, h, .refl s⟩)
    (fun s x h hx _ f hf g hg => ?_) fun s x l h hx _ => ?_
  · obtain rfl := Option.some.inj hf
    exact gives_cwHandler phi bias hx h.dim h.alg g
  · refine (gives_cwStep (s := { s with eta := cwAlpha phi s.vi l }) _ ⟨h.dim, h.w, h.g, h.alg⟩ hx).bind
      fun ws hws => .ok ?_
    have hv := unzip_vecs hws.1 hws.2
    exact ⟨⟨h.dim, hv.1, h.g, hv.2⟩, ⟨rfl, rfl, rfl, rfl, rfl⟩⟩

theorem safe_eccw (c : Cfg α) (a phi : α) (bias : Bool) : Safe c (eccw a phi bias) (vecs c.clf) (fun _ => vecs c.clf) := by
  refine safe_of (fun _ _ => rfl) (fun _ _ => rfl) (grow_vecs a c.clf) (fun s _ h _ _ => ⟨s, rfl, h, .refl s⟩)
    (fun s x h hx _ f hf g hg => ?_) fun s x l h hx _ => ?_
  · obtain rfl := Option.some.inj hf
    exact gives_cwHandler phi bias hx h.dim h.alg g
  · refine (gives_cwStep (s := { s with eta := eccwAlpha phi s.vi l }) _ ⟨h.dim, h.w, h.g, h.alg⟩ hx).bind
      fun ws hws => .ok ?_
    have hv := unzip_vecs hws.1 hws.2
    exact ⟨⟨h.dim, hv.1, h.g, hv.2⟩, ⟨rfl, rfl, rfl, rfl, rfl⟩⟩

/-! ### Lazy L1 regularisation -/

theorem gives_stgLoop (k t : Int) (alpha : α) {d : Nat} (x : SVec α) (w : List α) (last : List Int)
    (hw : w.length = d) (hl : last.length = d) (hx : ∀ p ∈ x, p.1 < d) :
    Gives (stgLoop k t alpha x w last) (fun r => r.1.length = d ∧ r.2.length = d) := by
  induction x generalizing w last with
  | nil => exact .ok ⟨hw, hl⟩
  | cons p x ih =>
    obtain ⟨i, y⟩ := p
    have hi : i < d := hx (i, y) List.mem_cons_self
    have hx' : ∀ p ∈ x, p.1 < d := fun p hp => hx p (List.mem_cons_of_mem _ hp)
    refine (gives_lget (by omega)).bind fun l _ => .ite (fun _ => ih w last hw hl hx') fun _ => ?_
    exact (gives_lget (by omega)).bind fun a _ => (gives_lset _ (by omega)).bind fun w' hw' =>
      (gives_lset _ (by omega)).bind fun last' hlast' => ih w' last' (by omega) (by omega) hx'

theorem gives_stgClasses (k t : Int) (alpha b : α) {d n : Nat} {x : SVec α} (hx : ∀ p ∈ x, p.1 < d) (hd : 1 ≤ d)
    (l : List (List α)) (last : List Int) (hw : Vecs n d l) (hl : last.length = d) :
    Gives (stgClasses k t alpha b x l last) (fun r => Vecs n d r.1 ∧ r.2.length = d) := by
  induction l generalizing last n with
  | nil => exact .ok ⟨hw, hl⟩
  | cons w l ih =>
    obtain ⟨h1, h2⟩ := hw
    obtain ⟨m, rfl⟩ : ∃ m, n = m + 1 := ⟨l.length, by simpa using h1.symm⟩
    refine (gives_stgLoop k t alpha x w last (h2 w List.mem_cons_self) hl hx).bind fun r hr => ?_
    refine (gives_atBias _ (by omega)).bind fun w' hw' => (gives_lset _ (by omega)).bind fun last' hlast' => ?_
    refine (ih (n := m) last' ⟨by simpa using h1, fun v hv => h2 v (List.mem_cons_of_mem _ hv)⟩ (by omega)).bind
      fun r' hr' => .ok ⟨⟨by simp [hr'.1.1], ?_⟩, hr'.2⟩
    intro v hv
    rcases List.mem_cons.1 hv with rfl | hv
    · omega
    · exact hr'.1.2 v hv

theorem safe_stg (c : Cfg α) (eta0 : α) (pow : Int → α) (k : Int) (lambda thresh : α) (t0 : Int) :
    Safe c (stg eta0 pow k lambda thresh t0) stamps (fun _ => stamps) := by
  refine safe_of (fun _ _ => rfl) (fun _ _ => rfl) (fun d n a h ha => growTo_length d n t0 a ha (by omega))
    (fun s x h hx hd => ?_) (fun _ _ _ _ _ _ hf => by simp [stg] at hf) fun s x l h hx _ => ?_
  · refine (gives_stgClasses _ _ _ _ (fun p hp => ?_) h.dim s.w s.alg h.w h.alg).bind fun r hr => .ok
      ⟨⟨h.dim, hr.1, h.g, hr.2⟩, ⟨rfl, rfl, rfl, rfl, rfl⟩⟩
    have := hx.lt_dim p hp
    omega
  · exact gives_etaStep (s := { s with eta := eta0 / pow s.t }) ⟨h.dim, h.w, h.g, h.alg⟩ hx s ⟨rfl, rfl, rfl, rfl, rfl⟩

/-- The lazy regulariser when the dimension was set larger than the data: there is at least the stamp of the bias. -/
def lazyInv : Nat → List Int → Prop := fun _ l => 1 ≤ l.length
/-- See `lazyInv`. -/
def lazyMid (x : SVec α) : Nat → List Int → Prop := fun _ l => 1 ≤ l.length ∧ Sparse.dim x ≤ l.length

theorem lazyBegin_length (t0 : Int) (last : List Int) (n : Nat) : (lazyBegin t0 last n).length = max last.length n := by
  unfold lazyBegin
  split
  · rw [growTo_length _ _ _ _ rfl (by omega)]; omega
  · omega

theorem gives_stampLoop (ts : Int) {d : Nat} (x : SVec α) (last : List Int) (hl : last.length = d) (hx : ∀ p ∈ x, p.1 < d) :
    Gives (stampLoop ts x last) (fun l => l.length = d) := by
  induction x generalizing last with
  | nil => exact .ok hl
  | cons p x ih =>
    obtain ⟨i, y⟩ := p
    have hi : i < d := hx (i, y) List.mem_cons_self
    exact (gives_lset _ (by omega)).bind fun l hl' => ih l (by omega) fun p hp => hx p (List.mem_cons_of_mem _ hp)

theorem gives_lazyEnd (s : St α A) {x : SVec α} {last : List Int} (hx : Good x) (h1 : 1 ≤ last.length)
    (h2 : Sparse.dim x ≤ last.length) : Gives (lazyEnd s last x) (fun l => l.length = last.length) := by
  refine (gives_stampLoop _ x last rfl fun p hp => ?_).bind fun l hl => (gives_lset _ (by omega)).mono fun _ h => by omega
  have := hx.lt_dim p hp
  omega

theorem gives_calcExp_dim {op : α → α → α} {f : List α → Nat → α → Res α} {d : Nat} {x : SVec α} {w : List α}
    (hw : w.length = d) (hx : Good x)
    (hf : ∀ (w' : List α) (i : Nat) (y : α), w'.length = d → i < d → i < Sparse.dim x → Gives (f w' i y) (fun _ => True)) :
    Gives (calcExp op f w x) (fun w' => w'.length = d) := by
  suffices ∀ (l : SVec α) (w : List α), w.length = d → (∀ p ∈ l, p.1 < d ∧ p.1 < Sparse.dim x) →
      Gives (calcLoop op f l w) (fun w' => w'.length = d) from
    this _ w hw fun p hp => ⟨by simpa [hw] using take_lt hx.1 w.length p hp, hx.lt_dim p (List.mem_of_mem_take hp)⟩
  intro l
  induction l with
  | nil => exact fun w hw _ => .ok hw
  | cons p l ih =>
    intro w hw hl
    obtain ⟨i, y⟩ := p
    have hi := hl (i, y) List.mem_cons_self
    exact (hf w i y hw hi.1 hi.2).bind fun r _ => (gives_lget (by omega)).bind fun a _ =>
      (gives_lset _ (by omega)).bind fun w' hw' => ih w' (by omega) fun p hp => hl p (List.mem_cons_of_mem _ hp)

theorem gives_fobosTrunc {d : Nat} (rate b : α) (t : Int) {last : List Int} {x : SVec α} {w : List α} (hx : Good x)
    (hd : 1 ≤ d) (hl : Sparse.dim x ≤ last.length) (hw : w.length = d) :
    Gives (fobosTrunc rate b t last x w) (fun w' => w'.length = d) :=
  (gives_calcExp_dim hw hx fun w' i y hw' hi hi' => (gives_lget (by omega)).bind fun _ _ =>
    (gives_lget (by omega)).bind fun _ _ => .ok trivial).bind fun w' hw' =>
      (gives_atBias _ (by omega)).mono fun _ h => by omega

theorem safe_fobosL1 (c : Cfg α) (eta0 : α) (pow : Int → α) (lambda thresh : α) (t0 : Int) :
    Safe c (fobosL1 eta0 pow lambda thresh t0) lazyInv lazyMid where
  start s x h hx := by
    have hf := fit_enter (G := fobosL1 eta0 pow lambda thresh t0) x h (fun _ _ _ _ h => h)
    refine .ok ⟨⟨hf.dim, hf.w, hf.g, ?_⟩, ⟨rfl, rfl, rfl, rfl, rfl⟩⟩
    have := hf.alg
    simp only [lazyInv, lazyMid, lazyBegin_length] at this ⊢
    omega
  prep s x h hx hd :=
    (gives_eachAll (P := fun v : List α => v.length = s.dim) (fun v hv => gives_fobosTrunc _ _ _ hx h.dim h.alg.2 hv) s.w
      h.w.2).bind fun w hw => .ok ⟨⟨h.dim, ⟨hw.1.trans h.w.1, hw.2⟩, h.g, h.alg⟩, ⟨rfl, rfl, rfl, rfl, rfl⟩⟩
  handler _ _ _ _ _ _ hf := by simp [fobosL1] at hf
  update s x l h hx _ :=
    gives_etaStep (s := { s with eta := eta0 / pow s.t }) ⟨h.dim, h.w, h.g, h.alg⟩ hx s ⟨rfl, rfl, rfl, rfl, rfl⟩
  finish s x h hx _ :=
    (gives_lazyEnd s hx h.alg.1 h.alg.2).bind fun l hl => .ok ⟨⟨h.dim, h.w, h.g, by
      have := h.alg.1
      simp only [lazyInv]; omega⟩, ⟨rfl, rfl, rfl, rfl, rfl⟩⟩
  skip _ _ _ h := h.1

/-- The lazy regulariser after a fresh start: one time stamp per dimension. -/
theorem safe_fobosL1_fresh (c : Cfg α) (eta0 : α) (pow : Int → α) (lambda thresh : α) (t0 : Int) :
    Safe c (fobosL1 eta0 pow lambda thresh t0) stamps (fun _ => stamps) where
  start s x h hx := by
    have hf := fit_enter (inv := none' _) (G := fobosL1 eta0 pow lambda thresh t0) x ⟨h.dim, h.w, h.g, trivial⟩
      (fun _ _ _ _ h => h)
    refine .ok ⟨⟨hf.dim, hf.w, hf.g, ?_⟩, ⟨rfl, rfl, rfl, rfl, rfl⟩⟩
    have h1 : s.alg.length = s.dim := h.alg
    have h2 : (enter (fobosL1 eta0 pow lambda thresh t0) s x).alg = s.alg := by
      simp only [enter, updateDim]; split <;> rfl
    show (lazyBegin t0 (enter (fobosL1 eta0 pow lambda thresh t0) s x).alg (Sparse.dim x)).length = _
    rw [lazyBegin_length, h2, enter_dim, h1]
  prep s x h hx hd := by
    have ha : s.alg.length = s.dim := h.alg
    exact (gives_eachAll (P := fun v : List α => v.length = s.dim)
      (fun v hv => gives_fobosTrunc _ _ _ hx h.dim (by omega) hv) s.w h.w.2).bind
      fun w hw => .ok ⟨⟨h.dim, ⟨hw.1.trans h.w.1, hw.2⟩, h.g, h.alg⟩, ⟨rfl, rfl, rfl, rfl, rfl⟩⟩
  handler _ _ _ _ _ _ hf := by simp [fobosL1] at hf
  update s x l h hx _ :=
    gives_etaStep (s := { s with eta := eta0 / pow s.t }) ⟨h.dim, h.w, h.g, h.alg⟩ hx s ⟨rfl, rfl, rfl, rfl, rfl⟩
  finish s x h hx hd := by
    have ha : s.alg.length = s.dim := h.alg
    have hd1 := h.dim
    exact (gives_lazyEnd s hx (by omega) (by omega)).bind fun l hl => .ok ⟨⟨h.dim, h.w, h.g, hl.trans ha⟩,
      ⟨rfl, rfl, rfl, rfl, rfl⟩⟩
  skip _ _ _ h := h

/-! ### Dual averaging -/

theorem gives_fromDual {d : Nat} (f b : α → α) {x : SVec α} {w u : List α} (hx : Good x) (hd : 1 ≤ d) (hw : w.length = d)
    (hu : u.length = d) : Gives (fromDual f b x w u) (fun w' => w'.length = d) :=
  (gives_calcExp hw hx.1 fun _ _ _ _ _ => (gives_lget (by omega)).bind fun _ _ => .ok trivial).bind fun w' hw' =>
    (gives_lget (by omega)).bind fun _ _ => (gives_lset _ (by omega)).mono fun _ h => by omega

theorem gives_addGrad {d : Nat} (g : α) {x : SVec α} {u : List α} (hx : Good x) (hd : 1 ≤ d)
    (hu : u.length = d) : Gives (addGrad g x u) (fun w' => w'.length = d) :=
  (gives_calcExp hu hx.1 fun _ _ _ _ _ => .ok trivial).bind fun w' hw' =>
    (gives_atBias _ (by omega)).mono fun _ h => by omega

theorem gives_dualUpdate {c : Cfg α} {s : St α (List (List α))} {x : SVec α} (h : Fit c (vecs c.clf) s) (hx : Good x) :
    Gives (do let u ← each1 (fun g u => addGrad g x u) s.g s.alg; .ok { s with alg := u })
      (fun s' => Fit c (vecs c.clf) s' ∧ Same s s') :=
  (gives_each1 (P := fun v : List α => v.length = s.dim) (fun g v hv => gives_addGrad _ hx h.dim hv) s.g s.alg
      h.alg.2).bind fun w hw => .ok ⟨⟨h.dim, h.w, h.g, ⟨hw.1.trans h.alg.1, hw.2⟩⟩, ⟨rfl, rfl, rfl, rfl, rfl⟩⟩

theorem safe_rda (c : Cfg α) (sigma eps : α) : Safe c (rda sigma eps) (vecs c.clf) (fun _ => vecs c.clf) :=
  safe_of (fun _ _ => rfl) (fun _ _ => rfl) (grow_vecs 0 c.clf)
    (fun s x h hx _ => (gives_eachWith (fun w u hw hu => gives_fromDual _ _ hx h.dim hw hu) c.clf s.w s.alg h.w h.alg).bind
      fun w hw => .ok ⟨⟨h.dim, hw, h.g, h.alg⟩, ⟨rfl, rfl, rfl, rfl, rfl⟩⟩)
    (fun _ _ _ _ _ _ hf => by simp [rda] at hf) fun s x l h hx _ => gives_dualUpdate h hx

theorem safe_rdaL1 (c : Cfg α) (sigma eps lambda thresh : α) :
    Safe c (rdaL1 sigma eps lambda thresh) (vecs c.clf) (fun _ => vecs c.clf) :=
  safe_of (fun _ _ => rfl) (fun _ _ => rfl) (grow_vecs 0 c.clf)
    (fun s x h hx _ => (gives_eachWith (fun w u hw hu => gives_fromDual _ _ hx h.dim hw hu) c.clf s.w s.alg h.w h.alg).bind
      fun w hw => .ok ⟨⟨h.dim, hw, h.g, h.alg⟩, ⟨rfl, rfl, rfl, rfl, rfl⟩⟩)
    (fun _ _ _ _ _ _ hf => by simp [rdaL1] at hf) fun s x l h hx _ => gives_dualUpdate h hx

theorem safe_erdaL1 (c : Cfg α) (sigma eps lambda rou thresh : α) :
    Safe c (erdaL1 sigma eps lambda rou thresh) (vecs c.clf) (fun _ => vecs c.clf) :=
  safe_of (fun _ _ => rfl) (fun _ _ => rfl) (grow_vecs 0 c.clf)
    (fun s x h hx _ => (gives_eachWith (fun w u hw hu => gives_fromDual _ _ hx h.dim hw hu) c.clf s.w s.alg h.w h.alg).bind
      fun w hw => .ok ⟨⟨h.dim, hw, h.g, h.alg⟩, ⟨rfl, rfl, rfl, rfl, rfl⟩⟩)
    (fun _ _ _ _ _ _ hf => by simp [erdaL1] at hf) fun s x l h hx _ => gives_dualUpdate h hx

theorem safe_sop (c : Cfg α) (a : α) : Safe c (sop a) (sopInv c.clf) (fun _ => sopInv c.clf) := by
  refine safe_of (fun _ _ => rfl) (fun _ _ => rfl)
    (fun d n s h hs => ⟨growTo_length d n 0 _ hs.1 (by omega), hs.2.grow 0 (by omega)⟩)
    (fun s x h hx _ => ?_) (fun _ _ _ _ _ _ hf => by simp [sop] at hf) fun s x l h hx _ => ?_
  · have hX := h.alg.1
    refine (gives_eachWith (d := s.dim) (fun w v hw hv => ?_) c.clf s.w s.alg.v h.w h.alg.2).bind fun w hw =>
      .ok ⟨⟨h.dim, hw, h.g, h.alg⟩, ⟨rfl, rfl, rfl, rfl, rfl⟩⟩
    exact gives_calcExp hw hx.1 fun _ _ _ _ _ => (gives_lget (by omega)).bind fun _ _ =>
      (gives_lget (by omega)).bind fun _ _ => .ok trivial
  · refine (gives_each1 (P := fun v : List α => v.length = s.dim) (fun g v hv => gives_step _ _ hx h.dim hv) s.g s.alg.v
      h.alg.2.2).bind fun v hv => (gives_calcExp h.alg.1 hx.1 fun _ _ _ _ _ => .ok trivial).bind fun X hX =>
        .ok ⟨⟨h.dim, h.w, h.g, ⟨hX, ⟨hv.1.trans h.alg.2.1, hv.2⟩⟩⟩, ⟨rfl, rfl, rfl, rfl, rfl⟩⟩

/-! ### Adaptive subgradient methods -/

theorem gives_adaH {d : Nat} (delta g : α) {x : SVec α} {H : List α} (hx : Good x) (hd : 1 ≤ d) (hH : H.length = d) :
    Gives (adaH delta g x H) (fun w' => w'.length = d) :=
  (gives_calcExp hH hx.1 fun _ _ _ _ _ => (gives_lget (by omega)).bind fun _ _ => .ok trivial).bind fun w' hw' =>
    (gives_atBias _ (by omega)).mono fun _ h => by omega

theorem gives_adaStep {d : Nat} (k b : α) {x : SVec α} {w H : List α} (hx : Good x) (hd : 1 ≤ d) (hw : w.length = d)
    (hH : H.length = d) : Gives (adaStep k b x w H) (fun w' => w'.length = d) :=
  (gives_calcExp hw hx.1 fun _ _ _ _ _ => (gives_lget (by omega)).bind fun _ _ => .ok trivial).bind fun w' hw' =>
    (gives_lget (by omega)).bind fun _ _ => (gives_atBias _ (by omega)).mono fun _ h => by omega

theorem gives_adaFobosUpdate {c : Cfg α} {s : St α A} {H : List (List α)} {x : SVec α} (delta : α) (hd : 1 ≤ s.dim)
    (hw : Vecs c.clf s.dim s.w) (hH : Vecs c.clf s.dim H) (hx : Good x) :
    Gives (adaFobosUpdate delta c s H x) (fun ws => Vecs c.clf s.dim (ws.map (·.1)) ∧ Vecs c.clf s.dim (ws.map (·.2))) := by
  have hz := zip_vecs hw hH
  refine (gives_each1 (P := fun p : List α × List α => p.1.length = s.dim ∧ p.2.length = s.dim) (fun g p hp => ?_)
    s.g _ hz.2).mono fun ws hws => unzip_vecs (hws.1.trans hz.1) hws.2
  exact (gives_adaH _ _ hx hd hp.2).bind fun H hH => (gives_adaStep _ _ hx hd hp.1 hH).bind fun w hw => .ok ⟨hw, hH⟩

theorem safe_adaFobos (c : Cfg α) (delta : α) : Safe c (adaFobos delta) (vecs c.clf) (fun _ => vecs c.clf) :=
  safe_of (fun _ _ => rfl) (fun _ _ => rfl) (grow_vecs delta c.clf) (fun s _ h _ _ => ⟨s, rfl, h, .refl s⟩)
    (fun _ _ _ _ _ _ hf => by simp [adaFobos] at hf) fun s x l h hx _ =>
      (gives_adaFobosUpdate delta h.dim h.w h.alg hx).bind fun ws hws =>
        .ok ⟨⟨h.dim, hws.1, h.g, hws.2⟩, ⟨rfl, rfl, rfl, rfl, rfl⟩⟩

theorem safe_adaFobosL1 (c : Cfg α) (delta lambda thresh : α) (t0 : Int) :
    Safe c (adaFobosL1 delta lambda thresh t0) (adaL1Inv c.clf) (fun _ => adaL1Inv c.clf) where
  start s x h hx := by
    have hf := fit_enter (inv := fun d (a : AdaL1 α) => Vecs c.clf d a.H) (G := adaFobosL1 delta lambda thresh t0) x
      ⟨h.dim, h.w, h.g, h.alg.1⟩ (fun _ _ _ hd h => h.grow delta (by omega))
    refine .ok ⟨⟨hf.dim, hf.w, hf.g, hf.alg, ?_⟩, ⟨rfl, rfl, rfl, rfl, rfl⟩⟩
    have h1 : s.alg.last.length = s.dim := h.alg.2
    have h2 : (enter (adaFobosL1 delta lambda thresh t0) s x).alg.last = s.alg.last := by
      simp only [enter, updateDim]; split <;> rfl
    show (lazyBegin t0 (enter (adaFobosL1 delta lambda thresh t0) s x).alg.last (Sparse.dim x)).length = _
    rw [lazyBegin_length, h2, enter_dim, h1]
  prep s x h hx hd := by
    have hl : s.alg.last.length = s.dim := h.alg.2
    have hd1 := h.dim
    refine (gives_eachWith (d := s.dim) (fun w H hw hH => ?_) c.clf s.w s.alg.H h.w h.alg.1).bind fun w hw =>
      .ok ⟨⟨h.dim, hw, h.g, h.alg⟩, ⟨rfl, rfl, rfl, rfl, rfl⟩⟩
    refine (gives_calcExp_dim hw hx fun w' i y hw' hi hi' => (gives_lget (by omega)).bind fun _ _ =>
      (gives_lget (by omega)).bind fun _ _ => (gives_lget (by omega)).bind fun _ _ => .ok trivial).bind fun w' hw' => ?_
    exact (gives_lget (by omega)).bind fun _ _ => (gives_atBias _ (by omega)).mono fun _ h => by omega
  handler _ _ _ _ _ _ hf := by simp [adaFobosL1] at hf
  update s x l h hx _ := (gives_adaFobosUpdate delta h.dim h.w h.alg.1 hx).bind fun ws hws =>
        .ok ⟨⟨h.dim, hws.1, h.g, ⟨hws.2, h.alg.2⟩⟩, ⟨rfl, rfl, rfl, rfl, rfl⟩⟩
  finish s x h hx hd := by
    have hl : s.alg.last.length = s.dim := h.alg.2
    have hd1 := h.dim
    exact (gives_lazyEnd s hx (by omega) (by omega)).bind fun l hl' => .ok ⟨⟨h.dim, h.w, h.g, h.alg.1, hl'.trans hl⟩,
      ⟨rfl, rfl, rfl, rfl, rfl⟩⟩
  skip _ _ _ h := h

theorem gives_adaRdaUpdate {c : Cfg α} {s : St α (AdaRdaSt α)} {x : SVec α} (delta : α)
    (h : Fit c (adaRdaInv c.clf) s) (hx : Good x) :
    Gives (do
      let ws ← adaRdaUpdate delta c s s.alg x
      .ok { s with w := ws.map (·.1), alg := ⟨ws.map (·.2.1), ws.map (·.2.2)⟩ })
      (fun s' => Fit c (adaRdaInv c.clf) s' ∧ Same s s') := by
  have hd := h.dim
  have hz : (s.w.zip (s.alg.H.zip s.alg.ut)).length = c.clf ∧
      ∀ p ∈ s.w.zip (s.alg.H.zip s.alg.ut), p.1.length = s.dim ∧ p.2.1.length = s.dim ∧ p.2.2.length = s.dim := by
    have h1 := h.w
    have h2 := h.alg
    refine ⟨by simp [h1.1, h2.1.1, h2.2.1], ?_⟩
    rintro ⟨a, b, c'⟩ hm
    have hm1 := List.of_mem_zip hm
    have hm2 := List.of_mem_zip hm1.2
    exact ⟨h1.2 a hm1.1, h2.1.2 b hm2.1, h2.2.2 c' hm2.2⟩
  refine (gives_each1 (P := fun p : List α × List α × List α => p.1.length = s.dim ∧ p.2.1.length = s.dim ∧
    p.2.2.length = s.dim) (fun g p hp => ?_) s.g _ hz.2).bind fun ws hws => .ok ?_
  · refine (gives_adaH _ _ hx hd hp.2.1).bind fun H hH => (gives_addGrad _ hx hd hp.2.2).bind fun u hu => ?_
    refine (gives_calcExp hp.1 hx.1 fun _ _ _ _ _ => (gives_lget (by omega)).bind fun _ _ =>
      (gives_lget (by omega)).bind fun _ _ => .ok trivial).bind fun w hw => ?_
    exact (gives_atBias _ (by omega)).bind fun w' hw' => .ok ⟨by simp only; omega, hH, hu⟩
  · have hlen := hws.1.trans hz.1
    refine ⟨⟨hd, ⟨by simpa using hlen, ?_⟩, h.g, ⟨⟨by simpa using hlen, ?_⟩, ⟨by simpa using hlen, ?_⟩⟩⟩,
      ⟨rfl, rfl, rfl, rfl, rfl⟩⟩
    all_goals
      intro v hv
      obtain ⟨p, hp, rfl⟩ := List.mem_map.1 hv
    · exact (hws.2 p hp).1
    · exact (hws.2 p hp).2.1
    · exact (hws.2 p hp).2.2

theorem safe_adaRda (c : Cfg α) (delta : α) : Safe c (adaRda delta) (adaRdaInv c.clf) (fun _ => adaRdaInv c.clf) :=
  safe_of (fun _ _ => rfl) (fun _ _ => rfl) (fun _ _ _ hd h => ⟨h.1.grow delta (by omega), h.2.grow 0 (by omega)⟩)
    (fun s _ h _ _ => ⟨s, rfl, h, .refl s⟩)
    (fun _ _ _ _ _ _ hf => by simp [adaRda] at hf) fun _ _ _ h hx _ => gives_adaRdaUpdate delta h hx

theorem safe_adaRdaL1 (c : Cfg α) (delta lambda thresh : α) :
    Safe c (adaRdaL1 delta lambda thresh) (adaRdaInv c.clf) (fun _ => adaRdaInv c.clf) := by
  refine safe_of (fun _ _ => rfl) (fun _ _ => rfl)
    (fun _ _ _ hd h => ⟨h.1.grow delta (by omega), h.2.grow 0 (by omega)⟩) (fun s x h hx _ => ?_)
    (fun _ _ _ _ _ _ hf => by simp [adaRdaL1] at hf) fun _ _ _ h hx _ => gives_adaRdaUpdate delta h hx
  have hd := h.dim
  refine (gives_eachWith2 (d := s.dim) (fun w u H hw hu hH => ?_) c.clf s.w s.alg.ut s.alg.H h.w h.alg.2 h.alg.1).bind
    fun w hw => .ok ⟨⟨h.dim, hw, h.g, h.alg⟩, ⟨rfl, rfl, rfl, rfl, rfl⟩⟩
  refine (gives_calcExp hw hx.1 fun _ _ _ _ _ => (gives_lget (by omega)).bind fun _ _ =>
      (gives_lget (by omega)).bind fun _ _ => .ok trivial).bind fun w hw => ?_
  exact (gives_lget (by omega)).bind fun _ _ => (gives_lget (by omega)).bind fun _ _ =>
    (gives_lset _ (by omega)).mono fun _ h => by omega

/-! ### EndTrain -/

/-- `EndTrain` ends well and keeps the shape and the counters. -/
def Closes (c : Cfg α) (G : Alg α A) (inv : Nat → A → Prop) : Prop :=
  ∀ s, Fit c inv s → Gives (G.endTrain c s) (fun s' => Fit c inv s' ∧ Same s s' ∧ s'.fresh = false)

theorem closes_finish {c : Cfg α} {G : Alg α A} {inv : Nat → A → Prop} (h : G.endTrain = finish) : Closes c G inv := by
  intro s hs
  rw [h]
  exact .ok ⟨⟨hs.dim, hs.w, hs.g, hs.alg⟩, ⟨rfl, rfl, rfl, rfl, rfl⟩, rfl⟩

theorem sparsify_vecs (thresh : α) {n d : Nat} {l : List (List α)} (h : Vecs n d l) : Vecs n d (l.map (sparsify thresh)) :=
  h.map _ fun v hv => by simp [sparsify, hv]

theorem gives_stgEnd {c : Cfg α} (lambda : α) {s : St α A} {last : List Int} (hw : Vecs c.clf s.dim s.w)
    (hl : last.length = s.dim) : Gives (stgEnd lambda s last) (Vecs c.clf s.dim) :=
  (gives_eachAll (P := fun v : List α => v.length = s.dim) (fun v hv => gives_dense2 _ hv hl) s.w hw.2).mono
    fun w h => ⟨h.1.trans hw.1, h.2⟩

theorem closes_stg (c : Cfg α) (eta0 : α) (pow : Int → α) (k : Int) (lambda thresh : α) (t0 : Int) :
    Closes c (stg eta0 pow k lambda thresh t0) stamps := fun s h =>
  (gives_stgEnd lambda h.w h.alg).bind fun w hw => .ok ⟨⟨h.dim, sparsify_vecs thresh hw, h.g, h.alg⟩,
    ⟨rfl, rfl, rfl, rfl, rfl⟩, rfl⟩

theorem closes_fobosL1 (c : Cfg α) (eta0 : α) (pow : Int → α) (lambda thresh : α) (t0 : Int) :
    Closes c (fobosL1 eta0 pow lambda thresh t0) stamps := fun s h =>
  (gives_stgEnd lambda h.w h.alg).bind fun w hw =>
    (gives_eachAll (P := fun v : List α => v.length = s.dim) (fun v hv => (gives_atBias _ (by have := h.dim; omega)).mono
      fun _ h => h.trans hv) w hw.2).bind fun w' hw' => .ok ⟨⟨h.dim, sparsify_vecs thresh ⟨hw'.1.trans hw.1, hw'.2⟩, h.g, h.alg⟩,
    ⟨rfl, rfl, rfl, rfl, rfl⟩, rfl⟩

theorem gives_fromDualAll {d : Nat} (f b : α → α) {w u : List α} (hd : 1 ≤ d) (hw : w.length = d)
    (hu : u.length = d) : Gives (fromDualAll f b w u) (fun w' => w'.length = d) :=
  (gives_dense2 _ hw hu).bind fun w' hw' =>
    (gives_lget (by omega)).bind fun _ _ => (gives_lset _ (by omega)).mono fun _ h => by omega

theorem closes_rda (c : Cfg α) (sigma eps : α) : Closes c (rda sigma eps) (vecs c.clf) := fun s h =>
  (gives_eachWith (fun w u hw hu => gives_fromDualAll _ _ h.dim hw hu) c.clf s.w s.alg h.w h.alg).bind fun w hw =>
    .ok ⟨⟨h.dim, hw, h.g, h.alg⟩, ⟨rfl, rfl, rfl, rfl, rfl⟩, rfl⟩

theorem closes_rdaL1 (c : Cfg α) (sigma eps lambda thresh : α) :
    Closes c (rdaL1 sigma eps lambda thresh) (vecs c.clf) := fun s h =>
  (gives_eachWith (fun w u hw hu => gives_fromDualAll _ _ h.dim hw hu) c.clf s.w s.alg h.w h.alg).bind fun w hw =>
    .ok ⟨⟨h.dim, sparsify_vecs thresh hw, h.g, h.alg⟩, ⟨rfl, rfl, rfl, rfl, rfl⟩, rfl⟩

theorem closes_erdaL1 (c : Cfg α) (sigma eps lambda rou thresh : α) :
    Closes c (erdaL1 sigma eps lambda rou thresh) (vecs c.clf) := fun s h =>
  (gives_eachWith (fun w u hw hu => gives_fromDualAll _ _ h.dim hw hu) c.clf s.w s.alg h.w h.alg).bind fun w hw =>
    .ok ⟨⟨h.dim, sparsify_vecs thresh hw, h.g, h.alg⟩, ⟨rfl, rfl, rfl, rfl, rfl⟩, rfl⟩

theorem closes_sop (c : Cfg α) (a : α) : Closes c (sop a) (sopInv c.clf) := fun s h =>
  (gives_eachWith (d := s.dim) (fun w u hw hu => (gives_dense2 _ hu h.alg.1).bind fun q hq => gives_dense2 _ hw hq)
    c.clf s.w s.alg.v h.w h.alg.2).bind fun w hw =>
    .ok ⟨⟨h.dim, hw, h.g, h.alg⟩, ⟨rfl, rfl, rfl, rfl, rfl⟩, rfl⟩

theorem closes_adaFobosL1 (c : Cfg α) (delta lambda thresh : α) (t0 : Int) :
    Closes c (adaFobosL1 delta lambda thresh t0) (adaL1Inv c.clf) := fun s h =>
  (gives_eachWith (d := s.dim) (fun w H hw hH => (gives_dense2 _ hH h.alg.2).bind fun r hr =>
    (gives_dense2 _ hw hr).bind fun w' hw' => (gives_lget (by have := h.dim; omega)).bind fun _ _ =>
      (gives_atBias _ (by have := h.dim; omega)).mono fun _ h => h.trans hw') c.clf s.w s.alg.H h.w h.alg.1).bind fun w hw =>
    .ok ⟨⟨h.dim, sparsify_vecs thresh hw, h.g, h.alg⟩, ⟨rfl, rfl, rfl, rfl, rfl⟩, rfl⟩

theorem gives_adaRdaEnd {d : Nat} (f : α → α) (eta b : α) {w u H : List α} (hd : 1 ≤ d) (hw : w.length = d)
    (hu : u.length = d) (hH : H.length = d) : Gives (adaRdaEnd f eta b w u H) (fun w' => w'.length = d) :=
  (gives_dense2 _ hu hH).bind fun q hq => (gives_dense2 _ hw hq).bind fun w' hw' =>
    (gives_atBias _ (by omega)).mono fun _ h => h.trans hw'

theorem closes_adaRda (c : Cfg α) (delta : α) : Closes c (adaRda delta) (adaRdaInv c.clf) := fun s h =>
  (gives_eachWith2 (d := s.dim) (fun w u H hw hu hH => gives_adaRdaEnd _ _ _ h.dim hw hu hH) c.clf s.w s.alg.ut s.alg.H
    h.w h.alg.2 h.alg.1).bind fun w hw =>
    .ok ⟨⟨h.dim, hw, h.g, h.alg⟩, ⟨rfl, rfl, rfl, rfl, rfl⟩, rfl⟩

theorem closes_adaRdaL1 (c : Cfg α) (delta lambda thresh : α) :
    Closes c (adaRdaL1 delta lambda thresh) (adaRdaInv c.clf) := fun s h =>
  (gives_eachWith2 (d := s.dim) (fun w u H hw hu hH => gives_adaRdaEnd _ _ _ h.dim hw hu hH) c.clf s.w s.alg.ut s.alg.H
    h.w h.alg.2 h.alg.1).bind fun w hw =>
    .ok ⟨⟨h.dim, sparsify_vecs thresh hw, h.g, h.alg⟩, ⟨rfl, rfl, rfl, rfl, rfl⟩, rfl⟩

end Sol.Olm
