import Verif.Proofs.Blind
/-! No class reads or writes the number of examples while it trains. -/

set_option linter.unusedSectionVars false
set_option linter.unusedVariables false

namespace Sol.Olm

open Sol.Online Sol.Sparse Sol.Loss Sol.Select Sol.Whole Sol.Params

section
variable {α A : Type} [Zero α] [One α] [Add α] [Sub α] [Mul α] [Div α] [Neg α] [FCmp α] [IntCast α] [FFun α] [FSqrt α]

/-- The result with the number of examples set to `n`. -/
def tally (n : Nat) (r : Res (St α A)) : Res (St α A) := r >>= fun s => .ok { s with data := n }

/-- The algorithm neither reads nor writes the number of examples. -/
structure Tally (G : Alg α A) : Prop where
  start : ∀ n s x, G.beginIter { s with data := n } x = tally n (G.beginIter s x)
  prep : ∀ n c s x, G.prep c { s with data := n } x = tally n (G.prep c s x)
  handler : ∀ n c s x, G.handler c { s with data := n } x = G.handler c s x
  update : ∀ n c s x l, G.update c { s with data := n } x l = tally n (G.update c s x l)
  finish : ∀ n s x, G.endIter { s with data := n } x = tally n (G.endIter s x)

theorem tally_keeps (f : St α A → Res (St α A)) (h : ∀ n s, f { s with data := n } = tally n (f s)) {s s' : St α A} (hs : f s = .ok s') :
    s'.data = s.data := by
  have h1 := h s.data s
  have h2 : f s = tally s.data (f s) := h1
  rw [hs] at h2
  have h3 : s' = { s' with data := s.data } := Res.ok.inj h2
  rw [h3]

theorem enter_data (G : Alg α A) (s : St α A) (x : SVec α) : (enter G s x).data = s.data + 1 := by
  simp only [enter, Online.updateDim]
  split <;> rfl

theorem Tally.one {G : Alg α A} (h : Tally G) {c : Cfg α} {s s' : St α A} {e : Ex α} {r : α} (ht : trainOne G c s e r = .ok s') :
    s'.data = s.data + 1 := by
  simp only [trainOne, iterate, Res.bind_eq_ok] at ht
  obtain ⟨⟨s2, pred⟩, ⟨s0, h0, s1, h1, ⟨p, pl⟩, h2, sk, h3, h4⟩, h5⟩ := ht
  have k1 : s1.data = s.data + 1 := by
    rw [tally_keeps (fun s => G.prep c s e.x) (fun n s => h.prep n c s e.x) h1, tally_keeps (fun s => G.beginIter s e.x) (fun n s => h.start n s e.x) h0, enter_data]
  have k2 : s2.data = s.data + 1 := by
    cases sk with
    | true =>
      simp only [if_true, Res.ok.injEq, Prod.mk.injEq] at h4
      rw [← h4.1]
      exact k1
    | false =>
      simp only [Bool.false_eq_true, if_false, Res.bind_eq_ok] at h4
      obtain ⟨s3, h6, h7⟩ := h4
      simp only [Res.ok.injEq, Prod.mk.injEq] at h7
      obtain ⟨rfl, -⟩ := h7
      simp only [learn, Res.bind_eq_ok] at h6
      obtain ⟨⟨l, g, m, v⟩, h8, s4, h9, h10⟩ := h6
      rw [tally_keeps (fun s => G.endIter s e.x) (fun n s => h.finish n s e.x) h10, ← k1]
      unfold maybeUpdate at h9
      dsimp only at h9
      split at h9
      · have := tally_keeps (fun s => G.update c s e.x l) (fun n s => h.update n c s e.x l) (s := { s1 with g := g, margin := m, vi := v, upd := s1.upd + 1 }) h9
        exact this
      · rw [← Res.ok.inj h9]
  rw [← k2, ← Res.ok.inj h5]
  dsimp only
  split <;> rfl

theorem etaStep_tally (c : Cfg α) (s : St α A) (x : SVec α) (b : Nat) :
    etaStep c { s with data := b } x = tally b (etaStep c s x) := by
  simp only [etaStep, tally, bind_bind, Res.bind_ok, biasEta]

theorem tally_plain {upd : Cfg α → St α Unit → SVec α → α → Res (St α Unit)}
    (h : ∀ b c s x l, upd c { s with data := b } x l = tally b (upd c s x l)) : Tally (plain upd) :=
  ⟨fun _ _ _ => rfl, fun _ _ _ _ => rfl, fun _ _ _ _ => rfl, h, fun _ _ _ => rfl⟩

theorem tally_perceptron : Tally (perceptron (α := α)) := tally_plain fun b c s x l => by
  simp only [tally, bind_bind, Res.bind_ok, biasEta]

theorem tally_ogd (eta0 : α) (pow : Int → α) : Tally (ogd eta0 pow) := tally_plain fun b c s x l =>
  etaStep_tally c { s with eta := _ } x b

theorem tally_pa (coeff : α) : Tally (pa coeff) := tally_plain fun b c s x l => etaStep_tally c { s with eta := _ } x b

theorem tally_pa1 (C coeff : α) : Tally (pa1 C coeff) := tally_plain fun b c s x l => etaStep_tally c { s with eta := _ } x b

theorem tally_pa2 (C coeff : α) : Tally (pa2 C coeff) := tally_plain fun b c s x l => etaStep_tally c { s with eta := _ } x b

theorem tally_alma2 (C alpha sqp1 : α) : Tally (alma2 C alpha sqp1) :=
  ⟨fun _ _ _ => rfl, fun _ _ _ _ => rfl, fun _ _ _ _ => rfl, fun b c s x l => by
    simp only [alma2, tally, bind_bind, Res.bind_ok, biasEta], fun _ _ _ => rfl⟩

theorem tally_arow (r : α) : Tally (arow r) :=
  ⟨fun _ _ _ => rfl, fun _ _ _ _ => rfl, fun _ _ _ _ => rfl, fun b c s x l => by
    simp only [arow, tally, bind_bind, Res.bind_ok, biasEta], fun _ _ _ => rfl⟩

theorem tally_cw (a phi : α) (bias : Bool) : Tally (cw a phi bias) :=
  ⟨fun _ _ _ => rfl, fun _ _ _ _ => rfl, fun _ _ _ _ => rfl, fun b c s x l => by
    simp only [cw, cwStep, tally, bind_bind, Res.bind_ok, biasEta], fun _ _ _ => rfl⟩

theorem tally_eccw (a phi : α) (bias : Bool) : Tally (eccw a phi bias) :=
  ⟨fun _ _ _ => rfl, fun _ _ _ _ => rfl, fun _ _ _ _ => rfl, fun b c s x l => by
    simp only [eccw, cwStep, tally, bind_bind, Res.bind_ok, biasEta], fun _ _ _ => rfl⟩

theorem tally_adaFobos (delta : α) : Tally (adaFobos delta) :=
  ⟨fun _ _ _ => rfl, fun _ _ _ _ => rfl, fun _ _ _ _ => rfl, fun b c s x l => by
    simp only [adaFobos, adaFobosUpdate, tally, bind_bind, Res.bind_ok, biasEta], fun _ _ _ => rfl⟩

theorem tally_adaRda (delta : α) : Tally (adaRda delta) :=
  ⟨fun _ _ _ => rfl, fun _ _ _ _ => rfl, fun _ _ _ _ => rfl, fun b c s x l => by
    simp only [adaRda, adaRdaUpdate, tally, bind_bind, Res.bind_ok], fun _ _ _ => rfl⟩

theorem petSelect_tally (B : Nat) (s : St α (PetSt α)) (x : SVec α) (b : Nat) :
    petSelect B { s with data := b } x = tally b (petSelect B s x) := by
  simp only [petSelect]
  split
  · simp only [tally, bind_bind, Res.bind_ok]
  · rfl

theorem tally_pet (eta0 : α) (pow : Int → α) (B : Nat) : Tally (pet eta0 pow B) :=
  ⟨fun _ _ _ => rfl, fun _ _ _ _ => rfl, fun _ _ _ _ => rfl, fun b c s x l => by
    have := etaStep_tally c { s with eta := eta0 / pow s.t } x b
    simp only [pet]
    simp only at this
    rw [this]
    simp only [tally, bind_bind, Res.bind_ok]
    congr 1
    funext s'
    exact petSelect_tally B s' x b, fun _ _ _ => rfl⟩

theorem tally_fofs (nc mo : α) (B : Nat) : Tally (fofs nc mo B) :=
  ⟨fun _ _ _ => rfl, fun _ _ _ _ => rfl, fun _ _ _ _ => rfl, fun b c s x l => by
    simp only [fofs, tally, bind_bind, biasEta]
    congr 1
    funext w
    exact petSelect_tally B { s with w := w } x b, fun _ _ _ => rfl⟩

theorem tally_sofs (r : α) (B clf : Nat) : Tally (sofs r B clf) :=
  ⟨fun _ _ _ => rfl, fun _ _ _ _ => rfl, fun _ _ _ _ => rfl, fun b c s x l => by
    simp only [sofs, sofsUpdate, tally, bind_bind, biasEta]
    congr 1
    funext beta
    congr 1
    funext ws
    congr 1
    funext a
    cases a with
    | none => rfl
    | some a => simp only [bind_bind, Res.bind_ok], fun _ _ _ => rfl⟩

theorem tally_adaFobosOfs (delta : α) (B clf : Nat) : Tally (adaFobosOfs delta B clf) :=
  ⟨fun _ _ _ => rfl, fun _ _ _ _ => rfl, fun _ _ _ _ => rfl, fun b c s x l => by
    simp only [adaFobosOfs, adaFobosOfsUpdate, tally, bind_bind, biasEta]
    congr 1
    funext a
    cases a with
    | none => rfl
    | some a => simp only [bind_bind, Res.bind_ok], fun _ _ _ => rfl⟩

theorem tally_stg (eta0 : α) (pow : Int → α) (k : Int) (lambda thresh : α) (t0 : Int) : Tally (stg eta0 pow k lambda thresh t0) :=
  ⟨fun _ _ _ => rfl, fun b c s x => by simp only [stg, tally, bind_bind, Res.bind_ok, biasEta], fun _ _ _ _ => rfl,
    fun b c s x l => etaStep_tally c { s with eta := _ } x b, fun _ _ _ => rfl⟩

theorem tally_fobosL1 (eta0 : α) (pow : Int → α) (lambda thresh : α) (t0 : Int) : Tally (fobosL1 eta0 pow lambda thresh t0) :=
  ⟨fun _ _ _ => rfl, fun b c s x => by simp only [fobosL1, tally, bind_bind, Res.bind_ok, biasEta], fun _ _ _ _ => rfl,
    fun b c s x l => etaStep_tally c { s with eta := _ } x b, fun b s x => by
      simp only [fobosL1, tally, bind_bind, Res.bind_ok, lazyEnd]⟩

theorem tally_rda (sigma eps : α) : Tally (rda sigma eps) :=
  ⟨fun _ _ _ => rfl, fun b c s x => by simp only [rda, tally, bind_bind, Res.bind_ok, biasEta], fun _ _ _ _ => rfl,
    fun b c s x l => by simp only [rda, tally, bind_bind, Res.bind_ok], fun _ _ _ => rfl⟩

theorem tally_rdaL1 (sigma eps lambda thresh : α) : Tally (rdaL1 sigma eps lambda thresh) :=
  ⟨fun _ _ _ => rfl, fun b c s x => by simp only [rdaL1, tally, bind_bind, Res.bind_ok, biasEta], fun _ _ _ _ => rfl,
    fun b c s x l => by simp only [rdaL1, tally, bind_bind, Res.bind_ok], fun _ _ _ => rfl⟩

theorem tally_erdaL1 (sigma eps lambda rou thresh : α) : Tally (erdaL1 sigma eps lambda rou thresh) :=
  ⟨fun _ _ _ => rfl, fun b c s x => by simp only [erdaL1, tally, bind_bind, Res.bind_ok, biasEta], fun _ _ _ _ => rfl,
    fun b c s x l => by simp only [erdaL1, tally, bind_bind, Res.bind_ok], fun _ _ _ => rfl⟩

theorem tally_sop (a : α) : Tally (sop a) :=
  ⟨fun _ _ _ => rfl, fun b c s x => by simp only [sop, tally, bind_bind, Res.bind_ok], fun _ _ _ _ => rfl,
    fun b c s x l => by simp only [sop, tally, bind_bind, Res.bind_ok, biasEta], fun _ _ _ => rfl⟩

theorem tally_adaFobosL1 (delta lambda thresh : α) (t0 : Int) : Tally (adaFobosL1 delta lambda thresh t0) :=
  ⟨fun _ _ _ => rfl, fun b c s x => by simp only [adaFobosL1, tally, bind_bind, Res.bind_ok, biasEta], fun _ _ _ _ => rfl,
    fun b c s x l => by simp only [adaFobosL1, adaFobosUpdate, tally, bind_bind, Res.bind_ok, biasEta], fun b s x => by
      simp only [adaFobosL1, tally, bind_bind, Res.bind_ok, lazyEnd]⟩

theorem tally_adaRdaL1 (delta lambda thresh : α) : Tally (adaRdaL1 delta lambda thresh) :=
  ⟨fun _ _ _ => rfl, fun b c s x => by simp only [adaRdaL1, tally, bind_bind, Res.bind_ok, biasEta], fun _ _ _ _ => rfl,
    fun b c s x l => by simp only [adaRdaL1, adaRdaUpdate, tally, bind_bind, Res.bind_ok], fun _ _ _ => rfl⟩

theorem tally_adaRdaOfs (delta : α) (B clf : Nat) : Tally (adaRdaOfs delta B clf) :=
  ⟨fun _ _ _ => rfl, fun _ _ _ _ => rfl, fun _ _ _ _ => rfl, fun b c s x l => by
    simp only [adaRdaOfs, adaRdaOfsUpdate, tally, bind_bind]
    congr 1
    funext a
    cases a with
    | none => rfl
    | some a => simp only [bind_bind, Res.bind_ok], fun _ _ _ => rfl⟩

end

variable [FFun F32]

/-- Every class of the library. -/
theorem kit_tally {powf : F32 → F32 → F32} {m : M} {K : AnyKit} (h : kitOf powf m = .ok K) : Tally K.2.G := by
  unfold kitOf at h
  dsimp only at h
  have budget_ok : ∀ {f : Nat → AnyKit}, ((budget m.lambda).bind fun B => Res.ok (f B)) = .ok K → ∃ B, K = f B := by
    intro f hf
    cases hb : budget m.lambda with
    | ub k => rw [hb] at hf; cases hf
    | ok B => rw [hb] at hf; exact ⟨B, (Res.ok.inj hf).symm⟩
  cases hc : m.cls <;> rw [hc] at h <;> dsimp only at h
  case perceptron =>
    obtain rfl := Res.ok.inj h
    exact tally_perceptron
  case ogd =>
    obtain rfl := Res.ok.inj h
    exact tally_ogd _ _
  case stg =>
    obtain rfl := Res.ok.inj h
    exact tally_stg _ _ _ _ _ _
  case fobosL1 =>
    obtain rfl := Res.ok.inj h
    exact tally_fobosL1 _ _ _ _ _
  case pa =>
    obtain rfl := Res.ok.inj h
    exact tally_pa _
  case pa1 =>
    obtain rfl := Res.ok.inj h
    exact tally_pa1 _ _
  case pa2 =>
    obtain rfl := Res.ok.inj h
    exact tally_pa2 _ _
  case alma2 =>
    obtain rfl := Res.ok.inj h
    exact tally_alma2 _ _ _
  case arow =>
    obtain rfl := Res.ok.inj h
    exact tally_arow _
  case cw =>
    obtain rfl := Res.ok.inj h
    exact tally_cw _ _ _
  case eccw =>
    obtain rfl := Res.ok.inj h
    exact tally_eccw _ _ _
  case rda =>
    obtain rfl := Res.ok.inj h
    exact tally_rda _ _
  case rdaL1 =>
    obtain rfl := Res.ok.inj h
    exact tally_rdaL1 _ _ _ _
  case erdaL1 =>
    obtain rfl := Res.ok.inj h
    exact tally_erdaL1 _ _ _ _ _
  case sop =>
    obtain rfl := Res.ok.inj h
    exact tally_sop _
  case adaFobos =>
    obtain rfl := Res.ok.inj h
    exact tally_adaFobos _
  case adaFobosL1 =>
    obtain rfl := Res.ok.inj h
    exact tally_adaFobosL1 _ _ _ _
  case adaRda =>
    obtain rfl := Res.ok.inj h
    exact tally_adaRda _
  case adaRdaL1 =>
    obtain rfl := Res.ok.inj h
    exact tally_adaRdaL1 _ _ _
  case fofs =>
    obtain rfl := Res.ok.inj h
    exact tally_fofs _ _ _
  case pet =>
    obtain ⟨B, rfl⟩ := budget_ok h
    unfold petKit
    by_cases hB : B = 0
    · rw [if_pos hB]; exact tally_ogd _ _
    · rw [if_neg hB]; exact tally_pet _ _ _
  case sofs =>
    obtain ⟨B, rfl⟩ := budget_ok h
    unfold sofsKit
    by_cases hB : B = 0
    · rw [if_pos hB]; exact tally_arow _
    · rw [if_neg hB]; exact tally_sofs _ _ _
  case adaFobosOfs =>
    obtain ⟨B, rfl⟩ := budget_ok h
    unfold adaFobosOfsKit
    by_cases hB : B = 0
    · rw [if_pos hB]; exact tally_adaFobos _
    · rw [if_neg hB]; exact tally_adaFobosOfs _ _ _
  case adaRdaOfs =>
    obtain ⟨B, rfl⟩ := budget_ok h
    unfold adaRdaOfsKit
    by_cases hB : B = 0
    · rw [if_pos hB]; exact tally_adaRda _
    · rw [if_neg hB]; exact tally_adaRdaOfs _ _ _

theorem need_data {A : Type} {b : Bool} {f : St F32 A → St F32 A} (hf : ∀ s, (f s).data = s.data) {c : Cfg F32} {s s' : St F32 A}
    (h : needHinge b f c s = .ok s') : s'.data = s.data := by
  unfold needHinge at h
  split at h
  · rw [← Res.ok.inj h, hf]
  · cases h

theorem updateDim_data {A : Type} (G : Alg F32 A) (s : St F32 A) (n : Nat) : (Online.updateDim G s n).data = s.data := by
  unfold Online.updateDim
  split <;> rfl

theorem petBegin_data {G : Alg F32 (PetSt F32)} {B : Nat} {s s' : St F32 (PetSt F32)} (h : petBegin G B s = .ok s') : s'.data = s.data := by
  unfold petBegin at h
  split at h
  · simp only [Res.bind_eq_ok] at h
    obtain ⟨v, -, w, -, h⟩ := h
    rw [← Res.ok.inj h]
    exact updateDim_data G _ _
  · rw [← Res.ok.inj h]

theorem ofsBegin_data {cmp : F32 → F32 → Bool} {G : Alg F32 (OfsSt F32)} {c : Cfg F32} {B : Nat} {s s' : St F32 (OfsSt F32)}
    (h : ofsBegin cmp G c B s = .ok s') : s'.data = s.data := by
  unfold ofsBegin at h
  split at h
  · simp only [Res.bind_eq_ok] at h
    obtain ⟨v, -, w, -, h⟩ := h
    rw [← Res.ok.inj h]
    exact updateDim_data G _ _
  · rw [← Res.ok.inj h]

theorem adaRdaOfsBegin_data {G : Alg F32 (RdaOfsSt F32)} {c : Cfg F32} {B : Nat} {s s' : St F32 (RdaOfsSt F32)}
    (h : adaRdaOfsBegin G c B s = .ok s') : s'.data = s.data := by
  unfold adaRdaOfsBegin at h
  split at h
  · simp only [Res.bind_eq_ok] at h
    obtain ⟨v, -, w, -, h⟩ := h
    rw [← Res.ok.inj h]
    exact updateDim_data G _ _
  · rw [← Res.ok.inj h]

/-- Beginning to train does not count an example. -/
theorem kit_begin_data {powf : F32 → F32 → F32} {m : M} {K : AnyKit} (h : kitOf powf m = .ok K) :
    ∀ (c : Cfg F32) (s s' : St F32 K.1), K.2.begin c s = .ok s' → s'.data = s.data := by
  unfold kitOf at h
  dsimp only at h
  have budget_ok : ∀ {f : Nat → AnyKit}, ((budget m.lambda).bind fun B => Res.ok (f B)) = .ok K → ∃ B, K = f B := by
    intro f hf
    cases hb : budget m.lambda with
    | ub k => rw [hb] at hf; cases hf
    | ok B => rw [hb] at hf; exact ⟨B, (Res.ok.inj hf).symm⟩
  cases hc : m.cls <;> rw [hc] at h <;> dsimp only at h
  case perceptron =>
    obtain rfl := Res.ok.inj h
    intro _ _ _ he; cases he; rfl
  case ogd =>
    obtain rfl := Res.ok.inj h
    intro _ _ _ he; cases he; rfl
  case stg =>
    obtain rfl := Res.ok.inj h
    intro _ _ _ he; cases he; rfl
  case fobosL1 =>
    obtain rfl := Res.ok.inj h
    intro _ _ _ he; cases he; rfl
  case pa =>
    obtain rfl := Res.ok.inj h
    intro _ _ _ he; cases he; rfl
  case pa1 =>
    obtain rfl := Res.ok.inj h
    intro _ _ _ he; cases he; rfl
  case pa2 =>
    obtain rfl := Res.ok.inj h
    intro _ _ _ he; cases he; rfl
  case arow =>
    obtain rfl := Res.ok.inj h
    intro _ _ _ he; cases he; rfl
  case rda =>
    obtain rfl := Res.ok.inj h
    intro _ _ _ he; cases he; rfl
  case rdaL1 =>
    obtain rfl := Res.ok.inj h
    intro _ _ _ he; cases he; rfl
  case erdaL1 =>
    obtain rfl := Res.ok.inj h
    intro _ _ _ he; cases he; rfl
  case sop =>
    obtain rfl := Res.ok.inj h
    intro _ _ _ he; cases he; rfl
  case adaFobos =>
    obtain rfl := Res.ok.inj h
    intro _ _ _ he; cases he; rfl
  case adaFobosL1 =>
    obtain rfl := Res.ok.inj h
    intro _ _ _ he; cases he; rfl
  case adaRda =>
    obtain rfl := Res.ok.inj h
    intro _ _ _ he; cases he; rfl
  case adaRdaL1 =>
    obtain rfl := Res.ok.inj h
    intro _ _ _ he; cases he; rfl
  case alma2 =>
    obtain rfl := Res.ok.inj h
    exact fun c _ _ he => need_data (c := c) (b := m.hinge) (f := fun s => { s with margin := almaMargin m.alpha (FSqrt.sqrt ((m.p - 1 : Int) : F32)) m.k }) (fun _ => rfl) he
  case cw =>
    obtain rfl := Res.ok.inj h
    exact fun c _ _ he => need_data (c := c) (f := id) (fun _ => rfl) he
  case eccw =>
    obtain rfl := Res.ok.inj h
    exact fun c _ _ he => need_data (c := c) (f := id) (fun _ => rfl) he
  case fofs =>
    obtain rfl := Res.ok.inj h
    exact fun _ _ _ he => petBegin_data he
  case pet =>
    obtain ⟨B, rfl⟩ := budget_ok h
    unfold petKit
    by_cases hB : B = 0
    · rw [if_pos hB]; intro _ _ _ he; cases he; rfl
    · rw [if_neg hB]; exact fun _ _ _ he => petBegin_data he
  case sofs =>
    obtain ⟨B, rfl⟩ := budget_ok h
    unfold sofsKit
    by_cases hB : B = 0
    · rw [if_pos hB]; intro _ _ _ he; cases he; rfl
    · rw [if_neg hB]; exact fun _ _ _ he => ofsBegin_data he
  case adaFobosOfs =>
    obtain ⟨B, rfl⟩ := budget_ok h
    unfold adaFobosOfsKit
    by_cases hB : B = 0
    · rw [if_pos hB]; intro _ _ _ he; cases he; rfl
    · rw [if_neg hB]; exact fun _ _ _ he => ofsBegin_data he
  case adaRdaOfs =>
    obtain ⟨B, rfl⟩ := budget_ok h
    unfold adaRdaOfsKit
    by_cases hB : B = 0
    · rw [if_pos hB]; intro _ _ _ he; cases he; rfl
    · rw [if_neg hB]; exact fun _ _ _ he => adaRdaOfsBegin_data he

end Sol.Olm
