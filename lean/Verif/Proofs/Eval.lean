import Verif.Proofs.Dual
import Verif.Proofs.Select
/-! Evaluation between training calls: algorithms that do not read `model_updated_`, and algorithms that compute their weights
anew for every example. -/

set_option linter.unusedSectionVars false
set_option linter.unusedVariables false

namespace Sol.Olm

open Sol.Online Sol.Sparse Sol.Loss Sol.Spec Sol.Select

theorem bind_bind {β γ δ : Type} (r : Res β) (f : β → Res γ) (g : γ → Res δ) :
    ((r >>= f) >>= g) = r >>= fun a => f a >>= g := by
  cases r <;> rfl

/-! ### Algorithms that do not look at the flag -/

section
variable {α A : Type} [Zero α] [One α] [Add α] [Sub α] [Mul α] [Div α] [Neg α] [FCmp α] [IntCast α] [FFun α] [FSqrt α]

/-- The result with the flag set to `b`. -/
def flag (b : Bool) (r : Res (St α A)) : Res (St α A) := r >>= fun s => .ok { s with fresh := b }

/-- The algorithm neither reads nor writes the flag. -/
structure Blind (G : Alg α A) : Prop where
  start : ∀ b s x, G.beginIter { s with fresh := b } x = flag b (G.beginIter s x)
  prep : ∀ b c s x, G.prep c { s with fresh := b } x = flag b (G.prep c s x)
  handler : ∀ b c s x, G.handler c { s with fresh := b } x = G.handler c s x
  update : ∀ b c s x l, G.update c { s with fresh := b } x l = flag b (G.update c s x l)
  finish : ∀ b s x, G.endIter { s with fresh := b } x = flag b (G.endIter s x)

theorem enter_flag (G : Alg α A) (b : Bool) (s : St α A) (x : SVec α) :
    enter G { s with fresh := b } x = { enter G s x with fresh := b } := by
  simp only [enter, updateDim]
  split <;> rfl

theorem Blind.one {G : Alg α A} (h : Blind G) (b : Bool) (c : Cfg α) (s : St α A) (e : Ex α) (r : α) :
    trainOne G c { s with fresh := b } e r = flag b (trainOne G c s e r) := by
  have hp : ∀ s : St α A, predict c { s with fresh := b } e.x = predict c s e.x := fun _ => rfl
  simp only [trainOne, iterate, enter_flag G b s e.x, h.start b (enter G s e.x) e.x, flag, bind_bind]
  cases G.beginIter (enter G s e.x) e.x with
  | ub k => rfl
  | ok s0 =>
    simp only [Res.bind_ok, h.prep b c s0 e.x, flag, bind_bind]
    cases G.prep c s0 e.x with
    | ub k => rfl
    | ok s1 =>
      simp only [Res.bind_ok, hp s1]
      cases predict c s1 e.x with
      | ub k => rfl
      | ok p =>
        simp only [Res.bind_ok]
        cases skipped c p.1 p.2 r with
        | ub k => rfl
        | ok sk =>
          simp only [Res.bind_ok]
          cases sk with
          | true =>
            simp only [if_true, Res.bind_ok]
            split <;> rfl
          | false =>
            simp only [Bool.false_eq_true, if_false, learn, h.handler b c s1 e.x, bind_bind]
            cases gradient c.kind (costMargin c e.label s1.margin) (G.handler c s1 e.x) s1.vi e.label p.1 p.2 s1.g with
            | ub k => rfl
            | ok q =>
              simp only [Res.bind_ok, maybeUpdate]
              split
              · have := h.update b c { s1 with g := q.2.1, margin := q.2.2.1, vi := q.2.2.2, upd := s1.upd + 1 } e.x q.1
                simp only at this
                simp only [this, flag, bind_bind]
                cases G.update c { s1 with g := q.2.1, margin := q.2.2.1, vi := q.2.2.2, upd := s1.upd + 1 } e.x q.1 with
                | ub k => rfl
                | ok s2 =>
                  simp only [Res.bind_ok, h.finish b s2 e.x, flag, bind_bind]
                  cases G.endIter s2 e.x with
                  | ub k => rfl
                  | ok s3 =>
                    simp only [Res.bind_ok]
                    split <;> rfl
              · have := h.finish b { s1 with g := q.2.1, margin := q.2.2.1, vi := q.2.2.2 } e.x
                simp only at this
                simp only [Res.bind_ok, this, flag, bind_bind]
                cases G.endIter { s1 with g := q.2.1, margin := q.2.2.1, vi := q.2.2.2 } e.x with
                | ub k => rfl
                | ok s3 =>
                  simp only [Res.bind_ok]
                  split <;> rfl

theorem Blind.loop {G : Alg α A} (h : Blind G) (b : Bool) (c : Cfg α) (s : St α A) (l : List (Ex α × α)) :
    trainLoop G c { s with fresh := b } l = flag b (trainLoop G c s l) := by
  induction l generalizing s with
  | nil => rfl
  | cons p l ih =>
    obtain ⟨e, r⟩ := p
    simp only [trainLoop, h.one b c s e r, flag, bind_bind]
    cases trainOne G c s e r with
    | ub k => rfl
    | ok s' =>
      simp only [Res.bind_ok]
      exact ih s'

theorem Blind.train {G : Alg α A} (h : Blind G) (b : Bool) (c : Cfg α) (s : St α A) (l : List (Ex α × α)) :
    train G c { s with fresh := b } l = train G c s l := by
  simp only [Online.train, h.loop b c s l, flag, bind_bind]
  rfl

theorem Blind.test {G : Alg α A} (h : Blind G) (hf : ∀ c s, G.endTrain c s = Online.finish c s) {c : Cfg α} {s s' : St α A}
    {e : List (Ex α)} {r : α} (ht : Online.test G c s e = .ok (s', r)) (l : List (Ex α × α)) :
    Online.train G c s' l = Online.train G c s l := by
  simp only [Online.test, Res.bind_eq_ok] at ht
  obtain ⟨s1, h1, n, h2, h3⟩ := ht
  obtain ⟨rfl, -⟩ := Prod.mk.inj (Res.ok.inj h3)
  split at h1
  · rw [hf] at h1
    rw [← Res.ok.inj h1]
    exact h.train _ _ _ _
  · rw [Res.ok.inj h1]

theorem etaStep_blind (c : Cfg α) (s : St α A) (x : SVec α) (b : Bool) :
    etaStep c { s with fresh := b } x = flag b (etaStep c s x) := by
  simp only [etaStep, flag, bind_bind, Res.bind_ok, biasEta]

theorem blind_plain {upd : Cfg α → St α Unit → SVec α → α → Res (St α Unit)}
    (h : ∀ b c s x l, upd c { s with fresh := b } x l = flag b (upd c s x l)) : Blind (plain upd) :=
  ⟨fun _ _ _ => rfl, fun _ _ _ _ => rfl, fun _ _ _ _ => rfl, h, fun _ _ _ => rfl⟩

theorem blind_perceptron : Blind (perceptron (α := α)) := blind_plain fun b c s x l => by
  simp only [flag, bind_bind, Res.bind_ok, biasEta]

theorem blind_ogd (eta0 : α) (pow : Int → α) : Blind (ogd eta0 pow) := blind_plain fun b c s x l =>
  etaStep_blind c { s with eta := _ } x b

theorem blind_pa (coeff : α) : Blind (pa coeff) := blind_plain fun b c s x l => etaStep_blind c { s with eta := _ } x b

theorem blind_pa1 (C coeff : α) : Blind (pa1 C coeff) := blind_plain fun b c s x l => etaStep_blind c { s with eta := _ } x b

theorem blind_pa2 (C coeff : α) : Blind (pa2 C coeff) := blind_plain fun b c s x l => etaStep_blind c { s with eta := _ } x b

theorem blind_alma2 (C alpha sqp1 : α) : Blind (alma2 C alpha sqp1) :=
  ⟨fun _ _ _ => rfl, fun _ _ _ _ => rfl, fun _ _ _ _ => rfl, fun b c s x l => by
    simp only [alma2, flag, bind_bind, Res.bind_ok, biasEta], fun _ _ _ => rfl⟩

theorem blind_arow (r : α) : Blind (arow r) :=
  ⟨fun _ _ _ => rfl, fun _ _ _ _ => rfl, fun _ _ _ _ => rfl, fun b c s x l => by
    simp only [arow, flag, bind_bind, Res.bind_ok, biasEta], fun _ _ _ => rfl⟩

theorem blind_cw (a phi : α) (bias : Bool) : Blind (cw a phi bias) :=
  ⟨fun _ _ _ => rfl, fun _ _ _ _ => rfl, fun _ _ _ _ => rfl, fun b c s x l => by
    simp only [cw, cwStep, flag, bind_bind, Res.bind_ok, biasEta], fun _ _ _ => rfl⟩

theorem blind_eccw (a phi : α) (bias : Bool) : Blind (eccw a phi bias) :=
  ⟨fun _ _ _ => rfl, fun _ _ _ _ => rfl, fun _ _ _ _ => rfl, fun b c s x l => by
    simp only [eccw, cwStep, flag, bind_bind, Res.bind_ok, biasEta], fun _ _ _ => rfl⟩

theorem blind_adaFobos (delta : α) : Blind (adaFobos delta) :=
  ⟨fun _ _ _ => rfl, fun _ _ _ _ => rfl, fun _ _ _ _ => rfl, fun b c s x l => by
    simp only [adaFobos, adaFobosUpdate, flag, bind_bind, Res.bind_ok, biasEta], fun _ _ _ => rfl⟩

theorem blind_adaRda (delta : α) : Blind (adaRda delta) :=
  ⟨fun _ _ _ => rfl, fun _ _ _ _ => rfl, fun _ _ _ _ => rfl, fun b c s x l => by
    simp only [adaRda, adaRdaUpdate, flag, bind_bind, Res.bind_ok], fun _ _ _ => rfl⟩

theorem petSelect_blind (B : Nat) (s : St α (PetSt α)) (x : SVec α) (b : Bool) :
    petSelect B { s with fresh := b } x = flag b (petSelect B s x) := by
  simp only [petSelect]
  split
  · simp only [flag, bind_bind, Res.bind_ok]
  · rfl

theorem blind_pet (eta0 : α) (pow : Int → α) (B : Nat) : Blind (pet eta0 pow B) :=
  ⟨fun _ _ _ => rfl, fun _ _ _ _ => rfl, fun _ _ _ _ => rfl, fun b c s x l => by
    have := etaStep_blind c { s with eta := eta0 / pow s.t } x b
    simp only [pet]
    simp only at this
    rw [this]
    simp only [flag, bind_bind, Res.bind_ok]
    congr 1
    funext s'
    exact petSelect_blind B s' x b, fun _ _ _ => rfl⟩

theorem blind_fofs (nc mo : α) (B : Nat) : Blind (fofs nc mo B) :=
  ⟨fun _ _ _ => rfl, fun _ _ _ _ => rfl, fun _ _ _ _ => rfl, fun b c s x l => by
    simp only [fofs, flag, bind_bind, biasEta]
    congr 1
    funext w
    exact petSelect_blind B { s with w := w } x b, fun _ _ _ => rfl⟩

theorem blind_sofs (r : α) (B clf : Nat) : Blind (sofs r B clf) :=
  ⟨fun _ _ _ => rfl, fun _ _ _ _ => rfl, fun _ _ _ _ => rfl, fun b c s x l => by
    simp only [sofs, sofsUpdate, flag, bind_bind, biasEta]
    congr 1
    funext beta
    congr 1
    funext ws
    congr 1
    funext a
    cases a with
    | none => rfl
    | some a => simp only [bind_bind, Res.bind_ok], fun _ _ _ => rfl⟩

theorem blind_adaFobosOfs (delta : α) (B clf : Nat) : Blind (adaFobosOfs delta B clf) :=
  ⟨fun _ _ _ => rfl, fun _ _ _ _ => rfl, fun _ _ _ _ => rfl, fun b c s x l => by
    simp only [adaFobosOfs, adaFobosOfsUpdate, flag, bind_bind, biasEta]
    congr 1
    funext a
    cases a with
    | none => rfl
    | some a => simp only [bind_bind, Res.bind_ok], fun _ _ _ => rfl⟩

end

end Sol.Olm
