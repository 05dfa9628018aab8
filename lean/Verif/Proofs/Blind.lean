import Verif.Model.Whole
import Verif.Proofs.Eval
/-! No class reads or writes `model_updated_` while it trains. -/

set_option linter.unusedSectionVars false
set_option linter.unusedVariables false

namespace Sol.Olm

open Sol.Online Sol.Sparse Sol.Loss Sol.Select Sol.Whole Sol.Params

section
variable {α A : Type} [Zero α] [One α] [Add α] [Sub α] [Mul α] [Div α] [Neg α] [FCmp α] [IntCast α] [FFun α] [FSqrt α]

theorem blind_stg (eta0 : α) (pow : Int → α) (k : Int) (lambda thresh : α) (t0 : Int) : Blind (stg eta0 pow k lambda thresh t0) :=
  ⟨fun _ _ _ => rfl, fun b c s x => by simp only [stg, flag, bind_bind, Res.bind_ok, biasEta], fun _ _ _ _ => rfl,
    fun b c s x l => etaStep_blind c { s with eta := _ } x b, fun _ _ _ => rfl⟩

theorem blind_fobosL1 (eta0 : α) (pow : Int → α) (lambda thresh : α) (t0 : Int) : Blind (fobosL1 eta0 pow lambda thresh t0) :=
  ⟨fun _ _ _ => rfl, fun b c s x => by simp only [fobosL1, flag, bind_bind, Res.bind_ok, biasEta], fun _ _ _ _ => rfl,
    fun b c s x l => etaStep_blind c { s with eta := _ } x b, fun b s x => by
      simp only [fobosL1, flag, bind_bind, Res.bind_ok, lazyEnd]⟩

theorem blind_rda (sigma eps : α) : Blind (rda sigma eps) :=
  ⟨fun _ _ _ => rfl, fun b c s x => by simp only [rda, flag, bind_bind, Res.bind_ok, biasEta], fun _ _ _ _ => rfl,
    fun b c s x l => by simp only [rda, flag, bind_bind, Res.bind_ok], fun _ _ _ => rfl⟩

theorem blind_rdaL1 (sigma eps lambda thresh : α) : Blind (rdaL1 sigma eps lambda thresh) :=
  ⟨fun _ _ _ => rfl, fun b c s x => by simp only [rdaL1, flag, bind_bind, Res.bind_ok, biasEta], fun _ _ _ _ => rfl,
    fun b c s x l => by simp only [rdaL1, flag, bind_bind, Res.bind_ok], fun _ _ _ => rfl⟩

theorem blind_erdaL1 (sigma eps lambda rou thresh : α) : Blind (erdaL1 sigma eps lambda rou thresh) :=
  ⟨fun _ _ _ => rfl, fun b c s x => by simp only [erdaL1, flag, bind_bind, Res.bind_ok, biasEta], fun _ _ _ _ => rfl,
    fun b c s x l => by simp only [erdaL1, flag, bind_bind, Res.bind_ok], fun _ _ _ => rfl⟩

theorem blind_sop (a : α) : Blind (sop a) :=
  ⟨fun _ _ _ => rfl, fun b c s x => by simp only [sop, flag, bind_bind, Res.bind_ok], fun _ _ _ _ => rfl,
    fun b c s x l => by simp only [sop, flag, bind_bind, Res.bind_ok, biasEta], fun _ _ _ => rfl⟩

theorem blind_adaFobosL1 (delta lambda thresh : α) (t0 : Int) : Blind (adaFobosL1 delta lambda thresh t0) :=
  ⟨fun _ _ _ => rfl, fun b c s x => by simp only [adaFobosL1, flag, bind_bind, Res.bind_ok, biasEta], fun _ _ _ _ => rfl,
    fun b c s x l => by simp only [adaFobosL1, adaFobosUpdate, flag, bind_bind, Res.bind_ok, biasEta], fun b s x => by
      simp only [adaFobosL1, flag, bind_bind, Res.bind_ok, lazyEnd]⟩

theorem blind_adaRdaL1 (delta lambda thresh : α) : Blind (adaRdaL1 delta lambda thresh) :=
  ⟨fun _ _ _ => rfl, fun b c s x => by simp only [adaRdaL1, flag, bind_bind, Res.bind_ok, biasEta], fun _ _ _ _ => rfl,
    fun b c s x l => by simp only [adaRdaL1, adaRdaUpdate, flag, bind_bind, Res.bind_ok], fun _ _ _ => rfl⟩

theorem blind_adaRdaOfs (delta : α) (B clf : Nat) : Blind (adaRdaOfs delta B clf) :=
  ⟨fun _ _ _ => rfl, fun _ _ _ _ => rfl, fun _ _ _ _ => rfl, fun b c s x l => by
    simp only [adaRdaOfs, adaRdaOfsUpdate, flag, bind_bind]
    congr 1
    funext a
    cases a with
    | none => rfl
    | some a => simp only [bind_bind, Res.bind_ok], fun _ _ _ => rfl⟩

end

variable [FFun F32]

/-- Every class of the library. -/
theorem kit_blind {powf : F32 → F32 → F32} {m : M} {K : AnyKit} (h : kitOf powf m = .ok K) : Blind K.2.G := by
  unfold kitOf at h
  dsimp only at h
  have budget_ok : ∀ {f : Nat → AnyKit}, ((budget m.lambda).bind fun B => Res.ok (f B)) = .ok K → ∃ B, K = f B := by
    intro f hf
    cases hb : budget m.lambda with
    | ub k => rw [hb] at hf; cases hf
    | ok B => rw [hb] at hf; exact ⟨B, (Res.ok.inj hf).symm⟩
  cases hc : m.cls <;> rw [hc] at h <;> dsimp only at h
  case perceptron =>
    obtain rfl := Res.ok.inj h
    exact blind_perceptron
  case ogd =>
    obtain rfl := Res.ok.inj h
    exact blind_ogd _ _
  case stg =>
    obtain rfl := Res.ok.inj h
    exact blind_stg _ _ _ _ _ _
  case fobosL1 =>
    obtain rfl := Res.ok.inj h
    exact blind_fobosL1 _ _ _ _ _
  case pa =>
    obtain rfl := Res.ok.inj h
    exact blind_pa _
  case pa1 =>
    obtain rfl := Res.ok.inj h
    exact blind_pa1 _ _
  case pa2 =>
    obtain rfl := Res.ok.inj h
    exact blind_pa2 _ _
  case alma2 =>
    obtain rfl := Res.ok.inj h
    exact blind_alma2 _ _ _
  case arow =>
    obtain rfl := Res.ok.inj h
    exact blind_arow _
  case cw =>
    obtain rfl := Res.ok.inj h
    exact blind_cw _ _ _
  case eccw =>
    obtain rfl := Res.ok.inj h
    exact blind_eccw _ _ _
  case rda =>
    obtain rfl := Res.ok.inj h
    exact blind_rda _ _
  case rdaL1 =>
    obtain rfl := Res.ok.inj h
    exact blind_rdaL1 _ _ _ _
  case erdaL1 =>
    obtain rfl := Res.ok.inj h
    exact blind_erdaL1 _ _ _ _ _
  case sop =>
    obtain rfl := Res.ok.inj h
    exact blind_sop _
  case adaFobos =>
    obtain rfl := Res.ok.inj h
    exact blind_adaFobos _
  case adaFobosL1 =>
    obtain rfl := Res.ok.inj h
    exact blind_adaFobosL1 _ _ _ _
  case adaRda =>
    obtain rfl := Res.ok.inj h
    exact blind_adaRda _
  case adaRdaL1 =>
    obtain rfl := Res.ok.inj h
    exact blind_adaRdaL1 _ _ _
  case fofs =>
    obtain rfl := Res.ok.inj h
    exact blind_fofs _ _ _
  case pet =>
    obtain ⟨B, rfl⟩ := budget_ok h
    unfold petKit
    by_cases hB : B = 0
    · rw [if_pos hB]; exact blind_ogd _ _
    · rw [if_neg hB]; exact blind_pet _ _ _
  case sofs =>
    obtain ⟨B, rfl⟩ := budget_ok h
    unfold sofsKit
    by_cases hB : B = 0
    · rw [if_pos hB]; exact blind_arow _
    · rw [if_neg hB]; exact blind_sofs _ _ _
  case adaFobosOfs =>
    obtain ⟨B, rfl⟩ := budget_ok h
    unfold adaFobosOfsKit
    by_cases hB : B = 0
    · rw [if_pos hB]; exact blind_adaFobos _
    · rw [if_neg hB]; exact blind_adaFobosOfs _ _ _
  case adaRdaOfs =>
    obtain ⟨B, rfl⟩ := budget_ok h
    unfold adaRdaOfsKit
    by_cases hB : B = 0
    · rw [if_pos hB]; exact blind_adaRda _
    · rw [if_neg hB]; exact blind_adaRdaOfs _ _ _

end Sol.Olm
