import Verif.Spec.PySol
import Verif.Proofs.Blind
/-! The end of a training, for every class. -/

set_option linter.unusedSectionVars false

namespace Sol.Olm

open Sol.Online Sol.Sparse Sol.Loss Sol.Select Sol.Whole Sol.Params Sol.Spec

variable [FFun F32]

/-- What the classes keep of their own state has no influence on predictions. -/
theorem kit_last {powf : F32 → F32 → F32} {m : M} {K : AnyKit} (h : kitOf powf m = .ok K) : ∀ (a : K.1) (n : M),
    (K.2.last a n).w = n.w ∧ (K.2.last a n).dim = n.dim ∧ (K.2.last a n).classNum = n.classNum ∧ (K.2.last a n).sel = n.sel ∧
      (K.2.last a n).norm = n.norm := by
  unfold kitOf at h
  dsimp only at h
  have budget_ok : ∀ {f : Nat → AnyKit}, ((budget m.lambda).bind fun B => Res.ok (f B)) = .ok K → ∃ B, K = f B := by
    intro f hf
    cases hb : budget m.lambda with
    | ub k => rw [hb] at hf; cases hf
    | ok B => rw [hb] at hf; exact ⟨B, (Res.ok.inj hf).symm⟩
  cases hc : m.cls <;> rw [hc] at h <;> dsimp only at h
  case perceptron =>
    obtain rfl := Res.ok.inj h
    exact fun _ _ => ⟨rfl, rfl, rfl, rfl, rfl⟩
  case ogd =>
    obtain rfl := Res.ok.inj h
    exact fun _ _ => ⟨rfl, rfl, rfl, rfl, rfl⟩
  case stg =>
    obtain rfl := Res.ok.inj h
    exact fun _ _ => ⟨rfl, rfl, rfl, rfl, rfl⟩
  case fobosL1 =>
    obtain rfl := Res.ok.inj h
    exact fun _ _ => ⟨rfl, rfl, rfl, rfl, rfl⟩
  case pa =>
    obtain rfl := Res.ok.inj h
    exact fun _ _ => ⟨rfl, rfl, rfl, rfl, rfl⟩
  case pa1 =>
    obtain rfl := Res.ok.inj h
    exact fun _ _ => ⟨rfl, rfl, rfl, rfl, rfl⟩
  case pa2 =>
    obtain rfl := Res.ok.inj h
    exact fun _ _ => ⟨rfl, rfl, rfl, rfl, rfl⟩
  case alma2 =>
    obtain rfl := Res.ok.inj h
    exact fun _ _ => ⟨rfl, rfl, rfl, rfl, rfl⟩
  case arow =>
    obtain rfl := Res.ok.inj h
    exact fun _ _ => ⟨rfl, rfl, rfl, rfl, rfl⟩
  case cw =>
    obtain rfl := Res.ok.inj h
    exact fun _ _ => ⟨rfl, rfl, rfl, rfl, rfl⟩
  case eccw =>
    obtain rfl := Res.ok.inj h
    exact fun _ _ => ⟨rfl, rfl, rfl, rfl, rfl⟩
  case rda =>
    obtain rfl := Res.ok.inj h
    exact fun _ _ => ⟨rfl, rfl, rfl, rfl, rfl⟩
  case rdaL1 =>
    obtain rfl := Res.ok.inj h
    exact fun _ _ => ⟨rfl, rfl, rfl, rfl, rfl⟩
  case erdaL1 =>
    obtain rfl := Res.ok.inj h
    exact fun _ _ => ⟨rfl, rfl, rfl, rfl, rfl⟩
  case sop =>
    obtain rfl := Res.ok.inj h
    exact fun _ _ => ⟨rfl, rfl, rfl, rfl, rfl⟩
  case adaFobos =>
    obtain rfl := Res.ok.inj h
    exact fun _ _ => ⟨rfl, rfl, rfl, rfl, rfl⟩
  case adaFobosL1 =>
    obtain rfl := Res.ok.inj h
    exact fun _ _ => ⟨rfl, rfl, rfl, rfl, rfl⟩
  case adaRda =>
    obtain rfl := Res.ok.inj h
    exact fun _ _ => ⟨rfl, rfl, rfl, rfl, rfl⟩
  case adaRdaL1 =>
    obtain rfl := Res.ok.inj h
    exact fun _ _ => ⟨rfl, rfl, rfl, rfl, rfl⟩
  case fofs =>
    obtain rfl := Res.ok.inj h
    exact fun _ _ => ⟨rfl, rfl, rfl, rfl, rfl⟩
  case pet =>
    obtain ⟨B, rfl⟩ := budget_ok h
    unfold petKit
    by_cases hB : B = 0
    · rw [if_pos hB]; exact fun _ _ => ⟨rfl, rfl, rfl, rfl, rfl⟩
    · rw [if_neg hB]; exact fun _ _ => ⟨rfl, rfl, rfl, rfl, rfl⟩
  case sofs =>
    obtain ⟨B, rfl⟩ := budget_ok h
    unfold sofsKit
    by_cases hB : B = 0
    · rw [if_pos hB]; exact fun _ _ => ⟨rfl, rfl, rfl, rfl, rfl⟩
    · rw [if_neg hB]; exact fun _ _ => ⟨rfl, rfl, rfl, rfl, rfl⟩
  case adaFobosOfs =>
    obtain ⟨B, rfl⟩ := budget_ok h
    unfold adaFobosOfsKit
    by_cases hB : B = 0
    · rw [if_pos hB]; exact fun _ _ => ⟨rfl, rfl, rfl, rfl, rfl⟩
    · rw [if_neg hB]; exact fun _ _ => ⟨rfl, rfl, rfl, rfl, rfl⟩
  case adaRdaOfs =>
    obtain ⟨B, rfl⟩ := budget_ok h
    unfold adaRdaOfsKit
    by_cases hB : B = 0
    · rw [if_pos hB]; exact fun _ _ => ⟨rfl, rfl, rfl, rfl, rfl⟩
    · rw [if_neg hB]; exact fun _ _ => ⟨rfl, rfl, rfl, rfl, rfl⟩

/-- These classes have nothing to do at the end. -/
theorem kit_settled {powf : F32 → F32 → F32} {m : M} {K : AnyKit} (h : kitOf powf m = .ok K) (hs : m.cls ∈ settled) : ∀ (c : Cfg F32) (s : St F32 K.1),
    K.2.G.endTrain c s = .ok { s with fresh := false } := by
  unfold kitOf at h
  dsimp only at h
  have budget_ok : ∀ {f : Nat → AnyKit}, ((budget m.lambda).bind fun B => Res.ok (f B)) = .ok K → ∃ B, K = f B := by
    intro f hf
    cases hb : budget m.lambda with
    | ub k => rw [hb] at hf; cases hf
    | ok B => rw [hb] at hf; exact ⟨B, (Res.ok.inj hf).symm⟩
  cases hc : m.cls <;> rw [hc] at h <;> dsimp only at h
  case perceptron =>
    obtain rfl := Res.ok.inj h
    exact fun _ _ => rfl
  case ogd =>
    obtain rfl := Res.ok.inj h
    exact fun _ _ => rfl
  case stg =>
    rw [hc] at hs; exact absurd hs (by decide)
  case fobosL1 =>
    rw [hc] at hs; exact absurd hs (by decide)
  case pa =>
    obtain rfl := Res.ok.inj h
    exact fun _ _ => rfl
  case pa1 =>
    obtain rfl := Res.ok.inj h
    exact fun _ _ => rfl
  case pa2 =>
    obtain rfl := Res.ok.inj h
    exact fun _ _ => rfl
  case alma2 =>
    obtain rfl := Res.ok.inj h
    exact fun _ _ => rfl
  case arow =>
    obtain rfl := Res.ok.inj h
    exact fun _ _ => rfl
  case cw =>
    obtain rfl := Res.ok.inj h
    exact fun _ _ => rfl
  case eccw =>
    obtain rfl := Res.ok.inj h
    exact fun _ _ => rfl
  case rda =>
    rw [hc] at hs; exact absurd hs (by decide)
  case rdaL1 =>
    rw [hc] at hs; exact absurd hs (by decide)
  case erdaL1 =>
    rw [hc] at hs; exact absurd hs (by decide)
  case sop =>
    rw [hc] at hs; exact absurd hs (by decide)
  case adaFobos =>
    obtain rfl := Res.ok.inj h
    exact fun _ _ => rfl
  case adaFobosL1 =>
    rw [hc] at hs; exact absurd hs (by decide)
  case adaRda =>
    rw [hc] at hs; exact absurd hs (by decide)
  case adaRdaL1 =>
    rw [hc] at hs; exact absurd hs (by decide)
  case fofs =>
    obtain rfl := Res.ok.inj h
    exact fun _ _ => rfl
  case pet =>
    obtain ⟨B, rfl⟩ := budget_ok h
    unfold petKit
    by_cases hB : B = 0
    · rw [if_pos hB]; exact fun _ _ => rfl
    · rw [if_neg hB]; exact fun _ _ => rfl
  case sofs =>
    obtain ⟨B, rfl⟩ := budget_ok h
    unfold sofsKit
    by_cases hB : B = 0
    · rw [if_pos hB]; exact fun _ _ => rfl
    · rw [if_neg hB]; exact fun _ _ => rfl
  case adaFobosOfs =>
    obtain ⟨B, rfl⟩ := budget_ok h
    unfold adaFobosOfsKit
    by_cases hB : B = 0
    · rw [if_pos hB]; exact fun _ _ => rfl
    · rw [if_neg hB]; exact fun _ _ => rfl
  case adaRdaOfs =>
    rw [hc] at hs; exact absurd hs (by decide)

theorem fresh_of_bind {A B : Type} {r : Res B} {f : B → Res (St F32 A)} {s : St F32 A} (h : (r >>= f) = .ok s)
    (hf : ∀ b s, f b = .ok s → s.fresh = false) : s.fresh = false := by
  obtain ⟨b, -, hb⟩ := Res.bind_eq_ok.1 h
  exact hf b s hb

/-- The end of a training is the end. -/
theorem kit_ends {powf : F32 → F32 → F32} {m : M} {K : AnyKit} (h : kitOf powf m = .ok K) : ∀ (c : Cfg F32) (s s' : St F32 K.1), K.2.G.endTrain c s = .ok s' →
    s'.fresh = false := by
  unfold kitOf at h
  dsimp only at h
  have budget_ok : ∀ {f : Nat → AnyKit}, ((budget m.lambda).bind fun B => Res.ok (f B)) = .ok K → ∃ B, K = f B := by
    intro f hf
    cases hb : budget m.lambda with
    | ub k => rw [hb] at hf; cases hf
    | ok B => rw [hb] at hf; exact ⟨B, (Res.ok.inj hf).symm⟩
  cases hc : m.cls <;> rw [hc] at h <;> dsimp only at h
  case perceptron =>
    obtain rfl := Res.ok.inj h
    intro _ _ _ he; cases he; rfl
  case ogd =>
    obtain rfl := Res.ok.inj h
    intro _ _ _ he; cases he; rfl
  case stg =>
    obtain rfl := Res.ok.inj h
    exact fun _ _ _ he => fresh_of_bind he fun _ _ h => by cases h; rfl
  case fobosL1 =>
    obtain rfl := Res.ok.inj h
    exact fun _ _ _ he => fresh_of_bind he fun _ _ h => fresh_of_bind h fun _ _ h => by cases h; rfl
  case pa =>
    obtain rfl := Res.ok.inj h
    intro _ _ _ he; cases he; rfl
  case pa1 =>
    obtain rfl := Res.ok.inj h
    intro _ _ _ he; cases he; rfl
  case pa2 =>
    obtain rfl := Res.ok.inj h
    intro _ _ _ he; cases he; rfl
  case alma2 =>
    obtain rfl := Res.ok.inj h
    intro _ _ _ he; cases he; rfl
  case arow =>
    obtain rfl := Res.ok.inj h
    intro _ _ _ he; cases he; rfl
  case cw =>
    obtain rfl := Res.ok.inj h
    intro _ _ _ he; cases he; rfl
  case eccw =>
    obtain rfl := Res.ok.inj h
    intro _ _ _ he; cases he; rfl
  case rda =>
    obtain rfl := Res.ok.inj h
    exact fun _ _ _ he => fresh_of_bind he fun _ _ h => by cases h; rfl
  case rdaL1 =>
    obtain rfl := Res.ok.inj h
    exact fun _ _ _ he => fresh_of_bind he fun _ _ h => by cases h; rfl
  case erdaL1 =>
    obtain rfl := Res.ok.inj h
    exact fun _ _ _ he => fresh_of_bind he fun _ _ h => by cases h; rfl
  case sop =>
    obtain rfl := Res.ok.inj h
    exact fun _ _ _ he => fresh_of_bind he fun _ _ h => by cases h; rfl
  case adaFobos =>
    obtain rfl := Res.ok.inj h
    intro _ _ _ he; cases he; rfl
  case adaFobosL1 =>
    obtain rfl := Res.ok.inj h
    exact fun _ _ _ he => fresh_of_bind he fun _ _ h => by cases h; rfl
  case adaRda =>
    obtain rfl := Res.ok.inj h
    exact fun _ _ _ he => fresh_of_bind he fun _ _ h => by cases h; rfl
  case adaRdaL1 =>
    obtain rfl := Res.ok.inj h
    exact fun _ _ _ he => fresh_of_bind he fun _ _ h => by cases h; rfl
  case fofs =>
    obtain rfl := Res.ok.inj h
    intro _ _ _ he; cases he; rfl
  case pet =>
    obtain ⟨B, rfl⟩ := budget_ok h
    unfold petKit
    by_cases hB : B = 0
    · rw [if_pos hB]; intro _ _ _ he; cases he; rfl
    · rw [if_neg hB]; intro _ _ _ he; cases he; rfl
  case sofs =>
    obtain ⟨B, rfl⟩ := budget_ok h
    unfold sofsKit
    by_cases hB : B = 0
    · rw [if_pos hB]; intro _ _ _ he; cases he; rfl
    · rw [if_neg hB]; intro _ _ _ he; cases he; rfl
  case adaFobosOfs =>
    obtain ⟨B, rfl⟩ := budget_ok h
    unfold adaFobosOfsKit
    by_cases hB : B = 0
    · rw [if_pos hB]; intro _ _ _ he; cases he; rfl
    · rw [if_neg hB]; intro _ _ _ he; cases he; rfl
  case adaRdaOfs =>
    obtain ⟨B, rfl⟩ := budget_ok h
    unfold adaRdaOfsKit
    by_cases hB : B = 0
    · rw [if_pos hB]; exact fun _ _ _ he => fresh_of_bind he fun _ _ h => by cases h; rfl
    · rw [if_neg hB]; exact fun _ _ _ he => fresh_of_bind he fun _ _ h => fresh_of_bind h fun _ _ h => by cases h; rfl

end Sol.Olm
