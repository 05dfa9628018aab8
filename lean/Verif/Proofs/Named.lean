import Verif.Proofs.Whole
import Verif.Spec.Named
/-! Training a model is running the algorithm that its name and its settings stand for. -/

namespace Sol.Whole
open Sol.Params Sol.Online Sol.Olm Sol.Select Sol.Spec
open Sol.Loss (FFun)

variable [FFun F32]

theorem beqF_iff (x : F32) (q : ℚ) : (x =? F32.fin q) = true ↔ x = .fin q := by
  cases x <;> simp [FCmp.eq, F32.eq]

theorem decay_powOf (powf : F32 → F32 → F32) (e : F32) : Decay powf e (powOf powf e) := by
  have h2 : F32.round (1 / 2) = .fin (1 / 2) := by decide +kernel
  have h0 : (0 : F32) = .fin 0 := rfl
  have h1 : (1 : F32) = .fin 1 := rfl
  unfold Decay powOf
  rw [h2, h0]
  simp only [h1]
  by_cases e0 : e = .fin 0
  · exact .inl ⟨e0, fun t => if_pos ((beqF_iff _ _).2 e0)⟩
  · by_cases e2 : e = .fin (1 / 2)
    · exact .inr (.inl ⟨e2, fun t => by rw [if_neg fun h => e0 ((beqF_iff _ _).1 h), if_pos ((beqF_iff _ _).2 e2)]⟩)
    · by_cases e1 : e = .fin 1
      · exact .inr (.inr (.inl ⟨e1, fun t => by
          rw [if_neg fun h => e0 ((beqF_iff _ _).1 h), if_neg fun h => e2 ((beqF_iff _ _).1 h), if_pos ((beqF_iff _ _).2 e1)]⟩))
      · exact .inr (.inr (.inr ⟨e0, e2, e1, fun t => by
          rw [if_neg fun h => e0 ((beqF_iff _ _).1 h), if_neg fun h => e2 ((beqF_iff _ _).1 h), if_neg fun h => e1 ((beqF_iff _ _).1 h)]⟩))

theorem features_of {m : M} {B : Nat} (hl : info m "lambda" = some (.real m.lambda)) (h : budget m.lambda = .ok B) : Features m B := by
  cases hm : m.lambda with
  | fin q =>
    rw [hm] at h hl
    unfold budget at h
    dsimp only at h
    split_ifs at h with hq
    have e := Res.ok.inj h
    refine ⟨q, hl, hq.1, ?_, ?_⟩
    · by_cases h0 : 0 ≤ ⌊q⌋
      · right
        have : ((⌊q⌋.toNat : Int) : ℚ) ≤ q := by
          rw [Int.toNat_of_nonneg h0]
          exact Int.floor_le q
        rw [← e]
        exact_mod_cast this
      · left
        omega
    · have h1 := Int.lt_floor_add_one q
      have : (⌊q⌋ : ℚ) ≤ ((⌊q⌋.toNat : Int) : ℚ) := by exact_mod_cast Int.self_le_toNat _
      rw [← e]
      push_cast at this
      linarith
  | pinf => rw [hm] at h; cases h
  | ninf => rw [hm] at h; cases h
  | nan => rw [hm] at h; cases h

theorem coeff_of (n : Int) : (n = 2 ∧ coeffOf n = 1) ∨ (n ≠ 2 ∧ coeffOf n = 1 + 1) := by
  unfold coeffOf
  by_cases h : n = 2
  · exact .inl ⟨h, if_pos h⟩
  · exact .inr ⟨h, if_neg h⟩

theorem bind_kit {r : Res Nat} {f : Nat → AnyKit} {K : AnyKit}
    (h : (r.bind fun B => .ok (f B)) = .ok K) : ∃ B, r = .ok B ∧ (Res.ok (f B) : Res AnyKit) = .ok K := by
  cases r with
  | ok B => exact ⟨B, rfl, h⟩
  | ub k => cases h

/-- The value of a setting of a known class. -/
local macro "named_setting" h:ident : tactic =>
  `(tactic| simp [HasReal, HasWhole, info, online, common, own, regOf, $h:ident])

/-- The algorithm of a class is the one that the names stand for. -/
theorem kit_named {powf : F32 → F32 → F32} {m : M} {k : Loss.Kind} {K : AnyKit} (hn : (vectors m.classNum : Int) = m.clf)
    (hK : kitOf powf m = .ok K) {s : St F32 K.1} (hb : K.2.begin (cfgOf m k) (startSt m K.2.first) = .ok s) :
    ∃ keep, AlgorithmOf powf m (cfgOf m k) K.1 K.2.G (startSt m K.2.first) s keep ∧ ∀ a m', m'.cls = m.cls → keep a (K.2.last a m') := by
  have hc : info m "clf_num" = some (.int (vectors m.classNum : Int)) := by
    rw [hn]
    rfl
  obtain ⟨c, hcls⟩ : ∃ c, m.cls = c := ⟨_, rfl⟩
  have hcalled : Called m (modelName c) := by rw [← hcls]; rfl
  unfold kitOf at hK
  cases c <;> simp only [hcls] at hK
  case perceptron =>
    obtain rfl := Res.ok.inj hK
    obtain rfl := Res.ok.inj hb
    exact ⟨_, .perceptron _ hcalled, fun _ _ _ => by first | trivial | exact ⟨rfl, rfl⟩ | rfl⟩
  case ogd =>
    obtain rfl := Res.ok.inj hK
    obtain rfl := Res.ok.inj hb
    exact ⟨_, .ogd _ m.eta m.powerT _ hcalled (by named_setting hcls) (by named_setting hcls) (decay_powOf _ _), fun _ _ _ => by first | trivial | exact ⟨rfl, rfl⟩ | rfl⟩
  case stg =>
    obtain rfl := Res.ok.inj hK
    obtain rfl := Res.ok.inj hb
    exact ⟨_, .stg _ m.eta m.powerT _ m.k m.lambda hcalled (by named_setting hcls) (by named_setting hcls) (decay_powOf _ _) (by named_setting hcls) (by named_setting hcls), fun _ _ _ => by first | trivial | exact ⟨rfl, rfl⟩ | rfl⟩
  case fobosL1 =>
    obtain rfl := Res.ok.inj hK
    obtain rfl := Res.ok.inj hb
    exact ⟨_, .fobosL1 _ m.eta m.powerT _ m.lambda _ hcalled (by named_setting hcls) (by named_setting hcls) (decay_powOf _ _) (by named_setting hcls) rfl rfl, fun _ _ _ => by first | trivial | exact ⟨rfl, rfl⟩ | rfl⟩
  case pet =>
    obtain ⟨B, hB, hK⟩ := bind_kit hK
    have hF := features_of (m := m) (by named_setting hcls) hB
    unfold petKit at hK
    split_ifs at hK with h0
    · subst h0
      obtain rfl := Res.ok.inj hK
      obtain rfl := Res.ok.inj hb
      exact ⟨_, .pet0 _ m.eta m.powerT _ hcalled (by named_setting hcls) (by named_setting hcls) (decay_powOf _ _) hF, fun _ _ _ => by first | trivial | exact ⟨rfl, rfl⟩ | rfl⟩
    · obtain rfl := Res.ok.inj hK
      exact ⟨_, .pet _ _ m.eta m.powerT _ B hcalled (by named_setting hcls) (by named_setting hcls) (decay_powOf _ _) hF (Nat.pos_of_ne_zero h0) hb, fun _ _ _ => by first | trivial | exact ⟨rfl, rfl⟩ | rfl⟩
  case pa =>
    obtain rfl := Res.ok.inj hK
    obtain rfl := Res.ok.inj hb
    exact ⟨_, .pa _ _ hcalled (coeff_of _), fun _ _ _ => by first | trivial | exact ⟨rfl, rfl⟩ | rfl⟩
  case pa1 =>
    obtain rfl := Res.ok.inj hK
    obtain rfl := Res.ok.inj hb
    exact ⟨_, .pa1 _ m.C _ hcalled (by named_setting hcls) (coeff_of _), fun _ _ _ => by first | trivial | exact ⟨rfl, rfl⟩ | rfl⟩
  case pa2 =>
    obtain rfl := Res.ok.inj hK
    obtain rfl := Res.ok.inj hb
    exact ⟨_, .pa2 _ m.C _ hcalled (by named_setting hcls) (coeff_of _), fun _ _ _ => by first | trivial | exact ⟨rfl, rfl⟩ | rfl⟩
  case alma2 =>
    obtain rfl := Res.ok.inj hK
    dsimp only [needHinge] at hb
    split_ifs at hb
    obtain rfl := Res.ok.inj hb
    exact ⟨_, .alma2 _ m.C m.alpha m.p m.k _ hcalled (by named_setting hcls) (by named_setting hcls) (by named_setting hcls) (by named_setting hcls) rfl rfl, fun a m' h => by
      dsimp only
      have h := h.trans hcls
      named_setting h⟩
  case arow =>
    obtain rfl := Res.ok.inj hK
    obtain rfl := Res.ok.inj hb
    exact ⟨_, .arow _ m.r hcalled (by named_setting hcls) rfl, fun _ _ _ => by first | trivial | exact ⟨rfl, rfl⟩ | rfl⟩
  case sofs =>
    obtain ⟨B, hB, hK⟩ := bind_kit hK
    have hF := features_of (m := m) (by named_setting hcls) hB
    unfold sofsKit at hK
    split_ifs at hK with h0
    · subst h0
      obtain rfl := Res.ok.inj hK
      obtain rfl := Res.ok.inj hb
      exact ⟨_, .sofs0 _ m.r hcalled (by named_setting hcls) hF rfl, fun _ _ _ => by first | trivial | exact ⟨rfl, rfl⟩ | rfl⟩
    · obtain rfl := Res.ok.inj hK
      exact ⟨_, .sofs _ _ m.r B _ hcalled (by named_setting hcls) hF (Nat.pos_of_ne_zero h0) hc rfl hb, fun _ _ _ => by first | trivial | exact ⟨rfl, rfl⟩ | rfl⟩
  case cw =>
    obtain rfl := Res.ok.inj hK
    dsimp only [needHinge] at hb
    split_ifs at hb
    obtain rfl := Res.ok.inj hb
    exact ⟨_, .cw _ m.a m.phi m.biasEta hcalled (by named_setting hcls) (by named_setting hcls) (by named_setting hcls) rfl, fun _ _ _ => rfl⟩
  case eccw =>
    obtain rfl := Res.ok.inj hK
    dsimp only [needHinge] at hb
    split_ifs at hb
    obtain rfl := Res.ok.inj hb
    exact ⟨_, .eccw _ m.a m.phi m.biasEta hcalled (by named_setting hcls) (by named_setting hcls) (by named_setting hcls) rfl, fun _ _ _ => rfl⟩
  case rda =>
    obtain rfl := Res.ok.inj hK
    obtain rfl := Res.ok.inj hb
    exact ⟨_, .rda _ m.sigma hcalled (by named_setting hcls) rfl, fun _ _ _ => by first | trivial | exact ⟨rfl, rfl⟩ | rfl⟩
  case rdaL1 =>
    obtain rfl := Res.ok.inj hK
    obtain rfl := Res.ok.inj hb
    exact ⟨_, .rdaL1 _ m.sigma m.lambda hcalled (by named_setting hcls) (by named_setting hcls) rfl, fun _ _ _ => by first | trivial | exact ⟨rfl, rfl⟩ | rfl⟩
  case erdaL1 =>
    obtain rfl := Res.ok.inj hK
    obtain rfl := Res.ok.inj hb
    exact ⟨_, .erdaL1 _ m.sigma m.lambda m.rou hcalled (by named_setting hcls) (by named_setting hcls) (by named_setting hcls) rfl, fun _ _ _ => by first | trivial | exact ⟨rfl, rfl⟩ | rfl⟩
  case sop =>
    obtain rfl := Res.ok.inj hK
    obtain rfl := Res.ok.inj hb
    exact ⟨_, .sop _ m.a hcalled (by named_setting hcls) rfl, fun _ _ _ => by first | trivial | exact ⟨rfl, rfl⟩ | rfl⟩
  case adaFobos =>
    obtain rfl := Res.ok.inj hK
    obtain rfl := Res.ok.inj hb
    exact ⟨_, .adaFobos _ m.delta hcalled (by named_setting hcls) rfl, fun _ _ _ => by first | trivial | exact ⟨rfl, rfl⟩ | rfl⟩
  case adaFobosL1 =>
    obtain rfl := Res.ok.inj hK
    obtain rfl := Res.ok.inj hb
    exact ⟨_, .adaFobosL1 _ m.delta m.lambda _ hcalled (by named_setting hcls) (by named_setting hcls) rfl rfl, fun _ _ _ => by first | trivial | exact ⟨rfl, rfl⟩ | rfl⟩
  case adaFobosOfs =>
    obtain ⟨B, hB, hK⟩ := bind_kit hK
    have hF := features_of (m := m) (by named_setting hcls) hB
    unfold adaFobosOfsKit at hK
    split_ifs at hK with h0
    · subst h0
      obtain rfl := Res.ok.inj hK
      obtain rfl := Res.ok.inj hb
      exact ⟨_, .adaFobosOfs0 _ m.delta hcalled (by named_setting hcls) hF rfl, fun _ _ _ => by first | trivial | exact ⟨rfl, rfl⟩ | rfl⟩
    · obtain rfl := Res.ok.inj hK
      exact ⟨_, .adaFobosOfs _ _ m.delta B _ hcalled (by named_setting hcls) hF (Nat.pos_of_ne_zero h0) hc rfl hb, fun _ _ _ => by first | trivial | exact ⟨rfl, rfl⟩ | rfl⟩
  case adaRda =>
    obtain rfl := Res.ok.inj hK
    obtain rfl := Res.ok.inj hb
    exact ⟨_, .adaRda _ m.delta hcalled (by named_setting hcls) rfl, fun _ _ _ => by first | trivial | exact ⟨rfl, rfl⟩ | rfl⟩
  case adaRdaL1 =>
    obtain rfl := Res.ok.inj hK
    obtain rfl := Res.ok.inj hb
    exact ⟨_, .adaRdaL1 _ m.delta m.lambda hcalled (by named_setting hcls) (by named_setting hcls) rfl, fun _ _ _ => by first | trivial | exact ⟨rfl, rfl⟩ | rfl⟩
  case adaRdaOfs =>
    obtain ⟨B, hB, hK⟩ := bind_kit hK
    have hF := features_of (m := m) (by named_setting hcls) hB
    unfold adaRdaOfsKit at hK
    split_ifs at hK with h0
    · subst h0
      obtain rfl := Res.ok.inj hK
      obtain rfl := Res.ok.inj hb
      exact ⟨_, .adaRdaOfs0 _ m.delta hcalled (by named_setting hcls) hF rfl, fun _ _ _ => by first | trivial | exact ⟨rfl, rfl⟩ | rfl⟩
    · obtain rfl := Res.ok.inj hK
      exact ⟨_, .adaRdaOfs _ _ m.delta B _ hcalled (by named_setting hcls) hF (Nat.pos_of_ne_zero h0) hc rfl rfl hb, fun _ _ _ => by first | trivial | exact ⟨rfl, rfl⟩ | rfl⟩
  case fofs =>
    obtain rfl := Res.ok.inj hK
    exact ⟨_, .fofs _ _ m.eta m.fofsLambda m.fofsB hcalled (by named_setting hcls) (by named_setting hcls) (by named_setting hcls) hb, fun _ _ _ => trivial⟩

/-- What an algorithm stores of its own are not the weights. -/
theorem kit_last {powf : F32 → F32 → F32} {m : M} {K : AnyKit} (hK : kitOf powf m = .ok K) (a : K.1) (m₁ : M) :
    (K.2.last a m₁).dim = m₁.dim ∧ (K.2.last a m₁).w = m₁.w ∧ (K.2.last a m₁).t = m₁.t := by
  unfold kitOf at hK
  dsimp only at hK
  split at hK
  all_goals first
    | (obtain rfl := Res.ok.inj hK; exact ⟨rfl, rfl, rfl⟩)
    | (obtain ⟨B, hB, hK⟩ := bind_kit hK
       first | unfold petKit at hK | unfold sofsKit at hK | unfold adaFobosOfsKit at hK | unfold adaRdaOfsKit at hK
       split_ifs at hK <;> (obtain rfl := Res.ok.inj hK; exact ⟨rfl, rfl, rfl⟩))

/-- Training of a state that was reached does not refuse to begin. -/
theorem begins {files : List Char → Option (List Char)} {m : M} (hm : Reached files m) {l : List (Ex F32)} (ht : Trainable m l) :
    ∃ k, m.loss = some k ∧ beginTrain m = .ok true := by
  have hc := reached_checked hm
  obtain ⟨k, hk, hk2⟩ := hc.loss
  have hgo : (!m.costSensitive || (isHinge k && isBC k)) = true := by
    cases hcs : m.costSensitive with
    | false => rfl
    | true =>
      have h1 := ht.cost hcs
      rw [hk] at h1
      have h1 : isHinge k = true := h1
      have h2 := (hc.cost hcs).1
      have h3 := hk2.1
      rw [if_pos h2] at h3
      simp [h1, h3]
  exact ⟨k, hk, by simp [beginTrain, hk, hgo]⟩

theorem info_online {m : M} {k : String} (h1 : k ≠ "model") (h2 : k ≠ "cls_num") (h3 : k ≠ "clf_num") (h4 : k ≠ "loss")
    (h5 : k ≠ "norm") (h6 : k ≠ "lambda") : info m k = online m k := by
  unfold info
  rw [if_neg h1, if_neg h2, if_neg h3, if_neg h4, if_neg h5, if_neg fun h => h6 h.1]

theorem own_none {m : M} {k : String}
    (h : k ∉ ["power_t", "eta", "k", "C", "p", "alpha", "r", "a", "phi", "sigma", "rou", "delta", "lambda", "B"]) : own m k = none := by
  simp only [List.mem_cons, List.not_mem_nil, or_false, not_or] at h
  unfold own
  cases m.cls <;> simp only [h, if_false]

theorem configured {files : List Char → Option (List Char)} {m : M} (hm : Reached files m) {k : Loss.Kind} (hk : m.loss = some k) :
    Configured m (cfgOf m k) ∧ (vectors m.classNum : Int) = m.clf := by
  have hc := reached_checked hm
  have hn := hc.classNum
  have hv : (vectors m.classNum : Int) = m.clf := by
    unfold vectors M.clf
    split_ifs
    · rfl
    · omega
  refine ⟨⟨?_, ?_, rfl, rfl, ?_, ?_⟩, hv⟩
  · show info m "clf_num" = some (.int (vectors m.classNum : Int))
    rw [hv]
    rfl
  · simp [info, lossText, hk, cfgOf]
  · by_cases h : (1 : F32) ≤? m.smooth
    · exact .inl ⟨by simp [HasReal, info, online, common, h, cfgOf], h⟩
    · refine .inr ⟨?_, h⟩
      rw [info_online (by decide) (by decide) (by decide) (by decide) (by decide) (by decide)]
      unfold online
      rw [show common m "active_smoothness" = none from if_neg h]
      exact own_none (by decide)
  · by_cases h : m.costSensitive = true
    · exact .inr ⟨m.cost, by simp [HasReal, info, online, common, h], by simp [cfgOf, h]⟩
    · refine .inl ⟨?_, by simp [cfgOf, h]⟩
      rw [info_online (by decide) (by decide) (by decide) (by decide) (by decide) (by decide)]
      unfold online
      rw [show common m "cost_margin" = none from if_neg h]
      exact own_none (by decide)

theorem untouched {files : List Char → Option (List Char)} {m : M} (hm : Reached files m) {A : Type} (a : A) : Untouched m (startSt m a) := by
  have hc := reached_checked hm
  refine ⟨rfl, rfl, rfl, ?_, rfl, rfl, rfl, rfl, ?_⟩
  · show List.replicate (vectors m.classNum) 0 = List.replicate m.w.length 0
    rw [show m.w.length = vectors m.classNum by simpa using congrArg List.length hc.shape.w]
  · intro name hname hcalled
    have hcls : m.cls ∈ [Cls.adaFobos, .adaFobosL1, .adaFobosOfs, .adaRda, .adaRdaL1, .adaRdaOfs, .fofs] := by
      simp only [Called, info, if_true, Option.some.injEq, Tok.str.injEq] at hcalled
      have h2 : modelName m.cls = name := String.toList_injective hcalled
      rw [← h2] at hname
      revert hname
      cases m.cls <;> decide
    revert hcls
    obtain ⟨c, hc⟩ : ∃ c, m.cls = c := ⟨_, rfl⟩
    rw [hc]
    intro hcls
    cases c <;> first | (exact absurd hcls (by decide)) | simp [startSt, etaIsParam, HasReal, info, online, common, own, hc]

/-- Training runs the algorithm that name and settings stand for. -/
theorem trainModel_named {files : List Char → Option (List Char)} {m : M} (hm : Reached files m) (powf : F32 → F32 → F32)
    (ρ : Nat → F32) (d : Train.Disp) (bs : List (List (Ex F32))) (ht : Trainable m bs.flatten) {m' : M} (h : trainModel powf ρ d m bs = .ok m') :
    ∃ (c : Cfg F32) (A : Type) (G : Alg F32 A) (b s : St F32 A) (keep : A → M → Prop), Configured m c ∧ Untouched m b ∧
      AlgorithmOf powf m c A G b s keep ∧ ∃ r e, Train.train G c ⟨m.sel, m.norm⟩ ρ s d bs = .ok r ∧ G.endTrain c r.1 = .ok e ∧
        m'.dim = e.dim ∧ m'.w = e.w ∧ m'.t = e.t ∧ keep e.alg m' := by
  obtain ⟨k, hk, hgo⟩ := begins hm ht
  obtain ⟨h1, h2⟩ := configured hm hk
  unfold trainModel at h
  rw [hk] at h
  dsimp only at h
  rw [hgo] at h
  simp only [Res.bind, if_true] at h
  cases hK : kitOf powf m with
  | ub u => rw [hK] at h; cases h
  | ok K =>
    rw [hK] at h
    dsimp only [trainKit] at h
    obtain ⟨s, hs, h⟩ := Res.bind_eq_ok.1 h
    obtain ⟨r, hr, h⟩ := Res.bind_eq_ok.1 h
    obtain ⟨e, he, h⟩ := Res.bind_eq_ok.1 h
    obtain rfl := Res.ok.inj h
    obtain ⟨keep, k1, k2⟩ := kit_named h2 hK hs
    have hlast : ∀ (a : K.1) (m₁ : M), (K.2.last a m₁).dim = m₁.dim ∧ (K.2.last a m₁).w = m₁.w ∧ (K.2.last a m₁).t = m₁.t := by
      intro a m₁
      exact kit_last hK a m₁
    exact ⟨_, _, _, _, _, keep, h1, untouched hm _, k1, r, e, hr, he, (hlast _ _).1, (hlast _ _).2.1, (hlast _ _).2.2, k2 _ _ rfl⟩

end Sol.Whole
