import Verif.Proofs.Whole
import Verif.Props.SelectSafe
/-! The feature-selection classes keep their budget when they are trained by `sol_train`. -/

namespace Sol.Whole
open Sol.Params Sol.Online Sol.Olm Sol.Select Sol.Loss Sol.Sparse Sol.Spec Sol.PreProcess

variable [FFun F32]

theorem session_runTrain {A : Type} {G : Alg F32 A} {c : Cfg F32} {s s' : St F32 A} {l : List (Ex F32 × F32)}
    (hl : ∀ p ∈ l, Proper p.1.x ∧ LabelOk c.clf p.1.label) (h : runTrain G c s l = .ok s') : Session G c s s' := by
  obtain ⟨s1, h1, h2⟩ := Res.bind_eq_ok.1 h
  exact .close (.mark true (Props.session_trainLoop l hl s s1 (.start s) h1)) h2

/-- The budget that the classes with `lambda` work with. -/
theorem budget_eq {m : M} {B : Nat} (h : ∃ q, m.lambda = .fin q ∧ (B : ℚ) ≤ q ∧ q < B + 1) (hB : B < 4294967295) : budget m.lambda = .ok B := by
  obtain ⟨q, h1, h2, h3⟩ := h
  rw [h1]
  have hf : ⌊q⌋ = (B : Int) := Int.floor_eq_iff.2 ⟨by exact_mod_cast h2, by exact_mod_cast h3⟩
  have h0 : (0 : ℚ) ≤ B := Nat.cast_nonneg B
  have hb : (B : ℚ) + 1 ≤ 4294967295 := by exact_mod_cast hB
  simp only [budget]
  rw [if_pos ⟨by linarith, by linarith⟩, hf]
  simp

theorem chooses_lt {m : M} {k : Kind} {l : List (Ex F32 × F32)} (h : Fitted m k l) {B : Nat} (hB : Chooses m B) : B < 4294967295 := by
  rcases hB.2 with ⟨h1, h2⟩ | ⟨h1, q, h2, h3, -⟩
  · rw [← h2]; exact h.features h1
  · obtain ⟨q', h4, -, h5⟩ := h.budget h1
    rw [h2] at h4
    obtain rfl := F32.fin.inj h4
    have : (B : ℚ) < 4294967295 := lt_of_le_of_lt h3 h5
    exact_mod_cast this

theorem kit_within (powf : F32 → F32 → F32) {m m' : M} {k : Kind} {l : List (Ex F32 × F32)} (h : Fitted m k l) {B : Nat} (hB : Chooses m B)
    (h0 : Props.Bare m.w) {K : AnyKit} (hK : kitOf powf m = .ok K) (hm : kitTrain m k K.2 l = .ok m') : WithinBudget B m'.w := by
  have hlt := chooses_lt h hB
  have hch : m.cls ∈ choosing := by
    rcases hB.2 with ⟨h1, -⟩ | ⟨h1, -⟩
    · rw [h1]; decide
    · simp only [List.mem_cons, List.not_mem_nil, or_false] at h1
      rcases h1 with h1 | h1 | h1 | h1 <;> rw [h1] <;> decide
  have hl : ∀ p ∈ l, Proper p.1.x ∧ LabelOk (cfgOf m k).clf p.1.label := fun p hp => ⟨h.proper hch p hp, (h.usable p hp).2⟩
  have hr : ∀ {A : Type} (a : A), Ready (cfgOf m k) B (startSt m a) := fun a => ready_start h.checked (h.dim hch) ⟨hB.1, hlt⟩
  have ne : B ≠ 0 := by have := hB.1; omega
  rcases hB.2 with ⟨h1, h2⟩ | ⟨h1, hq⟩
  · simp only [kitOf, h1, h2] at hK
    obtain rfl := (Res.ok.inj hK).symm
    obtain ⟨s0, e0, hs⟩ := Props.C37_fofs (cfgOf m k) h.matches (1 / FSqrt.sqrt m.fofsLambda) (1 - m.fofsLambda * m.eta) B
      (startSt m ⟨[], noHeap⟩) (hr _) h0
    obtain ⟨s1, e1, hm1⟩ := Res.bind_eq_ok.1 hm
    obtain ⟨s2, e2, hm2⟩ := Res.bind_eq_ok.1 hm1
    obtain rfl := Res.ok.inj (e0.symm.trans e1)
    rw [← Res.ok.inj hm2]
    exact (hs s2 (session_runTrain hl e2)).1
  · have hb := budget_eq hq hlt
    simp only [List.mem_cons, List.not_mem_nil, or_false] at h1
    rcases h1 with h1 | h1 | h1 | h1
    · simp only [kitOf, h1, hb, Res.bind, petKit, if_neg ne] at hK
      obtain rfl := (Res.ok.inj hK).symm
      obtain ⟨s0, e0, hs⟩ := Props.C37_pet (cfgOf m k) h.matches m.eta (powOf powf m.powerT) B (startSt m ⟨[], noHeap⟩) (hr _) h0
      obtain ⟨s1, e1, hm1⟩ := Res.bind_eq_ok.1 hm
      obtain ⟨s2, e2, hm2⟩ := Res.bind_eq_ok.1 hm1
      obtain rfl := Res.ok.inj (e0.symm.trans e1)
      rw [← Res.ok.inj hm2]
      exact (hs s2 (session_runTrain hl e2)).1
    · simp only [kitOf, h1, hb, Res.bind, sofsKit, if_neg ne] at hK
      obtain rfl := (Res.ok.inj hK).symm
      obtain ⟨s0, e0, hs⟩ := Props.C37_sofs (cfgOf m k) h.matches m.r B (startSt m ⟨m.scale, [], noHeap⟩) (hr _)
        (scale_vecs h.checked (by rw [h1]; rfl)) h0
      obtain ⟨s1, e1, hm1⟩ := Res.bind_eq_ok.1 hm
      obtain ⟨s2, e2, hm2⟩ := Res.bind_eq_ok.1 hm1
      obtain rfl := Res.ok.inj (e0.symm.trans e1)
      rw [← Res.ok.inj hm2]
      exact (hs s2 (session_runTrain hl e2)).1
    · simp only [kitOf, h1, hb, Res.bind, adaFobosOfsKit, if_neg ne] at hK
      obtain rfl := (Res.ok.inj hK).symm
      obtain ⟨s0, e0, hs⟩ := Props.C37_adaFobosOfs (cfgOf m k) h.matches m.delta B (startSt m ⟨m.scale, [], noHeap⟩) (hr _)
        (scale_vecs h.checked (by rw [h1]; rfl)) h0
      obtain ⟨s1, e1, hm1⟩ := Res.bind_eq_ok.1 hm
      obtain ⟨s2, e2, hm2⟩ := Res.bind_eq_ok.1 hm1
      obtain rfl := Res.ok.inj (e0.symm.trans e1)
      rw [← Res.ok.inj hm2]
      exact (hs s2 (session_runTrain hl e2)).1
    · simp only [kitOf, h1, hb, Res.bind, adaRdaOfsKit, if_neg ne] at hK
      obtain rfl := (Res.ok.inj hK).symm
      obtain ⟨s0, e0, hs⟩ := Props.C37_adaRdaOfs (cfgOf m k) h.matches m.delta B (startSt m ⟨⟨m.scale, [], noHeap⟩, m.sum⟩) (hr _)
        (scale_vecs h.checked (by rw [h1]; rfl)) (sum_vecs h.checked (by rw [h1]; rfl)) h0
      obtain ⟨s1, e1, hm1⟩ := Res.bind_eq_ok.1 hm
      obtain ⟨s2, e2, hm2⟩ := Res.bind_eq_ok.1 hm1
      obtain rfl := Res.ok.inj (e0.symm.trans e1)
      rw [← Res.ok.inj hm2]
      exact (hs s2 (session_runTrain hl e2)).1

/-- Training a model without weights keeps the budget. -/
theorem trainModel_within {files : List Char → Option (List Char)} {m : M} (hm : Reached files m) (powf : F32 → F32 → F32)
    (ρ : Nat → F32) (d : Train.Disp) (bs : List (List (Ex F32))) (ht : Trainable m bs.flatten) {B : Nat} (hB : Chooses m B)
    (h0 : Props.Bare m.w) : Gives (trainModel powf ρ d m bs) (fun m' => Trained m m' ∧ WithinBudget B m'.w) := by
  obtain ⟨k, l, K, h1, h2, ⟨m', h3, h4⟩, h5⟩ := trainModel_kit hm powf ρ d bs ht
  rw [h5]
  exact ⟨m', h3, h4, kit_within powf h1 hB h0 h2 h3⟩

end Sol.Whole
