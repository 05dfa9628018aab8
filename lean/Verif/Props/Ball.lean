import Verif.Proofs.Ball
import Verif.Props.Variance
/-! C40: projection onto a ball. -/

namespace Sol.Props

open Sol.Online Sol.Olm Sol.Select Sol.Sparse Sol.Loss Sol.Spec

/-- C40 for ALMA2: from weights in the unit ball (a new model has weights zero) training leads to weights in the unit ball;
    as this holds for every stream, it holds after every update. -/
theorem C40_alma2 (c : Cfg ℝ) (hk : Matches c.kind c.clf) (C alpha sqp1 : ℝ) (s : St ℝ Int)
    (hs : Fit c (none' Int) s) (hb : InBall 1 s.w) (l : List (Ex ℝ × ℝ)) (hl : Usable c l) :
    ∃ s', trainLoop (alma2 C alpha sqp1) c s l = .ok s' ∧ InBall 1 s'.w := by
  obtain ⟨s', h1, -, h2⟩ := Keeps.loop (safe_alma2 c C alpha sqp1).able (keeps_alma2 c C alpha sqp1) hk l hl s hs hb
  exact ⟨s', h1, h2⟩

/-- C40 for FOFS with `lambda > 0`: `BeginTrain` computes `normCoeff = 1 / sqrt lambda`; the squared norm of the weights stays
    at most `1 / lambda`. -/
theorem C40_fofs (c : Cfg ℝ) (hk : Matches c.kind c.clf) {lambda : ℝ} (h0 : 0 < lambda) (momentum : ℝ) (B : Nat)
    (s : St ℝ (PetSt ℝ)) (hs : Ready c B s) (hb : InBall (1 / lambda) s.w) (l : List (Ex ℝ × ℝ))
    (hl : ∀ p ∈ l, Proper p.1.x ∧ LabelOk c.clf p.1.label) :
    ∃ s0 s', petBegin (fofs (1 / Real.sqrt lambda) momentum B) B s = .ok s0 ∧
      trainLoop (fofs (1 / Real.sqrt lambda) momentum B) c s0 l = .ok s' ∧ InBall (1 / lambda) s'.w := by
  have hc := clf_pos hk
  have hsq : 1 / Real.sqrt lambda * (1 / Real.sqrt lambda) = 1 / lambda := by
    rw [div_mul_div_comm, Real.mul_self_sqrt h0.le, one_mul]
  obtain ⟨s0, h1, h2, h3, -, h4⟩ := gives_petBegin (G := fofs (1 / Real.sqrt lambda) momentum B) rfl hs (S := fun _ => True)
    (fun _ _ _ _ _ _ => trivial)
  have hb0 : InBall (1 / lambda) s0.w := by
    unfold petBegin at h1
    rw [if_pos (by have := hs.budget.1; omega)] at h1
    simp only [Res.bind_eq_ok] at h1
    obtain ⟨v, -, h, -, h5⟩ := h1
    rw [← Res.ok.inj h5]
    unfold updateDim
    split
    · exact grow_ball hb
    · exact hb
  obtain ⟨s', h5, -, h6⟩ := Keeps.loop (able_fofs_loose c hc (1 / Real.sqrt lambda) momentum hs.budget.1)
    (keeps_fofs c (by positivity) momentum B) hk l hl s0 ⟨h2.dim, h2.dimMax, h2.w, h2.g, h3⟩ (by rw [hsq]; exact hb0)
  rw [hsq] at h6
  exact ⟨s0, s', h1, h5, h6⟩

/-- A new model meets the hypotheses. -/
theorem C40_hypotheses : Fit (cfg1 (α := ℝ)) (none' Int) (model1 1) ∧ InBall (1 : ℝ) (model1 (1 : Int)).w ∧
    Ready (cfg3 (α := ℝ)) 2 (model3 (⟨[0], ⟨0, 0, [], []⟩⟩ : PetSt ℝ)) ∧
    InBall (1 / 4 : ℝ) (model3 (⟨[0], ⟨0, 0, [], []⟩⟩ : PetSt ℝ)).w := by
  refine ⟨⟨le_rfl, ⟨rfl, by simp [model1]⟩, rfl, trivial⟩, ?_, ⟨le_rfl, by simp [model3], ⟨rfl, by simp [model3]⟩, rfl, by decide⟩, ?_⟩
  · intro w hw
    obtain rfl : w = [0] := by simpa [model1] using hw
    norm_num
  · intro w hw
    obtain rfl : w = [0] := by simpa [model3] using hw
    norm_num

/-- ALMA2 takes a step of length 5 and is projected to (3/5, 4/5); FOFS (`lambda = 4`) takes a step of length 5 and is projected
    to (3/10, 4/10), of which the larger weight is kept. -/
theorem C40_instance :
    letI : FFun F32 := unusedFun
    let e : Ex F32 × F32 := (⟨1, [(1, .fin 3), (2, .fin 4)]⟩, 0)
    (Yields (trainLoop (alma2 (α := F32) 1 1 1) cfg1 (model1 1) [e]) fun s =>
      s.w = [[0, F32.round (3 / 5), F32.round (4 / 5)]] ∧ s.alg = 2) ∧
    (Yields (do let s ← petBegin (fofs (α := F32) (.fin (1 / 2)) 1 1) 1 (model1 ⟨[0], ⟨0, 0, [], []⟩⟩)
                trainLoop (fofs (.fin (1 / 2)) 1 1) cfg1 s [e]) fun s => s.w = [[0, 0, F32.round (4 / 10)]]) := by
  decide +kernel

end Sol.Props
