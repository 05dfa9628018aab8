import Verif.Proofs.Named
import Verif.Props.Whole
/-! The algorithm that `sol_train` runs. -/

namespace Sol.Props
open Sol.Params Sol.Online Sol.Loss Sol.Spec Sol.Whole Sol.PreProcess

variable [FFun F32] (pw : Int → F32) (powf : F32 → F32 → F32) (ρ : Nat → F32) (d : Train.Disp)

/-- **C78 (the algorithm).** The model that `sol_train` writes is the one that the algorithm of its class computes, with the settings
    that the model reports: the class names the algorithm, which starts with the weights and the counter of the model, gets all
    examples in order, and ends its training; its weights, its counter and its own vectors are stored. -/
theorem C78_algorithm_partial (W : World) (hW : Loads W) (prog : List Char) (args : List (List Char)) (j : Cli.Job) (w : Bool) (c : Int)
    (l : List (Ex F32)) (h : Cli.trainMain W.env (prog :: args) = .done j w c) (hl : Reads pw W j l) (ht : Trainable j.model l) :
    ∃ (cfg : Cfg F32) (A : Type) (G : Alg F32 A) (b s : St F32 A) (keep : A → M → Prop) (r : _) (e : St F32 A) (m : M),
      Configured j.model cfg ∧ Untouched j.model b ∧ AlgorithmOf powf j.model cfg A G b s keep ∧
      Train.train G cfg ⟨j.model.sel, j.model.norm⟩ ρ s d [l] = .ok r ∧ G.endTrain cfg r.1 = .ok e ∧
      m.dim = e.dim ∧ m.w = e.w ∧ m.t = e.t ∧ keep e.alg m ∧ Trained j.model m ∧
      ∀ o, SolTrain pw powf ρ d W (prog :: args) o ↔ ∃ files, o = .exit 0 files ∧ Wrote W j (saveText m) files := by
  obtain ⟨rfl, g, ws, -, -, -, ha, rfl⟩ := C60_train_only_partial _ _ _ _ _ _ h
  have hr := job_reached hW h
  have ht' : Trainable j.model ([l] : List (List (Ex F32))).flatten := by simpa using ht
  obtain ⟨m, h1, h2⟩ := trainModel_trained hr powf ρ d [l] ht'
  obtain ⟨cfg, A, G, b, s, keep, k1, k2, k3, r, e, k4, k5, k6, k7, k8, k9⟩ := trainModel_named hr powf ρ d [l] ht' h1
  refine ⟨cfg, A, G, b, s, keep, r, e, m, k1, k2, k3, k4, k5, k6, k7, k8, k9, h2, fun o => ?_⟩
  rw [solTrain_done h, (reads_data ha.data l).1 hl]
  simp only [Res.bind, h1]
  exact wrote_iff (plain7_saveText m) o

/-- The first command line of `C78_instance` runs FOBOS-L1 with eta 1, power_t 1/2 and lambda 1/8. -/
example (cfg : Cfg F32) (b : St F32 (List Int)) (hb : b.alg = [0]) :
    AlgorithmOf powf { fresh .fobosL1 2 with lambda := .fin (1 / 8) } cfg (List Int)
      (Olm.fobosL1 1 (fun t => FSqrt.sqrt (t : F32)) (.fin (1 / 8)) (fresh .fobosL1 2).thresh 0) b b fun a m => m.lastTime = a.map fun t => ((t : Int) : F32) := by
  refine .fobosL1 b 1 (.fin (1 / 2)) (fun t => FSqrt.sqrt (t : F32)) (.fin (1 / 8)) 0 ?_ ?_ ?_ (.inr (.inl ⟨rfl, fun _ => rfl⟩)) ?_ ?_ ?_
  · unfold Called; decide +kernel
  · unfold HasReal; decide +kernel
  · unfold HasReal; decide +kernel
  · unfold HasReal; decide +kernel
  · decide +kernel
  · rw [hb]; decide +kernel

end Sol.Props
