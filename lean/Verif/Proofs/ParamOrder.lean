import Mathlib.Data.List.Perm.Basic
import Verif.Spec.ParamOrder
/-! Accepted parameters are assignments to fields. -/

namespace Sol.Params
open Sol.Text Sol.FloatText Sol.PreProcess Sol.Spec

/-- What an accepted parameter does. -/
inductive Atom where
  | nothing (s : String)
  | biasEta (x : F32)
  | biasEtaRe (x : F32)
  | time (n : Int)
  | timeBoth (n : Int) (x : F32)
  | t0 (x : F32)
  | dim (n : Nat)
  | lazy (b : Bool)
  | smooth (x : F32)
  | cost (x : F32)
  | disp (d : Disp)
  | loss (k : Loss.Kind) (h : Bool)
  | norm (n : Norm)
  | sel (s : Sel)
  | lambda (x : F32)
  | thresh (x : F32)
  | powerT (x : F32)
  | eta (x : F32)
  | k (n : Int)
  | kRe (n : Int)
  | C (x : F32)
  | p (n : Int)
  | alpha (x : F32)
  | r (x : F32)
  | a (x : F32)
  | aFill (x : F32)
  | phi (x : F32)
  | sigma (x : F32)
  | rou (x : F32)
  | delta (x : F32)
  | fofsLambda (x : F32)
  | fofsB (n : Nat)

/-- The state afterwards. -/
def Atom.apply (m : M) : Atom → M
  | .nothing _ => m
  | .biasEta x => { m with biasEta := x }
  | .biasEtaRe x => { m with biasEta := x, reinit := true }
  | .time n => { m with initialT := n, t := n }
  | .timeBoth n x => { m with initialT := n, t := n, t0 := x, lastTime := m.lastTime.map fun _ => x }
  | .t0 x => { m with t0 := x, lastTime := m.lastTime.map fun _ => x }
  | .dim n => updateDim m n
  | .lazy b => { m with lazy := b }
  | .smooth x => { m with smooth := x }
  | .cost x => { m with cost := x, costSensitive := true, reinit := true }
  | .disp d => { m with disp := some d }
  | .loss l h => { m with loss := some l, hinge := h, reinit := true }
  | .norm n => { m with norm := n }
  | .sel s => { m with sel := s }
  | .lambda x => { m with lambda := x }
  | .thresh x => { m with thresh := x }
  | .powerT x => { m with powerT := x }
  | .eta x => { m with eta := x }
  | .k n => { m with k := n }
  | .kRe n => { m with k := n, reinit := true }
  | .C x => { m with C := x }
  | .p n => { m with p := n, reinit := true }
  | .alpha x => { m with alpha := x, reinit := true }
  | .r x => { m with r := x }
  | .a x => { m with a := x }
  | .aFill x => { m with a := x, scale := fill x m.scale }
  | .phi x => { m with phi := x, reinit := true }
  | .sigma x => { m with sigma := x }
  | .rou x => { m with rou := x }
  | .delta x => { m with delta := x, scale := fill x m.scale }
  | .fofsLambda x => { m with fofsLambda := x }
  | .fofsB n => { m with fofsB := n }

/-- The name. -/
def Atom.slot : Atom → String
  | .nothing s => s
  | .biasEta _ => "bias_eta"
  | .biasEtaRe _ => "bias_eta"
  | .time _ => "t"
  | .timeBoth _ _ => "t"
  | .t0 _ => "t"
  | .dim _ => "dim"
  | .lazy _ => "lazy_update"
  | .smooth _ => "active_smoothness"
  | .cost _ => "cost_margin"
  | .disp _ => "exp_show"
  | .loss _ _ => "loss"
  | .norm _ => "norm"
  | .sel _ => "filter"
  | .lambda _ => "lambda"
  | .thresh _ => "sparse_thresh"
  | .powerT _ => "power_t"
  | .eta _ => "eta"
  | .k _ => "k"
  | .kRe _ => "k"
  | .C _ => "C"
  | .p _ => "p"
  | .alpha _ => "alpha"
  | .r _ => "r"
  | .a _ => "a"
  | .aFill _ => "a"
  | .phi _ => "phi"
  | .sigma _ => "sigma"
  | .rou _ => "rou"
  | .delta _ => "delta"
  | .fofsLambda _ => "lambda"
  | .fofsB _ => "B"

/-- The number of the name. -/
def Atom.key : Atom → Nat
  | .nothing _ => 100
  | .biasEta _ => 0
  | .biasEtaRe _ => 0
  | .time _ => 1
  | .timeBoth _ _ => 1
  | .t0 _ => 1
  | .dim _ => 2
  | .lazy _ => 3
  | .smooth _ => 4
  | .cost _ => 5
  | .disp _ => 6
  | .loss _ _ => 7
  | .norm _ => 8
  | .sel _ => 9
  | .lambda _ => 10
  | .thresh _ => 11
  | .powerT _ => 12
  | .eta _ => 13
  | .k _ => 14
  | .kRe _ => 14
  | .C _ => 15
  | .p _ => 16
  | .alpha _ => 17
  | .r _ => 18
  | .a _ => 19
  | .aFill _ => 19
  | .phi _ => 20
  | .sigma _ => 21
  | .rou _ => 22
  | .delta _ => 23
  | .fofsLambda _ => 10
  | .fofsB _ => 24

/-- The names in order. -/
def slotNames : List String := ["bias_eta", "t", "dim", "lazy_update", "active_smoothness", "cost_margin", "exp_show", "loss", "norm", "filter", "lambda", "sparse_thresh", "power_t", "eta", "k", "C", "p", "alpha", "r", "a", "phi", "sigma", "rou", "delta", "B"]

theorem Atom.slot_of_key (a : Atom) (h : a.key ≠ 100) : slotNames[a.key]? = some a.slot := by
  cases a <;> first | rfl | exact absurd rfl h

/-- The classes with a scale that is filled by the parameter. -/
def Atom.Ok (c : Cls) : Atom → Prop
  | .a _ => c = .sop
  | .aFill _ => c = .cw ∨ c = .eccw
  | .delta _ => c ∈ [Cls.adaFobos, .adaFobosL1, .adaFobosOfs, .adaRda, .adaRdaL1, .adaRdaOfs]
  | _ => True

theorem Atom.cls (a : Atom) (m : M) : (a.apply m).cls = m.cls ∧ (a.apply m).classNum = m.classNum := by
  cases a <;> try exact ⟨rfl, rfl⟩
  unfold Atom.apply updateDim
  dsimp only
  split <;> exact ⟨rfl, rfl⟩

theorem fill_grow (x y : F32) (n : Nat) (s : List (List F32)) : fill x (s.map (growTo n y)) = (fill x s).map (growTo n x) := by
  unfold fill growTo
  rw [List.map_map, List.map_map]
  refine List.map_congr_left fun w _ => ?_
  simp

theorem dim_commutes (b : Atom) (n : Nat) (m : M) (hb : b.Ok m.cls) (h : b.slot ≠ "dim") :
    b.apply (updateDim m n) = updateDim (b.apply m) n := by
  have key : ∀ g : M → M, (∀ m, (g m).dim = m.dim) → (∀ m d w sc su X, g { m with dim := d, w := w, scale := sc, sum := su, X := X } =
      { g m with dim := d, w := w, scale := sc, sum := su, X := X }) → (∀ m, newScale (g m) = newScale m ∧ (g m).w = m.w ∧ (g m).scale = m.scale ∧
        (g m).sum = m.sum ∧ (g m).X = m.X) → g (updateDim m n) = updateDim (g m) n := by
    intro g h1 h2 h3
    obtain ⟨e1, e2, e3, e4, e5⟩ := h3 m
    unfold updateDim
    rw [h1 m, e1, e2, e3, e4, e5]
    split
    · exact h2 ..
    · rfl
  cases b <;> try (first | exact absurd rfl h | exact key (fun m => Atom.apply m _) (fun _ => rfl) (fun _ _ _ _ _ _ => rfl) (fun m => ⟨by
    first | rfl | (unfold newScale; rfl), rfl, rfl, rfl, rfl⟩))
  case a x =>
    obtain ⟨c⟩ := m
    obtain rfl : c = .sop := hb
    unfold Atom.apply updateDim newScale
    dsimp only
    split <;> rfl
  case aFill x =>
    obtain ⟨c⟩ := m
    have hb : c = .cw ∨ c = .eccw := hb
    unfold Atom.apply updateDim newScale
    rcases hb with rfl | rfl <;> dsimp only <;> split <;> first | rfl | simp only [fill_grow]
  case delta x =>
    obtain ⟨c⟩ := m
    have hb : c ∈ [Cls.adaFobos, .adaFobosL1, .adaFobosOfs, .adaRda, .adaRdaL1, .adaRdaOfs] := hb
    unfold Atom.apply updateDim newScale
    simp only [List.mem_cons, List.not_mem_nil, or_false] at hb
    rcases hb with rfl | rfl | rfl | rfl | rfl | rfl <;> dsimp only <;> split <;> first | rfl | simp only [fill_grow]

theorem not_both {c : Cls} {x y : F32} (ha : (Atom.aFill x).Ok c) (hb : (Atom.delta y).Ok c) : False := by
  have ha : c = .cw ∨ c = .eccw := ha
  have hb : c ∈ [Cls.adaFobos, .adaFobosL1, .adaFobosOfs, .adaRda, .adaRdaL1, .adaRdaOfs] := hb
  rcases ha with rfl | rfl <;> simp at hb

set_option maxHeartbeats 2000000 in
theorem Atom.commutes (a b : Atom) (m : M) (ha : a.Ok m.cls) (hb : b.Ok m.cls) (h : a.slot ≠ b.slot) :
    a.apply (b.apply m) = b.apply (a.apply m) := by
  by_cases h1 : ∃ n, a = .dim n
  · obtain ⟨n, rfl⟩ := h1
    exact (dim_commutes b n m hb fun e => h e.symm).symm
  by_cases h2 : ∃ n, b = .dim n
  · obtain ⟨n, rfl⟩ := h2
    exact dim_commutes a n m ha h
  by_cases h3 : a.key = 100
  · cases a <;> first | rfl | cases h3
  by_cases h4 : b.key = 100
  · cases b <;> first | rfl | cases h4
  have h5 : a.key ≠ b.key := by
    intro e
    have h6 := a.slot_of_key h3
    rw [e, b.slot_of_key h4] at h6
    exact h (Option.some.inj h6).symm
  clear h h3 h4
  obtain ⟨c⟩ := m
  cases a <;> cases b <;> first
    | rfl
    | exact absurd rfl h5
    | exact absurd ⟨_, rfl⟩ h1
    | exact absurd ⟨_, rfl⟩ h2
    | exact (not_both ha hb).elim
    | exact (not_both hb ha).elim

end Sol.Params
