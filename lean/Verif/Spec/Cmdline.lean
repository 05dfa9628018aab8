import Verif.Model.Cmdline
/-!
# What a command line says

A command line is a sequence of words (arguments that do not start with a minus sign), lone minus signs, long options
(`--name=value`, `--name value`, `--name`) and clusters of short options (`-abc`, `-abc value`).
-/

namespace Sol.Spec
open Sol.Cmdline

/-- One group of arguments: the options that it gives, with their values, and the words. -/
inductive Clause (os : List Opt) : List (List Char) → List (Opt × Option Val) → List (List Char) → Prop
  | word {t : List Char} (h : t.head? ≠ some '-') : Clause os [t] [] [t]
  | dash : Clause os [['-']] [] []
  | joined {o : Opt} {r : Reader} {v : List Char} {x : Val} (ho : o ∈ os) (hn : '=' ∉ o.name) (hr : o.reader = some r) (hx : r.read v = some x) :
      Clause os ['-' :: '-' :: (o.name ++ '=' :: v)] [(o, some x)] []
  | apart {o : Opt} {r : Reader} {v : List Char} {x : Val} (ho : o ∈ os) (hn : '=' ∉ o.name) (hr : o.reader = some r) (hx : r.read v = some x) :
      Clause os ['-' :: '-' :: o.name, v] [(o, some x)] []
  | flag {o : Opt} (ho : o ∈ os) (hn : '=' ∉ o.name) (hr : o.reader = none) : Clause os ['-' :: '-' :: o.name] [(o, none)] []
  | short {l : List Opt} {cs : List Char} (hc : cs ≠ []) (h0 : cs.head? ≠ some '-')
      (hl : List.Forall₂ (fun (o : Opt) c => o ∈ os ∧ o.name ≠ [] ∧ o.short = some c ∧ o.reader = none) l cs) :
      Clause os ['-' :: cs] (l.map fun o => (o, none)) []
  | shortValue {l : List Opt} {cs : List Char} {o : Opt} {c : Char} {r : Reader} {v : List Char} {x : Val}
      (h0 : (cs ++ [c]).head? ≠ some '-')
      (hl : List.Forall₂ (fun (o : Opt) c => o ∈ os ∧ o.name ≠ [] ∧ o.short = some c ∧ o.reader = none) l cs)
      (ho : o ∈ os) (hn : o.name ≠ []) (hs : o.short = some c) (hr : o.reader = some r) (hx : r.read v = some x) :
      Clause os ['-' :: (cs ++ [c]), v] ((l.map fun o => (o, none)) ++ [(o, some x)]) []

/-- A command line: the options given, in their order, and the words. -/
inductive Says (os : List Opt) : List (List Char) → List (Opt × Option Val) → List (List Char) → Prop
  | nil : Says os [] [] []
  | cons {a b : List (List Char)} {g h : List (Opt × Option Val)} {ws vs : List (List Char)} (h1 : Clause os a g ws) (h2 : Says os b h vs) :
      Says os (a ++ b) (g ++ h) (ws ++ vs)

/-- No two options have the same name or the same short name. -/
def Distinct (os : List Opt) : Prop :=
  os.Pairwise fun a b => a.name ≠ b.name ∧ (a.name ≠ [] → b.name ≠ [] → a.short = b.short → a.short = none)

instance (os : List Opt) : Decidable (Distinct os) := inferInstanceAs (Decidable (List.Pairwise _ _))

/-- The option is given. -/
def Given (g : List (Opt × Option Val)) (o : Opt) : Prop := ∃ x, (o, x) ∈ g

/-- `x` is the value of the option: the last one that is given, or the default. -/
def ValueOf (g : List (Opt × Option Val)) (o : Opt) (x : Val) : Prop :=
  (∃ g1 g2, g = g1 ++ (o, some x) :: g2 ∧ ¬ Given g2 o) ∨ (¬ Given g o ∧ x = o.dflt)

end Sol.Spec
