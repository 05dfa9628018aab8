import Mathlib.Data.List.Defs
/-! What the string helpers are about: the pieces of a string between separators, and equality up to ASCII case. -/

namespace Sol.Spec

/-- `Pieces d s ps`: the string `s` consists of the non-empty separator-free pieces `ps`, in this order, with at least one separator
    `d` between two pieces, and any number of them before the first and after the last. -/
inductive Pieces (d : Char) : List Char → List (List Char) → Prop
  | done (g : List Char) (hg : ∀ c ∈ g, c = d) : Pieces d g []
  | last (g p : List Char) (hg : ∀ c ∈ g, c = d) (hp : p ≠ []) (hd : d ∉ p) : Pieces d (g ++ p) [p]
  | more (g p t : List Char) (ps : List (List Char)) (hg : ∀ c ∈ g, c = d) (hp : p ≠ []) (hd : d ∉ p) (ht : Pieces d t ps) :
      Pieces d (g ++ p ++ d :: t) (p :: ps)

/-- Plain ASCII text. -/
def Ascii (s : List Char) : Prop := ∀ c ∈ s, c.toNat < 128

instance (s : List Char) : Decidable (Ascii s) := inferInstanceAs (Decidable (∀ c ∈ s, _))

/-- Equal up to the case of ASCII letters (`Char.toLower` of Lean's library changes only `A` … `Z`). -/
def SameWord (s t : List Char) : Prop := s.map Char.toLower = t.map Char.toLower

instance (s t : List Char) : Decidable (SameWord s t) := inferInstanceAs (Decidable (_ = _))

end Sol.Spec
