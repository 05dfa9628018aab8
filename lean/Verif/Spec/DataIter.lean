import Verif.Base.Outcome
/-! What a data iterator should hand out. -/

namespace Sol.Spec

/-- The points of one file: its readable points, repeated for every pass, or once if reading ends with an error. -/
def filePoints {P : Type} (pts : List P) (bad : Bool) (passes : Nat) : List P :=
  if passes = 0 then [] else if bad then pts else (List.replicate passes pts).flatten

/-- The points of all files in order. -/
def allPoints {P : Type} (files : List (List P × Bool × Nat)) : List P :=
  files.flatMap fun f => filePoints f.1 f.2.1 f.2.2

end Sol.Spec
