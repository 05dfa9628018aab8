/-! Objects that are made, used and released. -/

namespace Sol.Spec

/-- The two kinds of objects of a program that has at most one of each at a time. -/
inductive Obj where
  | model
  | iter
deriving DecidableEq

inductive HandleAct where
  | make (o : Obj)
  | use (o : Obj)
  | free (o : Obj)
deriving DecidableEq

/-- Only objects that exist are used and released, and none is made over another; `alive` are those that exist before and `left` those that
    exist afterwards. -/
inductive Acts : List Obj → List HandleAct → List Obj → Prop
  | done (alive : List Obj) : Acts alive [] alive
  | make {alive left : List Obj} {o : Obj} {l : List HandleAct} : o ∉ alive → Acts (o :: alive) l left → Acts alive (.make o :: l) left
  | use {alive left : List Obj} {o : Obj} {l : List HandleAct} : o ∈ alive → Acts alive l left → Acts alive (.use o :: l) left
  | free {alive left : List Obj} {o : Obj} {l : List HandleAct} : o ∈ alive → Acts (alive.erase o) l left → Acts alive (.free o :: l) left

end Sol.Spec
