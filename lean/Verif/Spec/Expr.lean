import Verif.Model.Expr
/-! What a vector expression means: every element is computed from the elements of the operands with the same index. -/

namespace Sol.Spec

open Sol.Expr Sol.Sparse

variable {α : Type}

/-- Element `i` of the storage of matrix `h` is `a`. -/
def InMat (M : Mem α) (h i : Nat) (a : α) : Prop := ∃ m, M h = some m ∧ m.data[i]? = some a

/-- Element `i` of an expression is `a`. -/
inductive Elem (M : Mem α) (i : Nat) : Flat α → α → Prop
  | scalar (a) : Elem M i (.scalar a) a
  | mat {h a} : InMat M h i a → Elem M i (.mat h) a
  | un {f e a} : Elem M i e a → Elem M i (.un f e) (f a)
  | bin {f l r a b} : Elem M i l a → Elem M i r b → Elem M i (.bin f l r) (f a b)

/-- The matrices of an expression. -/
def mats : Flat α → List Nat
  | .scalar _ => []
  | .mat h => [h]
  | .un _ e => mats e
  | .bin _ l r => mats l ++ mats r

/-- The value of a sparse expression at the feature `i`, which the vector has with the value `y`. -/
inductive SpElem (M : Mem α) (i : Nat) (y : α) : Sp α → α → Prop
  | vec (x) : SpElem M i y (.vec x) y
  | un {f s a} : SpElem M i y s a → SpElem M i y (.un f s) (f a)
  | left {f s e a b} : SpElem M i y s a → Elem M i e b → SpElem M i y (.left f s e) (f a b)
  | right {f e s a b} : Elem M i e a → SpElem M i y s b → SpElem M i y (.right f e s) (f a b)

/-- The matrices of a sparse expression. -/
def spMats : Sp α → List Nat
  | .vec _ => []
  | .un _ s => spMats s
  | .left _ s e => spMats s ++ mats e
  | .right _ e s => mats e ++ spMats s

/-- The matrix has storage for its shape. -/
def Stored (M : Mem α) (h r c : Nat) : Prop := ∃ m, M h = some m ∧ m.rows = r ∧ m.cols = c ∧ r * c ≤ m.data.length

/-- `M'` is `M` but for matrix `h`, which keeps its shape. -/
def OnlyAt (h : Nat) (M M' : Mem α) : Prop :=
  (∀ k, k ≠ h → M' k = M k) ∧ ∀ r c, Stored M h r c → Stored M' h r c

/-- Vector `h` is the list `w`. -/
def IsVec (M : Mem α) (h : Nat) (w : List α) : Prop :=
  ∃ m, M h = some m ∧ m.rows = 1 ∧ m.cols = w.length ∧ m.data.take w.length = w

/-- The statements succeed, vector `h` becomes `w`, and nothing else changes. -/
def Runs (r : Res (Mem α)) (M : Mem α) (h : Nat) (w : List α) : Prop :=
  ∃ M', r = .ok M' ∧ IsVec M' h w ∧ ∀ k, k ≠ h → M' k = M k

end Sol.Spec
