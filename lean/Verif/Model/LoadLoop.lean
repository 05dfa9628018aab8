import Mathlib.Data.List.Basic
/-!
# Model of the first part of `Model::Load`: src/sol/model/model.cc:179-198

The loop that collects the lines up to "model parameters:".
-/

namespace Sol.LoadLoop

/-- The stream and the variables of the loop. -/
structure S where
  /-- what is left to read -/
  rest : List Char
  /-- neither the end of the file nor a failure was met -/
  ok : Bool
  line : List Char
  /-- `model_info` -/
  out : List Char
deriving DecidableEq, Repr

/-- `getline(in_file, line)`.  Once the end of the file was met, it fails and leaves `line` as it is. -/
def getline (s : S) : S :=
  if s.ok then
    match s.rest.dropWhile (fun c => c != '\n') with
    | [] => { s with line := s.rest, rest := [], ok := false }
    | _ :: r => { s with line := s.rest.takeWhile (fun c => c != '\n'), rest := r }
  else s

/-- "model info:" -/
def first : List Char := "model info:".toList

/-- "model parameters:" -/
def marker : List Char := "model parameters:".toList

/-- The loop (model.cc:195-198), at most `n` turns; `none` if it has not ended by then. -/
def loop : Nat → S → Option S
  | 0, s => if s.line = marker then some s else none
  | n + 1, s => if s.line = marker then some s else loop n { getline s with out := s.out ++ (getline s).line }

/-- How the collection of the settings ends. -/
inductive Got where
  /-- the first line is not "model info:" -/
  | invalid
  | lines (s : S)
deriving DecidableEq, Repr

/-- The file is opened and its settings are collected (model.cc:182-198), with at most `n` turns of the loop. -/
def collect (n : Nat) (text : List Char) : Option Got :=
  let s := getline { rest := text, ok := true, line := [], out := [] }
  if s.line = first then (loop n s).map .lines else some .invalid

end Sol.LoadLoop
