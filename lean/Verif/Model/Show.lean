import Verif.Model.StrUtil
import Verif.Model.Cli
/-!
# Model of the option `--show`

tools/sol_train.cc: `showinfo` and its use in `getparser` (tools/lsol_c.cc:146-156 has the same function).  A line that is printed is a
list of characters; the description of a class is a function of its entry.
-/

namespace Sol.Show

open Sol.StrUtil

variable {I : Type}

/-- `std::string` comparison: by the codes of the characters. -/
def keyLe : List Char → List Char → Bool
  | [], _ => true
  | _ :: _, [] => false
  | a :: s, b :: t => a.toNat < b.toNat || (a == b && keyLe s t)

/-- An entry at its place. -/
def insertKey (e : List Char × I) : Registry I → Registry I
  | [] => [e]
  | f :: m => if keyLe e.1 f.1 then e :: f :: m else f :: insertKey e m

/-- The order in which a `std::map` is gone through. -/
def ordered : Registry I → Registry I
  | [] => []
  | e :: m => insertKey e (ordered m)

/-- The loop of `showinfo` (sol_train.cc:107-113); `parts.back()` is undefined without parts. -/
def listing (descr : I → List Char) (group : List Char) : Registry I → Res (List (List Char))
  | [] => .ok []
  | e :: m =>
    match split '_' e.1 with
    | [] => .ub .outOfBounds
    | p :: ps => do
      let rest ← listing descr group m
      if (p :: ps).getLastD [] = group then .ok ((p ++ ':' :: '\t' :: descr e.2) :: rest) else .ok rest

/-- `showinfo` (sol_train.cc:105-114). -/
def showinfo (descr : I → List Char) (m : Registry I) (group : List Char) : Res (List (List Char)) := listing descr group (ordered m)

/-- What `getparser` of `sol_train` prints for `--show`, before it exits with status 0 (sol_train.cc:142-146); `none`: it goes on. -/
def trainShow (descr : I → List Char) (m : Registry I) (argv : List (List Char)) : Res (Option (List (List Char))) :=
  if (Cmdline.parse Cli.trainOpts argv).exist "show".toList = some true then
    match (Cmdline.parse Cli.trainOpts argv).get "show".toList with
    | some (.str group) => do
      let out ← showinfo descr m group
      .ok (some out)
    | _ => .ok none
  else .ok none

end Sol.Show
