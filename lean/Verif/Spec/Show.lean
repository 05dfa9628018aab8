import Verif.Spec.StrUtil
import Verif.Model.StrUtil
/-! What a list of the classes of one kind is. -/

namespace Sol.Spec

open Sol.StrUtil

/-- The name of a kind of classes. -/
def groupName : StrUtil.Kind → List Char
  | .model => "model".toList
  | .loss => "loss".toList
  | .reader => "reader".toList
  | .writer => "writer".toList

/-- A class in the list: its name in lower case and what it is. -/
def entryLine (name descr : List Char) : List Char := name.map Char.toLower ++ [':', '\t'] ++ descr

/-- `out` lists the classes of kind `k`, each once. -/
def Lists {I : Type} (descr : I → List Char) (k : StrUtil.Kind) (rs : List (StrUtil.Kind × List Char × I)) (out : List (List Char)) : Prop :=
  out.Perm ((rs.filter fun r => r.1 = k).map fun r => entryLine r.2.1 (descr r.2.2))

end Sol.Spec
