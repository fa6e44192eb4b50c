import Verif.Spec.Stubs

/-!
# The words of a base (specification)
-/

namespace Paradigm.Spec

/-- The word for an operator of classes. -/
def operatorWord (op : String) : String :=
  match op with
  | "BitAnd" => "bitand"
  | "BitOr" => "bitor"
  | "BitXor" => "bitxor"
  | _ => ""

mutual

/-- The words of an expression, from left to right: names and constants, `getitem` for brackets, the
words of operators, and an empty word for an empty tuple. -/
def words (rep : Atom → String) : Expr → List String
  | .name id _ => [id]
  | .constant value => [rep value]
  | .attribute value attr _ => words rep value ++ [attr]
  | .subscript value slice _ => words rep value ++ "getitem" :: words rep slice
  | .binOp left op right => words rep left ++ operatorWord op :: words rep right
  | .tuple elts _ => match elts with
    | [] => [""]
    | e :: es => words rep e ++ wordsAll rep es
  | _ => []

def wordsAll (rep : Atom → String) : List Expr → List String
  | [] => []
  | e :: es => words rep e ++ wordsAll rep es

end

end Paradigm.Spec
