import Verif.Model.Evaluation

/-!
# What annotations mean (specification)

Python's own evaluation of expressions, and the meaning of names that only exist in stub files.
Independent of the evaluator; of the model only the syntax, the stub tables and `Interpreter` (what Python
does with objects) are used.
-/

namespace Paradigm.Spec

variable {V : Type} (W : Interpreter V)

mutual

/-- Python's evaluation of an expression where names have the given values, left to right. Kinds of
expressions that are not listed, `**` in calls and repeated keywords are not specified. -/
def pyEval (env : String → Option V) : Expr → Except PyErr V
  | .name id true =>
    match env id with
    | some v => .ok v
    | none => .error .nameError
  | .attribute value attr true =>
    match pyEval env value with
    | .ok v => W.getattr v attr
    | .error e => .error e
  | .subscript value slice true =>
    match pyEval env value with
    | .ok v =>
      match pyEval env slice with
      | .ok i => W.getitem v i
      | .error e => .error e
    | .error e => .error e
  | .tuple elts true =>
    match pyEvals env elts with
    | .ok vs => .ok (W.tuple vs)
    | .error e => .error e
  | .list elts =>
    match pyEvals env elts with
    | .ok vs => .ok (W.list vs)
    | .error e => .error e
  | .call func args keywords =>
    if (keywords.map Prod.fst).Nodup ∧ none ∉ keywords.map Prod.fst then
      match pyEval env func with
      | .ok f =>
        match pyEvals env args with
        | .ok vs =>
          match pyKeywords env keywords with
          | .ok kvs => W.call f vs kvs
          | .error e => .error e
        | .error e => .error e
      | .error e => .error e
    else .error (.typeError "not specified")
  | .constant value => .ok (W.constant value)
  | .binOp left op right =>
    match pyEval env left with
    | .ok l =>
      match pyEval env right with
      | .ok r => W.binary op l r
      | .error e => .error e
    | .error e => .error e
  | .other tag children =>
    if tag = "Dict" then
      match pyEntries env children with
      | .ok kvs => W.dict kvs
      | .error e => .error e
    else if tag = "UnaryOp USub" ∨ tag = "UnaryOp UAdd" then
      match children with
      | [operand] =>
        match pyEval env operand with
        | .ok v => W.unary tag v
        | .error e => .error e
      | _ => .error (.typeError "not specified")
    else .error (.typeError "not specified")
  | .name _ false | .attribute _ _ false | .subscript _ _ false | .tuple _ false =>
    .error (.typeError "not specified")

def pyEvals (env : String → Option V) : List Expr → Except PyErr (List V)
  | [] => .ok []
  | e :: es =>
    match pyEval env e with
    | .ok v =>
      match pyEvals env es with
      | .ok vs => .ok (v :: vs)
      | .error e => .error e
    | .error e => .error e

def pyKeywords (env : String → Option V) :
    List (Option String × Expr) → Except PyErr (List (Option String × V))
  | [] => .ok []
  | (k, e) :: es =>
    match pyEval env e with
    | .ok v =>
      match pyKeywords env es with
      | .ok vs => .ok ((k, v) :: vs)
      | .error e => .error e
    | .error e => .error e

def pyEntries (env : String → Option V) : List Expr → Except PyErr (List (V × V))
  | k :: v :: es =>
    match pyEval env k with
    | .ok k =>
      match pyEval env v with
      | .ok v =>
        match pyEntries env es with
        | .ok kvs => .ok ((k, v) :: kvs)
        | .error e => .error e
      | .error e => .error e
    | .error e => .error e
  | _ => .ok []

end

/-- Python, except that subscribing an object that cannot be subscribed gives the object itself, and
that `|` of objects without it gives their union: what annotations mean in stub files, which may
subscribe classes that are only generic there. -/
def lenient (W : Interpreter V) : Interpreter V :=
  { W with
    getitem := fun value item =>
      match W.getitem value item with
      | .error (.typeError _) => .ok value
      | r => r
    binary := fun op left right =>
      match W.binary op left right with
      | .error (.typeError tag) =>
        if op = "BitOr" then W.union left right else .error (.typeError tag)
      | r => r }

mutual

/-- No call in the expression repeats a keyword or has `**` arguments. -/
def PlainCalls : Expr → Prop
  | .name .. => True
  | .attribute value _ _ => PlainCalls value
  | .subscript value slice _ => PlainCalls value ∧ PlainCalls slice
  | .tuple elts _ => PlainCallsAll elts
  | .list elts => PlainCallsAll elts
  | .call func args keywords =>
    ((keywords.map Prod.fst).Nodup ∧ none ∉ keywords.map Prod.fst) ∧
      PlainCalls func ∧ PlainCallsAll args ∧ PlainCallsKw keywords
  | .constant _ => True
  | .binOp left _ right => PlainCalls left ∧ PlainCalls right
  | .other _ children => PlainCallsAll children

def PlainCallsAll : List Expr → Prop
  | [] => True
  | e :: es => PlainCalls e ∧ PlainCallsAll es

def PlainCallsKw : List (Option String × Expr) → Prop
  | [] => True
  | (_, e) :: es => PlainCalls e ∧ PlainCallsKw es

end

mutual

/-- Every name in the expression satisfies `P`. -/
def OnNames (P : String → Prop) : Expr → Prop
  | .name id _ => P id
  | .attribute value _ _ => OnNames P value
  | .subscript value slice _ => OnNames P value ∧ OnNames P slice
  | .tuple elts _ => OnNamesAll P elts
  | .list elts => OnNamesAll P elts
  | .call func args keywords => OnNames P func ∧ OnNamesAll P args ∧ OnNamesKw P keywords
  | .constant _ => True
  | .binOp left _ right => OnNames P left ∧ OnNames P right
  | .other _ children => OnNamesAll P children

def OnNamesAll (P : String → Prop) : List Expr → Prop
  | [] => True
  | e :: es => OnNames P e ∧ OnNamesAll P es

def OnNamesKw (P : String → Prop) : List (Option String × Expr) → Prop
  | [] => True
  | (_, e) :: es => OnNames P e ∧ OnNamesKw P es

end

mutual

/-- The only binary operators in the expression are `|`, `&` and `^`. -/
def BitOps : Expr → Prop
  | .name .. => True
  | .attribute value _ _ => BitOps value
  | .subscript value slice _ => BitOps value ∧ BitOps slice
  | .tuple elts _ => BitOpsAll elts
  | .list elts => BitOpsAll elts
  | .call func args keywords => BitOps func ∧ BitOpsAll args ∧ BitOpsKw keywords
  | .constant _ => True
  | .binOp left op right =>
    (op = "BitOr" ∨ op = "BitAnd" ∨ op = "BitXor") ∧ BitOps left ∧ BitOps right
  | .other _ children => BitOpsAll children

def BitOpsAll : List Expr → Prop
  | [] => True
  | e :: es => BitOps e ∧ BitOpsAll es

def BitOpsKw : List (Option String × Expr) → Prop
  | [] => True
  | (_, e) :: es => BitOps e ∧ BitOpsKw es

end

mutual

/-- No attribute is taken anywhere in the expression. -/
def NoAttributes : Expr → Prop
  | .name .. => True
  | .attribute .. => False
  | .subscript value slice _ => NoAttributes value ∧ NoAttributes slice
  | .tuple elts _ => NoAttributesAll elts
  | .list elts => NoAttributesAll elts
  | .call func args keywords => NoAttributes func ∧ NoAttributesAll args ∧ NoAttributesKw keywords
  | .constant _ => True
  | .binOp left _ right => NoAttributes left ∧ NoAttributes right
  | .other _ children => NoAttributesAll children

def NoAttributesAll : List Expr → Prop
  | [] => True
  | e :: es => NoAttributes e ∧ NoAttributesAll es

def NoAttributesKw : List (Option String × Expr) → Prop
  | [] => True
  | (_, e) :: es => NoAttributes e ∧ NoAttributesKw es

end

/-- The attribute of an attribute … of an object. -/
def follow (v : V) : Path → Except PyErr V
  | [] => .ok v
  | name :: names =>
    match W.getattr v name with
    | .ok v => follow v names
    | .error e => .error e

/-- The object with the given module and path at run time; `none` if the module cannot be imported or
there is no such attribute. -/
def runtimeObject (q : QPath) : Except PyErr (Option V) :=
  match W.importModule q.1 with
  | .error e => .error e
  | .ok none => .ok none
  | .ok (some module) =>
    match follow W module q.2 with
    | .ok v => .ok (some v)
    | .error .attributeError => .ok none
    | .error e => .error e

/-- Names in the given module and class that exist at run time, with their objects. -/
def Available (T : Stubs) (depth : Nat) (m parent : Path) (env : String → Option V) (id : String) :
    Prop :=
  ∃ q v, resolve T.toTables depth m parent [id] [] = .ok q ∧ runtimeObject W q = .ok (some v) ∧
    env id = some v

/-- The value of a stub object that is defined once, by an assignment to its name. -/
def aliasValue (T : Stubs) (q : QPath) : Option Expr :=
  match (T.nodesKinds.lookup q.1).bind (·.lookup q.2) with
  | some .assignment | some .annotatedAssignment =>
    match (T.rawAstNodes.lookup q.1).bind (·.lookup q.2) with
    | some [.assign [.name id false] e] => if q.2.getLast? = some id then some e else none
    | some [.annAssign (.name id false) _ (some e)] =>
      if q.2.getLast? = some id then some e else none
    | _ => none
  | _ => none

/-- The meaning of an object named in a stub file: the object at run time; otherwise, for an alias, the
value of its definition, where names mean what they mean in the module and class of the definition.
`known` are objects with a meaning of their own. The number bounds the nesting of aliases; nothing
has a meaning that depends on itself. -/
def meaning (T : Stubs) (depth : Nat) (known : QPath → Option V) : Nat → QPath → Option V
  | 0, _ => none
  | n + 1, q =>
    match runtimeObject W q with
    | .error _ => none
    | .ok (some v) => some v
    | .ok none =>
      if q.2 = [] then none
      else
        match known q with
        | some v => some v
        | none =>
          match aliasValue T q with
          | none => none
          | some e =>
            match pyEval W (fun id =>
                match resolve T.toTables depth q.1 q.2.dropLast [id] [] with
                | .ok r => meaning T depth known n r
                | .error _ => none) e with
            | .ok v => some v
            | .error _ => none

/-- The meaning of an expression in a module and class. -/
def Means (T : Stubs) (depth : Nat) (known : QPath → Option V) (n : Nat) (m parent : Path) (e : Expr)
    (v : V) : Prop :=
  pyEval W (fun id =>
    match resolve T.toTables depth m parent [id] [] with
    | .ok r => meaning W T depth known n r
    | .error _ => none) e = .ok v

/-- Python's own operations stay within the recursion limit, and attributes do not raise the private
exception of `namespacing.py`. -/
structure NoRecursion (W : Interpreter V) : Prop where
  importModule : ∀ m, W.importModule m ≠ .error .recursionError
  getattr : ∀ v name, W.getattr v name ≠ .error .recursionError
  getitem : ∀ v i, W.getitem v i ≠ .error .recursionError
  call : ∀ f vs kvs, W.call f vs kvs ≠ .error .recursionError
  unary : ∀ op v, W.unary op v ≠ .error .recursionError
  binary : ∀ op l r, W.binary op l r ≠ .error .recursionError
  union : ∀ l r, W.union l r ≠ .error .recursionError
  dict : ∀ kvs, W.dict kvs ≠ .error .recursionError
  forwardRef : ∀ t, W.forwardRef t ≠ .error .recursionError
  define : ∀ f ns, W.define f ns ≠ .error .recursionError
  hidden : ∀ v name, W.getattr v name ≠ .error .objectNotFound

/-- The names a statement assigns to. -/
def assignedNames : Stmt → List String
  | .assign targets _ => targets.filterMap fun
    | .name id _ => some id
    | _ => none
  | .annAssign (.name id _) _ _ => [id]
  | _ => []

/-- The objects that the stored statements assign to. -/
def assignedObjects (T : Stubs) (depth : Nat) : List QPath :=
  T.rawAstNodes.flatMap fun nodes => nodes.2.flatMap fun entry => entry.2.flatMap fun stmt =>
    (assignedNames stmt).filterMap fun id =>
      (resolve T.toTables depth nodes.1 entry.1.dropLast [id] []).toOption

end Paradigm.Spec
