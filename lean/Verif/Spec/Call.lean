import Verif.Model.Models

/-!
# Python's argument binding (specification)

Independent of paradigm: the slot-filling procedure of the Python language reference
("6.3.4 Calls"), for a function whose formal parameters are given as a list.
Only the accessors `Param.name`, `Param.kind`, `Param.isRequired`, `Param.default?` are used.
-/

namespace Paradigm.PyCall

/-- Reasons for which a call raises `TypeError` before the body runs. -/
inductive CallError where
  | tooManyPositionals
  | multipleValues (name : String)
  | unexpectedKeyword (name : String)
  | missing (name : String)
  deriving DecidableEq, Repr

/-- How a parameter gets its value. -/
inductive Slot where
  | given (v : Obj)
  | defaulted (d : Option Obj)

/-- The state of a call: filled slots, excess positional and excess keyword arguments. -/
structure Frame where
  slots : List (String × Obj)
  varargs : List Obj
  varkw : Kwargs

def isPositional (p : Param) : Bool :=
  match p.kind with
  | .positionalOnly | .positionalOrKeyword => true
  | _ => false

/-- Parameters that own a slot (everything but `*args` and `**kwargs`). -/
def hasSlot (p : Param) : Bool :=
  match p.kind with
  | .variadicPositional | .variadicKeyword => false
  | _ => true

def acceptsKeyword (p : Param) : Bool :=
  match p.kind with
  | .positionalOrKeyword | .keywordOnly => true
  | _ => false

/-- "If there are N positional arguments, they are placed in the first N slots." -/
def fillPositionals : List Param → List Obj → List (String × Obj) × List Obj
  | p :: ps, a :: as =>
    let (slots, rest) := fillPositionals ps as
    ((p.name, a) :: slots, rest)
  | _, as => ([], as)

/-- "Next, for each keyword argument, the identifier is used to determine the corresponding slot.
If the slot is already filled, a TypeError exception is raised. Otherwise, the argument is placed
in the slot." Unknown names go to `**kwargs` if there is one. -/
def fillKeywords (params : List Param) (hasVarKw : Bool) :
    Kwargs → Frame → Except CallError Frame
  | [], frame => .ok frame
  | (k, v) :: kwargs, frame =>
    if params.any (fun p => acceptsKeyword p && p.name == k) then
      if frame.slots.any (fun s => s.1 == k) then .error (.multipleValues k)
      else fillKeywords params hasVarKw kwargs { frame with slots := frame.slots ++ [(k, v)] }
    else if hasVarKw then
      fillKeywords params hasVarKw kwargs { frame with varkw := frame.varkw ++ [(k, v)] }
    else .error (.unexpectedKeyword k)

/-- "When all arguments have been processed, the slots that are still unfilled are filled with the
corresponding default value. If there are any unfilled slots for which no default value is
specified, a TypeError exception is raised." -/
def checkMissing (frame : Frame) : List Param → Except CallError Unit
  | [] => .ok ()
  | p :: ps =>
    if hasSlot p && p.isRequired && !frame.slots.any (fun s => s.1 == p.name) then
      .error (.missing p.name)
    else checkMissing frame ps

/-- Binding of a call `f(*args, **kwargs)` where `f` has formal parameters `params`. -/
def call (params : List Param) (args : List Obj) (kwargs : Kwargs) : Except CallError Frame :=
  let (slots, rest) := fillPositionals (params.filter isPositional) args
  let hasVarPos := params.any (fun p => p.kind == .variadicPositional)
  let hasVarKw := params.any (fun p => p.kind == .variadicKeyword)
  if !rest.isEmpty && !hasVarPos then .error .tooManyPositionals
  else
    match fillKeywords params hasVarKw kwargs { slots, varargs := rest, varkw := [] } with
    | .error e => .error e
    | .ok frame =>
      match checkMissing frame params with
      | .error e => .error e
      | .ok () => .ok frame

/-- The call gets past argument binding. -/
def Accepts (params : List Param) (args : List Obj) (kwargs : Kwargs) : Prop :=
  ∃ frame, call params args kwargs = .ok frame

/-- The value the body sees for a parameter: the given one, else the default. -/
def Frame.value (frame : Frame) (p : Param) : Slot :=
  match frame.slots.lookup p.name with
  | some v => .given v
  | none => .defaulted p.default?

end Paradigm.PyCall
