/-!
# Model of `execution.py`
-/

namespace Paradigm

/-- Python objects seen by `call_in_process`, by identity; 0 is `None`. -/
abbrev ObjectId := Nat

/-- How the function called in the child ends: it returns, raises an `Exception`, raises another
`BaseException` (`SystemExit`, `KeyboardInterrupt`), or its process is killed.
Functions that do not end are not modelled. -/
inductive ChildEnd where
  | returned (value : ObjectId)
  | raised (error : ObjectId)
  | escaped (error : ObjectId)
  | killed
  deriving DecidableEq, Repr

/-- What becomes of an object put into the queue by the child: `pickle.dumps` raises, or
`pickle.loads` raises in the parent, or an object arrives. -/
inductive Transfer where
  | lost
  | broken (error : ObjectId)
  | arrives (object : ObjectId)
  deriving DecidableEq, Repr

/-- `queue.put` of a pair one of whose members is `None`, followed by `queue.get`: `none` when nothing
is written to the pipe. -/
def putPair (transfer : ObjectId → Transfer) (result error : ObjectId) :
    Option (Except ObjectId (ObjectId × ObjectId)) :=
  let moved (x : ObjectId) : Transfer := if x = 0 then .arrives 0 else transfer x
  match moved result, moved error with
  | .lost, _ => none
  | _, .lost => none
  | .broken e, _ => some (.error e)
  | _, .broken e => some (.error e)
  | .arrives r, .arrives e => some (.ok (r, e))

/-- `_put_result_in_queue`, `/repo/paradigm/_core/execution.py:45-55`: what the child writes. -/
def putResultInQueue (transfer : ObjectId → Transfer) :
    ChildEnd → Option (Except ObjectId (ObjectId × ObjectId))
  | .returned value => putPair transfer value 0
  | .raised error => putPair transfer 0 error
  | .escaped _ => none
  | .killed => none

/-- How a call in the parent goes on after `process.start()`. -/
inductive ParentEnd where
  | returned (value : ObjectId)
  | raised (error : ObjectId)
  | blocked
  deriving DecidableEq, Repr

/-- `/repo/paradigm/_core/execution.py:32-37`. The parent holds the writing end of the pipe too, so
`queue.get()` waits for ever if the child ends without having written anything.
Simplified: the process can be started. -/
def callInProcess (transfer : ObjectId → Transfer) (child : ChildEnd) : ParentEnd :=
  match putResultInQueue transfer child with
  | none => .blocked
  | some (.error e) => .raised e
  | some (.ok (result, error)) => if error ≠ 0 then .raised error else .returned result

/-! ### `sys.modules['__main__']` -/

/-- How the body of the `try` block ends. -/
inductive CallEnd where
  | returned
  | raised
  | assertionError
  | keyError
  deriving DecidableEq, Repr

/-- Where a call of `call_in_process` is; `saved` is `main_module`. -/
inductive Phase where
  | idle
  | locked
  | saved (saved : Option ObjectId)
  | replaced (saved : Option ObjectId)
  | ended (saved : Option ObjectId) (result : CallEnd)
  | done (result : CallEnd)
  deriving DecidableEq, Repr

/-- The call holds its lock. -/
def Phase.active : Phase → Bool
  | .idle => false
  | .done _ => false
  | _ => true

/-- `sys.modules.get('__main__')` and the calls, by thread. -/
structure Machine where
  main : Option ObjectId
  phase : Nat → Phase

/-- The step of one thread. -/
def Machine.move (m : Machine) (i : Nat) (main : Option ObjectId) (phase : Phase) : Machine where
  main := main
  phase j := if j = i then phase else m.phase j

/-- One step of the call in thread `i`, `/repo/paradigm/_core/execution.py:16-42`. `caller i` is
`inspect.getmodule(caller_frame)`, `lock i` the lock used by the call: `threading.Lock()` is evaluated
by each call, so that different calls have different locks.
Simplified: one call per thread; nothing else assigns `sys.modules['__main__']`; what happens between
the assignment of `__main__` and the `finally` block is one step with any result. -/
inductive CallStep (caller : Nat → Option ObjectId) (lock : Nat → Nat) : Machine → Machine → Prop
  | acquire {m : Machine} {i : Nat} : m.phase i = .idle →
    (∀ j, lock j = lock i → (m.phase j).active = false) →
    CallStep caller lock m (m.move i m.main .locked)
  | unknownCaller {m : Machine} {i : Nat} : m.phase i = .locked → caller i = none →
    CallStep caller lock m (m.move i m.main (.done .assertionError))
  | save {m : Machine} {i : Nat} {c : ObjectId} : m.phase i = .locked → caller i = some c →
    CallStep caller lock m (m.move i m.main (.saved m.main))
  | replace {m : Machine} {i : Nat} {c : ObjectId} {s : Option ObjectId} : m.phase i = .saved s →
    caller i = some c → CallStep caller lock m (m.move i (some c) (.replaced s))
  | body {m : Machine} {i : Nat} {s : Option ObjectId} {r : CallEnd} : m.phase i = .replaced s →
    (r = .returned ∨ r = .raised) → CallStep caller lock m (m.move i m.main (.ended s r))
  | restore {m : Machine} {i : Nat} {s : ObjectId} {r : CallEnd} : m.phase i = .ended (some s) r →
    CallStep caller lock m (m.move i (some s) (.done r))
  | delete {m : Machine} {i : Nat} {r : CallEnd} : m.phase i = .ended none r → m.main ≠ none →
    CallStep caller lock m (m.move i none (.done r))
  | deleteFails {m : Machine} {i : Nat} {r : CallEnd} : m.phase i = .ended none r → m.main = none →
    CallStep caller lock m (m.move i none (.done .keyError))

end Paradigm
