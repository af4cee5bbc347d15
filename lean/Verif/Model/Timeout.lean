import Verif.Model.Py
/-!
# `yaocptool/util/timeout.py`
-/
namespace Verif

/-- Class of an exception object, as far as `timeout` distinguishes them: exactly `TimeoutError`
(`type(cause) is TimeoutError`, so a subclass is `other`), or anything else. -/
inductive ExcKind
  | timeout
  | other
  deriving DecidableEq, Repr

/-- An exception object with its explicit `__cause__` chain. -/
inductive PyExc
  | mk (kind : ExcKind) (cause : Option PyExc)

namespace PyExc
def kind : PyExc → ExcKind | mk k _ => k
def cause : PyExc → Option PyExc | mk _ c => c

/-- The loop in timeout.py:40-45: follow `__cause__` at most `n` times. -/
def walk : Nat → PyExc → PyExc
  | 0, e => e
  | n + 1, e => match e.cause with
      | none => e
      | some c => walk n c
end PyExc

/-- The `timeout` object plus the process's alarm (`true` = an alarm is armed). -/
structure TimeoutObj where
  raiseExc : Bool
  timedout : Option Bool := none
  alarmArmed : Bool := false
  deriving DecidableEq, Repr

/-- `__enter__`, timeout.py:25-28. Installing the handler is not modelled separately. -/
def TimeoutObj.enter (t : TimeoutObj) : TimeoutObj := { t with alarmArmed := true }

/-- `handle_timeout`, timeout.py:21-23: called by the signal; sets the flag and raises
`TimeoutError` inside the body. The alarm is one-shot. -/
def TimeoutObj.handle (t : TimeoutObj) : TimeoutObj :=
  { t with timedout := some true, alarmArmed := false }

/-- `__exit__`, timeout.py:30-52. `exc` is the exception leaving the body, if any. The result is
`true` iff the exception is swallowed (`return True`); Python re-raises it otherwise. -/
def TimeoutObj.exit (t : TimeoutObj) (exc : Option PyExc) : Bool × TimeoutObj :=
  let t := { t with alarmArmed := false }
  match exc with
  | none => (true, t)
  | some value =>
      let cause := PyExc.walk 20 value
      if cause.kind ≠ .timeout then (false, { t with timedout := some false })
      else (!t.raiseExc, { t with timedout := some true })

/-- How a body behaves: whether the alarm fired while it ran, and what leaves it. The body is
arbitrary code, so the two are independent (it may swallow the `TimeoutError`). -/
structure BodyRun where
  alarmFired : Bool
  leaves : Option PyExc

/-- `with timeout(...): body`. The result is the exception that leaves the `with` statement. -/
def TimeoutObj.withBlock (t : TimeoutObj) (b : BodyRun) : Option PyExc × TimeoutObj :=
  let t := t.enter
  let t := if b.alarmFired then t.handle else t
  let (swallow, t) := t.exit b.leaves
  (if swallow then none else b.leaves, t)

end Verif
