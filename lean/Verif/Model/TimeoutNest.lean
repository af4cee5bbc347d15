/-!
# Timeout blocks inside timeout blocks (`yaocptool/util/timeout.py`)

A process has one alarm (`SIGALRM`). What code does in a block is left out; only how long it takes matters. The
exception of the handler is a plain `TimeoutError`, see `Verif.Model.Timeout` for others.
-/
namespace Verif.TimeoutNest

/-- Code: work that takes some seconds, one part after another, and `with timeout(seconds, raise_exc): body`. -/
inductive Code
  | work (seconds : Nat)
  | seq (a b : Code)
  | block (seconds : Nat) (raiseExc : Bool) (body : Code)
  deriving Repr

/-- The time and when the alarm of the process will ring. -/
structure Clock where
  now : Nat
  alarm : Option Nat := none
  deriving DecidableEq, Repr

/-- How code ends: normally, or with the `TimeoutError` of a handler. -/
inductive Ending
  | normal
  | timedOut
  deriving DecidableEq, Repr

/-- Work: when the alarm rings before its end, the handler raises, timeout.py:21-23. Work that ends with the alarm
is complete. -/
def work (n : Nat) (c : Clock) : Ending × Clock :=
  match c.alarm with
  | some d => if d < c.now + n then (.timedOut, ⟨d, none⟩) else (.normal, { c with now := c.now + n })
  | none => (.normal, { c with now := c.now + n })

/-- `signal.alarm(seconds)`: sets the only alarm there is; zero cancels it. -/
def setAlarm (seconds : Nat) (c : Clock) : Clock :=
  { c with alarm := if seconds = 0 then none else some (c.now + seconds) }

/-- Running code. A block is `__enter__` (timeout.py:25-28), the body and `__exit__` (timeout.py:30-52): the alarm
is cancelled, and a `TimeoutError` is passed on if `raise_exc`. -/
def Code.run : Code → Clock → Ending × Clock
  | .work n, c => TimeoutNest.work n c
  | .seq a b, c =>
    match a.run c with
    | (.normal, c') => b.run c'
    | (.timedOut, c') => (.timedOut, c')
  | .block s r body, c =>
    match body.run (setAlarm s c) with
    | (.normal, c') => (.normal, setAlarm 0 c')
    | (.timedOut, c') => (if r then .timedOut else .normal, setAlarm 0 c')

end Verif.TimeoutNest
