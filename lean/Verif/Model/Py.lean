/-!
# Python values and effects used by the model

* `Err`: the exception classes the modelled code can raise (the message is not modelled).
* `Py σ α`: a method on an object with state `σ`. When it raises, the state reached at the
  `raise` is kept: Python does not roll back, and neither does the model.
-/
namespace Verif

/-- Exception classes raised by the modelled code. `exception` is the bare `Exception` class. -/
inductive Err
  | valueError
  | keyError
  | indexError
  | assertionError
  | typeError
  | attributeError
  | runtimeError
  | notImplementedError
  | timeoutError
  | unboundLocalError
  | exception
  deriving DecidableEq, Repr

/-- A method: takes the object state, gives the outcome (value or exception) and the new state. -/
def Py (σ : Type u) (α : Type v) := σ → Except Err α × σ

namespace Py

/-- Return a value, state unchanged. -/
def pure {σ : Type u} {α : Type v} (a : α) : Py σ α := fun s => (.ok a, s)

/-- Sequencing. An exception in the first part skips the second and keeps the state. -/
def bind {σ : Type u} {α : Type v} {β : Type w} (m : Py σ α) (f : α → Py σ β) : Py σ β := fun s =>
  match m s with
  | (.ok a, s') => f a s'
  | (.error e, s') => (.error e, s')

instance {σ : Type u} : Monad (Py σ) where
  pure := Py.pure
  bind := Py.bind

/-- `raise`. -/
def throw {σ : Type u} {α : Type v} (e : Err) : Py σ α := fun s => (.error e, s)

/-- Read the object. -/
def get {σ : Type u} : Py σ σ := fun s => (.ok s, s)

/-- Assign attributes of the object. -/
def modify {σ : Type u} (f : σ → σ) : Py σ Unit := fun s => (.ok (), f s)

/-- `if c: raise e`. -/
def raiseIf {σ : Type u} (c : Bool) (e : Err) : Py σ Unit := if c then throw e else Py.pure ()

/-- Use the result of a pure computation that may raise. -/
def lift {σ : Type u} {α : Type v} (r : Except Err α) : Py σ α := fun s => (r, s)

/-- `if a is not None: f a`. -/
def whenSome {σ : Type u} {α : Type v} (a : Option α) (f : α → Py σ Unit) : Py σ Unit :=
  match a with
  | none => Py.pure ()
  | some v => f v

/-- `for a in l: f a`. -/
def forEach {σ : Type u} {α : Type v} (l : List α) (f : α → Py σ Unit) : Py σ Unit :=
  match l with
  | [] => Py.pure ()
  | a :: as => Py.bind (f a) fun _ => forEach as f

/-- The state after the call, whether or not it raised. -/
def stateAfter {σ : Type u} {α : Type v} (m : Py σ α) (s : σ) : σ := (m s).2

/-- The call returned normally. -/
def succeeds {σ : Type u} {α : Type v} (m : Py σ α) (s : σ) : Prop := ∃ a, (m s).1 = .ok a

/-- The call raised `e`. -/
def raises {σ : Type u} {α : Type v} (m : Py σ α) (s : σ) (e : Err) : Prop := (m s).1 = .error e

end Py

/-- The states an object goes through under a list of calls; the caller catches exceptions and
goes on with whatever state the object is in. -/
def runHistory {σ : Type u} {ι : Type v} (step : ι → σ → σ) : List ι → σ → σ
  | [], s => s
  | i :: is, s => runHistory step is (step i s)

end Verif
