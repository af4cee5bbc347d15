import Verif.Model.Py
/-!
# Sending expressions between processes

`yaocptool/util/serializer.py` replaces the pickler of `multiprocessing` by one that writes CasADi
expressions with a `StringSerializer` and reads them with a `StringDeserializer`. Both are kept in
attributes of a class, so there is one of each in a process.

CasADi shares the parts of expressions (symbols, operations, sparsity patterns). Its serializer writes a
part in full when it meets it for the first time, and later its position in the order of first meetings; its
deserializer keeps the parts read in full, and looks the positions up among them. `encode` and `decode`
change the text, not these tables.

Simplification: an expression is the list of its parts in the order CasADi writes them (a part is written
after those it is made of), a part is a number, and its text is a parameter.
-/
namespace Verif.Pickling

/-- A part of an expression (a node of CasADi's graph), by its identity. -/
abbrev Part := Nat

/-- What a serializer writes for a part: its text, or the position of an earlier part. -/
inductive Token where
  | define (text : String)
  | refer (k : Nat)
  deriving DecidableEq, Repr

/-- The class attributes `serializer` and `deserializer` of `CasadiPicklerDepickler` in a process,
serializer.py:24-25: the parts written in full so far, and the texts of the parts read in full so far. -/
structure Process where
  written : List Part := []
  read : List String := []
  deriving DecidableEq, Repr

/-- A part as it arrives: its identity in the receiving process (its position among those read in full) and
its text. -/
abbrev Arrival := Nat × String

/-- `CasadiPicklerDepickler.__init__`, serializer.py:27-32: a new serializer and a new deserializer. It is
called by `NewForkingPickler.__init__`, serializer.py:9-13, for every message that is sent. -/
def create : Py Process Unit := Py.modify fun _ => {}

/-- `self.serializer.pack` for one part. -/
def packPart (text : Part → String) (written : List Part) (a : Part) : List Part × Token :=
  if a ∈ written then (written, .refer (written.idxOf a)) else (written ++ [a], .define (text a))

/-- `self.serializer.pack` for an expression. -/
def pack (text : Part → String) : List Part → List Part → List Part × List Token
  | written, [] => (written, [])
  | written, a :: l =>
    let one := packPart text written a
    let rest := pack text one.1 l
    (rest.1, one.2 :: rest.2)

/-- `dumps`, serializer.py:34-42. -/
def dumps (text : Part → String) (var : List Part) : Py Process (List Token) := fun s =>
  let done := pack text s.written var
  (.ok done.2, { s with written := done.1 })

/-- `self.deserializer.unpack` for one part; a position beyond the parts read in full raises. -/
def unpackPart (read : List String) : Token → Except Err (List String × Arrival)
  | .define text => .ok (read ++ [text], (read.length, text))
  | .refer k =>
    match read[k]? with
    | some text => .ok (read, (k, text))
    | none => .error .runtimeError

/-- `self.deserializer.unpack` for an expression. -/
def unpack : List String → List Token → Except Err (List String × List Arrival)
  | read, [] => .ok (read, [])
  | read, t :: l =>
    match unpackPart read t with
    | .error e => .error e
    | .ok one =>
      match unpack one.1 l with
      | .error e => .error e
      | .ok rest => .ok (rest.1, one.2 :: rest.2)

/-- `loads`, serializer.py:44-53. What was read before an error is not kept here. -/
def loads (tokens : List Token) : Py Process (List Arrival) := fun s =>
  match unpack s.read tokens with
  | .error e => (.error e, s)
  | .ok done => (.ok done.2, { s with read := done.1 })

/-- `dumps` for every expression of a message, in order: `pickle_casadi`, serializer.py:15-18. -/
def dumpAll (text : Part → String) : List (List Part) → Py Process (List (List Token))
  | [] => pure []
  | e :: l => do
    let t ← dumps text e
    let r ← dumpAll text l
    pure (t :: r)

/-- The sending process writes a message with a new pickler, serializer.py:8-20. -/
def send (text : Part → String) (msg : List (List Part)) : Py Process (List (List Token)) := do
  create
  dumpAll text msg

/-- The receiving process calls `loads` for every expression of a message, in order; the call is part of the
message (`return _casadi_serializer.loads, (s, repr(obj))`, serializer.py:18), and unpickling the object does
not call its `__init__`. -/
def receive : List (List Token) → Py Process (List (List Arrival))
  | [] => pure []
  | t :: l => do
    let e ← loads t
    let r ← receive l
    pure (e :: r)

/-- Two processes. -/
structure Pair where
  left : Process := {}
  right : Process := {}
  deriving DecidableEq, Repr

/-- One process sends a message, the other receives it; `true`: from left to right. -/
def transfer (text : Part → String) (toRight : Bool) (msg : List (List Part)) :
    Py Pair (List (List Arrival)) := fun w =>
  let sender := if toRight then w.left else w.right
  let receiver := if toRight then w.right else w.left
  match send text msg sender with
  | (.error e, s) => (.error e, if toRight then { w with left := s } else { w with right := s })
  | (.ok tokens, s) =>
    let got := receive tokens receiver
    (got.1, if toRight then ⟨s, got.2⟩ else ⟨got.2, s⟩)

/-- A conversation: the results of the messages in turn (failures do not end it). -/
def conversation (text : Part → String) :
    List (Bool × List (List Part)) → Pair → List (Except Err (List (List Arrival)))
  | [], _ => []
  | m :: l, w =>
    let r := transfer text m.1 m.2 w
    r.1 :: conversation text l r.2

end Verif.Pickling
