/-!
# `DataSet.save(file_path)` (modelling/dataset.py)

The disk is seen by processes that may stop between any two system calls. The pickle of a data set reaches the
file in pieces; which pieces is left open. Paths are in one directory, which may be missing.
-/
namespace Verif.Saving

abbrev Bytes := List Nat

/-- The directory, if it exists, and the contents of the files in it. -/
structure Disk where
  dir : Bool
  files : String → Option Bytes

/-- Where a call of `save` is. `seen` is after the test for the directory; `raised` after `FileExistsError` of
`os.makedirs` or `FileNotFoundError` of `open`. -/
inductive Stage
  | start
  | seen (present : Bool)
  | ready
  | writing (rest : List Bytes)
  | done
  | raised
  deriving DecidableEq, Repr

/-- A call of `save`: the path, the pieces of the pickle, and the position in the open file. -/
structure Save where
  path : String
  pieces : List Bytes
  stage : Stage := .start
  position : Nat := 0

/-- Write a file. -/
def Disk.put (d : Disk) (path : String) (b : Bytes) : Disk :=
  { d with files := fun q => if q = path then some b else d.files q }

/-- Write to a file at a position: what is there is replaced, and a gap is filled with zeros. Writing
nothing changes nothing. -/
def writeAt (f : Bytes) (position : Nat) (b : Bytes) : Bytes :=
  if b = [] then f else
  f.take position ++ List.replicate (position - f.length) 0 ++ b ++ f.drop (position + b.length)

/-- The next system call of `save`, dataset.py:226-238: `os.path.exists`, `os.makedirs` if it was missing (which
raises when the directory is there by now), `open(file_path, "wb+")`, which empties the file, the writes of
`pickle.dump`, and closing. -/
def step (s : Save) (d : Disk) : Save × Disk :=
  match s.stage with
  | .start => ({ s with stage := .seen d.dir }, d)
  | .seen true => ({ s with stage := .ready }, d)
  | .seen false =>
    if d.dir then ({ s with stage := .raised }, d) else ({ s with stage := .ready }, { d with dir := true })
  | .ready =>
    if d.dir then ({ s with stage := .writing s.pieces, position := 0 }, d.put s.path [])
    else ({ s with stage := .raised }, d)
  | .writing [] => ({ s with stage := .done }, d)
  | .writing (b :: rest) =>
    ({ s with stage := .writing rest, position := s.position + b.length },
      d.put s.path (writeAt ((d.files s.path).getD []) s.position b))
  | .done => (s, d)
  | .raised => (s, d)

/-- The first `n` system calls; the process may be stopped after any of them. -/
def run : Nat → Save × Disk → Save × Disk
  | 0, c => c
  | n + 1, c => run n (step c.1 c.2)

/-- Two processes that save, in an order given by a schedule (`true`: the first one makes a step). -/
def race : List Bool → Save × Save × Disk → Save × Save × Disk
  | [], c => c
  | true :: l, (a, b, d) => race l ((step a d).1, b, (step a d).2)
  | false :: l, (a, b, d) => race l (a, (step b d).1, (step b d).2)

end Verif.Saving
