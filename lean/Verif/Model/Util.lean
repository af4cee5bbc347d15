import Verif.Model.Py
/-!
# `yaocptool/util/util.py`: vectors of symbols, index lists, thetas, operator tests, timer
-/
namespace Verif

/-- A CasADi symbol, identified by its node. `is_equal(a, b, depth)` on two symbols compares
nodes, which is equality of identities. -/
abbrev Sym := Nat

/-- `find_variables_indices_in_vector(var, vector)`, util.py:28-46. Outer loop over `var.nz`,
inner loop over `enumerate(vector.nz)`, append the index on equality. Structural zeros (`.nz`
skips them) do not occur in vectors of symbols. -/
def findIndices {α : Type u} [BEq α] (var vector : List α) : List Nat :=
  var.flatMap fun v =>
    vector.zipIdx.filterMap fun p => if p.1 == v then some p.2 else none

/-- Largest element of a list (`max(indices)`); only called on non-empty lists. -/
def listMax : List Int → Option Int
  | [] => none
  | a :: as => some (as.foldl max a)

/-- Smallest element of a list (`min(indices)`). -/
def listMin : List Int → Option Int
  | [] => none
  | a :: as => some (as.foldl min a)

/-- `[vector[ind] for ind in range(numel) if ind not in indices]`, util.py:125-126. -/
def keepUnlisted {α : Type u} (indices : List Int) (vector : List α) : List α :=
  vector.zipIdx.filterMap fun p => if indices.contains (p.2 : Int) then none else some p.1

/-- `remove_variables_from_vector_by_indices(indices, vector)`, util.py:98-129. The final reshape
of an empty row into an empty column has no counterpart for lists. -/
def removeByIndices {α : Type u} (indices : List Int) (vector : List α) : Except Err (List α) :=
  match listMax indices, listMin indices with
  | some mx, some mn =>
      if mx > (vector.length : Int) then .error .valueError
      else if mn < -(vector.length : Int) then .error .valueError
      else .ok (keepUnlisted indices vector)
  | _, _ => .ok (keepUnlisted indices vector)

/-- `remove_variables_from_vector(var, vector)`, util.py:82-95. -/
def removeVars {α : Type u} [BEq α] (var vector : List α) : Except Err (List α) :=
  let toRemove := findIndices var vector
  if toRemove.length = 0 then .error .valueError
  else removeByIndices (toRemove.map Int.ofNat) vector

/-! ## Thetas: dictionaries from finite elements to column vectors -/

/-- A `Dict[int, DM]`: association list in insertion order. A Python dict has no duplicate keys;
`Theta.WF` states it. -/
abbrev Theta (α : Type u) := List (Nat × List α)

namespace Theta

/-- `theta.keys()`. -/
def keys {α : Type u} (th : Theta α) : List Nat := th.map (·.1)

/-- `theta[i]` (`none` is `KeyError`). -/
def get? {α : Type u} (th : Theta α) (i : Nat) : Option (List α) := th.lookup i

/-- A Python dictionary has each key once. -/
def WF {α : Type u} (th : Theta α) : Prop := th.keys.Nodup

end Theta

/-- `create_constant_theta(constant, dimension, finite_elements)`, util.py:132-152, for an integer
`dimension` (column vectors). -/
def createConstantTheta {α : Type u} (constant : α) (dimension finiteElements : Nat) : Theta α :=
  (List.range finiteElements).map fun i => (i, List.replicate dimension constant)

/-- Size check loop of `join_thetas`, util.py:166-179: `n` is `n_keys`. -/
def joinThetasCheck {α : Type u} : Nat → List (Option (Theta α)) → Except Err Unit
  | _, [] => .ok ()
  | n, none :: rest => joinThetasCheck n rest
  | n, some th :: rest =>
      let len := th.keys.length
      let n' := if n = 0 then len else n
      if len > 0 ∧ len ≠ n' then .error .valueError else joinThetasCheck n' rest

/-- Keys of one argument of `join_thetas` (`None` contributes nothing), util.py:178. -/
def Theta.keysOf {α : Type u} : Option (Theta α) → List Nat
  | none => []
  | some th => th.keys

/-- Contribution of one argument to the value at `i`: `theta[i]` if
`theta is not None and i in theta`, util.py:185. -/
def Theta.contribution {α : Type u} (i : Nat) : Option (Theta α) → List α
  | none => []
  | some th => match th.get? i with
      | none => []
      | some v => v

/-- All keys of all arguments, `list(set(all_keys))`, util.py:178-181. The iteration order of a
Python set is not specified; here first occurrence order (only the order of the keys of the result
depends on it). -/
def joinThetasKeys {α : Type u} (args : List (Option (Theta α))) : List Nat :=
  (args.flatMap Theta.keysOf).eraseDups

/-- `join_thetas(*args)`, util.py:155-188. -/
def joinThetas {α : Type u} (args : List (Option (Theta α))) : Except Err (Theta α) :=
  match joinThetasCheck 0 args with
  | .error e => .error e
  | .ok () => .ok ((joinThetasKeys args).map fun i => (i, args.flatMap (Theta.contribution i)))

/-! ## Operator tests -/

/-- What `expr.op()` can be, as far as the tests look at it. CasADi stores `a >= b` as `b <= a`
and `a > b` as `b < a`. -/
inductive Op
  | le | lt | eq | ne | add | mul | other
  deriving DecidableEq, Repr

/-- `is_inequality(expr)`, util.py:233-243: `expr.op() == OP_LE or expr.op == OP_LT`. The second
comparison compares the bound method `expr.op` (not its result) with an integer, so it is `False`
for every expression. -/
def isInequality (op : Op) : Bool :=
  let boundMethodEqualsInteger := false
  op == .le || boundMethodEqualsInteger

/-- `is_equality(expr)`, util.py:246-255. -/
def isEquality (op : Op) : Bool := op == .eq

/-! ## Timer, util.py:323-351 -/

/-- `Timer` object: `start` is unset until `__enter__`. -/
structure Timer (κ : Type u) where
  start : Option κ := none
  elapsed : Option κ := none

/-- `Timer.__enter__`, util.py:341-343; `now` is what the clock returns. -/
def Timer.enter {κ : Type u} (t : Timer κ) (now : κ) : Timer κ := { t with start := some now }

/-- `Timer.__exit__`, util.py:345-351. `AttributeError` when never entered. Printing not modelled. -/
def Timer.exit {κ : Type u} [Sub κ] (now : κ) : Py (Timer κ) Unit := fun t =>
  match t.start with
  | none => (.error .attributeError, t)
  | some s => (.ok (), { t with elapsed := some (now - s) })

/-- `Timer.elapsed`, util.py:330-333. -/
def Timer.readElapsed {κ : Type u} (t : Timer κ) : Except Err κ :=
  match t.elapsed with
  | none => .error .valueError
  | some e => .ok e

/-- `Timer.elapsed_milisecs`, util.py:335-339. -/
def Timer.readMillis {κ : Type u} [Mul κ] [OfNat κ 1000] (t : Timer κ) : Except Err κ :=
  match t.elapsed with
  | none => .error .valueError
  | some e => .ok (e * 1000)

end Verif
