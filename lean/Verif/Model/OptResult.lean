import Verif.Model.DataSet
import Verif.Model.Collocation
import Verif.Model.OcpCost
/-!
# `OptimizationResult` (methods/base/optimizationresult.py)

A `DM` column is the list of its entries. Attributes that only travel through the object are left
out.
-/
namespace Verif

/-- `x_data`, `y_data`, `u_data` and the entries of `other_data`: values and times per element,
optimizationresult.py:49-53. -/
structure Series where
  values : List (List (List Rat))
  time : List (List Rat)
  deriving DecidableEq, Repr

/-- The attributes read below, optimizationresult.py:15-66. -/
structure OptResult where
  finiteElements : Nat
  degreeControl : Nat
  tf : Rat
  breakpoints : List Rat
  xNames : List String
  yNames : List String
  uNames : List String
  thetaOptNames : List String
  x : Series
  y : Series
  u : Series
  thetaOpt : List (List Rat)
  other : Dict String Series
  deriving DecidableEq, Repr

namespace OptResult

/-- `horzcat(*columns)` of columns of numbers: nothing raises `NotImplementedError`, columns of
different sizes `RuntimeError`. (CasADi skips 0-by-0 matrices; columns of the solver are `n`-by-1.) -/
def horzcat : List (List Rat) → Except Err Mat
  | [] => .error .notImplementedError
  | c :: cs => if cs.all fun c' => c'.length == c.length then .ok ⟨c.length, c :: cs⟩
    else .error .runtimeError

/-- `horzcat(*times)` of numbers. -/
def horzcatTimes : List Rat → Except Err (List Rat)
  | [] => .error .notImplementedError
  | t :: ts => .ok (t :: ts)

/-- `self.u_data["values"][0][0]`, optimizationresult.py:96-101. -/
def firstControl (r : OptResult) : Except Err (List Rat) := do
  let el ← itemAt r.u.values 0
  itemAt el 0

/-- `[[vect[index] for vect in list_vec] for list_vec in data]`, optimizationresult.py:125. -/
def rowOf (index : Nat) (data : List (List (List Rat))) : Except Err (List (List Rat)) :=
  data.mapM fun element => element.mapM fun vect => entryOf vect index

/-- The choice of the data by `var_type`, optimizationresult.py:116-123. -/
def dataOf (r : OptResult) (varType : String) : Except Err (List (List (List Rat))) :=
  if varType = "x" then .ok r.x.values
  else if varType = "y" then .ok r.y.values
  else if varType = "u" then .ok r.u.values
  else .error .notImplementedError

/-- `get_variable(var_type, index)`, optimizationresult.py:107-125, for one index. -/
def getVariable (r : OptResult) (varType : String) (index : Nat) :
    Except Err (List (List Rat)) := do
  let data ← r.dataOf varType
  rowOf index data

/-- `names.index(name)`. -/
def indexOf (names : List String) (name : String) : Except Err Nat :=
  if name ∈ names then .ok (names.idxOf name) else .error .valueError

/-- One `with suppress(ValueError)` block, optimizationresult.py:132-138: a `ValueError` keeps the
variable found before. -/
def attempt (r : OptResult) (varType : String) (names : List String) (name : String)
    (before : Option (List (List Rat))) : Except Err (Option (List (List Rat))) :=
  match indexOf names name with
  | .error _ => .ok before
  | .ok i => match r.getVariable varType i with
    | .ok v => .ok (some v)
    | .error .valueError => .ok before
    | .error e => .error e

/-- `if variable is not None: return variable` and the error after it,
optimizationresult.py:140-143. -/
def found : Option (List (List Rat)) → Except Err (List (List Rat))
  | some v => .ok v
  | none => .error .valueError

/-- `get_variable_by_name(name)`, optimizationresult.py:127-143. -/
def getVariableByName (r : OptResult) (name : String) : Except Err (List (List Rat)) := do
  let v ← r.attempt "x" r.xNames name none
  let v ← r.attempt "y" r.yNames name v
  let v ← r.attempt "u" r.uNames name v
  found v

/-- `dataset.insert_data(name, horzcat(*times[el]), horzcat(*values[el]))`,
optimizationresult.py:178-180, 184-191 and 202-206. -/
def insertElement (name : String) (times : List (List Rat)) (values : List (List (List Rat)))
    (el : Nat) : Py DataSet Unit := do
  let ts ← Py.lift (itemAt times el)
  let t ← Py.lift (horzcatTimes ts)
  let vs ← Py.lift (itemAt values el)
  let v ← Py.lift (horzcat vs)
  DataSet.insertData name (.row t) v

/-- Insert when there are names, optimizationresult.py:176, 183, 188 and 193. -/
def insertIfNamed (names : List String) (c : Py DataSet Unit) : Py DataSet Unit :=
  if names.length > 0 then c else Py.pure ()

/-- The size of an additional entry, optimizationresult.py:168: `["values"][0][0].shape[0]`. -/
def otherSize (s : Series) : Except Err Nat := do
  let el ← itemAt s.values 0
  let v ← itemAt el 0
  .ok v.length

/-- Creation of an additional entry, optimizationresult.py:167-171. -/
def createOther (kv : String × Series) : Py DataSet Unit := do
  let n ← Py.lift (otherSize kv.2)
  DataSet.createEntry kv.1 n (some (DataSet.defaultNames kv.1 n))

/-- `dataset.data["u"].plot_style = ...`, optimizationresult.py:173. -/
def setStyle (r : OptResult) : Py DataSet Unit := do
  let e ← DataSet.entry "u"
  Py.modify fun d => Dict.set d "u" { e with
    plotStyle := if r.degreeControl > 1 then "plot" else "step" }

/-- The entries of the variables, optimizationresult.py:157-165. -/
def createEntries (r : OptResult) : Py DataSet Unit := do
  DataSet.createEntry "x" r.xNames.length (some r.xNames)
  DataSet.createEntry "y" r.yNames.length (some r.yNames)
  DataSet.createEntry "u" r.uNames.length (some r.uNames)
  DataSet.createEntry "theta_opt" r.thetaOptNames.length (some r.thetaOptNames) "step"

/-- Insertion of one element's algebraic variables and controls, optimizationresult.py:182-191. -/
def insertYU (r : OptResult) (el : Nat) : Py DataSet Unit := do
  insertIfNamed r.yNames (insertElement "y" r.y.time r.y.values el)
  insertIfNamed r.uNames (insertElement "u" r.u.time r.u.values el)

/-- Insertion of the optimised parameters per element, optimizationresult.py:193-198. -/
def insertTheta (r : OptResult) : Py DataSet Unit := do
  let t ← Py.lift (horzcatTimes r.breakpoints.dropLast)
  let v ← Py.lift (horzcat r.thetaOpt)
  DataSet.insertData "theta_opt" (.row t) v

/-- `to_dataset()`, optimizationresult.py:145-208, run on an empty data set. -/
def toDataset (r : OptResult) : Py DataSet Unit := do
  createEntries r
  Py.forEach r.other createOther
  setStyle r
  insertIfNamed r.xNames (Py.forEach (List.range (r.finiteElements + 1))
    (insertElement "x" (r.x.time ++ [[r.tf]]) r.x.values))
  Py.forEach (List.range r.finiteElements) (insertYU r)
  insertIfNamed r.thetaOptNames (insertTheta r)
  Py.forEach r.other fun kv => Py.forEach (List.range r.finiteElements)
    (insertElement kv.1 kv.2.time kv.2.values)

end OptResult

/-! ## Storing the solution in the parameters -/

/-- The `DM` vectors the caller and the result share, by object number. -/
abbrev Vectors := List (List Rat)

/-- The `p` argument of `solve`. -/
inductive ParArg
  | none
  | list (l : List Rat)
  | dm (object : Nat)

namespace Vectors

/-- A new vector. -/
def create (v : List Rat) : Py Vectors Nat := fun h => (.ok h.length, h ++ [v])

/-- `p` as it reaches the result, solutionmethodsbase.py:330-344 and 485: a `DM` is passed on, not
copied. (`p=None` with unoptimised parameters raises; `nP` is the number of parameters.) -/
def parameter (nPOpt nP : Nat) : ParArg → Py Vectors Nat
  | .none => if nPOpt = nP then create (List.replicate nPOpt 0)
    else if nP > 0 then Py.throw .valueError else create []
  | .list l => create l
  | .dm o => Py.pure o

/-- `v[indices] = values`: an index out of range or a wrong number of values raises. (A single value
for several indices would be repeated; the values here are slices of that size.) -/
def assign (o : Nat) (ind : List Nat) (values : List Rat) : Py Vectors Unit := fun h =>
  if values.length = ind.length ∧ ∀ i ∈ ind, i < (h.getD o []).length then
    (.ok (), h.set o (Ocp.putValues ind values (h.getD o [])))
  else (.error .runtimeError, h)

/-- `optimization_result.theta[el][...] = theta_opt[el]`, collocationscheme.py:772-775. -/
def assignTheta (ind : List Nat) (thetaOpt : List (List Rat)) (kv : Nat × Nat) : Py Vectors Unit := do
  let v ← Py.lift (itemAt thetaOpt kv.1)
  assign kv.2 ind v

/-- Storing the optimised parameters in the result, collocationscheme.py:771-775 and
multipleshooting.py:634-638. `p` and `theta` name the vectors of the result. -/
def storeOptimised (pInd thetaInd : List Nat) (pOpt : List Rat) (thetaOpt : List (List Rat)) (p : Nat)
    (theta : Dict Nat Nat) : Py Vectors Unit := do
  assign p pInd pOpt
  Py.forEach theta (assignTheta thetaInd thetaOpt)

/-- The entries of `create_constant_theta(0, n, elements)`, util.py:132-152: a new vector for each
element, starting with `el`. -/
def createTheta (n : Nat) : Nat → Nat → Py Vectors (Dict Nat Nat)
  | _, 0 => Py.pure []
  | el, k + 1 => do
    let o ← create (List.replicate n 0)
    let rest ← createTheta n (el + 1) k
    Py.pure ((el, o) :: rest)

/-- `theta` as it reaches the result, solutionmethodsbase.py:346-358 and 484: a dictionary is passed
on, its vectors are not copied. -/
def thetaParameter (nOpt n elements : Nat) : Option (Dict Nat Nat) → Py Vectors (Dict Nat Nat)
  | some theta => Py.pure theta
  | none => if nOpt = n then createTheta nOpt 0 elements
    else if n > 0 then Py.throw .exception else createTheta 0 0 elements

/-- The parameters on their way through `solve`, solutionmethodsbase.py:450-459 and 483-485, and the
storing of the solution `pOpt`, `thetaOpt`. Returns the vectors of the result. -/
def solve (nP nTheta elements : Nat) (pInd thetaInd : List Nat) (pOpt : List Rat)
    (thetaOpt : List (List Rat)) (p : ParArg) (theta : Option (Dict Nat Nat)) :
    Py Vectors (Nat × Dict Nat Nat) := do
  let p ← parameter pInd.length nP p
  let theta ← thetaParameter thetaInd.length nTheta elements theta
  storeOptimised pInd thetaInd pOpt thetaOpt p theta
  Py.pure (p, theta)

end Vectors
end Verif
