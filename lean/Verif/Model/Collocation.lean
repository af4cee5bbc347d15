import Verif.Model.Layout
import Verif.Model.Poly
import Verif.Model.OcpCost
import Mathlib.Algebra.Order.Field.Basic
import Mathlib.Data.List.Dedup
import Mathlib.Data.List.Sort
/-!
# The collocation scheme

methods/classic/collocationscheme.py:35-53 and 230-596 with the grid of
methods/base/solutionmethodsbase.py:104-129, for direct methods. The code builds expressions of the
decision variables; the model computes the values these expressions take at given decision
variables and parameters. Numbers are elements of an ordered field instead of floats. The functions
of the model and the problem, and CasADi's `collocation_points`, are parameters.
-/
namespace Verif

/-- The arguments of a function of all model symbols (`model.all_sym`), system_model.py:430-454. -/
structure Point (K : Type) where
  t : K
  x : List K
  y : List K
  p : List K
  theta : List K
  uPar : List K
  deriving DecidableEq

/-- A path constraint of the problem: its values in an element and its time tag
(`g_ineq[i]`, `time_g_ineq[i]`, ocp.py:521-556). -/
structure PathCon (K : Type) where
  value : Nat → Point K → List K
  time : String

/-- A constraint of the optimisation problem: the values of a column and the bounds of its
entries. -/
structure Con (K : Type) where
  value : List K
  lb : WithBot (WithTop K)
  ub : WithBot (WithTop K)
  deriving DecidableEq

/-- A problem together with a solution method. `ode`, `alg` are the functions of each element after
`tau` was replaced, collocationscheme.py:290-313; `sCost`, `gIneq`, `gEq` come from
`_create_function_from_expression`, discretizationschemebase.py:108-129. -/
structure Transcription (K : Type) where
  dims : Dims
  roots : List K
  t0 : K
  tf : K
  ode : Nat → Point K → List K
  alg : Nat → Point K → List K
  sCost : Nat → Point K → K
  gIneq : List (PathCon K)
  gEq : List (PathCon K)
  hInitial : List K → List K → List K
  hFinal : List K → List K → List K → List K
  h : List K → List K
  vCost : List K → List K → K
  duMin : List (WithBot (WithTop K))
  duMax : List (WithBot (WithTop K))
  pOptIndices : List Nat
  thetaOptIndices : List Nat

/-- The keys of a time dictionary and of the results: `"x"`, `"y"`, `"ode"`, `"alg"`, `"f_s_cost"`,
`"g_ineq_" + str(i)`, `"g_eq_" + str(i)`. -/
inductive Key
  | x | y | ode | alg | sCost
  | ineq (i : Nat)
  | eq (i : Nat)
  deriving DecidableEq

namespace Con

variable {K : Type} [Zero K]

/-- `nlp.include_equality(v)`. -/
def equality (v : List K) : Con K := ⟨v, ((0 : K) : WithTop K), ((0 : K) : WithTop K)⟩

/-- `nlp.include_inequality(v, ub=0)`. -/
def nonpositive (v : List K) : Con K := ⟨v, ⊥, ((0 : K) : WithTop K)⟩

end Con

/-- `l[i]` of a Python list. -/
def itemAt {α : Type} (l : List α) (i : Nat) : Except Err α :=
  match l[i]? with
  | some a => .ok a
  | none => .error .indexError

/-- `l[-1]` of a Python list. -/
def lastItem {α : Type} (l : List α) : Except Err α :=
  match l.getLast? with
  | some a => .ok a
  | none => .error .indexError

/-- `v[i]` of a CasADi column. -/
def entryOf {α : Type} (l : List α) (i : Nat) : Except Err α :=
  match l[i]? with
  | some a => .ok a
  | none => .error .runtimeError

/-- `a - b` of CasADi columns; a scalar is combined with every entry. -/
def subColumns {K : Type} [Sub K] : List K → List K → Except Err (List K)
  | [a], b => .ok (b.map fun y => a - y)
  | a, [b] => .ok (a.map fun x => x - b)
  | a, b => if a.length = b.length then .ok (List.zipWith (fun x y => x - y) a b)
    else .error .runtimeError

/-! ## The derivative of the polynomial approximation -/

/-- A basis polynomial and its derivative with respect to `tau`: the loop of
solutionmethodsbase.py:145-148 differentiated step by step, as CasADi's `jacobian` does. -/
def lagrangeFactorD {K : Type} [Field K] (nodes : List (K × Nat)) (tau : K) (rj : K × Nat) :
    K × K :=
  nodes.foldl (fun e rk => if rk.2 ≠ rj.2 then
    (e.1 * ((tau - rk.1) / (rj.1 - rk.1)),
      e.2 * ((tau - rk.1) / (rj.1 - rk.1)) + e.1 * (1 / (rj.1 - rk.1))) else e) (1, 0)

/-- `jacobian(x_pol, tau)` for `create_variable_polynomial_approximation(size, degree,
point_at_t0=True)`, collocationscheme.py:274-280. -/
def polyDerivative {K : Type} [Field K] (roots : List K) (size degree : Nat)
    (points : Nat → Nat → K) (tau : K) : Except Err (List K) :=
  if degree = 1 then .ok (List.replicate size 0)
  else if size > 0 then
    .ok ((List.range size).map (polyRow
      ((0 :: roots).zipIdx.map fun rj => (lagrangeFactorD (0 :: roots).zipIdx tau rj).2) points))
  else .error .runtimeError

/-- The number of entries of the parameter column of
`create_variable_polynomial_approximation(size, degree, point_at_t0)`,
solutionmethodsbase.py:167-196. -/
def numParameters (size degree : Nat) (pointAtT0 : Bool) : Nat :=
  if degree = 1 then size
  else if pointAtT0 && decide (size > 0) then size * (degree + 1) else size * degree

/-- The parameter matrix whose `vec` is the given column. -/
def matOf {K : Type} [Zero K] (size : Nat) (v : List K) (s j : Nat) : K := v.getD (j * size + s) 0

/-- A call of a CasADi function with a column of `n` entries where it expects `m`. (CasADi takes an
empty argument as zeros; the columns here are never empty unless `m = 0`.) -/
def checkArgument (m n : Nat) : Except Err Unit := if n = m then .ok () else .error .runtimeError

namespace Transcription

variable {K : Type} [Field K] [LinearOrder K]

/-! ## The grid -/

/-- `delta_t`, solutionmethodsbase.py:104-106. -/
def deltaT (m : Transcription K) : K := (m.tf - m.t0) / (m.dims.elements : K)

/-- `time_breakpoints`, solutionmethodsbase.py:108-110. -/
def breakpoints (m : Transcription K) : List K :=
  (List.range (m.dims.elements + 1)).map fun k : Nat => m.deltaT * (k : K)

/-- `time_breakpoints[k]`. -/
def breakpoint (m : Transcription K) (k : Nat) : K := m.breakpoints.getD k 0

/-- `time_interpolation_states[el]`, collocationscheme.py:35-41. -/
def stateTimes (m : Transcription K) (el : Nat) : List K :=
  (0 :: m.roots).map fun tau => m.breakpoint el + m.deltaT * tau

/-- `time_interpolation_algebraics[el]`, collocationscheme.py:47-53. -/
def algebraicTimes (m : Transcription K) (el : Nat) : List K :=
  m.roots.map fun tau => m.breakpoint el + m.deltaT * tau

/-! ## The system at given times -/

/-- The times of a path constraint, collocationscheme.py:578-594; another tag makes no entry. -/
def pathTimes (m : Transcription K) (el : Nat) (tag : String) : Option (List K) :=
  if tag = "start" then some [m.breakpoint el]
  else if tag = "end" then some [m.breakpoint (el + 1)]
  else if tag = "default" then some (m.algebraicTimes el)
  else none

/-- `_create_time_dict_for_collocation()[el]`, collocationscheme.py:562-596. -/
def timeDict (m : Transcription K) (el : Nat) : Key → Option (List K)
  | .x => some (m.stateTimes el)
  | .y => some (m.algebraicTimes el)
  | .ode => some (m.stateTimes el)
  | .alg => some (m.algebraicTimes el)
  | .sCost => some [m.breakpoint (el + 1)]
  | .ineq i => (m.gIneq[i]?).bind fun g => m.pathTimes el g.time
  | .eq i => (m.gEq[i]?).bind fun g => m.pathTimes el g.time

/-- The keys of `functions`, collocationscheme.py:289-327. -/
def functionKeys (m : Transcription K) : List Key :=
  [.ode, .alg] ++ (List.range m.gIneq.length).map .ineq ++ (List.range m.gEq.length).map .eq ++
    [.sCost]

/-- The times at which an element is evaluated, sorted and without repetitions,
collocationscheme.py:501-508. -/
def evalTimes (m : Transcription K) (el : Nat) : List K :=
  ((([Key.x, Key.y] ++ m.functionKeys).flatMap fun k => (m.timeDict el k).getD []).dedup).insertionSort
    (fun a b => a ≤ b)

/-- `vectorize(columns)`, discretizationschemebase.py:99-106. -/
def vectorize (columns : List (List K)) : List K := columns.flatten

/-- `f_x(t, vectorize(x[el]))`, collocationscheme.py:478-487 and 512: `tau` is replaced by
`(t - t_0) / (t_f - t_0)`, system_model.py:462-466. -/
def stateAt (m : Transcription K) (b : Blocks K) (el : Nat) (t : K) : Except Err (List K) := do
  let par := vectorize (b.x.getD el [])
  checkArgument (numParameters m.dims.nX m.dims.degree true) par.length
  polyApproxMethod m.roots m.dims.nX m.dims.degree true (matOf m.dims.nX par)
    ((t - m.breakpoint el) / (m.breakpoint (el + 1) - m.breakpoint el))

/-- `f_y(t, vectorize(y[el]))`, collocationscheme.py:489-499 and 513. -/
def algebraicAt (m : Transcription K) (b : Blocks K) (el : Nat) (t : K) : Except Err (List K) := do
  let par := vectorize (b.y.getD el [])
  checkArgument (numParameters m.dims.nY m.dims.degree false) par.length
  polyApproxMethod m.roots m.dims.nY m.dims.degree false (matOf m.dims.nY par)
    ((t - m.breakpoint el) / (m.breakpoint (el + 1) - m.breakpoint el))

/-- `time_dict[el][f_name]` for every function, collocationscheme.py:531-532. -/
def checkKeys (m : Transcription K) (el : Nat) : Except Err Unit :=
  if m.functionKeys.all fun k => (m.timeDict el k).isSome then .ok () else .error .keyError

/-- One pass of the loop over the times of an element, collocationscheme.py:511-558: the arguments
the functions are called with. The control value `u_t` is only kept for a key the scheme does not
ask for, and is left out. -/
def sample (m : Transcription K) (b : Blocks K) (p theta : List K) (el : Nat) (t : K) :
    Except Err (Point K) := do
  let x ← m.stateAt b el t
  let y ← m.algebraicAt b el t
  m.checkKeys el
  pure ⟨t, x, y, p, theta, vectorize (b.u.getD el [])⟩

/-- What is evaluated for a key, collocationscheme.py:524-558. -/
def valueOf (m : Transcription K) (el : Nat) (pt : Point K) : Key → List K
  | .x => pt.x
  | .y => pt.y
  | .ode => m.ode el pt
  | .alg => m.alg el pt
  | .sCost => [m.sCost el pt]
  | .ineq i => ((m.gIneq[i]?).map fun g => g.value el pt).getD []
  | .eq i => ((m.gEq[i]?).map fun g => g.value el pt).getD []

/-- `results[el][key]`, collocationscheme.py:524-558: the values at those of the times that the
dictionary lists for the key. -/
def collectKey (m : Transcription K) (el : Nat) (samples : List (Point K)) (k : Key) :
    List (List K) :=
  (samples.filter fun pt => decide (pt.t ∈ (m.timeDict el k).getD [])).map fun pt =>
    m.valueOf el pt k

/-- `get_system_at_given_times(...)[el]`, collocationscheme.py:424-560. -/
def element (m : Transcription K) (b : Blocks K) (p : List K) (theta : List (List K)) (el : Nat) :
    Except Err (Key → List (List K)) := do
  let samples ← (m.evalTimes el).mapM (m.sample b p (theta.getD el []) el)
  pure (m.collectKey el samples)

/-! ## The constraints -/

/-- State continuity, collocationscheme.py:339-341. -/
def continuity (before here : Key → List (List K)) (el : Nat) : Except Err (List (Con K)) :=
  if el = 0 then pure []
  else do
    let a ← lastItem (before .x)
    let b ← itemAt (here .x) 0
    let d ← subColumns a b
    pure [Con.equality d]

/-- One collocation equation, collocationscheme.py:348-352; `j` is `col_point - 1`. -/
def dynamicsAt (m : Transcription K) (b : Blocks K) (here : Key → List (List K)) (el j : Nat) :
    Except Err (Con K) := do
  let tau ← itemAt (0 :: m.roots) (j + 1)
  let par := vectorize (b.x.getD el [])
  checkArgument (numParameters m.dims.nX m.dims.degree true) par.length
  let d ← polyDerivative m.roots m.dims.nX m.dims.degree (matOf m.dims.nX par) tau
  let o ← itemAt (here .ode) (j + 1)
  let r ← subColumns d (o.map (m.deltaT * ·))
  pure (Con.equality r)

/-- One algebraic equation, collocationscheme.py:354-355. -/
def algebraicEq (here : Key → List (List K)) (j : Nat) : Except Err (Con K) := do
  let a ← itemAt (here .alg) j
  pure (Con.equality a)

/-- `has_delta_u`, ocp.py:168-178. -/
def hasDeltaU (m : Transcription K) : Bool :=
  (List.range m.dims.nU).any fun i =>
    decide (m.duMax[i]? ≠ some ⊤) || decide (m.duMin[i]? ≠ some ⊥)

/-- The limits of one control's change, collocationscheme.py:363-382, with the check of
`include_inequality` that the bounds do not cross. -/
def rateOf (m : Transcription K) (now before : List K) (i : Nat) : Except Err (List (Con K)) := do
  let hi ← entryOf m.duMax i
  let lo ← entryOf m.duMin i
  if hi = ⊤ ∧ lo = ⊥ then pure []
  else do
    let a ← entryOf now i
    let b ← entryOf before i
    if hi < lo then .error .valueError else pure [⟨[a - b], lo, hi⟩]

/-- The control an element's first control is compared with, collocationscheme.py:362 and 374. -/
def previousControl (b : Blocks K) (lastU : Option (List K)) (el : Nat) :
    Except Err (Option (List K)) :=
  if el > 0 then do
    let u ← itemAt (b.u.getD (el - 1) []) 0
    pure (some u)
  else pure lastU

/-- The constraints on the changes of the controls, collocationscheme.py:361-382. -/
def rates (m : Transcription K) (b : Blocks K) (lastU : Option (List K)) (el : Nat) :
    Except Err (List (Con K)) :=
  if m.hasDeltaU then do
    let before ← previousControl b lastU el
    match before with
    | none => pure []
    | some before => do
      let now ← itemAt (b.u.getD el []) 0
      let cs ← (List.range m.dims.nU).mapM (m.rateOf now before)
      pure cs.flatten
  else pure []

/-- The constraints of one element, collocationscheme.py:336-395. -/
def elementCons (m : Transcription K) (b : Blocks K) (lastU : Option (List K))
    (before here : Key → List (List K)) (el : Nat) : Except Err (List (Con K)) := do
  let cont ← continuity before here el
  let dyn ← (List.range m.dims.degree).mapM (m.dynamicsAt b here el)
  let alg ← (List.range m.dims.degree).mapM (algebraicEq here)
  let rate ← m.rates b lastU el
  let ineq := (List.range m.gIneq.length).flatMap fun i => (here (.ineq i)).map Con.nonpositive
  let eq := (List.range m.gEq.length).flatMap fun i => (here (.eq i)).map Con.equality
  pure (cont ++ dyn ++ alg ++ rate ++ ineq ++ eq)

/-- `results[el]["f_s_cost"][-1]`, collocationscheme.py:358. -/
def elementCost (here : Key → List (List K)) : Except Err K := do
  let c ← lastItem (here .sCost)
  entryOf c 0

/-- `results[el]` of the elements; `defaultdict` gives empty results outside. -/
def resultOf (results : List (Key → List (List K))) (el : Nat) : Key → List (List K) :=
  results.getD el fun _ => []

/-- The constraints of element `el` out of the results of all. -/
def consOf (m : Transcription K) (b : Blocks K) (lastU : Option (List K))
    (results : List (Key → List (List K))) (el : Nat) : Except Err (List (Con K)) :=
  m.elementCons b lastU (resultOf results (el - 1)) (resultOf results el) el

/-- The parameters with the decision values written in, collocationscheme.py:260-262. -/
def fullP (m : Transcription K) (b : Blocks K) (p : List K) : List K :=
  Ocp.putValues m.pOptIndices b.pOpt p

/-- The piecewise parameters with the decision values written in, collocationscheme.py:264-267. -/
def fullTheta (m : Transcription K) (b : Blocks K) (theta : List (List K)) : List (List K) :=
  (List.range m.dims.elements).map fun el =>
    Ocp.putValues m.thetaOptIndices (b.thetaOpt.getD el []) (theta.getD el [])

/-- `CollocationScheme.discretize(x_0, p, theta, last_u)`, collocationscheme.py:230-422: the values
of the constraints and of the objective. -/
def discretize (m : Transcription K) (b : Blocks K) (x0 p : List K) (theta : List (List K))
    (lastU : Option (List K)) : Except Err (List (Con K) × K) := do
  let p := m.fullP b p
  let theta := m.fullTheta b theta
  let xs ← itemAt b.x 0
  let first ← itemAt xs 0
  let results ← (List.range m.dims.elements).mapM (m.element b p theta)
  let body ← (List.range m.dims.elements).mapM (m.consOf b lastU results)
  let costs ← results.mapM elementCost
  let xf ← lastItem (resultOf results (m.dims.elements - 1) .x)
  pure ([Con.equality (m.hInitial first x0)] ++ body.flatten ++
    [Con.equality (m.hFinal xf b.eta p), Con.equality (m.h p)], m.vCost xf p + costs.sum)

/-- The last control as `create_optimization_problem` passes it, solutionmethodsbase.py:260-284: a
parameter column, or the empty `MX()` when the last control is not a parameter. It is never
`None`. -/
def lastControlArgument (asParameter : Bool) (lastU : List K) : Option (List K) :=
  some (if asParameter then lastU else [])

end Transcription
end Verif
