import Verif.Model.Util
/-!
# Parameters of the optimisation problem a solution method builds, and their values

Symbols are named by what they stand for.
-/
namespace Verif

/-- An entry of the parameters: of `mx_p`, of column `el` of `mx_theta_`, of `mx_x_0_p`, of
`mx_last_u`, solutionmethodsbase.py:256-270. -/
inductive ParSlot
  | p (i : Nat)
  | theta (el i : Nat)
  | x0 (i : Nat)
  | lastU (i : Nat)
  deriving DecidableEq, Repr

/-- What building the parameters and their values depends on: sizes, the options of the method as
given to its constructor, and the initial condition and last control of the problem. -/
structure MethodSetup (α : Type) where
  nX : Nat
  nU : Nat
  nP : Nat
  nTheta : Nat
  nPOpt : Nat
  nThetaOpt : Nat
  elements : Nat
  initialConditionAsParameter : Bool := true
  lastControlOption : Bool := false
  problemX0 : List α
  problemLastU : Option (List α) := none
  heuristic : String := "simulation"

/-- Arguments of `call_solver`. -/
structure SolveArgs (α : Type) where
  initialGuess : Option (List α) := none
  p : Option (List α) := none
  theta : Option (Theta α) := none
  x0 : Option (List α) := none
  lastU : Option (List α) := none
  guessDict : Option (List α × List α × List α) := none

/-- What `_get_solver_call_args` returns: the arguments of the solver, and `p`, `theta`, `x_0`,
`last_u`. -/
structure CallArgs (α : Type) where
  initialGuess : List α
  par : List α
  lamX : Option (List α)
  lamG : Option (List α)
  p : List α
  theta : Theta α
  x0 : List α
  lastU : Option (List α)
  deriving DecidableEq

namespace MethodSetup
variable {α : Type}

/-- `last_control_as_parameter` after the constructor, solutionmethodsbase.py:72 and 87-88. -/
def lastControlAsParameter (s : MethodSetup α) : Bool := s.lastControlOption || s.problemLastU.isSome

/-- `has_parameters`, solutionmethodsbase.py:250-254. -/
def hasParameters (s : MethodSetup α) : Bool :=
  decide (s.nP + s.nTheta > 0) || s.initialConditionAsParameter || s.problemLastU.isSome

/-- `all_mx`, solutionmethodsbase.py:256-274. -/
def allSlots (s : MethodSetup α) : List ParSlot :=
  (List.range s.nP).map .p ++
  (List.range s.elements).flatMap (fun el => (List.range s.nTheta).map (.theta el)) ++
  (List.range s.nX).map .x0 ++
  if s.lastControlAsParameter then (List.range s.nU).map .lastU else []

/-- The parameters of the optimisation problem, solutionmethodsbase.py:281-282. -/
def nlpParameters (s : MethodSetup α) : List ParSlot := if s.hasParameters then s.allSlots else []

/-- Symbols the discretised problem is written with that are neither variables nor parameters. -/
def freeSymbols (s : MethodSetup α) : List ParSlot := if s.hasParameters then [] else s.allSlots

/-- The checked initial condition, solutionmethodsbase.py:315-327. -/
def initialCondition (s : MethodSetup α) (x0 : Option (List α)) : Except Err (List α) :=
  if (x0.getD s.problemX0).length ≠ s.nX then .error .exception else .ok (x0.getD s.problemX0)

/-- `p`, solutionmethodsbase.py:329-343. -/
def parameterValues [Zero α] (s : MethodSetup α) : Option (List α) → Except Err (List α)
  | some p => .ok p
  | none =>
    if s.nPOpt = s.nP then .ok (List.replicate s.nPOpt 0)
    else if s.nP > 0 then .error .valueError
    else .ok []

/-- `theta`, solutionmethodsbase.py:345-358. -/
def thetaValues [Zero α] (s : MethodSetup α) : Option (Theta α) → Except Err (Theta α)
  | some th => .ok th
  | none =>
    if s.nThetaOpt = s.nTheta then .ok (createConstantTheta 0 s.nThetaOpt s.elements)
    else if s.nTheta > 0 then .error .exception
    else .ok (createConstantTheta 0 0 s.elements)

/-- `theta[i]`. -/
def thetaAt (th : Theta α) (i : Nat) : Except Err (List α) :=
  match th.get? i with
  | some v => .ok v
  | none => .error .keyError

/-- `theta_vector`, solutionmethodsbase.py:361-363. -/
def thetaVector (s : MethodSetup α) (th : Theta α) : Except Err (List α) := do
  let vs ← (List.range s.elements).mapM (thetaAt th)
  pure vs.flatten

/-- `last_u` and `par_last_u`, solutionmethodsbase.py:361 and 368-386: a given `last_u` is returned
but not put in the parameters. -/
def lastControl (s : MethodSetup α) (lastU : Option (List α)) :
    Except Err (Option (List α) × List α) :=
  match lastU with
  | some u => .ok (some u, [])
  | none =>
    if s.lastControlAsParameter then
      match s.problemLastU with
      | none => .error .valueError
      | some u => .ok (some u, u)
    else .ok (none, [])

/-- The initial guess when no dictionary is given, solutionmethodsbase.py:390-412; `simulated` and
`fromProblem` are the two heuristics. -/
def guess (s : MethodSetup α) (given : Option (List α))
    (simulated fromProblem : List α → Theta α → Except Err (List α)) (p : List α) (th : Theta α) :
    Except Err (List α) :=
  match given with
  | some g => .ok g
  | none =>
    if s.heuristic = "simulation" then simulated p th
    else if s.heuristic = "problem_info" then fromProblem p th
    else .error .valueError

/-- `_get_solver_call_args(...)`, solutionmethodsbase.py:306-426. -/
def callArgs [Zero α] (s : MethodSetup α)
    (simulated fromProblem : List α → Theta α → Except Err (List α)) (a : SolveArgs α) :
    Except Err (CallArgs α) := do
  let x0 ← s.initialCondition a.x0
  let p ← s.parameterValues a.p
  let th ← s.thetaValues a.theta
  let thVec ← s.thetaVector th
  let parX0 := if s.initialConditionAsParameter then x0 else []
  let (lastU, parLastU) ← s.lastControl a.lastU
  let par := p ++ thVec ++ parX0 ++ parLastU
  match a.guessDict with
  | none => do
    let g ← s.guess a.initialGuess simulated fromProblem p th
    pure ⟨g, par, none, none, p, th, x0, lastU⟩
  | some (x, lamX, lamG) => pure ⟨x, par, some lamX, some lamG, p, th, x0, lastU⟩

end MethodSetup
end Verif
