import Verif.Model.Indirect
/-!
# The direct method (methods/classic/directmethod.py)

With `SolutionMethodsBase.create_control_approximation` and the preparation done by
`create_optimization_problem` (methods/base/solutionmethodsbase.py). `roots` is what CasADi's
`collocation_points(degree, "radau")` returns. New symbols are numbered from a base given by the
caller. The attribute `problem.H` is not part of the model of a problem.
-/
namespace Verif
namespace Direct

/-- A direct method and the problem it works on: `has_cost_state`, `prepared` and `problem`. The flag
`parametrized_control` is never set and is left out. -/
structure Method where
  hasCostState : Bool := false
  prepared : Bool := false
  problem : Ocp

/-- A call on the method's problem. -/
def onProblem {α : Type} (c : Py Ocp α) : Py Method α := fun s =>
  ((c s.problem).1, { s with problem := (c s.problem).2 })

/-- The symbol `points[i, j]` of a matrix of new symbols with `n` rows; `vec` is column by column. -/
def point (base : Sym) (n i j : Nat) : Sym := base + (j * n + i)

/-- One basis polynomial as an expression, solutionmethodsbase.py:144-149. -/
def lagrangeExpr (nodes : List (Rat × Nat)) (tau : Sym) (rj : Rat × Nat) : Expr :=
  nodes.foldl (fun ell rk => if rk.2 ≠ rj.2 then
    .mul ell (.div (.sub (.sym tau) (.const rk.1)) (.sub (.const rj.1) (.const rk.1))) else ell)
    (.const 1)

/-- The basis for `starting_index = 1`, solutionmethodsbase.py:131-151: one polynomial per
collocation point. -/
def basisExpr (roots : List Rat) (tau : Sym) : List Expr :=
  let nodes := ((0 : Rat) :: roots).zipIdx.drop 1
  nodes.map (lagrangeExpr nodes tau)

/-- `create_variable_polynomial_approximation(n, degree)`, solutionmethodsbase.py:153-197 without
`point_at_t0`: the polynomials. -/
def polynomials (roots : List Rat) (tau base : Sym) (n degree : Nat) : List Expr :=
  if degree = 1 then (List.range n).map fun i => .sym (point base n i 0)
  else (List.range n).map fun i =>
    ((basisExpr roots tau).zipIdx.map fun lj => Expr.mul lj.1 (.sym (point base n i lj.2))).foldl
      .add (.const 0)

/-- `create_control_approximation()`, solutionmethodsbase.py:199-219: the parameters and expressions
of the controls are overwritten. -/
def controlApproximation (roots : List Rat) (degree : Nat) (base : Sym) : Py Method (List Expr) := do
  let s ← Py.get
  let m := s.problem.model
  let pol := polynomials roots m.tau base m.u.length degree
  Py.modify fun s => { s with problem := { s.problem with model := { s.problem.model with
    uPar := newSyms base (m.u.length * degree)
    uExpr := pol } } }
  Py.pure pol

/-- `_parametrize_control()`, directmethod.py:28-42 (the substitution in `problem`). -/
def parametrizeControl (roots : List Rat) (degree : Nat) (base : Sym) : Py Method Unit := do
  let pol ← controlApproximation roots degree base
  let s ← Py.get
  onProblem (Ocp.replaceVariable s.problem.model.u pol)

/-- The body of `_create_cost_state()`, directmethod.py:46-48. -/
def addCostState (xc fresh : Sym) : Py Method Unit := do
  onProblem (Ocp.createCostState xc fresh)
  Py.modify fun s => { s with hasCostState := true }
  Py.modify fun s => { s with problem := { s.problem with V := .add s.problem.V (.sym xc) } }

/-- `_create_cost_state()`, directmethod.py:44-48. -/
def createCostState (xc fresh : Sym) : Py Method Unit := fun s =>
  if s.hasCostState then (.ok (), s) else addCostState xc fresh s

/-- `SolutionMethodsBase.prepare()`, solutionmethodsbase.py:236-243. -/
def basePrepare : Py Method Unit := fun s => onProblem (Indirect.basePrepare s.prepared) s

/-- `prepare()`, directmethod.py:50-53. -/
def prepare (roots : List Rat) (degree : Nat) (xc fresh base : Sym) : Py Method Unit := do
  basePrepare
  createCostState xc fresh
  parametrizeControl roots degree base

/-- The body of the first statement of `create_optimization_problem()`. -/
def prepareAndMark (roots : List Rat) (degree : Nat) (xc fresh base : Sym) : Py Method Unit := do
  prepare roots degree xc fresh base
  Py.modify fun s => { s with prepared := true }

/-- The preparation at the start of `create_optimization_problem()`, solutionmethodsbase.py:245-248,
hence of `solve`. -/
def solvePreparation (roots : List Rat) (degree : Nat) (xc fresh base : Sym) : Py Method Unit :=
  fun s => if s.prepared then (.ok (), s) else prepareAndMark roots degree xc fresh base s

end Direct
end Verif
