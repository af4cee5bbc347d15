import Verif.Model.Ocp
import Verif.Model.Diff
/-!
# Adjoint states and the indirect method

`create_adjoint_states` (modelling/ocp.py) and `IndirectMethod` (methods/classic/indirectmethod.py).
The attribute `problem.H` is the value returned by `createAdjointStates`. New symbols are numbered
from `base` on. The symbolic matrix inverse and the comparison of the Hessian with zero are CasADi's
and are parameters (`Backend`). Warnings are not modelled.
-/
namespace Verif

/-- The external functions: derivatives of the operators, `inv(M)`, and `is_equal(M, zeros)`. -/
structure Backend where
  table : Expr.DiffTable
  inv : List (List Expr) → List (List Expr)
  isZero : List (List Expr) → Bool

/-- `n` new symbols. -/
def newSyms (base : Sym) (n : Nat) : List Sym := (List.range n).map (base + ·)

namespace Ocp

/-- `self.H = self.L + dot(lamb, ode) + dot(nu, alg)`, ocp.py:271: `dot` needs columns of one size. -/
def hamiltonian (lamb nu : List Sym) (o : Ocp) : Except Err Expr :=
  if lamb.length ≠ o.model.odeVec.length ∨ nu.length ≠ o.model.alg.length then .error .runtimeError
  else .ok (.add (.add o.L (Expr.dot (lamb.map .sym) o.model.odeVec))
    (Expr.dot (nu.map .sym) o.model.alg))

/-- The row of the transversality condition for a state and its adjoint, ocp.py:283-285: the row of
`jacobian(h_final, x).T` is the list of derivatives of the final constraints. -/
def transversality (D : Expr.DiffTable) (V : Expr) (hFinal : List Expr) (eta : List Sym)
    (lam x : Sym) : Expr :=
  .sub (.sub (.sym lam) (Expr.diff D x V))
    (Expr.dot (hFinal.map (Expr.diff D x)) (eta.map .sym))

/-- `create_adjoint_states()`, ocp.py:266-286. Returns `self.H`. The new symbols are, in order, the
adjoints, the multipliers of the algebraic equations, those of the final constraints, and the
initial conditions of the adjoints. -/
def createAdjointStates (D : Expr.DiffTable) (base : Sym) : Py Ocp Expr := do
  let o ← Py.get
  let lamb := newSyms base o.model.x.length
  let nu := newSyms (base + o.model.x.length) o.model.y.length
  let eta := newSyms (base + o.model.x.length + o.model.y.length) o.hFinal.length
  Py.modify fun o => { o with eta := eta }
  let H ← Py.lift (o.hamiltonian lamb nu)
  includeState lamb (some ((Expr.gradient D o.model.x H).map .neg)) none none none none none true
    (base + o.model.x.length + o.model.y.length + o.hFinal.length)
  Py.modify fun o => { o with model := { o.model with hasAdjoint := true } }
  includeAlgebraic nu (some (Expr.gradient D o.model.y H)) none none none
  Py.modify fun o => { o with
    hFinal := o.hFinal ++
      List.zipWith (transversality D o.V o.hFinal o.eta) o.model.lamb o.model.xSys }
  Py.pure H

end Ocp

namespace Indirect

/-- CasADi's operation code of `fmin`. -/
def opFmin : Nat := 34

/-- CasADi's operation code of `fmax`. -/
def opFmax : Nat := 35

/-- The lower clip, indirectmethod.py:98-99. (The lower bound `inf` is not represented: expressions
have no infinite constants.) -/
def clipLow : XRat → Expr → Expr
  | some (some q), e => .bin opFmax e (.const q)
  | _, e => e

/-- The upper clip, indirectmethod.py:101-102. (Likewise for the upper bound `-inf`.) -/
def clipHigh : XRat → Expr → Expr
  | some (some q), e => .bin opFmin e (.const q)
  | _, e => e

/-- The body of the loop over the controls, indirectmethod.py:97-102. -/
def clip (lo hi : XRat) (e : Expr) : Expr := clipHigh hi (clipLow lo e)

/-- `-mtimes(inv(dd_h_dudu), substitute(d_h_du, u, 0.0))`, indirectmethod.py:95. -/
def unconstrained (B : Backend) (H : Expr) (u : List Sym) : List Expr :=
  let g0 := (Expr.gradient B.table u H).map (Expr.subst u (u.map fun _ => .const 0))
  (B.inv (Expr.hessian B.table u H)).map fun row => .neg (Expr.dot row g0)

/-- The clipped law, control by control. -/
def clipAll : List XRat → List XRat → List Expr → List Expr
  | lo :: los, hi :: his, e :: es => clip lo hi e :: clipAll los his es
  | _, _, _ => []

/-- `calculate_optimal_control()`, indirectmethod.py:83-103. A missing bound is an index out of
range. -/
def calculateOptimalControl (B : Backend) (H : Expr) (o : Ocp) : Except Err (List Expr) :=
  if B.isZero (Expr.hessian B.table o.model.u H) then .error .exception
  else if o.uMin.length < o.model.u.length ∨ o.uMax.length < o.model.u.length then
    .error .runtimeError
  else .ok (clipAll o.uMin o.uMax (unconstrained B H o.model.u))

/-- The optional cost state, indirectmethod.py:50-52. -/
def maybeCostState (create : Bool) (xc fresh : Sym) : Py Ocp Unit :=
  if create then Ocp.createCostState xc fresh else Py.pure ()

/-- `SolutionMethodsBase.prepare()`, solutionmethodsbase.py:236-243. The early return does not keep
the subclass from going on. -/
def basePrepare (prepared : Bool) : Py Ocp Unit := fun o =>
  if prepared then (.ok (), o) else (o.preSolveCheck, o)

/-- `IndirectMethod.prepare()`, indirectmethod.py:47-54. -/
def prepare (B : Backend) (createCost prepared : Bool) (base xc fresh : Sym) : Py Ocp Unit := do
  basePrepare prepared
  let H ← Ocp.createAdjointStates B.table base
  maybeCostState createCost xc fresh
  let o ← Py.get
  let uOpt ← Py.lift (calculateOptimalControl B H o)
  Ocp.parametrizeControl o.model.u uOpt none

/-- One loop of `_check_bounds`: the first `n` entries become infinite; too short a vector is an
index out of range. -/
def release (n : Nat) (b : XRat) (l : List XRat) : Except Err (List XRat) :=
  if l.length < n then .error .runtimeError else .ok (List.replicate n b ++ l.drop n)

/-- `_check_bounds()`, indirectmethod.py:56-81: the bounds of the user's problem are overwritten.
(On an index out of range some entries have been overwritten already; the model keeps the vectors
it has not finished.) -/
def checkBounds : Py Ocp Unit := do
  let o ← Py.get
  let xlo ← Py.lift (release o.model.x.length ⊥ o.xMin)
  Py.modify fun o => { o with xMin := xlo }
  let xhi ← Py.lift (release o.model.x.length ⊤ o.xMax)
  Py.modify fun o => { o with xMax := xhi }
  let ylo ← Py.lift (release o.model.y.length ⊥ o.yMin)
  Py.modify fun o => { o with yMin := ylo }
  let yhi ← Py.lift (release o.model.y.length ⊤ o.yMax)
  Py.modify fun o => { o with yMax := yhi }

end Indirect
end Verif
