import Verif.Model.SolveDirect
import Verif.Model.SolveShooting
import Verif.Model.SolveIndirect
import Verif.Model.SolveShootIndirect
/-!
# Changing a problem between two calls of `solve`
-/
namespace Verif.Spec

/-- `o'` is `o` with other equations, bounds, rate limits, constraints, costs or guesses: the variables,
the horizon, the initial state, the last control and the control laws are those of `o`. -/
structure RevisionOf (o o' : Ocp) : Prop where
  horizon : o'.t0 = o.t0 ∧ o'.tf = o.tf
  initial : o'.x0 = o.x0
  last : o'.lastU = o.lastU
  costState : o'.xCost = o.xCost
  optimised : o'.pOpt = o.pOpt ∧ o'.thetaOpt = o.thetaOpt
  model : ∃ ode alg, o'.model = { o.model with
    ode := ode
    alg := alg }

/-- The user assigns to attributes of the problem of a direct method (collocation). -/
def reviseDirect {K : Type} (st : SolveDirect.State K) (o' : Ocp) : SolveDirect.State K :=
  { st with method := { st.method with problem := o' } }

/-- The user assigns to attributes of the problem of a direct method (multiple shooting). -/
def reviseShooting {K : Type} (st : SolveShooting.State K) (o' : Ocp) : SolveShooting.State K :=
  { st with method := { st.method with problem := o' } }

/-- The user assigns to attributes of the problem of an indirect method (collocation). -/
def reviseIndirect {K : Type} (st : SolveIndirect.State K) (o' : Ocp) : SolveIndirect.State K :=
  { st with problem := o' }

/-- The user assigns to attributes of the problem of an indirect method (multiple shooting). -/
def reviseShootIndirect {K : Type} (st : SolveShootIndirect.State K) (o' : Ocp) :
    SolveShootIndirect.State K :=
  { st with problem := o' }

end Verif.Spec
