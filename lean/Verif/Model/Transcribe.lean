import Verif.Model.Collocation
import Verif.Model.Dae
import Verif.Model.Ocp
/-!
# From the expressions of a problem to the functions that are discretised

methods/classic/collocationscheme.py:282-328 and 397-417, methods/base/discretizationschemebase.py:108-129:
the CasADi functions of the expressions of the problem and of its model. Their values are what
`Transcription` has as parameters.
-/
namespace Verif

/-- A CasADi `Function(name, inputs, [outputs])`. -/
structure Fun where
  inputs : List (List Sym)
  outputs : List Expr
  deriving DecidableEq

namespace Fun

/-- Every symbol of the outputs is one of the inputs. -/
def closed (f : Fun) : Bool := f.outputs.all fun e => e.syms.all fun s => f.inputs.flatten.contains s

/-- `Function(name, inputs, [outputs])`. Simplification: a function with free symbols can be created,
and CasADi raises when the solver evaluates it; here the creation raises. -/
def make (inputs : List (List Sym)) (outputs : List Expr) : Except Err Fun :=
  if (Fun.mk inputs outputs).closed then .ok ⟨inputs, outputs⟩ else .error .runtimeError

/-- The value of an input symbol; the arguments have the sizes of the inputs. -/
def argument {K : Type} [Zero K] (inputs : List (List Sym)) (args : List (List K)) (s : Sym) : K :=
  (List.lookup s (inputs.flatten.zip args.flatten)).getD 0

/-- A call of the function. -/
def call {K : Type} [Field K] (ops : Expr.Ops K) (f : Fun) (args : List (List K)) : List K :=
  f.outputs.map (Expr.eval ops (argument f.inputs args))

/-- A call of a function of `model.all_sym`; `put_values_in_all_sym_format`, system_model.py:430-450. -/
def callAt {K : Type} [Field K] (ops : Expr.Ops K) (f : Fun) (pt : Point K) : List K :=
  f.call ops [[pt.t], pt.x, pt.y, pt.p, pt.theta, pt.uPar]

end Fun

namespace Ocp

/-- `time_breakpoints[k]`, solutionmethodsbase.py:104-110. -/
def timeBreakpoint (o : Ocp) (elements k : Nat) : Rat := (o.tf - o.t0) / elements * k

/-- `_create_function_from_expression(name, expr)[el]`, discretizationschemebase.py:108-129. -/
def expressionFunction (o : Ocp) (elements : Nat) (e : Expr) (el : Nat) : Except Err Fun :=
  Fun.make o.model.allSym [convertTauToTime e o.model.t o.model.tau (o.timeBreakpoint elements el)
    (o.timeBreakpoint elements (el + 1))]

/-- `functions["ode"][el]`, `functions["alg"][el]`, collocationscheme.py:290-313. -/
def daeFunctions (o : Ocp) (elements el : Nat) : Except Err (Fun × Fun) := do
  let dae ← o.model.getDae.convertFromTau (o.timeBreakpoint elements el)
    (o.timeBreakpoint elements (el + 1))
  let ode ← Fun.make o.model.allSym dae.ode
  let alg ← Fun.make o.model.allSym dae.alg
  .ok (ode, alg)

/-- All functions of `discretize`, collocationscheme.py:282-328 and 397-417. -/
structure Functions where
  initial : Fun
  dae : List (Fun × Fun)
  gIneq : List (List Fun)
  gEq : List (List Fun)
  sCost : List Fun
  final : Fun
  timeless : Fun
  vCost : Fun

/-- The functions of one path constraint or cost, one per element. -/
def elementFunctions (o : Ocp) (elements : Nat) (e : Expr) : Except Err (List Fun) :=
  (List.range elements).mapM (o.expressionFunction elements e)

/-- The creation of all functions in the order of the code, collocationscheme.py:282-328 and
397-417. -/
def functions (o : Ocp) (elements : Nat) : Except Err Functions := do
  let initial ← Fun.make [o.model.x, o.model.x0] o.hInitial
  let dae ← (List.range elements).mapM (o.daeFunctions elements)
  let gIneq ← o.gIneq.mapM (o.elementFunctions elements)
  let gEq ← o.gEq.mapM (o.elementFunctions elements)
  let sCost ← o.elementFunctions elements o.S
  let final ← Fun.make [o.model.x, o.eta, o.model.p] o.hFinal
  let timeless ← Fun.make [o.model.p] o.h
  let vCost ← Fun.make [o.model.x, o.model.p] [o.V]
  .ok ⟨initial, dae, gIneq, gEq, sCost, final, timeless, vCost⟩

/-- A bound as an element of the field. -/
def boundValue {K : Type} [Field K] : XRat → WithBot (WithTop K)
  | none => ⊥
  | some none => ⊤
  | some (some q) => (((q : K) : WithTop K) : WithBot (WithTop K))

/-- The function with no outputs stands for a function that is not there. -/
def funAt (l : List Fun) (el : Nat) : Fun := l.getD el ⟨[], []⟩

/-- The path constraints with their time tags, collocationscheme.py:315-323 and 578-594. -/
def pathCons {K : Type} [Field K] (ops : Expr.Ops K) (fs : List (List Fun)) (tags : List String) :
    List (PathCon K) :=
  List.zipWith (fun l tag => ⟨fun el pt => (funAt l el).callAt ops pt, tag⟩) fs tags

/-- The scalar a function returns. -/
def scalar {K : Type} [Zero K] (v : List K) : K := v.getD 0 0

/-- The sizes of a problem under a method. -/
def dims (o : Ocp) (elements degree degreeControl : Nat) : Dims where
  elements := elements
  degree := degree
  degreeControl := degreeControl
  nX := o.model.x.length
  nY := o.model.y.length
  nU := o.model.u.length
  nUPar := o.model.uPar.length
  nEta := o.eta.length
  nPOpt := o.pOpt.length
  nThetaOpt := o.thetaOpt.length

/-- What the collocation scheme discretises, collocationscheme.py:230-422. -/
def transcription {K : Type} [Field K] (ops : Expr.Ops K) (o : Ocp) (roots : List Rat)
    (elements degree degreeControl : Nat) : Except Err (Transcription K) := do
  let f ← o.functions elements
  .ok {
    dims := o.dims elements degree degreeControl
    roots := roots.map (Rat.cast : Rat → K)
    t0 := (o.t0 : K)
    tf := (o.tf : K)
    ode := fun el pt => (funAt (f.dae.map Prod.fst) el).callAt ops pt
    alg := fun el pt => (funAt (f.dae.map Prod.snd) el).callAt ops pt
    sCost := fun el pt => scalar ((funAt f.sCost el).callAt ops pt)
    gIneq := pathCons ops f.gIneq o.timeGIneq
    gEq := pathCons ops f.gEq o.timeGEq
    hInitial := fun x x0 => f.initial.call ops [x, x0]
    hFinal := fun x eta p => f.final.call ops [x, eta, p]
    h := fun p => f.timeless.call ops [p]
    vCost := fun x p => scalar (f.vCost.call ops [x, p])
    duMin := o.duMin.map boundValue
    duMax := o.duMax.map boundValue
    pOptIndices := o.pOptIndices
    thetaOptIndices := o.thetaOptIndices }

end Ocp
end Verif
