import Verif.Model.Ocp
/-!
# `OptimalControlProblem.create_quadratic_cost` (modelling/ocp.py)
-/
namespace Verif

/-- A numeric matrix; only the entries with indices below `rows` and `cols` are part of it. -/
structure Weight where
  rows : Nat
  cols : Nat
  entry : Nat → Nat → Rat

/-- The dictionary `par_dict`. -/
structure QuadPar where
  xRef : Option (List Rat) := none
  uRef : Option (List Rat) := none
  Q : Option Weight := none
  R : Option Weight := none
  Qv : Option Weight := none
  Rv : Option Weight := none

/-- Sum of expressions. -/
def Expr.sumOver (n : Nat) (f : Nat → Expr) : Expr :=
  (List.range n).foldr (fun i acc => .add (f i) acc) (.const 0)

/-- Entry of a vector of expressions. -/
def Expr.entry (v : List Expr) (i : Nat) : Expr := v[i]?.getD (.const 0)

/-- `mtimes(mtimes(v.T, W), v)`: a one-by-one `W` multiplies like a number, otherwise `W` has one row
and one column for each entry of `v`; other shapes are a `RuntimeError`. (A matrix with one column
per entry missing, for which CasADi gives a vector, is not distinguished from an error.) -/
def quadForm (v : List Expr) (W : Weight) : Except Err Expr :=
  if W.rows = 1 ∧ W.cols = 1 then
    .ok (.sumOver v.length fun j =>
      .mul (.mul (.entry v j) (.const (W.entry 0 0))) (.entry v j))
  else if W.rows = v.length ∧ W.cols = v.length then
    .ok (.sumOver v.length fun j =>
      .mul (.sumOver v.length fun i => .mul (.entry v i) (.const (W.entry i j))) (.entry v j))
  else .error .runtimeError

/-- `v - ref` for a vector of symbols and a vector of numbers. -/
def minusRef (v : List Sym) (ref : List Rat) : Except Err (List Expr) :=
  vecSub (v.map .sym) (ref.map .const)

namespace Ocp

/-- `if key in par_dict: cost += …`. -/
def addWeighted (W : Option Weight) (v : Except Err (List Expr)) (cost : Expr) : Except Err Expr :=
  match W with
  | none => .ok cost
  | some W => do
      let d ← v
      let q ← quadForm d W
      pure (.add cost q)

/-- The dictionary with the references filled in, ocp.py:784-787. -/
def withRefs (par : QuadPar) (o : Ocp) : QuadPar :=
  { par with
    xRef := some (par.xRef.getD (List.replicate o.model.x.length 0))
    uRef := some (par.uRef.getD (List.replicate o.model.u.length 0)) }

/-- `create_quadratic_cost(par_dict)`, ocp.py:781-808; the result is the dictionary after the
call. -/
def createQuadraticCost (par : QuadPar) : Py Ocp QuadPar := do
  Py.modify fun o => { o with
    L := .const 0
    V := .const 0 }
  let o ← Py.get
  let xRef := par.xRef.getD (List.replicate o.model.x.length 0)
  let uRef := par.uRef.getD (List.replicate o.model.u.length 0)
  let l₁ ← Py.lift (addWeighted par.Q (minusRef o.model.x xRef) (.const 0))
  Py.modify fun o => { o with L := l₁ }
  let l₂ ← Py.lift (addWeighted par.R (minusRef o.model.u uRef) l₁)
  Py.modify fun o => { o with L := l₂ }
  let v₁ ← Py.lift (addWeighted par.Qv (minusRef o.model.x xRef) (.const 0))
  Py.modify fun o => { o with V := v₁ }
  let v₂ ← Py.lift (addWeighted par.Rv (.ok (o.model.x.map .sym)) v₁)
  Py.modify fun o => { o with V := v₂ }
  pure (withRefs par o)

/-- Writing decision values into a parameter vector, `for i, ind in enumerate(indices): p[ind] =
values[i]`, collocationscheme.py:261-262 and 265-267, multipleshooting.py:168-169 and 172-174; the
same as `p[indices] = values`, collocationscheme.py:771-775 and multipleshooting.py:634-638. -/
def putValues {α : Type} (ind : List Nat) (values p : List α) : List α :=
  (ind.zip values).foldl (fun p iv => p.set iv.1 iv.2) p

/-- Reading the initial guess of the decision values, `p_opt_init[k] = p[ind]`,
collocationscheme.py:631-638, multipleshooting.py:495-502. -/
def getValues {α : Type} (ind : List Nat) (p : List α) : Except Err (List α) := gather p ind

end Ocp
end Verif
