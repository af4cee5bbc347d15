import Verif.Model.SystemModel
/-!
# `SystemModel.get_deepcopy`
-/
namespace Verif
namespace SysModel

/-- New symbols made by a deep copy, one list for each vector of the model. `x0` are the initial
condition symbols made by `create_state`. -/
structure Fresh where
  t : Sym
  tau : Sym
  x : List Sym
  x0 : List Sym
  y : List Sym
  u : List Sym
  p : List Sym
  theta : List Sym
  uPar : List Sym
  deriving DecidableEq, Repr

/-- The part of `get_deepcopy` that makes variables, system_model.py:488-529. -/
def deepCopyVariables (f : Fresh) : Py SysModel Unit := do
  Py.forEach (f.x.zip f.x0) fun xx => createState [xx.1] [xx.2]
  Py.forEach f.y fun s => includeAlgebraic [s] none
  Py.forEach f.u fun s => includeControl [s]
  Py.forEach f.p fun s => includeParameter [s]
  Py.forEach f.theta fun s => includeTheta [s]

/-- The part that copies and renames equations, system_model.py:531-545. `m` is the original. The
new symbols for `u_par` are made but not stored in the copy. -/
def deepCopyEquations (m : SysModel) (f : Fresh) : Py SysModel Unit := do
  includeEquations [] (some m.odeVec) none m.alg
  Py.modify fun c => { c with uPar := m.uPar, uExpr := m.uExpr }
  replaceVariable m.x (f.x.map .sym)
  replaceVariable m.y (f.y.map .sym)
  replaceVariable m.u (f.u.map .sym)
  replaceVariable m.p (f.p.map .sym)
  replaceVariable m.theta (f.theta.map .sym)
  replaceVariable m.uPar (f.uPar.map .sym)
  Py.modify fun c => { c with hasAdjoint := m.hasAdjoint }

/-- `get_deepcopy()`, system_model.py:480-547: a new model with its own `t` and `tau`. -/
def deepCopy (m : SysModel) (f : Fresh) : Except Err SysModel :=
  match (do deepCopyVariables f; deepCopyEquations m f : Py SysModel Unit) (new f.t f.tau) with
  | (.ok _, c) => .ok c
  | (.error e, _) => .error e

end SysModel
end Verif
