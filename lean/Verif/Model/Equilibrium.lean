import Verif.Model.SystemModel
/-!
# `find_equilibrium` and `linearize` (modelling/system_model.py)

CasADi's `rootfinder` is a parameter.
-/
namespace Verif
namespace Equilibrium

/-- `rootfinder(...)(guess)` for unknowns, equations and a guess of the right size. -/
abbrev Rootfinder (K : Type) := List Sym → List Expr → List K → Except Err (List K)

variable {K : Type} [Field K]

/-- The arguments of the function, `vertcat(*self.all_sym[1:-1])`, system_model.py:749. -/
def unknowns (m : SysModel) : List Sym := (m.allSym.tail.dropLast).flatten

/-- The equations, system_model.py:746-748. -/
def equations (m : SysModel) (additional : List Expr) (t0 : Rat) : List Expr :=
  (m.odeVec ++ m.alg ++ additional).map fun e =>
    (e.subst [m.t] [.const t0]).subst [m.tau] [.const 0]

/-- `Function(name, [v], [eqs])`: a symbol that is not an argument is a `RuntimeError`. -/
def functionOf (v : List Sym) (eqs : List Expr) : Except Err (List Expr) :=
  if eqs.all (fun e => e.syms.all fun s => decide (s ∈ v)) then .ok eqs else .error .runtimeError

/-- The guess, system_model.py:741-742. -/
def guessOf (m : SysModel) (guess : Option (List K)) : List K :=
  guess.getD (List.replicate (m.x.length + m.y.length + m.u.length) 1)

/-- A guess of the size of the unknowns; one number stands for all of them. -/
def fit (n : Nat) (g : List K) : Except Err (List K) :=
  if g.length = n then .ok g
  else match g with
    | [a] => .ok (List.replicate n a)
    | _ => .error .runtimeError

/-- CasADi's `rootfinder` needs as many equations as unknowns. -/
def square (v : List Sym) (eqs : List Expr) : Except Err Unit :=
  if eqs.length = v.length then .ok () else .error .runtimeError

/-- The argument `additional_eqs`: a vector, or a list of scalars. -/
inductive Additional
  | vector (v : List Expr)
  | list (l : List Expr)
  deriving DecidableEq

/-- As a vector, system_model.py:743-744: `vertcat()` of nothing is a `NotImplementedError`. -/
def Additional.toVector : Additional → Except Err (List Expr)
  | .vector v => .ok v
  | .list [] => .error .notImplementedError
  | .list l => .ok l

/-- `find_equilibrium(additional_eqs, guess, t_0)`, system_model.py:714-757. -/
def findEquilibrium (rf : Rootfinder K) (m : SysModel) (additional : Additional)
    (guess : Option (List K)) (t0 : Rat) : Except Err (List K × List K × List K) := do
  let more ← additional.toVector
  let eqs ← functionOf (unknowns m) (equations m more t0)
  square (unknowns m) eqs
  let g ← fit (unknowns m).length (guessOf m guess)
  let res ← rf (unknowns m) eqs g
  .ok (res.take m.x.length, (res.drop m.x.length).take m.y.length,
    res.drop (m.x.length + m.y.length))

/-- The keywords of `SystemModel.__init__`, system_model.py:42. -/
def ctorKeywords : List String := ["name", "model_name_as_prefix"]

/-- A call of `SystemModel` with these keywords. -/
def newModel (keywords : List String) (t tau : Sym) : Except Err SysModel :=
  if keywords.all (fun k => decide (k ∈ ctorKeywords)) then .ok (SysModel.new t tau)
  else .error .typeError

/-- `linearize(x_bar, u_bar)`, system_model.py:695-712. The two Jacobians, `jacobians`, are made first;
the rest of the function is not reached. -/
def linearize (jacobians : Except Err Unit) (t tau : Sym) : Except Err SysModel := do
  jacobians
  newModel ["n_x", "n_u"] t tau

end Equilibrium
end Verif
