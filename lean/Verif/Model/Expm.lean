import Verif.Model.Py
import Mathlib.Data.Matrix.Mul
import Mathlib.Algebra.Field.Defs
/-!
# The matrix exponential (util/util.py)

`expm` integrates `x' = A x` from the columns of the identity. The integrator of the library is external:
it is given the right-hand side as a function of parameter and state, the final time, an initial state and
a parameter. The columns are integrated by independent calls (`map`).
-/
namespace Verif.Expm
open Verif

variable {r c : Nat} {K : Type}

/-- An integrator for systems of `n` differential equations with a parameter vector: right-hand side, final
time, initial state, parameter. -/
abbrev OdeIntegrator (n : Nat) (K : Type) :=
  (List K → (Fin n → K) → Fin n → K) → K → (Fin n → K) → List K → Fin n → K

/-- `vec(a)`: the columns one below the other, util.py:221 and 227. -/
def vec (a : Matrix (Fin r) (Fin c) K) : List K :=
  (List.finRange c).flatMap fun j => (List.finRange r).map fun i => a i j

/-- `ode = mtimes(a_mx, x_mx)` where `vec(a_mx)` is the parameter, util.py:218-221. -/
def ode [Field K] (p : List K) (x : Fin c → K) : Fin r → K :=
  fun i => ∑ j : Fin c, p.getD (j.val * r + i.val) 0 * x j

/-- The integrator is created, util.py:223: the number of equations must be the number of states. -/
def create [Field K] (integ : OdeIntegrator c K) (r : Nat) :
    Except Err ((Fin c → K) → List K → Fin c → K) :=
  if h : r = c then .ok (integ (fun p x i => ode (r := r) p x (Fin.cast h.symm i)) 1)
  else .error .runtimeError

/-- `expm(a_matrix)`, util.py:207-230. A map over no column is rejected by the library, util.py:224. -/
def expm [Field K] (integ : OdeIntegrator c K) (a : Matrix (Fin r) (Fin c) K) :
    Except Err (Matrix (Fin c) (Fin c) K) := do
  let run ← create integ r
  if c = 0 then .error .runtimeError
  else .ok (fun i j => run (fun k => if k = j then 1 else 0) (vec a) i)

end Verif.Expm
