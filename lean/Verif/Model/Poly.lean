import Verif.Model.Py
import Mathlib.Algebra.Field.Defs
import Mathlib.Algebra.BigOperators.Group.List.Defs
/-!
# Lagrange polynomial approximations

`roots` is what CasADi's `collocation_points(degree, "radau")` returns (external: assumed to be a
list of `degree` numbers). `tau` is symbolic in the code and only used through arithmetic, so the
model computes the value of the returned expression at a point `tau`.
A matrix of parameters is a function `points row column`, `vec` is column-major.
-/
namespace Verif

/-- CasADi `vec(M)` of an `n × m` matrix: columns one after the other. -/
def vecMat {α : Type u} (n m : Nat) (M : Nat → Nat → α) : List α :=
  (List.range m).flatMap fun j => (List.range n).map fun i => M i j

/-- One basis polynomial: the inner loop, util.py:270-275 and solutionmethodsbase.py:145-148
(`nodes` with their indices, `j` the index of the node `rj`). -/
def lagrangeFactor {K : Type u} [Field K] (nodes : List (K × Nat)) (tau : K) (rj : K × Nat) : K :=
  nodes.foldl (fun ell rk => if rk.2 ≠ rj.2 then ell * ((tau - rk.1) / (rj.1 - rk.1)) else ell) 1

/-- `util._create_lagrangian_polynomial_basis(tau, degree, point_at_zero)`, util.py:258-278. -/
def lagrangeBasisUtil {K : Type u} [Field K] (roots : List K) (pointAtZero : Bool) (tau : K) :
    List K :=
  let tauRoot := if pointAtZero then 0 :: roots else roots
  tauRoot.zipIdx.map (lagrangeFactor tauRoot.zipIdx tau)

/-- `SolutionMethodsBase._create_lagrangian_polynomial_basis(degree, starting_index, tau)`,
solutionmethodsbase.py:131-151. `range(starting_index, degree + 1)` are the indices of
`[0] + roots` from `starting_index` on. -/
def lagrangeBasisMethod {K : Type u} [Field K] (roots : List K) (startingIndex : Nat) (tau : K) :
    List K :=
  let tauRoot := 0 :: roots
  let nodes := tauRoot.zipIdx.drop startingIndex
  nodes.map (lagrangeFactor nodes tau)

/-- `sum(ell_list[j] * points[:, j] for j in range(n_par))`, row `s`, util.py:317. -/
def polyRow {K : Type u} [Field K] (ell : List K) (points : Nat → Nat → K) (s : Nat) : K :=
  (ell.zipIdx.map fun lj => lj.1 * points s lj.2).sum

/-- `util.create_polynomial_approximation(tau, size, degree, point_at_zero)`, util.py:281-320: the
value of `pol` at `tau`. Degree one returns the parameters themselves. -/
def polyApproxUtil {K : Type u} [Field K] (roots : List K) (size degree : Nat)
    (pointAtZero : Bool) (points : Nat → Nat → K) (tau : K) : List K :=
  if degree = 1 then (List.range size).map fun s => points s 0
  else (List.range size).map (polyRow (lagrangeBasisUtil roots pointAtZero tau) points)

/-- Number of parameter columns in `create_polynomial_approximation`, util.py:302. -/
def polyNumColumns (degree : Nat) (pointAtZero : Bool) : Nat :=
  if pointAtZero && decide (degree > 1) then degree + 1 else degree

/-- `SolutionMethodsBase.create_variable_polynomial_approximation(size, degree, point_at_t0)`,
solutionmethodsbase.py:153-197. With `size = 0` and `point_at_t0` the empty parameter matrix has
`degree` columns but column `degree` is read: CasADi raises (an out-of-bounds `RuntimeError`). -/
def polyApproxMethod {K : Type u} [Field K] (roots : List K) (size degree : Nat)
    (pointAtT0 : Bool) (points : Nat → Nat → K) (tau : K) : Except Err (List K) :=
  if degree = 1 then .ok ((List.range size).map fun s => points s 0)
  else if pointAtT0 then
    if size > 0 then
      .ok ((List.range size).map (polyRow (lagrangeBasisMethod roots 0 tau) points))
    else .error .runtimeError
  else .ok ((List.range size).map (polyRow (lagrangeBasisMethod roots 1 tau) points))

end Verif
