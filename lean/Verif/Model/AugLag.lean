import Verif.Model.Poly
import Mathlib.Algebra.Order.Group.Unbundled.Abs
import Mathlib.Algebra.Order.Ring.Defs
/-!
# Augmented Lagrangian: multipliers, penalties and the solution loop

The relaxation of the problem is in `Model/Relax.lean`. Here is what happens afterwards: the options,
the update of multipliers and penalties from a solution, and the loop of `solve`. Numbers are in an
ordered field `K`. External: the solver of the relaxed problem (an arbitrary function of the
multipliers, the penalties and the iteration) and the collocation points. A solution is represented by
the violations of the relaxed constraints, `viol[el][j][i]` for element `el`, collocation point `j`
and constraint `i` (in the order of `vertcat(relaxed_alg, relaxed_eq)`), which is all that the method
reads from it. `theta` and `p` of the user are passed to the solver unchanged and are not modelled.
-/
namespace Verif.AugLag
open Verif

variable {K : Type} [Field K] [LinearOrder K]

/-! ## Options -/

/-- `AugmentedLagrangianOptions`, augmented_lagrangian.py:56-87, with the horizon of the problem, the
number of relaxed constraints, the degree with which the multipliers were parametrised
(`_parametrize_nu`) and CasADi's `collocation_points(d, "radau")`. -/
structure Opts (K : Type) where
  roots : Nat → List K
  t0 : K
  tf : K
  nRelax : Nat
  nuDegree : Nat
  degree : Nat
  elements : Nat
  maxIter : Nat
  tol : K
  muMax : K
  beta : K
  minDecrease : K
  rule : String := "bounded-increase"
  onlyImprove : Bool := false
  skipCompute : Bool := false
  skipUpdateNu : Bool := false
  skipUpdateMu : Bool := false

/-- The attributes of the object that change after the construction, augmented_lagrangian.py:161-222.
Not in the code:
`solves` records the multipliers and penalties of every call of the solver, `errors` the errors computed
in the loop. -/
structure St (K : Type) where
  nu : List (List K)
  nuTilde : Option (List (List K)) := none
  mu : List K
  lastError : Option (List K) := none
  solves : List (List (List K) × List K) := []
  errors : List (List K) := []
deriving DecidableEq

/-- `create_nu_initial_guess`, augmented_lagrangian.py:392-397, and the initial penalties,
`_create_mu_variable`, augmented_lagrangian.py:386-390. -/
def start (o : Opts K) (mu0 : K) : St K where
  nu := List.replicate o.elements (List.replicate (o.nRelax * o.nuDegree) 0)
  mu := List.replicate o.nRelax mu0

/-! ## New multipliers -/

/-- `delta_t`, solutionmethodsbase.py:104-106. -/
def Opts.deltaT (o : Opts K) : K := (o.tf - o.t0) / (o.elements : K)

/-- `time_breakpoints[k]`, solutionmethodsbase.py:108-110. -/
def Opts.breakpoint (o : Opts K) (k : Nat) : K := o.deltaT * (k : K)

/-- `time_interpolation_nu[el][j]`, augmented_lagrangian.py:275-285. -/
def Opts.timeNu (o : Opts K) (el j : Nat) : K :=
  o.breakpoint el + o.deltaT * (o.roots o.degree)[j]?.getD 0

/-- `nu_par` is an `n_relax × degree` matrix filled from its `vec`. -/
def entryOf (n : Nat) (v : List K) (i j : Nat) : K := v[j * n + i]?.getD 0

/-- `f_nu` of element `el` at a time: `nu_pol` with `tau` replaced by the time of the element,
augmented_lagrangian.py:373-384, 440-444 and util.py:191-204. -/
def nuAt (o : Opts K) (nuEl : List K) (el : Nat) (t : K) : List K :=
  polyApproxUtil (o.roots o.nuDegree) o.nRelax o.nuDegree false (entryOf o.nRelax nuEl)
    ((t - o.breakpoint el) / (o.breakpoint (el + 1) - o.breakpoint el))

/-- `nu_kj + mu_mx * rel_kj`, augmented_lagrangian.py:472. -/
def newNuAt (o : Opts K) (mu nuEl rel : List K) (el j : Nat) : List K :=
  List.zipWith (· + ·) (nuAt o nuEl el (o.timeNu el j)) (List.zipWith (· * ·) mu rel)

/-- The violations at one collocation point. -/
def violAt (viol : List (List (List K))) (el j : Nat) : List K :=
  (viol[el]?.bind (·[j]?)).getD []

/-- `nu_tilde` of `_compute_new_nu_and_error`, augmented_lagrangian.py:767-772: `vec` of the columns
of the element. -/
def newNu (o : Opts K) (mu : List K) (nu : List (List K)) (viol : List (List (List K))) :
    List (List K) :=
  (List.range o.elements).map fun el => (List.range o.degree).flatMap fun j =>
    newNuAt o mu (nu[el]?.getD []) (violAt viol el j) el j

/-- CasADi `mmax(fabs(row))`. -/
def maxAbs (l : List K) : K := l.foldl (fun m v => max m |v|) 0

/-- All values of constraint `i`: one row of `vertcat(rel_alg, rel_eq)`. -/
def rowOf (o : Opts K) (viol : List (List (List K))) (i : Nat) : List K :=
  (List.range o.elements).flatMap fun el => (List.range o.degree).map fun j =>
    (violAt viol el j)[i]?.getD 0

/-- `errors`, augmented_lagrangian.py:763-765. -/
def rowErrors (o : Opts K) (viol : List (List (List K))) : List K :=
  (List.range o.nRelax).map fun i => maxAbs (rowOf o viol i)

/-! ## The updates -/

/-- `for el in self.nu_tilde: self.nu_tilde[el][ind] = nu_tilde[el][ind]`,
augmented_lagrangian.py:785-786. A `None` cannot be iterated over. -/
def copyEntry (tilde : List (List K)) (ind : Nat) : Py (St K) Unit := do
  let s ← Py.get
  match s.nuTilde with
  | none => Py.throw .typeError
  | some own => Py.modify fun s => { s with
      nuTilde := some (List.zipWith (fun o n => o.set ind (n[ind]?.getD 0)) own tilde) }

/-- Body of the loop over the constraints, augmented_lagrangian.py:780-788. -/
def improveEntry (tilde : List (List K)) (e : (K × K) × Nat) : Py (St K) Unit :=
  if e.1.1 - e.1.2 < 0 then do
    Py.modify fun s => { s with lastError := s.lastError.map (·.set e.2 e.1.1) }
    copyEntry tilde e.2
  else Py.pure ()

/-- The assignment of the new multipliers, augmented_lagrangian.py:774-790. -/
def storeNu (o : Opts K) (errors : List K) (tilde : List (List K)) : Py (St K) Unit := do
  let s ← Py.get
  match o.onlyImprove && errors.any (fun e => decide (0 < e)), s.lastError with
  | true, some last => Py.forEach (errors.zip last).zipIdx (improveEntry tilde)
  | _, _ => Py.modify fun s => { s with nuTilde := some tilde }

/-- `_compute_new_nu_and_error`, augmented_lagrangian.py:718-791. Simplification: `alg_violation` and
`eq_violation`, which are only stored, are left out. -/
def computeNu (o : Opts K) (viol : List (List (List K))) : Py (St K) (List K) := do
  if o.skipCompute then Py.pure [0]
  else
    let s ← Py.get
    if o.skipUpdateNu then Py.pure ()
    else storeNu o (rowErrors o viol) (newNu o s.mu s.nu viol)
    Py.pure (rowErrors o viol)

/-- One entry of `_update_mu_primal`, augmented_lagrangian.py:663-672. -/
def primalEntry (o : Opts K) (m err last : K) : K :=
  if err ≤ o.minDecrease * last then m else min o.muMax (m * o.beta)

/-- `_update_mu_primal`, augmented_lagrangian.py:659-672: entries without error or last error are
kept. -/
def primalMu (o : Opts K) : List K → List K → List K → List K
  | m :: mu, e :: err, l :: last => primalEntry o m e l :: primalMu o mu err last
  | mu, _, _ => mu

/-- `_update_mu`, augmented_lagrangian.py:637-657. -/
def updateMu (o : Opts K) (error : List K) (lastError : Option (List K)) : Py (St K) Unit :=
  if o.skipUpdateMu then Py.pure ()
  else if o.rule = "constant" then Py.pure ()
  else if o.rule = "primal" then
    Py.whenSome lastError fun last =>
      Py.modify fun s => { s with mu := primalMu o s.mu error last }
  else if o.rule = "primal-dual" then Py.pure ()
  else if o.rule = "bounded-increase" then
    Py.modify fun s => { s with mu := s.mu.map fun m => min o.muMax (m * o.beta) }
  else Py.throw .valueError

/-- `update_parameters`, augmented_lagrangian.py:620-635. -/
def updateParameters (o : Opts K) (viol : List (List (List K))) : Py (St K) (List K) := do
  let error ← computeNu o viol
  let s ← Py.get
  updateMu o error s.lastError
  Py.modify fun s => { s with lastError := some error }
  Py.pure error

/-- `set_mu`, augmented_lagrangian.py:674-682. -/
def setMu (mu : List K) : Py (St K) Unit := do
  let s ← Py.get
  if mu.length = s.mu.length then Py.modify fun s => { s with mu := mu }
  else match mu with
    | [m] => Py.modify fun s => { s with mu := s.mu.map fun _ => m }
    | _ => Py.throw .valueError

/-! ## The loop -/

/-- The solver of the relaxed problem. -/
abbrev Solver (K : Type) := List (List K) → List K → Nat → Except Err (List (List (List K)))

/-- The error of an iteration, augmented_lagrangian.py:569-573. -/
def iterationError (o : Opts K) (noUpdate : Bool) (viol : List (List (List K))) :
    Py (St K) (Option (List K)) :=
  if noUpdate then Py.pure none
  else do
    let e ← updateParameters o viol
    Py.modify fun s => { s with errors := s.errors ++ [e] }
    Py.pure (some e)

/-- `not self.no_update_after_solving and all((error < self.options.tol).nz)`,
augmented_lagrangian.py:589-594. -/
def meets (o : Opts K) (error : Option (List K)) : Bool :=
  match error with
  | none => false
  | some e => e.all fun x => decide (x < o.tol)

/-- One iteration of the loop of `call_solver`, augmented_lagrangian.py:544-600: the solution and
whether the loop is left. -/
def iteration (o : Opts K) (noUpdate : Bool) (solve : Solver K) (k : Nat) :
    Py (St K) (List (List (List K)) × Bool) := do
  Py.modify fun s => { s with nu := s.nuTilde.getD s.nu }
  let s ← Py.get
  Py.modify fun s => { s with solves := s.solves ++ [(s.nu, s.mu)] }
  let viol ← Py.lift (solve s.nu s.mu k)
  let error ← iterationError o noUpdate viol
  Py.pure (viol, meets o error)

/-- `for n_it in range(max_iter)`, `n` iterations to go. -/
def iterations (o : Opts K) (noUpdate : Bool) (solve : Solver K) :
    Nat → Nat → Option (List (List (List K))) → Py (St K) (Option (List (List (List K))))
  | 0, _, last => Py.pure last
  | n + 1, k, _ => (iteration o noUpdate solve k).bind fun r =>
      if r.2 then Py.pure (some r.1) else iterations o noUpdate solve n (k + 1) (some r.1)

/-- `call_solver`, augmented_lagrangian.py:529-618. Without iterations `n_it` is not bound when it is
tested. -/
def callSolver (o : Opts K) (noUpdate : Bool) (solve : Solver K) :
    Py (St K) (List (List (List K))) :=
  (iterations o noUpdate solve o.maxIter 0 none).bind fun
    | none => Py.throw .unboundLocalError
    | some r => Py.pure r

/-! ## Options of the method and of its solver -/

/-- A discretisation option given by name: `degree` and `finite_elements` are treated alike. -/
structure Given where
  /-- value in `options` (always there: dataclass default) -/
  own : Nat
  /-- value in `solver_options` -/
  solver : Option Nat
  /-- value among the keyword arguments -/
  keyword : Option Nat

/-- One round of the loop that makes the options agree, augmented_lagrangian.py:240-259: the value in
`options` and in `solver_options` afterwards. -/
def syncOption (g : Given) : Except Err (Nat × Nat) :=
  match g.solver, g.keyword with
  | some s, some k => if s ≠ k then .error .valueError else .ok (s, s)
  | some s, none => .ok (s, s)
  | none, _ => .ok (g.own, g.own)

/-- The discretisation after the constructor, augmented_lagrangian.py:223-264. -/
structure Built where
  /-- degree of `nu_par` and number of elements of `self.nu` -/
  nuDegree : Nat
  nuElements : Nat
  /-- `self.options` -/
  degree : Nat
  elements : Nat
  /-- what the solver of the relaxed problem is given -/
  solverDegree : Nat
  solverElements : Nat
deriving DecidableEq

/-- The part of the constructor about the discretisation, augmented_lagrangian.py:223-264: the
multipliers are made before the options agree. -/
def build (degree elements : Given) : Except Err Built := do
  let d ← syncOption degree
  let e ← syncOption elements
  .ok { nuDegree := degree.own, nuElements := elements.own, degree := d.1, elements := e.1,
        solverDegree := d.2, solverElements := e.2 }

end Verif.AugLag
