import Verif.Model.Ocp
/-!
# Relaxations of the augmented Lagrangian (methods/augmented_lagrangian.py)

What the constructor of `AugmentedLagrangian` does with the problem: equations and bounds become
terms of the running cost. `SX.sym` makes symbols nobody else has; the model takes them from a
counter. Expressions are built without CasADi's simplifications.
-/
namespace Verif

/-- The attributes of an `AugmentedLagrangian` used by the relaxations,
augmented_lagrangian.py:155-210, and the counter of the symbols made. -/
structure Relax where
  problem : Ocp
  nRelax : Nat := 0
  nuSym : List Sym := []
  muSym : List Sym := []
  mu : List Rat := []
  relaxedAlg : List Expr := []
  relaxedEq : List Expr := []
  nuPar : List Sym := []
  next : Sym
  deriving DecidableEq

namespace Relax

/-- `SX.sym(name, n)`. -/
def newSyms (n : Nat) : Py Relax (List Sym) := fun s =>
  (.ok ((List.range n).map (s.next + ·)), { s with next := s.next + n })

/-- A method of the problem, `self.problem.f(...)`. -/
def onProblem {α : Type} (c : Py Ocp α) : Py Relax α := fun s =>
  ((c s.problem).1, { s with problem := (c s.problem).2 })

/-- `_create_mu_variable(size)`, augmented_lagrangian.py:386-390. -/
def createMu (mu0 : Rat) (size : Nat) : Py Relax (List Sym) := do
  let new ← newSyms size
  onProblem (Ocp.onModel (SysModel.includeParameter new))
  Py.modify fun s => { s with
    muSym := s.muSym ++ new
    mu := s.mu ++ List.replicate size mu0 }
  Py.pure new

/-- `a.T @ b` for two columns. -/
def dotExpr (a b : List Expr) : Expr := (List.zipWith Expr.mul a b).foldl .add (.const 0)

/-- `nu.T @ r + 1 / 2.0 * r.T @ diag(mu) @ r`, augmented_lagrangian.py:298-301. -/
def penalty (nu mu : List Sym) (r : List Expr) : Expr :=
  .add (dotExpr (nu.map .sym) r)
    (dotExpr (List.zipWith (fun e m => .mul (.mul (.const (1 / 2)) e) (.sym m)) r mu) r)

/-- `self.problem.L += e`. -/
def addToCost (e : Expr) : Py Relax Unit :=
  onProblem (Py.modify fun o => { o with L := .add o.L e })

/-- `_include_relax_in_objective(relaxed_eqs)`, augmented_lagrangian.py:287-301. -/
def includeInObjective (mu0 : Rat) (r : List Expr) : Py Relax Unit := do
  Py.modify fun s => { s with nRelax := s.nRelax + r.length }
  let nu ← newSyms r.length
  Py.modify fun s => { s with nuSym := s.nuSym ++ nu }
  let mu ← createMu mu0 r.length
  addToCost (penalty nu mu r)

/-- The guess of the new controls, augmented_lagrangian.py:314-318: taken at the indices of the
equations. -/
def relaxedGuess (idx : List Nat) : Option (List Rat) → Except Err (Option (List Rat))
  | none => .ok none
  | some g => (gather g idx).map some

/-- `_relax_algebraic_equations()`, augmented_lagrangian.py:303-328, with
`relax_algebraic_index = idx` and `relax_algebraic_var_index = vidx`. -/
def relaxAlgebraic (mu0 : Rat) (idx vidx : List Nat) : Py Relax Unit := do
  let s ← Py.get
  let r ← Py.lift (gather s.problem.model.alg idx)
  Py.modify fun s => { s with relaxedAlg := s.relaxedAlg ++ r }
  includeInObjective mu0 r
  let g ← Py.lift (relaxedGuess idx s.problem.yGuess)
  let var ← Py.lift (gather s.problem.model.y vidx)
  let hi ← Py.lift (gather s.problem.yMax vidx)
  let lo ← Py.lift (gather s.problem.yMin vidx)
  onProblem (Ocp.includeControl var (some lo) (some hi) none none g)
  onProblem (Ocp.removeAlgebraic var (some r))

/-- `self.problem.time_g_eq.pop(ind)`, augmented_lagrangian.py:346. -/
def popTag (ind : Nat) : Py Relax Unit := fun s =>
  if ind < s.problem.timeGEq.length then
    (.ok (), { s with problem := { s.problem with timeGEq := s.problem.timeGEq.eraseIdx ind } })
  else (.error .indexError, s)

/-- `_relax_time_equalities()`, augmented_lagrangian.py:330-346. -/
def relaxTimeEqualities (mu0 : Rat) (idx : List Nat) : Py Relax Unit := do
  let s ← Py.get
  let r ← Py.lift (gather s.problem.gEq idx)
  Py.modify fun s => { s with relaxedEq := s.relaxedEq ++ r }
  includeInObjective mu0 r
  let g ← Py.lift (removeByIndices (idx.map Int.ofNat) s.problem.gEq)
  onProblem (Py.modify fun o => { o with gEq := g })
  Py.forEach (idx.mergeSort (fun a b => decide (b ≤ a))) popTag

/-- `x[i]` for one index; out of range is a `RuntimeError`. -/
def entry {α : Type} (v : List α) (i : Nat) : Except Err α :=
  match v[i]? with
  | some a => .ok a
  | none => .error .runtimeError

/-- The body of the branch of `_relax_states_constraints`, augmented_lagrangian.py:351-368. -/
def relaxState (mu0 : Rat) (i : Nat) (x : Sym) (lo hi : XRat) : Py Relax Unit := do
  let yx ← newSyms 1
  let nu ← newSyms 1
  Py.modify fun s => { s with nuSym := s.nuSym ++ nu }
  let mu ← createMu mu0 1
  let new := yx.map fun y => Expr.sub (.sym y) (.sym x)
  addToCost (.add (dotExpr (nu.map .sym) new)
    (dotExpr (mu.map fun m => .div (.sym m) (.const 2)) [dotExpr new new]))
  Py.modify fun s => { s with relaxedAlg := s.relaxedAlg ++ new }
  onProblem (Ocp.includeControl yx (some [lo]) (some [hi]) none none none)
  onProblem (Py.modify fun o => { o with
    xMax := o.xMax.set i ⊤
    xMin := o.xMin.set i ⊥ })
  Py.modify fun s => { s with nRelax := s.nRelax + 1 }

/-- Loop body of `_relax_states_constraints`, augmented_lagrangian.py:349-368. Simplification: both
bounds are read before the test; the code reads the lower one only when the upper one is infinite
(no difference when the bounds have the size of the state). -/
def relaxStateAt (mu0 : Rat) (i : Nat) : Py Relax Unit := do
  let s ← Py.get
  let hi ← Py.lift (entry s.problem.xMax i)
  let lo ← Py.lift (entry s.problem.xMin i)
  let x ← Py.lift (entry s.problem.model.x i)
  if hi ≠ ⊤ ∨ lo ≠ ⊥ then relaxState mu0 i x lo hi else Py.pure ()

/-- `_relax_states_constraints()`, augmented_lagrangian.py:348-368. -/
def relaxStates (mu0 : Rat) : Py Relax Unit := do
  let s ← Py.get
  Py.forEach (List.range s.problem.model.x.length) (relaxStateAt mu0)

/-- The keyword arguments about relaxations, augmented_lagrangian.py:127-131. -/
structure Args where
  algIndex : Option (List Nat) := none
  algVarIndex : Option (List Nat) := none
  timeIndex : Option (List Nat) := none
  stateBounds : Bool := false

/-- `relax_algebraic_index`, augmented_lagrangian.py:190-194. -/
def Args.alg (a : Args) (o : Ocp) : List Nat :=
  a.algIndex.getD (List.range o.model.y.length)

/-- `relax_algebraic_var_index`, augmented_lagrangian.py:195-199. -/
def Args.algVar (a : Args) (o : Ocp) : List Nat := a.algVarIndex.getD (a.alg o)

/-- `relax_time_equality_index`, augmented_lagrangian.py:200. -/
def Args.time (a : Args) : List Nat := a.timeIndex.getD []

/-- `if self.model.alg[idx].numel() > 0: c`, augmented_lagrangian.py:214 and 217. Both tests look at
the algebraic equations. -/
def ifEquations (idx : List Nat) (c : Py Relax Unit) : Py Relax Unit := do
  let s ← Py.get
  let r ← Py.lift (gather s.problem.model.alg idx)
  if r.length > 0 then c else Py.pure ()

/-- The relaxations of the constructor, augmented_lagrangian.py:214-221. -/
def relax (mu0 : Rat) (a : Args) : Py Relax Unit := do
  let s ← Py.get
  ifEquations (a.alg s.problem) (relaxAlgebraic mu0 (a.alg s.problem) (a.algVar s.problem))
  ifEquations a.time (relaxTimeEqualities mu0 a.time)
  if a.stateBounds then relaxStates mu0 else Py.pure ()

/-- The object before the relaxations, augmented_lagrangian.py:155-210; `next` is above all symbols
of the problem. -/
def start (o : Ocp) (next : Sym) : Relax where
  problem := o
  next := next

end Relax
end Verif
