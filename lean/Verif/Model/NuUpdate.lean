import Verif.Model.AugLag
import Verif.Model.Export
/-!
# The violations of the relaxed constraints

`AugmentedLagrangian._create_nu_update_func`: how the values of the relaxed constraints, which
`Model/AugLag.lean` takes as given, are computed from the decision variables of the solver.
-/
namespace Verif.AugLag
open Verif Transcription

variable {K : Type} [Field K] [LinearOrder K]

/-- The relaxed constraints: `solution_class == "direct"` of the solver and the functions
`f_relax_alg`, `f_relax_eq` of each element, augmented_lagrangian.py:427-450 (after `u` was replaced by
`u_expr` and `tau` by the time of the element). -/
structure Relaxed (K : Type) where
  direct : Bool
  alg : Nat → Point K → List K
  eq : Nat → Point K → List K

/-- `vertcat(rel_alg_kj, rel_eq_kj)`, augmented_lagrangian.py:468-470. -/
def Relaxed.value (r : Relaxed K) (el : Nat) (pt : Point K) : List K := r.alg el pt ++ r.eq el pt

/-- `time_dict[el]["f_relax_alg"]`, augmented_lagrangian.py:418-424: the same times for all three
functions. -/
def nuTimes (o : Opts K) (el : Nat) : List K := (List.range o.degree).map (o.timeNu el)

/-- The arguments of the functions at a time, collocationscheme.py:511-558. -/
def pointOf (m : Transcription K) (r : Relaxed K) (b : Blocks K) (p theta : List K) (el : Nat) (t : K) :
    Except Err (Point K) := do
  let x ← m.stateAt b el t
  let y ← m.algebraicAt b el t
  pure ⟨t, x, y, p, theta, if r.direct then vectorize (b.u.getD el []) else []⟩

/-- `results[el][...]` for the collocation scheme, collocationscheme.py:424-560 as called in
augmented_lagrangian.py:453-455: the points, in the order of time. -/
def pointsCollocation (m : Transcription K) (o : Opts K) (r : Relaxed K) (b : Blocks K) (p : List K)
    (theta : List (List K)) (el : Nat) : Except Err (List (Point K)) :=
  (sortedTimes (nuTimes o el)).mapM (pointOf m r b p (theta.getD el []) el)

/-- `results[el][...]` for multiple shooting, multipleshooting.py:286-431. A time at the start of the
element is not implemented (multipleshooting.py:362-364). -/
def pointsShooting (m : ShootingMethod K) (o : Opts K) (b : Blocks K) (p : List K)
    (theta : List (List K)) (el : Nat) : Except Err (List (Point K)) := do
  let xs ← itemAt b.x el
  let xInit ← itemAt xs 0
  if m.breakpoint el ∈ nuTimes o el then .error .notImplementedError
  else .ok (m.simulateAll b p (theta.getD el []) el (m.breakpoint el) xInit (sortedTimes (nuTimes o el)))

/-- `results[el]["f_relax_alg"][j]` and the same for the equalities, augmented_lagrangian.py:463-470. -/
def valueAt (r : Relaxed K) (points : List (Point K)) (el j : Nat) : Except Err (List K) :=
  (itemAt points j).map (r.value el)

/-- The values of the relaxed constraints at the points of all elements,
augmented_lagrangian.py:457-477. -/
def collect (o : Opts K) (r : Relaxed K) (points : Nat → Except Err (List (Point K))) :
    Except Err (List (List (List K))) :=
  (List.range o.elements).mapM fun el => (points el).bind fun pts =>
    (List.range o.degree).mapM (valueAt r pts el)

/-- `new_nu_func(x, p, theta)`: the violations, augmented_lagrangian.py:399-481. Simplification: the
multipliers, the first output, are in `newNu`. The decision values of the optimised parameters are
unpacked and not used. -/
def violationsCollocation (m : Transcription K) (o : Opts K) (r : Relaxed K) (p : List K)
    (theta : List (List K)) (v : List K) : Except Err (List (List (List K))) := do
  let b ← Layout.collocationBlocks m.dims v
  collect o r (pointsCollocation m o r b p theta)

/-- The same for multiple shooting. -/
def violationsShooting (m : ShootingMethod K) (o : Opts K) (r : Relaxed K) (p : List K)
    (theta : List (List K)) (v : List K) : Except Err (List (List (List K))) := do
  let b ← Layout.shootingBlocks m.dims v
  collect o r (pointsShooting m o b p theta)

end Verif.AugLag
