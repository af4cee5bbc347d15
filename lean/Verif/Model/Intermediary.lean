import Verif.Model.AugLag
/-!
# Intermediary nodes

`IntermediaryNodeSolutionMethod`, intermediary_node_solution_method.py: the local method of the nodes
that are put between two connected nodes. It inherits from the augmented Lagrangian, whose state it
uses. `theta` is the list of the parameters of the elements, after `_get_node_theta`
(`DistAL.nodeTheta`): the values of the first neighbour and those of the second one.
-/
namespace Verif.Intermediary
open Verif Verif.AugLag

variable {K : Type} [Field K] [LinearOrder K]

/-- CasADi `vertsplit(v, degree)[i]`. -/
def chunk (degree : Nat) (v : List K) (i : Nat) : Except Err (List K) :=
  if i * degree < v.length then .ok ((v.drop (i * degree)).take degree) else .error .indexError

/-- `split_vector(i)`, intermediary_node_solution_method.py:115-120 and 164-169: the `i`-th piece of
every element, element after element. -/
def splitVector (degree : Nat) (theta : List (List K)) (i : Nat) : Except Err (List K) :=
  (theta.mapM fun v => chunk degree v i).map List.flatten

/-- `y_p1, u_p2, nu_p1_c, nu_c_p2`, intermediary_node_solution_method.py:121 and 170. -/
structure Parts (K : Type) where
  y1 : List K
  u2 : List K
  nu1 : List K
  nu2 : List K
deriving DecidableEq

/-- `join_nu_to_theta(theta, self.nu)`, augmented_lagrangian.py:484-488, followed by the split. -/
def parts (degree : Nat) (theta nu : List (List K)) : Except Err (Parts K) := do
  let joined := List.zipWith (· ++ ·) theta nu
  let y1 ← splitVector degree joined 0
  let u2 ← splitVector degree joined 1
  let nu1 ← splitVector degree joined 2
  let nu2 ← splitVector degree joined 3
  .ok ⟨y1, u2, nu1, nu2⟩

/-- `u_c`, intermediary_node_solution_method.py:33, at one point. -/
def value (mu y1 u2 nu1 nu2 : K) : K := (nu2 - nu1) / (2 * mu) + (y1 + u2) / 2

/-- The same at all points. Simplification: CasADi rejects arguments of the wrong size before the
evaluation; pieces of equal size are assumed. -/
def values (mu : K) (p : Parts K) : List K :=
  (List.range p.y1.length).map fun i =>
    value mu (p.y1[i]?.getD 0) (p.u2[i]?.getD 0) (p.nu1[i]?.getD 0) (p.nu2[i]?.getD 0)

/-- `p_k[0]` of `vertcat(p, self.mu) if p is not None else self.mu`,
intermediary_node_solution_method.py:162 and 172. -/
def firstParameter (p : Option (List K)) (mu : List K) : Except Err K :=
  match p.getD [] ++ mu with
  | [] => .error .indexError
  | m :: _ => .ok m

/-- `solve`, intermediary_node_solution_method.py:160-175: the values of the intermediary variable,
element after element. It is both the control and the algebraic variable of the result. -/
def solve (o : Opts K) (theta : List (List K)) (p : Option (List K)) (s : St K) :
    Except Err (List K) := do
  let x ← parts o.degree theta s.nu
  let m ← firstParameter p s.mu
  .ok (values m x)

/-- New multipliers, intermediary_node_solution_method.py:57-58 and 131-139: an element is a matrix of
two rows, here column by column. -/
def newNu (o : Opts K) (mu : K) (x : Parts K) (uc : List K) : List (List K) :=
  (List.range o.elements).map fun el => (List.range o.degree).flatMap fun j =>
    let i := el * o.degree + j
    let u := uc[i]?.getD 0
    [x.nu1[i]?.getD 0 + mu * (u - x.y1[i]?.getD 0), x.nu2[i]?.getD 0 + mu * (x.u2[i]?.getD 0 - u)]

/-- Errors, intermediary_node_solution_method.py:60-61 and 129. -/
def errors (x : Parts K) (uc : List K) : List K :=
  [maxAbs (List.zipWith (· - ·) uc x.y1), maxAbs (List.zipWith (· - ·) x.u2 uc)]

/-- `_compute_new_nu_and_error`, intermediary_node_solution_method.py:101-158. -/
def computeNu (o : Opts K) (theta : List (List K)) (p : Option (List K)) (uc : List K) :
    Py (St K) (List K) :=
  if o.skipCompute then Py.pure [0]
  else do
    let s ← Py.get
    let x ← Py.lift (parts o.degree theta s.nu)
    let m ← Py.lift (firstParameter p s.mu)
    if o.skipUpdateNu then Py.pure (errors x uc)
    else do
      storeNu o (errors x uc) (newNu o m x uc)
      Py.pure (errors x uc)

/-- `update_parameters`, augmented_lagrangian.py:620-635, with the overridden method. -/
def updateParameters (o : Opts K) (theta : List (List K)) (p : Option (List K)) (uc : List K) :
    Py (St K) (List K) := do
  let error ← computeNu o theta p uc
  let s ← Py.get
  updateMu o error s.lastError
  Py.modify fun s => { s with lastError := some error }
  Py.pure error

/-- What the distributed method calls on a node between two solves. -/
inductive Op (K : Type) where
  /-- `update_parameters`, distributedaugmetedlagrangian.py:512-660 -/
  | update (theta : List (List K)) (p : Option (List K)) (uc : List K)
  /-- the multiplier part of `compute_primal_dual`, augmented_lagrangian.py:684-716 -/
  | compute (theta : List (List K)) (p : Option (List K)) (uc : List K)
  /-- `set_mu`, augmented_lagrangian.py:674-682 -/
  | setMu (mu : List K)

/-- One operation. -/
def Op.run (o : Opts K) : Op K → Py (St K) Unit
  | .update theta p uc => (updateParameters o theta p uc).bind fun _ => Py.pure ()
  | .compute theta p uc => (computeNu o theta p uc).bind fun _ => Py.pure ()
  | .setMu mu => AugLag.setMu mu

/-- The state after a history of operations; the ones that raise are survived. -/
def after (o : Opts K) (ops : List (Op K)) (s : St K) : St K :=
  ops.foldl (fun s op => (op.run o s).2) s

end Verif.Intermediary
