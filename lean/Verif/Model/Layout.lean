import Verif.Model.Nlp
/-!
# The decision vector of the discretisation schemes

methods/classic/collocationscheme.py and methods/classic/multipleshooting.py: creating the decision
variables, reading a decision vector back into blocks, writing blocks into a vector and the
initial guess from problem information. A column is the list of its entries.
-/
namespace Verif

/-- The sizes the schemes read off the model, the problem and the solution method. -/
structure Dims where
  elements : Nat
  degree : Nat
  degreeControl : Nat
  nX : Nat
  nY : Nat
  nU : Nat
  nUPar : Nat
  nEta : Nat
  nPOpt : Nat
  nThetaOpt : Nat
  deriving DecidableEq

/-- The structured form of a decision vector: `x`, `y`, `u` per element and point, `eta`, `p_opt`
and `theta_opt` per element. -/
structure Blocks (α : Type) where
  x : List (List (List α))
  y : List (List (List α))
  u : List (List (List α))
  eta : List α
  pOpt : List α
  thetaOpt : List (List α)
  deriving DecidableEq

namespace Layout

variable {α : Type}

/-- `v[a:b]` of a CasADi column: a stop beyond the end raises. -/
def slice (v : List α) (a b : Nat) : Except Err (List α) :=
  if b ≤ v.length then .ok ((v.take b).drop a) else .error .runtimeError

/-- `v[offset : offset + n]` followed by `offset += n`; the state is the offset. -/
def readNext (v : List α) (n : Nat) : Py Nat (List α) := do
  let o ← Py.get
  let b ← Py.lift (slice v o (o + n))
  Py.modify fun o => o + n
  Py.pure b

/-- `for _ in range(k): out.append(f())`. -/
def collect {σ β : Type} : Nat → Py σ β → Py σ (List β)
  | 0, _ => Py.pure []
  | k + 1, f => Py.bind f fun b => Py.bind (collect k f) fun bs => Py.pure (b :: bs)

/-- The blocks of the controls, collocationscheme.py:206-212 and multipleshooting.py:109-115: no
block at all when there is no control parameter. -/
def readControls (d : Dims) (v : List α) : Py Nat (List (List (List α))) :=
  collect d.elements (collect (if d.nUPar > 0 then d.degreeControl else 0) (readNext v d.nU))

/-- `x_k[-1]` of the last element, collocationscheme.py:194. -/
def lastPoint (xs : List (List (List α))) : Except Err (List α) :=
  match (xs.getLast?.getD []).getLast? with
  | some a => .ok a
  | none => .error .indexError

/-- `CollocationScheme.unpack_decision_variables(v)`, collocationscheme.py:165-228, with
`all_subinterval=True`. -/
def unpackCollocation (d : Dims) (v : List α) : Py Nat (Blocks α) := do
  let xs ← collect d.elements (collect (d.degree + 1) (readNext v d.nX))
  let last ← Py.lift (lastPoint xs)
  let y ← collect d.elements (collect d.degree (readNext v d.nY))
  let u ← readControls d v
  let eta ← readNext v d.nEta
  let pOpt ← readNext v d.nPOpt
  let thetaOpt ← collect d.elements (readNext v d.nThetaOpt)
  let o ← Py.get
  Py.raiseIf (decide (o ≠ v.length)) .assertionError
  Py.pure ⟨xs ++ [[last]], y, u, eta, pOpt, thetaOpt⟩

/-- `MultipleShootingScheme.unpack_decision_variables(v)`, multipleshooting.py:89-132. -/
def unpackShooting (d : Dims) (v : List α) : Py Nat (Blocks α) := do
  let x ← collect (d.elements + 1) (collect 1 (readNext v d.nX))
  let y ← collect d.elements (collect 1 (readNext v d.nY))
  let u ← readControls d v
  let eta ← readNext v d.nEta
  let pOpt ← readNext v d.nPOpt
  let thetaOpt ← collect d.elements (readNext v d.nThetaOpt)
  let o ← Py.get
  Py.raiseIf (decide (o ≠ v.length)) .assertionError
  Py.pure ⟨x, y, u, eta, pOpt, thetaOpt⟩

/-- `unpack_decision_variables(v)` as called: the offset starts at zero. -/
def collocationBlocks (d : Dims) (v : List α) : Except Err (Blocks α) := (unpackCollocation d v 0).1

/-- `unpack_decision_variables(v)` as called: the offset starts at zero. -/
def shootingBlocks (d : Dims) (v : List α) : Except Err (Blocks α) := (unpackShooting d v 0).1

/-- `vertcat(vectorize(x), vectorize(y), vectorize(u), eta, p_opt, vertcat(*theta_opt))`,
collocationscheme.py:123-128, multipleshooting.py:80-85 with `vectorize` of
discretizationschemebase.py:99-106. -/
def stacked (b : Blocks α) : List α :=
  b.x.flatten.flatten ++ b.y.flatten.flatten ++ b.u.flatten.flatten ++ b.eta ++ b.pOpt ++
    b.thetaOpt.flatten

/-- `CollocationScheme.repack_decision_variables(x, y, u, eta, p_opt, theta_opt)`,
collocationscheme.py:132-163: the last entry of `x` is left out. -/
def repack (b : Blocks α) : List α :=
  (b.x.dropLast.flatten ++ b.y.flatten ++ b.u.flatten ++ [b.eta] ++ [b.pOpt] ++ b.thetaOpt).flatten

/-! ## The variables of the NLP -/

/-- The kinds of decision variables. -/
inductive Kind
  | x | y | u | eta | pOpt | thetaOpt
  deriving DecidableEq

/-- The bounds a problem gives its variables (`x_min`, `x_max`, ...). -/
structure VarBounds where
  x : BoundArg × BoundArg
  y : BoundArg × BoundArg
  u : BoundArg × BoundArg
  pOpt : BoundArg × BoundArg
  thetaOpt : BoundArg × BoundArg

/-- `nlp.create_variable(name, size, lb, ub)`; `sym` gives the symbols CasADi creates for a kind, an
element and a point. -/
def create (v : List Sym) (b : BoundArg × BoundArg) : Py Nlp (List Sym) :=
  Py.bind (Nlp.createVariable v b.1 b.2) fun _ => Py.pure v

/-- `[f(i) for i in range(k)]`, starting at `i`. -/
def collectFrom {σ β : Type} : Nat → Nat → (Nat → Py σ β) → Py σ (List β)
  | 0, _, _ => Py.pure []
  | k + 1, i, f => Py.bind (f i) fun b => Py.bind (collectFrom k (i + 1) f) fun bs =>
      Py.pure (b :: bs)

/-- The variables of one kind: `points` of them in each of `elements` elements. -/
def createGrid (elements points : Nat) (sym : Nat → Nat → List Sym) (b : BoundArg × BoundArg) :
    Py Nlp (List (List (List Sym))) :=
  collectFrom elements 0 fun k => collectFrom points 0 fun n => create (sym k n) b

/-- The default bounds of `create_variable`. -/
def unbounded : BoundArg × BoundArg := (.float ⊥, .float ⊤)

/-- `_create_nlp_symbolic_variables(nlp)` of both schemes; `xElements`, `xPoints`, `yPoints` are where
they differ. -/
def createVariables (d : Dims) (xElements xPoints yPoints : Nat) (sym : Kind → Nat → Nat → List Sym)
    (b : VarBounds) : Py Nlp (Blocks Sym) := do
  let x ← createGrid xElements xPoints (sym .x) b.x
  let y ← createGrid d.elements yPoints (sym .y) b.y
  let u ← createGrid d.elements (if d.nUPar > 0 then d.degreeControl else 0) (sym .u) b.u
  let eta ← create (sym .eta 0 0) unbounded
  let pOpt ← create (sym .pOpt 0 0) b.pOpt
  let thetaOpt ← collectFrom d.elements 0 fun el => create (sym .thetaOpt el 0) b.thetaOpt
  Py.pure ⟨x, y, u, eta, pOpt, thetaOpt⟩

/-- `CollocationScheme._create_nlp_symbolic_variables(nlp)`, collocationscheme.py:55-130. The vector it
also returns is `stacked` of the result. -/
def createCollocation (d : Dims) (sym : Kind → Nat → Nat → List Sym) (b : VarBounds) :
    Py Nlp (Blocks Sym) :=
  createVariables d d.elements (d.degree + 1) d.degree sym b

/-- `MultipleShootingScheme._create_nlp_symbolic_variables(nlp)`, multipleshooting.py:18-87. The
vector it also returns is `stacked` of the result. -/
def createShooting (d : Dims) (sym : Kind → Nat → Nat → List Sym) (b : VarBounds) :
    Py Nlp (Blocks Sym) :=
  createVariables d (d.elements + 1) 1 1 sym b

/-! ## The initial guess from problem information -/

/-- `repmat(a, n)` of a column. -/
def repmat (a : List α) (n : Nat) : List α := (List.replicate n a).flatten

/-- `v[ind]` of a CasADi column. -/
def entry (v : List α) (i : Nat) : Except Err α :=
  match v[i]? with
  | some a => .ok a
  | none => .error .runtimeError

/-- `theta[el]`. -/
def thetaAt (theta : Dict Nat (List α)) (el : Nat) : Except Err (List α) :=
  match theta.get? el with
  | some a => .ok a
  | none => .error .keyError

/-- `v[k] = a` on a CasADi column. -/
def setEntry (k : Nat) (a : α) : Py (List α) Unit := fun v =>
  if k < v.length then (.ok (), v.set k a) else (.error .runtimeError, v)

/-- `for k, ind in enumerate(indices): init[k + offset] = values[ind]`. -/
def fill (values : Except Err (List α)) (offset : Nat) (indices : List Nat) :
    Py (List α) Unit :=
  Py.forEach indices.zipIdx fun (ik : Nat × Nat) =>
    Py.bind (Py.lift values) fun v => Py.bind (Py.lift (entry v ik.1)) fun a =>
      setEntry (ik.2 + offset) a

/-- The guess of `p_opt`, collocationscheme.py:628, 631-633. -/
def pOptInit (zero : α) (d : Dims) (indices : List Nat) (p : Option (List α)) :
    Except Err (List α) :=
  (Py.bind (Py.whenSome p fun p => fill (.ok p) 0 indices) (fun _ => Py.get)
    (List.replicate d.nPOpt zero)).1

/-- The guess of `theta_opt`, collocationscheme.py:629, 635-638. -/
def thetaOptInit (zero : α) (d : Dims) (indices : List Nat)
    (theta : Option (Dict Nat (List α))) : Except Err (List α) :=
  (Py.bind (Py.whenSome theta fun theta => Py.forEach (List.range d.elements) fun el =>
      fill (thetaAt theta el) (el * d.nThetaOpt) indices) (fun _ => Py.get)
    (List.replicate (d.nThetaOpt * d.elements) zero)).1

/-- What `create_initial_guess` reads off the problem. -/
structure GuessInfo (α : Type) where
  x0 : List α
  yGuess : Option (List α)
  uGuess : Option (List α)
  pOptIndices : List Nat
  thetaOptIndices : List Nat

/-- `create_initial_guess(p, theta)` of both schemes; `xPoints` and `yPoints` are the numbers of
copies of the initial state and of the algebraic guess. -/
def initialGuess (zero : α) (d : Dims) (xPoints yPoints : Nat) (g : GuessInfo α)
    (p : Option (List α)) (theta : Option (Dict Nat (List α))) : Except Err (List α) := do
  let xInit := repmat g.x0 xPoints
  let yInit := repmat (g.yGuess.getD (List.replicate d.nY zero)) yPoints
  let uInit := if d.nUPar > 0 then
      repmat (g.uGuess.getD (List.replicate d.nU zero)) (d.degreeControl * d.elements) else []
  let etaInit := List.replicate d.nEta zero
  let pInit ← pOptInit zero d g.pOptIndices p
  let thetaInit ← thetaOptInit zero d g.thetaOptIndices theta
  pure (xInit ++ yInit ++ uInit ++ etaInit ++ pInit ++ thetaInit)

/-- `CollocationScheme.create_initial_guess(p, theta)`, collocationscheme.py:598-640. -/
def collocationGuess (zero : α) (d : Dims) (g : GuessInfo α) (p : Option (List α))
    (theta : Option (Dict Nat (List α))) : Except Err (List α) :=
  initialGuess zero d ((d.degree + 1) * d.elements) (d.degree * d.elements) g p theta

/-- `MultipleShootingScheme.create_initial_guess(p, theta)`, multipleshooting.py:463-504. -/
def shootingGuess (zero : α) (d : Dims) (g : GuessInfo α) (p : Option (List α))
    (theta : Option (Dict Nat (List α))) : Except Err (List α) :=
  initialGuess zero d (d.elements + 1) d.elements g p theta

end Layout
end Verif
