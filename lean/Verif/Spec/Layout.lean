import Verif.Model.Layout
import Verif.Spec.Nlp
/-!
# What the layout of a decision vector should be
-/
namespace Verif
namespace Spec

variable {α β : Type}

/-- `k` columns of `n` entries each. -/
def Columns (k n : Nat) (l : List (List α)) : Prop := l.length = k ∧ ∀ c ∈ l, c.length = n

/-- In each of `e` elements, `k` columns of `n` entries. -/
def Grid (e k n : Nat) (g : List (List (List α))) : Prop := g.length = e ∧ ∀ l ∈ g, Columns k n l

/-- How many control values an element has. -/
def controlPoints (d : Dims) : Nat := if d.nUPar > 0 then d.degreeControl else 0

/-- The parts both schemes share have the sizes of the problem. -/
structure SharedShape (d : Dims) (b : Blocks α) : Prop where
  u : Grid d.elements (controlPoints d) d.nU b.u
  eta : b.eta.length = d.nEta
  pOpt : b.pOpt.length = d.nPOpt
  thetaOpt : Columns d.elements d.nThetaOpt b.thetaOpt

/-- The states of a collocation solution: `degree + 1` values in each element, and then the last
value once more, as the value at the final time. -/
def CollocationStates (d : Dims) (x : List (List (List α))) : Prop :=
  ∃ (before : List (List (List α))) (front : List (List α)) (last : List α),
    x = before ++ [front ++ [last]] ++ [[last]] ∧
    Grid d.elements (d.degree + 1) d.nX (before ++ [front ++ [last]])

/-- Well-shaped collocation data. -/
structure CollocationShape (d : Dims) (b : Blocks α) : Prop extends SharedShape d b where
  x : CollocationStates d b.x
  y : Grid d.elements d.degree d.nY b.y

/-- Well-shaped multiple-shooting data. -/
structure ShootingShape (d : Dims) (b : Blocks α) : Prop extends SharedShape d b where
  x : Grid (d.elements + 1) 1 d.nX b.x
  y : Grid d.elements 1 d.nY b.y

/-- The number of decision variables besides states and algebraics. -/
def sharedSize (d : Dims) : Nat :=
  d.elements * (controlPoints d * d.nU) + d.nEta + d.nPOpt + d.elements * d.nThetaOpt

/-- The number of decision variables of collocation. -/
def collocationSize (d : Dims) : Nat :=
  d.elements * ((d.degree + 1) * d.nX) + d.elements * (d.degree * d.nY) + sharedSize d

/-- The number of decision variables of multiple shooting. -/
def shootingSize (d : Dims) : Nat := (d.elements + 1) * d.nX + d.elements * d.nY + sharedSize d

/-- Replace every entry. -/
def mapBlocks (f : α → β) (b : Blocks α) : Blocks β where
  x := b.x.map (List.map (List.map f))
  y := b.y.map (List.map (List.map f))
  u := b.u.map (List.map (List.map f))
  eta := b.eta.map f
  pOpt := b.pOpt.map f
  thetaOpt := b.thetaOpt.map (List.map f)

/-- The table of `f el n` over elements and points. -/
def table (elements points : Nat) (f : Nat → Nat → List α) : List (List (List α)) :=
  (List.range elements).map fun el => (List.range points).map fun n => f el n

/-- The symbols created for the variables have the sizes asked for. -/
structure SymSizes (d : Dims) (sym : Layout.Kind → Nat → Nat → List Sym) : Prop where
  x : ∀ k n, (sym .x k n).length = d.nX
  y : ∀ k n, (sym .y k n).length = d.nY
  u : ∀ k n, (sym .u k n).length = d.nU
  eta : (sym .eta 0 0).length = d.nEta
  pOpt : (sym .pOpt 0 0).length = d.nPOpt
  thetaOpt : ∀ k, (sym .thetaOpt k 0).length = d.nThetaOpt

/-- What a bound argument gives the `n` entries of a variable: a number for all of them, or one value
each. -/
def boundColumn (n : Nat) (b : BoundArg) : List BVal := (List.range n).filterMap (argAt b)

/-- The blocks where each variable has the column of its own kind. -/
def boundBlocks (d : Dims) (xElements xPoints yPoints : Nat) (x y u eta pOpt thetaOpt : BoundArg) :
    Blocks BVal where
  x := table xElements xPoints fun _ _ => boundColumn d.nX x
  y := table d.elements yPoints fun _ _ => boundColumn d.nY y
  u := table d.elements (controlPoints d) fun _ _ => boundColumn d.nU u
  eta := boundColumn d.nEta eta
  pOpt := boundColumn d.nPOpt pOpt
  thetaOpt := (List.range d.elements).map fun _ => boundColumn d.nThetaOpt thetaOpt

/-- The blocks of lower bounds. -/
def lowerBlocks (d : Dims) (xElements xPoints yPoints : Nat) (b : Layout.VarBounds) : Blocks BVal :=
  boundBlocks d xElements xPoints yPoints b.x.1 b.y.1 b.u.1 (.float ⊥) b.pOpt.1 b.thetaOpt.1

/-- The blocks of upper bounds. -/
def upperBlocks (d : Dims) (xElements xPoints yPoints : Nat) (b : Layout.VarBounds) : Blocks BVal :=
  boundBlocks d xElements xPoints yPoints b.x.2 b.y.2 b.u.2 (.float ⊤) b.pOpt.2 b.thetaOpt.2

/-- The blocks of variables. -/
def variableBlocks (d : Dims) (xElements xPoints yPoints : Nat)
    (sym : Layout.Kind → Nat → Nat → List Sym) : Blocks Sym where
  x := table xElements xPoints (sym .x)
  y := table d.elements yPoints (sym .y)
  u := table d.elements (controlPoints d) (sym .u)
  eta := sym .eta 0 0
  pOpt := sym .pOpt 0 0
  thetaOpt := (List.range d.elements).map fun el => sym .thetaOpt el 0

/-- Collocation data with the value at the final time added: the last one of the last element, once
more. -/
def withFinal (b : Blocks α) : Blocks α :=
  { b with x := b.x ++ [[(b.x.getLast?.bind List.getLast?).getD []]] }

/-- The bounds of a problem have one value per variable (or one number for all). -/
structure BoundSizes (d : Dims) (b : Layout.VarBounds) : Prop where
  x : (boundColumn d.nX b.x.1).length = d.nX ∧ (boundColumn d.nX b.x.2).length = d.nX
  y : (boundColumn d.nY b.y.1).length = d.nY ∧ (boundColumn d.nY b.y.2).length = d.nY
  u : (boundColumn d.nU b.u.1).length = d.nU ∧ (boundColumn d.nU b.u.2).length = d.nU
  pOpt : (boundColumn d.nPOpt b.pOpt.1).length = d.nPOpt ∧
    (boundColumn d.nPOpt b.pOpt.2).length = d.nPOpt
  thetaOpt : (boundColumn d.nThetaOpt b.thetaOpt.1).length = d.nThetaOpt ∧
    (boundColumn d.nThetaOpt b.thetaOpt.2).length = d.nThetaOpt

/-! ## The initial guess -/

/-- The guesses of the problem have the sizes of the variables, and every optimised parameter is
among the parameters given. -/
structure GuessFits (d : Dims) (g : Layout.GuessInfo α) (p : Option (List α))
    (theta : Option (Dict Nat (List α))) : Prop where
  x0 : g.x0.length = d.nX
  yGuess : ∀ y, g.yGuess = some y → y.length = d.nY
  uGuess : ∀ u, g.uGuess = some u → u.length = d.nU
  pOptIndices : g.pOptIndices.length = d.nPOpt
  thetaOptIndices : g.thetaOptIndices.length = d.nThetaOpt
  p : ∀ v, p = some v → ∀ i ∈ g.pOptIndices, i < v.length
  theta : ∀ th, theta = some th → ∀ el < d.elements, ∃ v, th.get? el = some v ∧
    ∀ i ∈ g.thetaOptIndices, i < v.length

/-- A guess, or zeros. -/
def orZeros (zero : α) (n : Nat) : Option (List α) → List α
  | some g => g
  | none => List.replicate n zero

/-- The values at the indices, or zeros when no values are given. -/
def picked (zero : α) (n : Nat) (indices : List Nat) : Option (List α) → List α
  | some v => indices.map fun i => v.getD i zero
  | none => List.replicate n zero

/-- The values given for an element. -/
def valuesAt (theta : Option (Dict Nat (List α))) (el : Nat) : Option (List α) :=
  theta.bind fun th => th.get? el

/-- Each block has the guess of its own kind. -/
def guessBlocks (zero : α) (d : Dims) (xElements xPoints yPoints : Nat) (g : Layout.GuessInfo α)
    (p : Option (List α)) (theta : Option (Dict Nat (List α))) : Blocks α where
  x := table xElements xPoints fun _ _ => g.x0
  y := table d.elements yPoints fun _ _ => orZeros zero d.nY g.yGuess
  u := table d.elements (controlPoints d) fun _ _ => orZeros zero d.nU g.uGuess
  eta := List.replicate d.nEta zero
  pOpt := picked zero d.nPOpt g.pOptIndices p
  thetaOpt := (List.range d.elements).map fun el =>
    picked zero d.nThetaOpt g.thetaOptIndices (valuesAt theta el)

end Spec
end Verif
