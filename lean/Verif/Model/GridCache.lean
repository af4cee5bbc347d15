import Verif.Model.Py
/-!
# The grid of a solution method and its caches

`time_breakpoints` (solutionmethodsbase.py:108-110) and `time_interpolation_controls` of a discretiser
(discretizationschemebase.py:77-89) are `cached_property`s: the first value is kept.
-/
namespace Verif.GridCache

/-- What the grid depends on and what is cached: the horizon of the problem, the number of elements of
the method, the points `tau_list` of the controls inside an element (those the methods use for their
degree, a parameter), the cached breakpoints of the method and the cached times of the controls of its
discretiser. -/
structure Grid where
  t0 : Rat
  tf : Rat
  elements : Nat
  taus : List Rat
  points : Option (List Rat) := none
  controls : Option (List (List Rat)) := none

/-- `delta_t`, solutionmethodsbase.py:104-106; division by zero raises (`ZeroDivisionError`, here
`.exception`). -/
def deltaT : Py Grid Rat := fun g =>
  if g.elements = 0 then (.error .exception, g) else (.ok ((g.tf - g.t0) / g.elements), g)

/-- The body of `time_breakpoints`, solutionmethodsbase.py:110, and keeping its value. -/
def computePoints : Py Grid (List Rat) := do
  let d ← deltaT
  let g ← Py.get
  let l := (List.range (g.elements + 1)).map fun (k : Nat) => d * (k : Rat)
  Py.modify fun g => { g with points := some l }
  pure l

/-- `time_breakpoints`, solutionmethodsbase.py:108-110. -/
def breakpoints : Py Grid (List Rat) := fun g =>
  match g.points with
  | some l => (.ok l, g)
  | none => computePoints g

/-- `[[t + delta_t * tau for tau in tau_list] for t in time_breakpoints[:-1]]`: the property
`time_interpolation_controls` of a method, solutionmethodsbase.py:112-122, and with other points
`time_interpolation` and `time_interpolation_algebraics` of collocation, collocationscheme.py:35-54.
(`delta_t` is read once here, and also when there are no points.) -/
def pointTimes (taus : List Rat) : Py Grid (List (List Rat)) := do
  let l ← breakpoints
  let d ← deltaT
  pure (l.dropLast.map fun t => taus.map fun tau => t + d * tau)

/-- The body of `time_interpolation_controls` of a discretiser, and keeping its value. -/
def computeControls : Py Grid (List (List Rat)) := do
  let g ← Py.get
  let l ← pointTimes g.taus
  Py.modify fun g => { g with controls := some l }
  pure l

/-- `time_interpolation_controls` of a discretiser, discretizationschemebase.py:77-89. -/
def controlTimes : Py Grid (List (List Rat)) := fun g =>
  match g.controls with
  | some l => (.ok l, g)
  | none => computeControls g

/-- What a program does with the grid: assignments to `problem.t_0`, `problem.t_f` and
`finite_elements`, and reading. -/
inductive Call
  | setT0 (t : Rat)
  | setTf (t : Rat)
  | setElements (n : Nat)
  | readPoints
  | readTimes (taus : List Rat)
  | readControls

/-- Run one of them. -/
def Call.run : Call → Py Grid Unit
  | .setT0 t => Py.modify fun g => { g with t0 := t }
  | .setTf t => Py.modify fun g => { g with tf := t }
  | .setElements n => Py.modify fun g => { g with elements := n }
  | .readPoints => Py.bind breakpoints fun _ => Py.pure ()
  | .readTimes taus => Py.bind (pointTimes taus) fun _ => Py.pure ()
  | .readControls => Py.bind controlTimes fun _ => Py.pure ()

end Verif.GridCache
