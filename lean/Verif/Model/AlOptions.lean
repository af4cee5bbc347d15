import Verif.Model.Dict
/-!
# The options of the augmented Lagrangian methods (methods/augmented_lagrangian.py,
methods/network/distributedaugmetedlagrangian.py)

Options objects and dictionaries may have several names. The options object 0 is the default value of
`al_options`, which Python makes once.
-/
namespace Verif
namespace AlOptions

/-- The value of an option; floats are exact numbers here. -/
inductive Val
  | none
  | bool (b : Bool)
  | num (q : Rat)
  | str (s : String)
  deriving DecidableEq, Repr

/-- `if v:`. -/
def Val.truth : Val → Bool
  | .none => false
  | .bool b => b
  | .num q => decide (q ≠ 0)
  | .str s => decide (s ≠ "")

/-- A reference to an options object, or to a dictionary. -/
abbrev Loc := Nat

/-- The fields of `AugmentedLagrangianOptions` and their defaults, augmented_lagrangian.py:57-87.
`__post_init__` only changes the types of numbers. -/
def alFields : Dict String Val := [
  ("degree", .num 3), ("finite_elements", .num 20), ("max_iter", .num 20), ("tol", .num (1 / 1000000)),
  ("mu_0", .num 1), ("mu_max", .num 10000), ("beta", .num 4), ("beta_decrease", .num 3),
  ("only_update_if_improve", .bool false), ("mu_update_rule", .str "bounded-increase"),
  ("mu_min_error_decrease", .num (1 / 2)), ("gamma", .num (6 / 5)), ("verbose", .num 2),
  ("debug_skip_parametrize", .bool false), ("debug_skip_initialize", .bool false),
  ("debug_skip_compute_nu_and_error", .bool false), ("debug_skip_update_nu", .bool false),
  ("debug_skip_update_mu", .bool false)]

/-- The fields of `DistributedAugmentedLagrangianOptions` and their defaults, without `al_options`,
distributedaugmetedlagrangian.py:44-56. -/
def distFields : Dict String Val := [
  ("degree", .num 3), ("finite_elements", .num 20), ("max_iter_inner", .num 4),
  ("max_iter_inner_first", .none), ("max_iter_outer", .num 30), ("abs_tol", .num (1 / 1000000)),
  ("inner_loop_tol", .num (1 / 10000)), ("randomized_inner", .bool false), ("distributed", .bool false),
  ("block_choice_method", .str "cyclic"), ("debug_skip_replace_by_approximation", .bool false)]

/-- The `__init__` of a dataclass with these fields, called with `**d`. -/
def dataclass (fields d : Dict String Val) : Except Err (Dict String Val) :=
  if d.all (fun kv => fields.has kv.1) then .ok (fields.update d) else .error .typeError

/-- An augmented Lagrangian: its attribute `options`; the degree its multipliers were parametrised
with and the number of elements of the initial multipliers it made (`none`: not made); the keywords
its inner method was made with. -/
structure Method where
  options : Loc
  multDegree : Option Val
  multElements : Option Val
  inner : Dict String Val
  deriving DecidableEq

/-- A distributed augmented Lagrangian: the attributes of its `options`, its `options.al_options` and
its `solution_method_options`. -/
structure Dist where
  attrs : Dict String Val
  alOptions : Loc
  solverOptions : Loc
  deriving DecidableEq

/-- All options objects, dictionaries and methods of a program. -/
structure World where
  objs : List (Dict String Val)
  dicts : List (Dict String Val) := []
  methods : List Method := []
  dists : List Dist := []

/-- The start: the default value of `al_options`, distributedaugmetedlagrangian.py:58. -/
def World.start : World := { objs := [alFields] }

/-- The attributes of an options object. -/
def World.obj (w : World) (r : Loc) : Dict String Val := w.objs.getD r []

/-- The contents of a dictionary. -/
def World.dict (w : World) (r : Loc) : Dict String Val := w.dicts.getD r []

/-- `o.k` for a field `k`. -/
def World.attr (w : World) (o : Loc) (k : String) : Val := ((w.obj o).get? k).getD .none

/-- `o.k = v`. Attributes that are not fields are not modelled: nothing reads them. -/
def World.setAttr (w : World) (o : Loc) (k : String) (v : Val) : World :=
  if alFields.has k then { w with objs := w.objs.set o ((w.obj o).set k v) } else w

/-- `d[k] = v`. -/
def World.setItem (w : World) (r : Loc) (k : String) (v : Val) : World :=
  { w with dicts := w.dicts.set r ((w.dict r).set k v) }

/-- A new options object. -/
def newObj (x : Dict String Val) : Py World Loc := fun w =>
  (.ok w.objs.length, { w with objs := w.objs ++ [x] })

/-- A new dictionary. -/
def newDict (d : Dict String Val) : Py World Loc := fun w =>
  (.ok w.dicts.length, { w with dicts := w.dicts ++ [d] })

/-- The argument `options`: not given, a dictionary, or an options object. -/
inductive Options
  | absent
  | dict (d : Dict String Val)
  | object (r : Loc)

/-- `self.options`, augmented_lagrangian.py:152-153 and 163-167. -/
def takeOptions : Options → Py World Loc
  | .absent => Py.bind (Py.lift (dataclass alFields [])) newObj
  | .dict d => Py.bind (Py.lift (dataclass alFields d)) newObj
  | .object r => Py.pure r

/-- `solver_options`, augmented_lagrangian.py:150-151, and `solution_method_options`,
distributedaugmetedlagrangian.py:74-75. -/
def takeDict : Option Loc → Py World Loc
  | none => newDict []
  | some r => Py.pure r

/-- One round of the loop that makes the options agree, augmented_lagrangian.py:240-259; `so` is
`solver_options`, `kw` are the keyword arguments. -/
def sync (o so : Loc) (kw : Dict String Val) (k : String) : Py World Unit := fun w =>
  match (w.dict so).get? k with
  | some s =>
    match kw.get? k with
    | some v => if s ≠ v then (.error .valueError, w) else (.ok (), w.setAttr o k s)
    | none => (.ok (), w.setAttr o k s)
  | none => (.ok (), w.setItem so k (w.attr o k))

/-- The arguments of the constructor about options; `nuGiven`: there is an argument `nu` that is not
empty. -/
structure Args where
  options : Options := .absent
  solverOptions : Option Loc := none
  nuGiven : Bool := false
  kwargs : Dict String Val := []

/-- The degree of the multipliers, augmented_lagrangian.py:223-225. -/
def multDegree (w : World) (o : Loc) : Option Val :=
  if (w.attr o "debug_skip_initialize").truth then none
  else if (w.attr o "debug_skip_parametrize").truth then none
  else some (w.attr o "degree")

/-- The elements of the first multipliers, augmented_lagrangian.py:223 and 227. -/
def multElements (w : World) (o : Loc) (nuGiven : Bool) : Option Val :=
  if (w.attr o "debug_skip_initialize").truth then none
  else if nuGiven then none
  else some (w.attr o "finite_elements")

/-- `AugmentedLagrangian.__init__`, augmented_lagrangian.py:118-264, and
`IntermediaryNodeSolutionMethod.__init__` (inherited), as far as options are concerned: the
relaxations are in `Model/Relax.lean`. `inner` tells whether the constructor of the inner method
accepts its keywords. -/
def newMethod (inner : Dict String Val → Except Err Unit) (a : Args) : Py World Unit :=
  Py.bind (takeDict a.solverOptions) fun so =>
  Py.bind (takeOptions a.options) fun o =>
  Py.bind Py.get fun w =>
  Py.bind (sync o so a.kwargs "degree") fun _ =>
  Py.bind (sync o so a.kwargs "finite_elements") fun _ =>
  Py.bind Py.get fun w' =>
  Py.bind (Py.lift (inner (w'.dict so))) fun _ =>
  Py.modify fun w'' => { w'' with methods := w''.methods ++ [{
    options := o
    multDegree := multDegree w o
    multElements := multElements w o a.nuGiven
    inner := w'.dict so }] }

/-- The arguments of the constructor of the distributed method about options; `alOptions` is the entry
`al_options` of `options`. -/
structure DistArgs where
  options : Dict String Val := []
  alOptions : Options := .absent
  solverOptions : Option Loc := none

/-- The field `al_options`, distributedaugmetedlagrangian.py:58-62. -/
def takeAlOptions : Options → Py World Loc
  | .absent => Py.pure 0
  | .dict d => Py.bind (Py.lift (dataclass alFields d)) newObj
  | .object r => Py.pure r

/-- `DistributedAugmentedLagrangian.__init__`, distributedaugmetedlagrangian.py:66-81. -/
def newDist (a : DistArgs) : Py World Unit :=
  Py.bind (takeDict a.solverOptions) fun so =>
  Py.bind (Py.lift (dataclass distFields a.options)) fun at' =>
  Py.bind (takeAlOptions a.alOptions) fun al =>
  Py.modify fun w => { w with dists := w.dists ++ [{ attrs := at', alOptions := al, solverOptions := so }] }

/-- `dataclasses.asdict(x)`. -/
def asdict (x : Dict String Val) : Dict String Val :=
  alFields.map fun kv => (kv.1, (x.get? kv.1).getD kv.2)

/-- An attribute of the options of a distributed method. -/
def Dist.attr (d : Dist) (k : String) : Val := (d.attrs.get? k).getD .none

/-- The argument `options` for a node, distributedaugmetedlagrangian.py:676-684 and 696-704. -/
def nodeOptions (w : World) (d : Dist) : Dict String Val :=
  (asdict (w.obj d.alOptions)).update [
    ("degree", d.attr "degree"), ("finite_elements", d.attr "finite_elements"),
    ("max_iter", .num 1), ("verbose", .num 0)]

/-- The method of a node, distributedaugmetedlagrangian.py:667-705. -/
def newNode (inner : Dict String Val → Except Err Unit) (d : Dist) : Py World Unit :=
  Py.bind Py.get fun w =>
  newMethod inner { options := .dict (nodeOptions w d), solverOptions := some d.solverOptions }

/-- `_create_solution_methods` for blocks of `n` nodes in all, distributedaugmetedlagrangian.py:663-706. -/
def newNodes (inner : Dict String Val → Except Err Unit) (d : Dist) : Nat → Py World Unit
  | 0 => Py.pure ()
  | n + 1 => Py.bind (newNode inner d) fun _ => newNodes inner d n

/-- What a program does with options. -/
inductive Call
  /-- A new dictionary. -/
  | dictionary (d : Dict String Val)
  /-- `d[k] = v`. -/
  | assign (r : Loc) (k : String) (v : Val)
  /-- `AugmentedLagrangianOptions(**d)`. -/
  | object (d : Dict String Val)
  /-- `o.k = v` for an options object. -/
  | setObject (o : Loc) (k : String) (v : Val)
  /-- `AugmentedLagrangian(...)`. -/
  | method (inner : Dict String Val → Except Err Unit) (a : Args)
  /-- `method.k = v`: `OptionsOverride` sends it to the options, augmented_lagrangian.py:95-116. -/
  | setMethod (i : Nat) (k : String) (v : Val)
  /-- `DistributedAugmentedLagrangian(...)`. -/
  | dist (a : DistArgs)
  /-- `dist.options.k = v`. -/
  | setDist (i : Nat) (k : String) (v : Val)
  /-- The methods of the nodes of a distributed method are made. -/
  | prepare (inner : Dict String Val → Except Err Unit) (i n : Nat)

/-- The options object exists. -/
def Options.exists (w : World) : Options → Bool
  | .object r => decide (r < w.objs.length)
  | _ => true

/-- The dictionary exists. -/
def dictExists (w : World) : Option Loc → Bool
  | none => true
  | some r => decide (r < w.dicts.length)

/-- One step of a program that goes on after exceptions. A program has no names for objects that do not
exist: such calls do nothing here. -/
def Call.run (w : World) : Call → World
  | .dictionary d => { w with dicts := w.dicts ++ [d] }
  | .assign r k v => w.setItem r k v
  | .object d => Py.stateAfter (Py.bind (Py.lift (dataclass alFields d)) newObj) w
  | .setObject o k v => w.setAttr o k v
  | .method inner a =>
    if a.options.exists w && dictExists w a.solverOptions then Py.stateAfter (newMethod inner a) w else w
  | .setMethod i k v =>
    match w.methods[i]? with
    | some m => w.setAttr m.options k v
    | none => w
  | .dist a =>
    if a.alOptions.exists w && dictExists w a.solverOptions then Py.stateAfter (newDist a) w else w
  | .setDist i k v =>
    { w with dists := w.dists.modify i fun d =>
        if distFields.has k then { d with attrs := d.attrs.set k v } else d }
  | .prepare inner i n =>
    match w.dists[i]? with
    | some d => Py.stateAfter (newNodes inner d n) w
    | none => w

/-- A program. -/
def runAll (w : World) (cs : List Call) : World := cs.foldl Call.run w

end AlOptions
end Verif
