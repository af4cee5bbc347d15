import Verif.Model.AlOptions
/-!
# What is said about the options of the augmented Lagrangian methods
-/
namespace Verif.Spec
open AlOptions

/-- The options of an augmented Lagrangian and the values they have when the user does not give them, as
the user finds them in the signature of `AugmentedLagrangianOptions`. Written down apart from the model:
`alDefaults_eq` compares the two. -/
def alDefaults : Dict String Val := [
  ("degree", .num 3), ("finite_elements", .num 20), ("max_iter", .num 20), ("tol", .num (1 / 1000000)),
  ("mu_0", .num 1), ("mu_max", .num 10000), ("beta", .num 4), ("beta_decrease", .num 3),
  ("only_update_if_improve", .bool false), ("mu_update_rule", .str "bounded-increase"),
  ("mu_min_error_decrease", .num (1 / 2)), ("gamma", .num (6 / 5)), ("verbose", .num 2),
  ("debug_skip_parametrize", .bool false), ("debug_skip_initialize", .bool false),
  ("debug_skip_compute_nu_and_error", .bool false), ("debug_skip_update_nu", .bool false),
  ("debug_skip_update_mu", .bool false)]

/-- The names of the options of an augmented Lagrangian. -/
def AlOption (k : String) : Prop := k ∈ alDefaults.keys

/-- The value asked for by a user who gives the options `d`: that in `d`, else the default. -/
def asked (d : Dict String Val) (k : String) : Option Val :=
  match d.get? k with
  | some v => some v
  | none => alDefaults.get? k

/-- The option `k` of the method with number `i`, as read by `method.k`. -/
def optionOf (w : World) (i : Nat) (k : String) : Option Val :=
  w.methods[i]?.bind fun m => (w.obj m.options).get? k

/-- The method with number `i`, its multipliers (unless the user gave or skipped them) and its inner
method have the degree `d` and the number of elements `e`. -/
def OneDiscretisation (w : World) (i : Nat) (d e : Val) : Prop :=
  optionOf w i "degree" = some d ∧ optionOf w i "finite_elements" = some e ∧
  ∃ m, w.methods[i]? = some m ∧ (m.multDegree = none ∨ m.multDegree = some d) ∧
    (m.multElements = none ∨ m.multElements = some e) ∧
    m.inner.get? "degree" = some d ∧ m.inner.get? "finite_elements" = some e

/-- A dictionary of solver options says nothing else about `k` than `v`. -/
def SaysOnly (d : Dict String Val) (k : String) (v : Val) : Prop := d.get? k = none ∨ d.get? k = some v

/-- The inner method accepts the keywords `D` with any degree and number of elements. -/
def Accepts (inner : Dict String Val → Except Err Unit) (D : Dict String Val) : Prop :=
  ∀ D', (∀ k, k ≠ "degree" → k ≠ "finite_elements" → D'.get? k = D.get? k) → inner D' = .ok ()

/-- The call writes to the options object `o` of the method with number `i` or hands it to another
method: the user sets an option of this very method, or uses the object itself. -/
def Concerns (i : Nat) (o : Loc) : Call → Prop
  | .setObject r _ _ => r = o
  | .setMethod j _ _ => j = i
  | .method _ a => match a.options with
    | .object r => r = o
    | _ => False
  | _ => False

/-- What the node of a distributed method `d` is asked to have. -/
def askedOfNode (w : World) (d : Dist) (k : String) : Option Val :=
  if k = "degree" then some (d.attr "degree")
  else if k = "finite_elements" then some (d.attr "finite_elements")
  else if k = "max_iter" then some (.num 1)
  else if k = "verbose" then some (.num 0)
  else some ((((w.obj d.alOptions).get? k)).getD ((alDefaults.get? k).getD .none))

end Verif.Spec
