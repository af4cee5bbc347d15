import Verif.Model.MethodCtor
/-!
# Specification of the options of the solution methods
-/
namespace Verif
namespace Spec
open MethodCtor

/-- The documented options of each method with their defaults. -/
def methodOptions : Class → List (String × Val)
  | .direct => [
      ("degree", .int 3), ("degree_control", .int 1), ("finite_elements", .int 10),
      ("integrator_type", .str "implicit"), ("discretization_scheme", .str "collocation"),
      ("initial_condition_as_parameter", .bool true), ("cost_as_a_sum", .bool false),
      ("initial_guess_heuristic", .str "simulation"), ("last_control_as_parameter", .bool false)]
  | .indirect => [
      ("degree", .int 3), ("finite_elements", .int 10),
      ("integrator_type", .str "implicit"), ("discretization_scheme", .str "collocation"),
      ("initial_condition_as_parameter", .bool true), ("create_cost_state", .bool false),
      ("initial_guess_heuristic", .str "simulation"), ("last_control_as_parameter", .bool false)]

/-- The option the user gave, or the default. -/
def given? (given : Dict String Val) (k : String) (default : Val) : Val := (given.get? k).getD default

/-- The options the methods themselves decide on: the indirect method has its own initial guess, and
the last control is a parameter whenever the problem has one. -/
def Decided (c : Class) (o : Ocp) (k : String) : Prop :=
  (c = .indirect ∧ k = "initial_guess_heuristic") ∨
  (o.lastU ≠ none ∧ k = "last_control_as_parameter")

/-- The option that is the degree of the controls: the indirect method uses the degree of the states. -/
def controlDegree (c : Class) (given : Dict String Val) : Val :=
  match c with
  | .direct => given? given "degree_control" (.int 1)
  | .indirect => given? given "degree" (.int 3)

/-- The keywords that make the constructor fail: names of the arguments `self` and `problem`, of
computed attributes, and `degree_control` of the indirect method. -/
def Forbidden (c : Class) (k : String) : Prop :=
  k = "self" ∨ k = "problem" ∨ k = "model" ∨ k = "delta_t" ∨ k = "time_interpolation_controls" ∨
  (c = .indirect ∧ k = "degree_control")

/-- A discretisation scheme. -/
def IsScheme (v : Val) : Prop := v = .str "collocation" ∨ v = .str "multiple-shooting"

/-- A rate limit on some control. -/
def HasRateLimit (o : Ocp) : Prop :=
  ∃ i < o.model.u.length, o.duMax[i]? ≠ some ⊤ ∨ o.duMin[i]? ≠ some ⊥

/-- A degree of the controls for which a method can be made: a number, at most 1 with rate limits. -/
def DegreeOk (o : Ocp) : Val → Prop
  | .int n => HasRateLimit o → n ≤ 1
  | .bool _ => True
  | _ => False

end Spec
end Verif
