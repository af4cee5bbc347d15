import Verif.Model.Names
import Verif.Lemmas.Vectors
/-!
# C23: looking variables up by name
-/
namespace Verif
open SysModel

/-- The variables a query looks at when no variable type is given. -/
def Spec.searched (m : SysModel) : List Sym := m.x ++ m.y ++ m.u ++ m.p ++ m.theta

variable (nm : Sym → String) (isMatch : String → String → Bool)

theorem names_default (m : SysModel) (names : List String) :
    getVariablesByNames nm isMatch m names none =
      .ok (([m.x, m.y, m.u, m.p, m.theta].map fun v => findByName nm isMatch names v false).flatten)
    := by
  simp [getVariablesByNames, collectByNames, varsOf, bind, Except.bind]

/-- C23. The default query for one name returns the variable that matches if there is exactly one
among all states, algebraics, controls, parameters and thetas; otherwise it raises `ValueError`. -/
theorem C23_single (m : SysModel) (name : String) (r : Except Err Sym) :
    getVariableByName nm isMatch m name none = r ↔
      (∃ v, (Spec.searched m).filter (fun s => isMatch name (nm s)) = [v] ∧ r = .ok v) ∨
      ((Spec.searched m).filter (fun s => isMatch name (nm s))).length ≠ 1 ∧
        r = .error .valueError := by
  have h : ([m.x, m.y, m.u, m.p, m.theta].map
      fun v => findByName nm isMatch [name] v false).flatten =
      (Spec.searched m).filter fun s => isMatch name (nm s) := by
    simp [findByName, Spec.searched]
  unfold getVariableByName
  rw [names_default, h]
  generalize (Spec.searched m).filter _ = l
  match l with
  | [] => simp [eq_comm]
  | [v] => simp [eq_comm]
  | a :: b :: l => simp [eq_comm]

/-- C23. Within one variable type the matches come in the order of the names given, and for one name
in the order of the variables. -/
theorem C23_order_one_type (m : SysModel) (names : List String) (ty : String) (vars : List Sym)
    (h : m.varsOf ty = .ok vars) :
    getVariablesByNames nm isMatch m names (some [ty]) =
      .ok (names.flatMap fun n => vars.filter fun s => isMatch n (nm s)) := by
  simp [getVariablesByNames, collectByNames, h, bind, Except.bind, findByName]

/-- C23. Nothing is missed and nothing else is returned by the default query. -/
theorem C23_found_iff (m : SysModel) (names : List String) (s : Sym) :
    ∃ l, getVariablesByNames nm isMatch m names none = .ok l ∧
      (s ∈ l ↔ s ∈ Spec.searched m ∧ ∃ n ∈ names, isMatch n (nm s) = true) := by
  refine ⟨_, names_default nm isMatch m names, ?_⟩
  simp only [List.map_cons, List.map_nil, List.flatten_cons, List.flatten_nil, List.mem_append,
    List.not_mem_nil, or_false, findByName, Bool.false_eq_true, if_false, List.mem_flatMap,
    List.mem_filter, Spec.searched]
  constructor
  · rintro (⟨n, h₁, h₂, h₃⟩ | ⟨n, h₁, h₂, h₃⟩ | ⟨n, h₁, h₂, h₃⟩ | ⟨n, h₁, h₂, h₃⟩ |
      ⟨n, h₁, h₂, h₃⟩) <;> exact ⟨by tauto, n, h₁, h₃⟩
  · rintro ⟨h₂, n, h₁, h₃⟩
    rcases h₂ with (((h₂ | h₂) | h₂) | h₂) | h₂
    · exact .inl ⟨n, h₁, h₂, h₃⟩
    · exact .inr (.inl ⟨n, h₁, h₂, h₃⟩)
    · exact .inr (.inr (.inl ⟨n, h₁, h₂, h₃⟩))
    · exact .inr (.inr (.inr (.inl ⟨n, h₁, h₂, h₃⟩)))
    · exact .inr (.inr (.inr (.inr ⟨n, h₁, h₂, h₃⟩)))

/-- C23. The exact search of `util` is by equality of names, in the order of the names. -/
theorem C23_exact (names : List String) (vector : List Sym) :
    findByName nm isMatch names vector true =
      names.flatMap fun n => vector.filter fun s => decide (nm s = n) := by
  simp [findByName]

/-- C23. An unknown variable type raises `AttributeError`. -/
theorem C23_unknown_type (m : SysModel) (names : List String) (ty : String)
    (h : ty ∉ ["x", "y", "u", "p", "theta"]) :
    getVariablesByNames nm isMatch m names (some [ty]) = .error .attributeError := by
  simp only [List.mem_cons, List.not_mem_nil, or_false, not_or] at h
  obtain ⟨h₁, h₂, h₃, h₄, h₅⟩ := h
  simp [getVariablesByNames, collectByNames, varsOf, h₁, h₂, h₃, h₄, h₅, bind, Except.bind]

/-- Names used by the examples. -/
def exampleNames : Sym → String
  | 2 => "x"
  | 3 => "x_1"
  | 4 => "h"
  | _ => "t"

/-- C23, order: false of the code across variable types. Asking for an algebraic variable first and a
state second returns the state first. -/
theorem C23_order_fails : ∃ (m : SysModel) (names : List String),
    getVariablesByNames exampleNames literalMatch m names none ≠
      .ok (names.flatMap fun n => (Spec.searched m).filter fun s =>
        literalMatch n (exampleNames s)) :=
  ⟨{ t := 0, tau := 1, x := [2], y := [4] }, ["h", "x"], by decide +kernel⟩

/-- C23, exact name: false of the code. The search is by `re.match`, so a variable whose name is the
beginning of another one's cannot be found by its name. -/
theorem C23_prefix_fails : ∃ (m : SysModel) (s : Sym), s ∈ Spec.searched m ∧
    (∀ s' ∈ Spec.searched m, exampleNames s' = exampleNames s → s' = s) ∧
    getVariableByName exampleNames literalMatch m (exampleNames s) none = .error .valueError :=
  ⟨{ t := 0, tau := 1, x := [2, 3] }, 2, by decide +kernel, by decide +kernel, by decide +kernel⟩

/-- C23. For literal names a variable is found by its own name when no other variable's name starts
with it. -/
theorem C23_own_name_partial (m : SysModel) (s : Sym) (pre post : List Sym)
    (hs : Spec.searched m = pre ++ s :: post)
    (h : ∀ s' ∈ pre ++ post, literalMatch (nm s) (nm s') = false) :
    getVariableByName nm literalMatch m (nm s) none = .ok s := by
  rw [C23_single]
  left
  refine ⟨s, ?_, rfl⟩
  rw [hs, List.filter_append, List.filter_cons]
  have hself : literalMatch (nm s) (nm s) = true := by
    simp [literalMatch]
  have hz : ∀ l : List Sym, (∀ a ∈ l, literalMatch (nm s) (nm a) = false) →
      l.filter (fun a => literalMatch (nm s) (nm a)) = [] := by
    intro l hl
    rw [List.filter_eq_nil_iff]
    intro a ha
    simp [hl a ha]
  rw [hz pre fun a ha => h a (by simp [ha]), hz post fun a ha => h a (by simp [ha])]
  simp [hself]

/-- C23. `has_variable` holds exactly when some of the given symbols is a variable of the model. -/
theorem C23_has_variable (m : SysModel) (var : List Sym) :
    m.hasVariable var = true ↔
      ∃ s ∈ var, s ∈ Spec.searched m ∨ s ∈ m.uPar := by
  unfold hasVariable Spec.searched
  rw [decide_eq_true_eq, gt_iff_lt, List.length_pos_iff_exists_mem]
  constructor
  · rintro ⟨i, hi⟩
    obtain ⟨s, hs, hsi⟩ := mem_findIndices.mp hi
    refine ⟨s, hs, ?_⟩
    have := List.mem_of_getElem? hsi
    simp only [List.mem_append] at this ⊢
    tauto
  · rintro ⟨s, hs, hm⟩
    have : s ∈ m.x ++ m.y ++ m.u ++ m.p ++ m.theta ++ m.uPar := by
      simp only [List.mem_append] at hm ⊢
      tauto
    obtain ⟨i, hi, hsi⟩ := List.getElem_of_mem this
    exact ⟨i, mem_findIndices.mpr ⟨s, hs, by rw [List.getElem?_eq_getElem hi, hsi]⟩⟩

example : getVariableByName exampleNames literalMatch
    { t := 0, tau := 1, x := [2, 3], y := [4] } "x_" none = .ok 3 := by decide +kernel

end Verif
