import Verif.Spec.AlgVar
import Verif.Lemmas.Expr
import Verif.Props.Equilibrium
/-!
# C157: find_algebraic_variable returns a solution of the algebraic equations
-/
namespace Verif
open Equilibrium AlgVar Spec
variable {K : Type} [Field K]

namespace AlgVar

theorem functionOf_ok {v : List Sym} {eqs f : List Expr} (h : functionOf v eqs = .ok f) :
    f = eqs ∧ ∀ e ∈ eqs, ∀ s ∈ e.syms, s ∈ v := by
  unfold functionOf at h
  split at h
  · next hall =>
    cases h
    refine ⟨rfl, fun e he s hs => ?_⟩
    exact of_decide_eq_true (List.all_eq_true.1 (List.all_eq_true.1 hall e he) s hs)
  · cases h

theorem functionOf_all {v : List Sym} {eqs : List Expr} (h : ∀ e ∈ eqs, ∀ s ∈ e.syms, s ∈ v) :
    functionOf v eqs = .ok eqs := by
  unfold functionOf
  rw [if_pos]
  rw [List.all_eq_true]
  intro e he
  rw [List.all_eq_true]
  exact fun s hs => decide_eq_true (h e he s hs)

/-- What a call that returns has computed. -/
theorem find_ok {rf : Rootfinder K} {m : SysModel} {x u : List Rat} {guess : Option (List K)} {t : Rat}
    {p theta : Option (List Rat)} {y : List K}
    (h : findAlgebraicVariable rf m x u guess t p theta = .ok y) :
    (knownVar m).length = (knownValues t x u p theta).length ∧
    (∀ e ∈ m.alg.map (Expr.subst (knownVar m) ((knownValues t x u p theta).map Expr.const)),
      ∀ s ∈ e.syms, s ∈ m.y) ∧ m.alg.length = m.y.length ∧
    ∃ g, rf m.y (m.alg.map (Expr.subst (knownVar m) ((knownValues t x u p theta).map Expr.const))) g =
      .ok y := by
  simp only [findAlgebraicVariable, bind, Except.bind] at h
  cases h₁ : substituted m (knownValues t x u p theta) with
  | error e => rw [h₁] at h; cases h
  | ok alg =>
  rw [h₁] at h
  simp only at h
  unfold substituted at h₁
  split at h₁
  case isFalse => cases h₁
  case isTrue hl =>
  cases h₁
  cases h₂ : functionOf m.y (m.alg.map (Expr.subst (knownVar m)
      ((knownValues t x u p theta).map Expr.const))) with
  | error e => rw [h₂] at h; cases h
  | ok f =>
  rw [h₂] at h
  obtain ⟨rfl, hs⟩ := functionOf_ok h₂
  simp only at h
  cases h₃ : square m.y (m.alg.map (Expr.subst (knownVar m)
      ((knownValues t x u p theta).map Expr.const))) with
  | error e => rw [h₃] at h; cases h
  | ok _ =>
  rw [h₃] at h
  simp only at h
  unfold square at h₃
  split at h₃
  case isFalse => cases h₃
  case isTrue hq =>
  cases h₄ : fit m.y.length (guess.getD (List.replicate m.y.length 1)) with
  | error e => rw [h₄] at h; cases h
  | ok g =>
  rw [h₄] at h
  exact ⟨hl, hs, by simpa using hq, g, h⟩

theorem atPoint_values {m : SysModel} {t : Rat} {x u : List Rat} {p theta : Option (List Rat)}
    {ρ : Sym → K} (h : AtPoint m t x u p theta ρ) :
    (knownVar m).map ρ = (knownValues t x u p theta).map fun q : Rat => (q : K) := by
  have hx := h.x; have hu := h.u; have hp := h.p; have hth := h.theta
  unfold HasRatValues at hx hu hp hth
  simp only [knownVar, knownValues, List.map_cons, List.map_append, h.t, hx, hu, hp, hth]

theorem known_nodup {m : SysModel} (hm : DistinctVariables m) : (knownVar m).Nodup :=
  (List.nodup_append.1 hm).1

end AlgVar

/-- C157. The returned values are as many as the algebraic variables and solve all algebraic equations
at the given time, states, controls and parameters. -/
theorem C157_solves (ops : Expr.Ops K) {rf : Rootfinder K} (hrf : FindsRoots ops rf) (m : SysModel)
    (hm : DistinctVariables m) (x u : List Rat) (guess : Option (List K)) (t : Rat)
    (p theta : Option (List Rat)) (y : List K)
    (h : findAlgebraicVariable rf m x u guess t p theta = .ok y) :
    y.length = m.y.length ∧ ∀ ρ : Sym → K, AtPoint m t x u p theta ρ → HasValues ρ m.y y →
      ∀ e ∈ m.alg, e.eval ops ρ = 0 := by
  obtain ⟨hl, -, -, g, hr⟩ := find_ok h
  obtain ⟨hlen, hroot⟩ := hrf _ _ _ _ hr
  refine ⟨hlen, fun ρ hρ hy e he => ?_⟩
  have := hroot ρ hy _ (List.mem_map_of_mem he)
  rwa [Expr.eval_subst ops ρ ρ _ _ (known_nodup hm) (by simpa using hl) ?_
    (fun _ _ => rfl)] at this
  intro i h₁ h₂
  have hv := atPoint_values hρ
  have e₁ : ((knownVar m).map ρ)[i]'(by simpa using h₁) = ρ (knownVar m)[i] := by simp
  rw [← e₁]
  simp only [hv, List.getElem_map, Expr.eval]

/-- C157. For arguments of the right sizes and a square system in the variables of the model the result is
that of the root finder, which gets the equations at the given point; without a guess it starts from
ones. -/
theorem C157_returns (rf : Rootfinder K) (m : SysModel) (x u : List Rat) (guess : Option (List K))
    (t : Rat) (p theta : Option (List Rat)) (hf : ArgumentsFit m x u p theta) (ho : OnlyVariables m)
    (hq : m.alg.length = m.y.length) (hg : ∀ g, guess = some g → g.length = m.y.length) :
    ∃ eqs, findAlgebraicVariable rf m x u guess t p theta =
        rf m.y eqs (guess.getD (List.replicate m.y.length 1)) ∧
      eqs.length = m.alg.length ∧
      (DistinctVariables m → ∀ (ops : Expr.Ops K) (ρ : Sym → K), AtPoint m t x u p theta ρ →
        ∀ i (h₁ : i < eqs.length) (h₂ : i < m.alg.length), eqs[i].eval ops ρ = m.alg[i].eval ops ρ) := by
  have hl : (knownVar m).length = (knownValues t x u p theta).length := by
    simp only [knownVar, knownValues, List.length_cons, List.length_append, hf.x, hf.u, hf.p, hf.theta]
  refine ⟨m.alg.map (Expr.subst (knownVar m) ((knownValues t x u p theta).map Expr.const)), ?_,
    by simp, ?_⟩
  · have h₁ : substituted m (knownValues t x u p theta) =
        .ok (m.alg.map (Expr.subst (knownVar m) ((knownValues t x u p theta).map Expr.const))) := by
      rw [substituted, if_pos hl]
    have h₂ : functionOf m.y (m.alg.map (Expr.subst (knownVar m)
        ((knownValues t x u p theta).map Expr.const))) = .ok _ := functionOf_all (by
      intro e he s hs
      obtain ⟨e', he', rfl⟩ := List.mem_map.1 he
      rcases Expr.mem_syms_subst _ _ (by simpa using hl) _ _ hs with ⟨h₁, h₂⟩ | ⟨r, hr, h₁⟩
      · have := ho e' he' s h₁
        simp only [knownVar, List.mem_cons, List.mem_append] at h₂
        tauto
      · obtain ⟨q, -, rfl⟩ := List.mem_map.1 hr
        simp [Expr.syms] at h₁)
    have h₃ : square m.y (m.alg.map (Expr.subst (knownVar m)
        ((knownValues t x u p theta).map Expr.const))) = .ok () := by
      rw [square, if_pos (by simpa using hq)]
    have h₄ : fit m.y.length (guess.getD (List.replicate m.y.length (1 : K))) =
        .ok (guess.getD (List.replicate m.y.length 1)) := by
      unfold fit
      refine if_pos ?_
      cases guess with
      | none => simp
      | some g => exact hg g rfl
    simp only [findAlgebraicVariable, bind, Except.bind, h₁, h₂, h₃, h₄]
  · intro hm ops ρ hρ i h₁ h₂
    rw [List.getElem_map]
    refine Expr.eval_subst ops ρ ρ _ _ (known_nodup hm) (by simpa using hl) ?_
      (fun _ _ => rfl) _
    intro j k₁ k₂
    have hv := atPoint_values hρ
    have e₁ : ((knownVar m).map ρ)[j]'(by simpa using k₁) = ρ (knownVar m)[j] := by simp
    rw [← e₁]
    simp only [hv, List.getElem_map, Expr.eval]

/-- C157. Parameters that are not given are an error, as is every wrong total size. -/
theorem C157_rejected (rf : Rootfinder K) (m : SysModel) (x u : List Rat) (guess : Option (List K))
    (t : Rat) (p theta : Option (List Rat))
    (h : x.length + u.length + (p.getD []).length + (theta.getD []).length ≠
      m.x.length + m.u.length + m.p.length + m.theta.length) :
    findAlgebraicVariable rf m x u guess t p theta = .error .runtimeError := by
  have h₁ : substituted m (knownValues t x u p theta) = .error .runtimeError := by
    rw [substituted, if_neg]
    simp only [knownVar, knownValues, List.length_cons, List.length_append]
    omega
  simp only [findAlgebraicVariable, bind, Except.bind, h₁]

/-- C157. An equation with a symbol that is no variable of the model, such as the parameters of a
parametrised control or the time inside an element, is an error. -/
theorem C157_free (rf : Rootfinder K) (m : SysModel) (x u : List Rat) (guess : Option (List K))
    (t : Rat) (p theta : Option (List Rat)) (h : ¬ OnlyVariables m) :
    findAlgebraicVariable rf m x u guess t p theta = .error .runtimeError := by
  simp only [findAlgebraicVariable, bind, Except.bind]
  by_cases hl : (knownVar m).length = (knownValues t x u p theta).length
  · rw [substituted, if_pos hl]
    simp only
    have : functionOf m.y (m.alg.map (Expr.subst (knownVar m)
        ((knownValues t x u p theta).map Expr.const))) = .error .runtimeError := by
      unfold functionOf
      rw [if_neg]
      intro hall
      apply h
      intro e he s hs
      by_contra hn
      push Not at hn
      have h₁ := List.all_eq_true.1 hall _ (List.mem_map_of_mem he)
      have h₂ := List.all_eq_true.1 h₁ s ?_
      · exact hn.2.2.2.2.2 (of_decide_eq_true h₂)
      · rw [Expr.subst, Expr.mem_syms_mapSyms]
        refine ⟨s, hs, ?_⟩
        rw [Expr.replacementOf_not_mem]
        · simp [Expr.syms]
        · simp only [knownVar, List.mem_cons, List.mem_append]
          tauto
    rw [this]
  · rw [substituted, if_neg hl]

/-- C157 fails: only the total size is checked. If the first control is passed as a further state, so that
there are too many states and too few controls, the call does the same as the one with the right sizes. -/
theorem C157_sizes_fails (rf : Rootfinder K) (m : SysModel) (x u : List Rat) (a : Rat)
    (guess : Option (List K)) (t : Rat) (p theta : Option (List Rat))
    (hf : ArgumentsFit m x (a :: u) p theta) :
    ¬ ArgumentsFit m (x ++ [a]) u p theta ∧
    findAlgebraicVariable rf m (x ++ [a]) u guess t p theta =
      findAlgebraicVariable rf m x (a :: u) guess t p theta := by
  refine ⟨fun h => ?_, ?_⟩
  · have h₁ := h.u
    have h₂ := hf.u
    simp only [List.length_cons] at h₂
    omega
  · simp only [findAlgebraicVariable, knownValues, List.append_assoc, List.cons_append, List.nil_append]

/-! ## The hypotheses are met -/

/-- One state `2`, one control `3`, one parameter `4`, one algebraic variable `5` with
`y - x - 10 u - 100 p = 0`. -/
def Example.levelModel : SysModel :=
  { SysModel.new 0 1 with
    x := [2]
    x0 := [6]
    ode := [(2, some (.sym 5))]
    u := [3]
    uExpr := [.sym 3]
    uPar := [3]
    p := [4]
    y := [5]
    alg := [.sub (.sub (.sub (.sym 5) (.sym 2)) (.mul (.const 10) (.sym 3)))
      (.mul (.const 100) (.sym 4))] }

example : DistinctVariables Example.levelModel ∧ ArgumentsFit Example.levelModel [1] [2] (some [3]) none ∧
    OnlyVariables Example.levelModel :=
  ⟨by unfold DistinctVariables; decide, ⟨rfl, rfl, rfl, rfl⟩, by unfold OnlyVariables; decide⟩

/-- A root finder that returns the guess if it is a root finds `y = 321`; the second state and no control
give the same as one each. -/
example : ∀ rf, rf = (fun (v : List Sym) (eqs : List Expr) (g : List Rat) =>
      if eqs.all (fun e => e.eval ⟨fun _ a => a, fun _ a _ => a⟩ (fun s => g.getD (v.idxOf s) 0) = 0)
      then Except.ok g else .error .runtimeError) →
    (findAlgebraicVariable rf Example.levelModel [1] [2] (some [321]) 0 (some [3]) none).toOption = some [321] ∧
    (findAlgebraicVariable rf Example.levelModel [1, 2] [] (some [321]) 0 (some [3]) none).toOption =
      some [321] ∧
    (findAlgebraicVariable rf Example.levelModel [1] [2] (some [321]) 0 none none).toOption = none := by
  rintro rf rfl
  decide +kernel

/-- The point of the example. -/
example : AtPoint Example.levelModel 0 [1] [2] (some [3]) none
    (fun s => if s = 2 then (1 : Rat) else if s = 3 then 2 else if s = 4 then 3 else 0) :=
  ⟨by decide +kernel, by unfold HasRatValues; decide +kernel, by unfold HasRatValues; decide +kernel,
    by unfold HasRatValues; decide +kernel, by unfold HasRatValues; decide +kernel⟩

example : ¬ OnlyVariables { Example.levelModel with alg := [.sub (.sym 5) (.sym 1)] } := by
  unfold OnlyVariables; decide

end Verif
