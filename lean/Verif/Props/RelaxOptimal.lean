import Verif.Lemmas.RelaxOptimal
import Verif.Props.Relax
import Mathlib.Algebra.BigOperators.Fin
/-!
# C156: a converged augmented Lagrangian solution solves the original problem
-/
namespace Verif
open Spec Relax

section
variable {K : Type} [Field K] [LinearOrder K] [IsStrictOrderedRing K] {n : Nat}

/-- C156: the optimal cost of the relaxed problem is never above the cost of a trajectory that satisfies
the constraints of the original problem, whatever the multipliers and penalties, provided that the variables
the relaxation frees have values that controls can have. -/
theorem C156_lower_partial (o : Ocp) (next : Sym) (mu0 : Rat) (a : Args) (s' : Relax)
    (h : RelaxableCall o a) (hb : Below next o) (hr : relax mu0 a (start o next) = (.ok (), s'))
    (ops : Expr.Ops K) (sch : Scheme K n) (he : Everywhere sch o a.time) (hbl : Blind sch next o)
    (mult tr : GridValues K n) (hm : MinimumAt ops sch s'.problem (s'.nuSym ++ s'.muSym) mult tr)
    (tr' : GridValues K n) (hf : SatisfiesAll ops sch o tr')
    (hc : ∀ v ∈ freed o a, sch.control fun k => tr' k v) :
    costOf ops sch s'.problem (withValues (s'.nuSym ++ s'.muSym) mult tr) ≤ costOf ops sch o tr' := by
  obtain ⟨t, f, same, z⟩ := relaxed_of_feasible h hb hr ops sch he hbl tr' hf hc
  obtain ⟨r, hr₁, -, -, hr₂⟩ := costOf_relaxed (K := K) (n := n) h hb hr
  have hle := hm.2 t f
  rw [hr₂ ops sch mult t, ← cost_congr hb ops sch same, Finset.sum_eq_zero, add_zero] at hle
  · exact hle
  · intro k _
    rw [augmentedTerms_zero, mul_zero]
    intro v hv
    obtain ⟨e, hm, rfl⟩ := List.mem_map.1 hv
    exact z k e ((hr₁ e).1 hm)

/-- C156: for every discretisation and all values of the multipliers and penalties, a solution of the
relaxed problem at which the relaxed equations hold satisfies all constraints of the original problem, has
the same cost there, and is at least as good as every trajectory that satisfies them and in which the
variables the relaxation frees have values that controls can have. -/
theorem C156_restricted_partial (o : Ocp) (next : Sym) (mu0 : Rat) (a : Args) (s' : Relax)
    (h : RelaxableCall o a) (hb : Below next o) (hr : relax mu0 a (start o next) = (.ok (), s'))
    (ops : Expr.Ops K) (sch : Scheme K n) (he : Everywhere sch o a.time) (hbl : Blind sch next o)
    (mult tr : GridValues K n) (hm : MinimumAt ops sch s'.problem (s'.nuSym ++ s'.muSym) mult tr)
    (hz : ResidualsWithin ops 0 (s'.relaxedAlg ++ s'.relaxedEq) tr) :
    SatisfiesAll ops sch o tr ∧
    costOf ops sch s'.problem (withValues (s'.nuSym ++ s'.muSym) mult tr) = costOf ops sch o tr ∧
    ∀ tr', SatisfiesAll ops sch o tr' → (∀ v ∈ freed o a, sch.control fun k => tr' k v) →
      costOf ops sch o tr ≤ costOf ops sch o tr' := by
  have hz' : ∀ k, ∀ e ∈ s'.relaxedAlg ++ s'.relaxedEq, e.eval ops (tr k) = 0 :=
    fun k e he => abs_nonpos_iff.1 (hz k e he)
  obtain ⟨r, hr₁, -, -, hr₂⟩ := costOf_relaxed (K := K) (n := n) h hb hr
  have hc : costOf ops sch s'.problem (withValues (s'.nuSym ++ s'.muSym) mult tr) =
      costOf ops sch o tr := by
    rw [hr₂ ops sch mult tr, add_eq_left]
    apply Finset.sum_eq_zero
    intro k _
    rw [augmentedTerms_zero, mul_zero]
    intro v hv
    obtain ⟨e, hm, rfl⟩ := List.mem_map.1 hv
    exact hz' k e ((hr₁ e).1 hm)
  refine ⟨feasible_of_relaxed h hr ops sch tr hm.1 hz', hc, fun tr' hf' hc' => ?_⟩
  rw [← hc]
  exact C156_lower_partial o next mu0 a s' h hb hr ops sch he hbl mult tr hm tr' hf' hc'

/-- C156: if controls can have any values at the points, a solution of the relaxed problem at which the
relaxed equations hold is a solution of the original problem, with the same cost. -/
theorem C156_optimal_partial (o : Ocp) (next : Sym) (mu0 : Rat) (a : Args) (s' : Relax)
    (h : RelaxableCall o a) (hb : Below next o) (hr : relax mu0 a (start o next) = (.ok (), s'))
    (ops : Expr.Ops K) (sch : Scheme K n) (he : Everywhere sch o a.time) (hbl : Blind sch next o)
    (hu : FreeControls sch) (mult tr : GridValues K n)
    (hm : MinimumAt ops sch s'.problem (s'.nuSym ++ s'.muSym) mult tr)
    (hz : ResidualsWithin ops 0 (s'.relaxedAlg ++ s'.relaxedEq) tr) :
    Minimum ops sch o tr ∧
      costOf ops sch s'.problem (withValues (s'.nuSym ++ s'.muSym) mult tr) = costOf ops sch o tr := by
  obtain ⟨h₁, h₂, h₃⟩ := C156_restricted_partial o next mu0 a s' h hb hr ops sch he hbl mult tr hm hz
  exact ⟨⟨h₁, fun tr' hf => h₃ tr' hf fun v _ => hu _⟩, h₂⟩

/-- C156: the method stops when the relaxed equations hold up to a tolerance. The cost of the trajectory
is then at most that of any trajectory satisfying all constraints plus the tolerance times a bound of the
multipliers, the number of relaxed equations and the length of the horizon. -/
theorem C156_near_partial (o : Ocp) (next : Sym) (mu0 : Rat) (a : Args) (s' : Relax)
    (h : RelaxableCall o a) (hb : Below next o) (hr : relax mu0 a (start o next) = (.ok (), s'))
    (ops : Expr.Ops K) (sch : Scheme K n) (he : Everywhere sch o a.time) (hbl : Blind sch next o)
    (mult tr : GridValues K n) (hm : MinimumAt ops sch s'.problem (s'.nuSym ++ s'.muSym) mult tr)
    (ε N : K) (hε : 0 ≤ ε) (hN : 0 ≤ N)
    (hz : ResidualsWithin ops ε (s'.relaxedAlg ++ s'.relaxedEq) tr)
    (hw : ∀ k, 0 ≤ sch.weight k) (hnu : ∀ k, ∀ v ∈ s'.nuSym, |mult k v| ≤ N)
    (hmu : ∀ k, ∀ v ∈ s'.muSym, 0 ≤ mult k v) (tr' : GridValues K n) (hf : SatisfiesAll ops sch o tr')
    (hc : ∀ v ∈ freed o a, sch.control fun k => tr' k v) :
    costOf ops sch o tr ≤ costOf ops sch o tr' +
      N * ε * (s'.relaxedAlg ++ s'.relaxedEq).length * ∑ k, sch.weight k := by
  have hl := C156_lower_partial o next mu0 a s' h hb hr ops sch he hbl mult tr hm tr' hf hc
  obtain ⟨r, hr₁, hlen, -, hr₂⟩ := costOf_relaxed (K := K) (n := n) h hb hr
  rw [hr₂] at hl
  rw [← hlen]
  have hs : -(N * ε * r.length * ∑ k, sch.weight k) ≤
      ∑ k, sch.weight k * augmentedTerms (s'.nuSym.map (mult k)) (s'.muSym.map (mult k))
        (r.map (Expr.eval ops (tr k))) := by
    rw [Finset.mul_sum, ← Finset.sum_neg_distrib]
    apply Finset.sum_le_sum
    intro k _
    have := augmentedTerms_ge hN hε (s'.nuSym.map (mult k)) (s'.muSym.map (mult k))
      (r.map (Expr.eval ops (tr k))) (by simpa using hnu k)
      (by simpa using hmu k) (by
        intro e he
        obtain ⟨e', h', rfl⟩ := List.mem_map.1 he
        exact hz k e' ((hr₁ e').1 h'))
    rw [List.length_map] at this
    have := mul_le_mul_of_nonneg_left this (hw k)
    linarith
  linarith

end

namespace Example

/-- A control `3` and an algebraic variable `1` that equals it. -/
def endModel : SysModel :=
  { SysModel.new 10 11 with
    y := [1], u := [3], uExpr := [.sym 3], uPar := [3], alg := [.sub (.sym 1) (.sym 3)] }

/-- The square of the control is minimised, the control has to be 2 everywhere or at the end only. -/
def endProblem (endOnly : Bool) : Ocp :=
  { Ocp.new endModel (some []) 0 1 with
    gEq := [.sub (.sym 3) (.const 2)]
    timeGEq := [if endOnly then "end" else "default"]
    L := .mul (.sym 3) (.sym 3) }

/-- The path equality is relaxed. -/
def endArgs : Args := { algIndex := some [], timeIndex := some [0] }

/-- Two points; an equality tagged `end` is imposed at the second one, others at both. -/
def twoPoints : Scheme Rat 2 where
  weight := fun _ => 1
  last := 1
  holds := fun tag k => tag = "end" → k = 1
  dynamics := fun _ _ _ => True
  boundary := fun _ _ _ _ _ => True
  inequalities := fun _ _ _ => True

/-- The multiplier is -4, the penalty 1. -/
def endMultipliers : GridValues Rat 2 := fun _ s => if s = 100 then -4 else 1

/-- The control is 2 at both points. -/
def endTrajectory : GridValues Rat 2 := fun _ _ => 2

/-- No further operations. -/
def noOps : Expr.Ops Rat := ⟨fun _ a => a, fun _ a _ => a⟩

/-- The hypotheses on the problem hold for the example. -/
theorem endCall (b : Bool) : RelaxableCall (endProblem b) endArgs where
  sized := by cases b <;> constructor <;> decide
  algebraic := .inl rfl
  bounds := by intro h; cases h
  time := by cases b <;> decide
  tags := by cases b <;> decide
  left := by cases b <;> decide

theorem endBelow (b : Bool) : Below 100 (endProblem b) := by
  unfold Below
  cases b <;> decide +kernel

theorem endBlind (b : Bool) : Blind twoPoints 100 (endProblem b) := fun _ _ _ => ⟨id, id, id⟩

theorem endEverywhere : Everywhere twoPoints (endProblem false) endArgs.time := by
  intro tag ht k h
  have : tag = "default" := by revert ht; rw [h]; decide +kernel
  rw [h] at this
  exact absurd this (by decide)

/-- The cost of the example. -/
theorem endCost (b : Bool) (tr : GridValues Rat 2) :
    costOf noOps twoPoints (endProblem b) tr = tr 0 3 ^ 2 + tr 1 3 ^ 2 := by
  simp [costOf, twoPoints, endProblem, Expr.eval, Fin.sum_univ_two, Ocp.new]
  ring

theorem endFeasible (tr : GridValues Rat 2) (h₁ : ∀ k, tr k 1 = tr k 3) (h₂ : tr 1 3 = 2) :
    SatisfiesAll noOps twoPoints (endProblem true) tr := by
  refine ⟨?_, ?_, ?_, fun _ _ => trivial, ?_, ?_, ?_, trivial, trivial, trivial⟩
  · intro k p hp
    exact absurd hp (by simp [endProblem, endModel, Ocp.new, SysModel.new])
  · intro k
    exact allWithin_free (a := 1) (b := 1)
  · intro k
    exact allWithin_free (a := 1) (b := 1)
  · intro k _
    exact allWithin_free (a := 1) (b := 1)
  · intro k e he
    simp only [endProblem, endModel, Ocp.new, List.mem_singleton] at he
    subst he
    simp [Expr.eval, h₁]
  · intro p hp k hk
    simp only [endProblem, if_true, List.zip_cons_cons, List.zip_nil_right, List.mem_singleton] at hp
    subst hp
    simp only [twoPoints, forall_const] at hk
    subst hk
    simp [Expr.eval, h₂]

/-- With either tag the trajectory is a solution of the relaxed problem, and the relaxed equation holds. -/
theorem endMinimum (b : Bool) : ∃ s', relax 1 endArgs (start (endProblem b) 100) = (.ok (), s') ∧
    MinimumAt noOps twoPoints s'.problem (s'.nuSym ++ s'.muSym) endMultipliers endTrajectory ∧
    ResidualsWithin noOps 0 (s'.relaxedAlg ++ s'.relaxedEq) endTrajectory := by
  have hr : relax 1 endArgs (start (endProblem b) 100) =
      (.ok (), (relax 1 endArgs (start (endProblem b) 100)).2) := by cases b <;> decide +kernel
  generalize hs : (relax 1 endArgs (start (endProblem b) 100)).2 = s' at hr
  have e₁ : s'.nuSym = [100] := by subst hs; cases b <;> decide +kernel
  have e₂ : s'.muSym = [101] := by subst hs; cases b <;> decide +kernel
  have e₃ : s'.relaxedAlg = [] := by subst hs; cases b <;> decide +kernel
  have e₄ : s'.relaxedEq = [.sub (.sym 3) (.const 2)] := by subst hs; cases b <;> decide +kernel
  have e₅ : s'.problem.model = { endModel with p := [101] } := by subst hs; cases b <;> decide +kernel
  have e₆ : s'.problem.gEq = [] := by subst hs; cases b <;> decide +kernel
  have e₇ : s'.problem.yMin = [⊥] ∧ s'.problem.yMax = [⊤] ∧ s'.problem.uMin = [⊥] ∧
      s'.problem.uMax = [⊤] ∧ s'.problem.duMin = [⊥] ∧ s'.problem.duMax = [⊤] := by
    subst hs; cases b <;> decide +kernel
  obtain ⟨r, -, -, hr₁, hr₂⟩ := costOf_relaxed (K := Rat) (n := 2) (endCall b) (endBelow b) hr
  have hcost : ∀ tr, costOf noOps twoPoints s'.problem
      (withValues (s'.nuSym ++ s'.muSym) endMultipliers tr) =
        (tr 0 3 ^ 2 - 4 * (tr 0 3 - 2) + (tr 0 3 - 2) ^ 2 / 2) +
        (tr 1 3 ^ 2 - 4 * (tr 1 3 - 2) + (tr 1 3 - 2) ^ 2 / 2) := by
    intro tr
    rw [hr₂, hr₁ rfl, endCost, e₁, e₂, e₃, e₄]
    simp [augmentedTerms, twoPoints, endMultipliers, Fin.sum_univ_two, Expr.eval]
    ring
  obtain ⟨b₁, b₂, b₃, b₄, b₅, b₆⟩ := e₇
  refine ⟨s', hr, ⟨⟨?_, ?_, ?_, fun _ _ => trivial, ?_, ?_, ?_, trivial, trivial, trivial⟩, ?_⟩, ?_⟩
  · intro k p hp
    exact absurd hp (by simp [e₅, endModel, SysModel.new])
  · intro k; rw [b₁, b₂]
    exact allWithin_free (a := 1) (b := 1)
  · intro k; rw [b₃, b₄]
    exact allWithin_free (a := 1) (b := 1)
  · intro k _; rw [b₅, b₆]
    exact allWithin_free (a := 1) (b := 1)
  · intro k e he
    simp only [e₅, endModel, List.mem_singleton] at he
    subst he
    simp [Expr.eval, endTrajectory]
  · intro p hp
    exact absurd hp (by simp [e₆])
  · intro tr' _
    rw [hcost, hcost]
    simp only [endTrajectory]
    nlinarith [sq_nonneg (tr' 0 3 - 2), sq_nonneg (tr' 1 3 - 2)]
  · intro k e he
    rw [e₃, e₄] at he
    simp only [List.nil_append, List.mem_singleton] at he
    subst he
    simp [Expr.eval, endTrajectory]

end Example

/-- The theorems apply to the example in which the equation is imposed everywhere. -/
example : Minimum Example.noOps Example.twoPoints (Example.endProblem false) Example.endTrajectory := by
  obtain ⟨s', hr, hm, hz⟩ := Example.endMinimum false
  exact (C156_optimal_partial _ _ _ _ s' (Example.endCall _) (Example.endBelow _) hr _ _
    Example.endEverywhere (Example.endBlind _) (fun _ => trivial) _ _ hm hz).1

/-- C156: fails for a path equality imposed at the end only: the relaxation penalises it along the whole
horizon. Here the equation holds at the solution of the relaxed problem, which is not a solution of the
original problem. -/
theorem C156_tag_fails : ∃ s', relax 1 Example.endArgs (start (Example.endProblem true) 100) = (.ok (), s') ∧
    RelaxableCall (Example.endProblem true) Example.endArgs ∧ Below 100 (Example.endProblem true) ∧
    MinimumAt Example.noOps Example.twoPoints s'.problem (s'.nuSym ++ s'.muSym) Example.endMultipliers
      Example.endTrajectory ∧
    ResidualsWithin Example.noOps 0 (s'.relaxedAlg ++ s'.relaxedEq) Example.endTrajectory ∧
    ¬ Minimum Example.noOps Example.twoPoints (Example.endProblem true) Example.endTrajectory := by
  obtain ⟨s', hr, hm, hz⟩ := Example.endMinimum true
  refine ⟨s', hr, Example.endCall _, Example.endBelow _, hm, hz, ?_⟩
  rintro ⟨-, h⟩
  have := h (fun k _ => if k = 1 then 2 else 0) (Example.endFeasible _ (fun _ => rfl) rfl)
  rw [Example.endCost, Example.endCost] at this
  simp [Example.endTrajectory] at this

/-! ### Bounds of states -/

namespace Example

/-- A state `0` that is at most 1 and should be 2. -/
def cappedProblem : Ocp :=
  { Ocp.new { SysModel.new 10 11 with x := [0], ode := [(0, some (.const 0))] } (some [0]) 0 1 with
    xMax := [XRat.fin 1]
    L := .mul (.sub (.sym 0) (.const 2)) (.sub (.sym 0) (.const 2)) }

/-- The bound is relaxed. -/
def cappedArgs : Args := { stateBounds := true }

/-- One point. -/
def cappedPoint : Scheme Rat 1 where
  weight := fun _ => 1
  last := 0
  holds := fun _ _ => True
  dynamics := fun _ _ _ => True
  boundary := fun _ _ _ _ _ => True
  inequalities := fun _ _ _ => True

/-- The multiplier is -2, the penalty 1. -/
def cappedMultipliers : GridValues Rat 1 := fun _ s => if s = 101 then -2 else 1

/-- The state and its copy are 1. -/
def cappedTrajectory : GridValues Rat 1 := fun _ _ => 1

theorem cappedCall : RelaxableCall cappedProblem cappedArgs where
  sized := by constructor <;> decide
  algebraic := .inl rfl
  bounds := fun _ => ⟨rfl, .inl rfl⟩
  time := by decide
  tags := by decide
  left := by decide

theorem cappedBelow : Below 100 cappedProblem := by
  unfold Below
  decide +kernel

theorem cappedMinimum : ∃ s', relax 1 cappedArgs (start cappedProblem 100) = (.ok (), s') ∧
    MinimumAt noOps cappedPoint s'.problem (s'.nuSym ++ s'.muSym) cappedMultipliers cappedTrajectory ∧
    ResidualsWithin noOps 0 (s'.relaxedAlg ++ s'.relaxedEq) cappedTrajectory := by
  have hr : relax 1 cappedArgs (start cappedProblem 100) =
      (.ok (), (relax 1 cappedArgs (start cappedProblem 100)).2) := by decide +kernel
  generalize hs : (relax 1 cappedArgs (start cappedProblem 100)).2 = s' at hr
  have e₁ : s'.nuSym = [101] := by subst hs; decide +kernel
  have e₂ : s'.muSym = [102] := by subst hs; decide +kernel
  have e₃ : s'.relaxedAlg = [.sub (.sym 100) (.sym 0)] := by subst hs; decide +kernel
  have e₄ : s'.relaxedEq = [] := by subst hs; decide +kernel
  have e₅ : s'.problem.model.x = [0] ∧ s'.problem.model.y = [] ∧ s'.problem.model.u = [100] ∧
      s'.problem.model.alg = [] ∧ s'.problem.gEq = [] := by subst hs; decide +kernel
  have e₆ : s'.problem.xMin = [⊥] ∧ s'.problem.xMax = [⊤] ∧ s'.problem.uMin = [⊥] ∧
      s'.problem.uMax = [XRat.fin 1] := by subst hs; decide +kernel
  obtain ⟨r, h₁, h₂, -, h₃⟩ := costOf_relaxed (K := Rat) (n := 1) cappedCall cappedBelow hr
  have hr₁ : r = [.sub (.sym 100) (.sym 0)] := by
    rw [e₃, e₄] at h₁ h₂
    obtain ⟨e, rfl⟩ := List.length_eq_one_iff.1 h₂
    have := (h₁ e).1 (by simp)
    simp only [List.append_nil, List.mem_singleton] at this
    rw [this]
  have hcost : ∀ tr, costOf noOps cappedPoint s'.problem
      (withValues (s'.nuSym ++ s'.muSym) cappedMultipliers tr) =
        (tr 0 0 - 2) ^ 2 - 2 * (tr 0 100 - tr 0 0) + (tr 0 100 - tr 0 0) ^ 2 / 2 := by
    intro tr
    rw [h₃, hr₁, e₁, e₂]
    simp [augmentedTerms, cappedPoint, cappedMultipliers, costOf, cappedProblem, Ocp.new, Expr.eval]
    ring
  obtain ⟨x₁, x₂, x₃, x₄, x₅⟩ := e₅
  obtain ⟨b₁, b₂, b₃, b₄⟩ := e₆
  refine ⟨s', hr, ⟨⟨?_, ?_, ?_, fun _ _ => trivial, ?_, ?_, ?_, trivial, trivial, trivial⟩, ?_⟩, ?_⟩
  · intro k; rw [b₁, b₂]
    exact allWithin_free (a := 1) (b := 1)
  · intro k p hp
    exact absurd hp (by simp [x₂])
  · intro k p hp
    rw [b₃, b₄, x₃] at hp
    simp only [List.zip_cons_cons, List.zip_nil_right, List.mem_singleton] at hp
    subst hp
    simp only [cappedTrajectory]
    refine ⟨by simp, by decide, (by intro q hq; cases hq), ?_⟩
    intro q hq
    have : q = 1 := by
      simpa [XRat.fin] using hq.symm
    subst this
    simp
  · intro s hs
    exact absurd hs (by simp [cappedPoint])
  · intro k e he
    rw [x₄] at he
    exact absurd he (by simp)
  · intro p hp
    exact absurd hp (by simp [x₅])
  · intro tr' hf
    rw [hcost, hcost]
    have hu := hf.u 0 (100, ⊥, XRat.fin 1) (by rw [x₃, b₃, b₄]; simp)
    have hle : tr' 0 100 ≤ 1 := by
      have := hu.2.2.2 1 rfl
      simpa using this
    simp only [cappedTrajectory]
    nlinarith [sq_nonneg (tr' 0 0 - 1), sq_nonneg (tr' 0 100 - tr' 0 0)]
  · intro k e he
    rw [e₃, e₄] at he
    simp only [List.append_nil, List.mem_singleton] at he
    subst he
    simp [Expr.eval, cappedTrajectory]

end Example

/-- The theorems apply to a relaxed bound: the state 1 is the best one within the bound. -/
example : Minimum Example.noOps Example.cappedPoint Example.cappedProblem Example.cappedTrajectory := by
  obtain ⟨s', hr, hm, hz⟩ := Example.cappedMinimum
  exact (C156_optimal_partial _ _ _ _ s' Example.cappedCall Example.cappedBelow hr _ _
    (fun tag ht => absurd ht (List.not_mem_nil)) (fun _ _ _ => ⟨id, id, id⟩) (fun _ => trivial)
    _ _ hm hz).1

/-! ### Controls that are constant on an element -/

namespace Example

/-- An algebraic variable `1` that equals the state `0`, which should follow the time. -/
def followProblem : Ocp :=
  { Ocp.new { SysModel.new 10 11 with
      x := [0], y := [1], ode := [(0, some (.const 0))], alg := [.sub (.sym 1) (.sym 0)] }
      (some [0]) 0 1 with
    L := .mul (.sub (.sym 0) (.sym 10)) (.sub (.sym 0) (.sym 10)) }

/-- Two points of one element, at the times 1 and 2. A control has the same value at both. -/
def constantControls : Scheme Rat 2 where
  weight := fun _ => 1
  last := 1
  holds := fun _ _ => True
  control := fun w => w 0 = w 1
  dynamics := fun _ _ tr => tr 0 10 = 1 ∧ tr 1 10 = 2
  boundary := fun _ _ _ _ _ => True
  inequalities := fun _ _ _ => True

/-- The multiplier is 1 at the first point and -1 at the second one, the penalty is 1. -/
def followMultipliers : GridValues Rat 2 := fun k s => if s = 100 ∧ k = 1 then -1 else 1

/-- State and algebraic variable are 3/2. -/
def followTrajectory : GridValues Rat 2 := fun k s =>
  if s = 10 then (if k = 0 then 1 else 2) else 3 / 2

/-- State and algebraic variable follow the time. -/
def followBetter : GridValues Rat 2 := fun k _ => if k = 0 then 1 else 2

theorem followCall : RelaxableCall followProblem {} where
  sized := by constructor <;> decide
  algebraic := .inr ⟨by constructor <;> decide, by decide +kernel, by decide +kernel, by decide, by decide,
    by decide, by decide, by decide, (by intro g hg; cases hg), by decide⟩
  bounds := by intro h; cases h
  time := by decide
  tags := by decide
  left := by decide

theorem followBelow : Below 100 followProblem := by
  unfold Below
  decide +kernel

theorem followBlind : Blind constantControls 100 followProblem := by
  intro tr tr' h
  refine ⟨id, fun hd => ?_, id⟩
  have h₀ := h 0 10 (by decide)
  have h₁ := h 1 10 (by decide)
  simp only [constantControls] at hd ⊢
  rw [← h₀, ← h₁]
  exact hd

theorem followCost (tr : GridValues Rat 2) : costOf noOps constantControls followProblem tr =
    (tr 0 0 - tr 0 10) ^ 2 + (tr 1 0 - tr 1 10) ^ 2 := by
  simp [costOf, constantControls, followProblem, Expr.eval, Fin.sum_univ_two, Ocp.new]
  ring

theorem followFeasible : SatisfiesAll noOps constantControls followProblem followBetter := by
  refine ⟨?_, ?_, ?_, ?_, ?_, ?_, ?_, trivial, ⟨rfl, rfl⟩, trivial⟩
  · intro k
    exact allWithin_free (a := 1) (b := 1)
  · intro k
    exact allWithin_free (a := 1) (b := 1)
  · intro k p hp
    exact absurd hp (by simp [followProblem, Ocp.new, SysModel.new])
  · intro v hv
    exact absurd hv (by simp [followProblem, Ocp.new, SysModel.new])
  · intro s hs
    exact absurd hs (by simp [constantControls])
  · intro k e he
    simp only [followProblem, Ocp.new, List.mem_singleton] at he
    subst he
    simp [Expr.eval, followBetter]
  · intro p hp
    exact absurd hp (by simp [followProblem, Ocp.new])

end Example

/-- C156: fails for controls that are constant on the elements (the default) and several points per
element. The algebraic variable becomes such a control, so the problem that is solved is a more constrained
one. Here the relaxed equation holds at the solution of the relaxed problem, which is not a solution of the
original problem. -/
theorem C156_control_fails : ∃ s', relax 1 {} (start Example.followProblem 100) = (.ok (), s') ∧
    RelaxableCall Example.followProblem {} ∧ Below 100 Example.followProblem ∧
    Blind Example.constantControls 100 Example.followProblem ∧
    MinimumAt Example.noOps Example.constantControls s'.problem (s'.nuSym ++ s'.muSym)
      Example.followMultipliers Example.followTrajectory ∧
    ResidualsWithin Example.noOps 0 (s'.relaxedAlg ++ s'.relaxedEq) Example.followTrajectory ∧
    ¬ Minimum Example.noOps Example.constantControls Example.followProblem Example.followTrajectory := by
  have hr : relax 1 {} (start Example.followProblem 100) =
      (.ok (), (relax 1 {} (start Example.followProblem 100)).2) := by decide +kernel
  generalize hs : (relax 1 {} (start Example.followProblem 100)).2 = s' at hr
  have e₁ : s'.nuSym = [100] := by subst hs; decide +kernel
  have e₂ : s'.muSym = [101] := by subst hs; decide +kernel
  have e₃ : s'.relaxedAlg = [.sub (.sym 1) (.sym 0)] := by subst hs; decide +kernel
  have e₄ : s'.relaxedEq = [] := by subst hs; decide +kernel
  have e₅ : s'.problem.model.x = [0] ∧ s'.problem.model.y = [] ∧ s'.problem.model.u = [1] ∧
      s'.problem.model.alg = [] ∧ s'.problem.gEq = [] := by subst hs; decide +kernel
  have e₆ : s'.problem.xMin = [⊥] ∧ s'.problem.xMax = [⊤] ∧ s'.problem.uMin = [⊥] ∧
      s'.problem.uMax = [⊤] := by subst hs; decide +kernel
  obtain ⟨r, -, -, h₁, h₂⟩ := costOf_relaxed (K := Rat) (n := 2) Example.followCall Example.followBelow hr
  have hcost : ∀ tr, costOf Example.noOps Example.constantControls s'.problem
      (withValues (s'.nuSym ++ s'.muSym) Example.followMultipliers tr) =
        (tr 0 0 - tr 0 10) ^ 2 + (tr 1 0 - tr 1 10) ^ 2 +
        ((tr 0 1 - tr 0 0) + (tr 0 1 - tr 0 0) ^ 2 / 2 +
          (-(tr 1 1 - tr 1 0) + (tr 1 1 - tr 1 0) ^ 2 / 2)) := by
    intro tr
    rw [h₂, h₁ rfl, Example.followCost, e₁, e₂, e₃, e₄]
    simp [augmentedTerms, Example.constantControls, Example.followMultipliers, Fin.sum_univ_two, Expr.eval]
    ring
  obtain ⟨x₁, x₂, x₃, x₄, x₅⟩ := e₅
  obtain ⟨b₁, b₂, b₃, b₄⟩ := e₆
  refine ⟨s', hr, Example.followCall, Example.followBelow, Example.followBlind,
    ⟨⟨?_, ?_, ?_, ?_, ?_, ?_, ?_, trivial, ⟨rfl, rfl⟩, trivial⟩, ?_⟩, ?_, ?_⟩
  · intro k; rw [b₁, b₂]
    exact allWithin_free (a := 1) (b := 1)
  · intro k p hp
    exact absurd hp (by simp [x₂])
  · intro k; rw [b₃, b₄]
    exact allWithin_free (a := 1) (b := 1)
  · intro v hv
    rw [x₃, List.mem_singleton] at hv
    subst hv
    rfl
  · intro s hs
    exact absurd hs (by simp [Example.constantControls])
  · intro k e he
    rw [x₄] at he
    exact absurd he (by simp)
  · intro p hp
    exact absurd hp (by simp [x₅])
  · intro tr' hf
    rw [hcost, hcost]
    have hc : tr' 0 1 = tr' 1 1 := hf.control 1 (by rw [x₃]; simp)
    obtain ⟨t₀, t₁⟩ : tr' 0 10 = 1 ∧ tr' 1 10 = 2 := hf.dynamics
    rw [t₀, t₁, hc]
    simp [Example.followTrajectory]
    nlinarith [sq_nonneg (tr' 0 0 - 3 / 2), sq_nonneg (tr' 1 0 - 3 / 2),
      sq_nonneg (tr' 1 1 - tr' 0 0), sq_nonneg (tr' 1 1 - tr' 1 0)]
  · intro k e he
    rw [e₃, e₄] at he
    simp only [List.append_nil, List.mem_singleton] at he
    subst he
    simp [Expr.eval, Example.followTrajectory]
  · rintro ⟨-, h⟩
    have := h _ Example.followFeasible
    rw [Example.followCost, Example.followCost] at this
    revert this
    decide +kernel

end Verif
