import Verif.Spec.AugLagConvex
import Verif.Lemmas.AugLag
import Mathlib.Algebra.Order.BigOperators.Group.Finset
import Mathlib.Algebra.BigOperators.Ring.Finset
import Mathlib.Tactic.Linarith
import Mathlib.Tactic.FieldSimp
import Mathlib.Tactic.Positivity
/-!
# The method of multipliers for convex problems
-/
namespace Verif.AugLag
open Verif Verif.Spec

variable {K : Type} [Field K] [LinearOrder K]

theorem total_add (o : Opts K) (F G : Nat → Nat → Nat → K) :
    total o (fun el j i => F el j i + G el j i) = total o F + total o G := Finset.sum_add_distrib

theorem total_sub (o : Opts K) (F G : Nat → Nat → Nat → K) :
    total o (fun el j i => F el j i - G el j i) = total o F - total o G := Finset.sum_sub_distrib _ _

theorem total_mul (o : Opts K) (a : K) (F : Nat → Nat → Nat → K) :
    total o (fun el j i => a * F el j i) = a * total o F := (Finset.mul_sum _ _ _).symm

theorem mem_total {o : Opts K} {q : Nat × Nat × Nat}
    (h : q ∈ Finset.range o.elements ×ˢ Finset.range o.degree ×ˢ Finset.range o.nRelax) :
    q.1 < o.elements ∧ q.2.1 < o.degree ∧ q.2.2 < o.nRelax := by
  simpa [Finset.mem_product] using h

theorem total_congr {o : Opts K} {F G : Nat → Nat → Nat → K}
    (h : ∀ el < o.elements, ∀ j < o.degree, ∀ i < o.nRelax, F el j i = G el j i) : total o F = total o G :=
  Finset.sum_congr rfl fun q hq => h _ (mem_total hq).1 _ (mem_total hq).2.1 _ (mem_total hq).2.2

variable [IsStrictOrderedRing K]

theorem total_le {o : Opts K} {F G : Nat → Nat → Nat → K}
    (h : ∀ el < o.elements, ∀ j < o.degree, ∀ i < o.nRelax, F el j i ≤ G el j i) : total o F ≤ total o G :=
  Finset.sum_le_sum fun q hq => h _ (mem_total hq).1 _ (mem_total hq).2.1 _ (mem_total hq).2.2

theorem total_nonneg {o : Opts K} {F : Nat → Nat → Nat → K}
    (h : ∀ el < o.elements, ∀ j < o.degree, ∀ i < o.nRelax, 0 ≤ F el j i) : 0 ≤ total o F :=
  Finset.sum_nonneg fun q hq => h _ (mem_total hq).1 _ (mem_total hq).2.1 _ (mem_total hq).2.2

theorem le_total {o : Opts K} {F : Nat → Nat → Nat → K}
    (h : ∀ el < o.elements, ∀ j < o.degree, ∀ i < o.nRelax, 0 ≤ F el j i) {el j i : Nat}
    (hel : el < o.elements) (hj : j < o.degree) (hi : i < o.nRelax) : F el j i ≤ total o F :=
  Finset.single_le_sum (f := fun q : Nat × Nat × Nat => F q.1 q.2.1 q.2.2)
    (fun q hq => h _ (mem_total hq).1 _ (mem_total hq).2.1 _ (mem_total hq).2.2)
    (show (el, j, i) ∈ _ by simp [Finset.mem_product, hel, hj, hi])

/-- A line that is not negative on `(0, 1]` is not negative at zero. -/
theorem nonneg_at_zero {a b : K} (hb : 0 ≤ b) (h : ∀ t, 0 < t → t ≤ 1 → 0 ≤ a + t * b) : 0 ≤ a := by
  by_contra ha
  push Not at ha
  rcases hb.eq_or_lt with rfl | hb
  · have := h 1 one_pos le_rfl
    linarith
  · have ht : 0 < min 1 (-a / (2 * b)) := lt_min one_pos (div_pos (by linarith) (by linarith))
    have h₁ := h _ ht (min_le_left _ _)
    have h₂ : min 1 (-a / (2 * b)) * b ≤ -a / (2 * b) * b :=
      mul_le_mul_of_nonneg_right (min_le_right _ _) hb.le
    have h₃ : -a / (2 * b) * b = -a / 2 := by field_simp
    linarith

/-- A solution of the relaxed problem solves the problem with the new multipliers as prices. -/
theorem minimises_lagrangian {P : RelaxedProgram K} {o : Opts K} {w : Nat → K} {nu : List (List K)}
    {mu : List K} {viol : List (List (List K))} {x : P.Point} (hc : P.Convex o)
    (hw : ∀ j < o.degree, 0 < w j) (hmu : ∀ i < o.nRelax, 0 < mu.getD i 0)
    (hs : SolvesRelaxed P o w nu mu viol x) (y : P.Point) (hy : P.feasible y) :
    0 ≤ P.cost y - P.cost x + total o fun el j i => w j *
      ((multiplierAt o nu el j i + mu.getD i 0 * P.residual x el j i) *
        (P.residual y el j i - P.residual x el j i)) := by
  refine nonneg_at_zero (b := total o fun el j i => w j *
    (mu.getD i 0 * (P.residual y el j i - P.residual x el j i) ^ 2 / 2)) ?_ ?_
  · refine total_nonneg fun el _ j hj i hi => ?_
    have := hw j hj
    have := hmu i hi
    positivity
  · intro t ht ht'
    obtain ⟨z, hz, hcost, hres⟩ := hc t x y ht.le ht' hs.feasible hy
    have hopt := hs.optimal z hz
    unfold augmentedCost at hopt
    have hexp : (total o fun el j i => w j * (multiplierAt o nu el j i * P.residual z el j i +
          mu.getD i 0 * P.residual z el j i ^ 2 / 2)) =
        (total o fun el j i => w j * (multiplierAt o nu el j i * P.residual x el j i +
          mu.getD i 0 * P.residual x el j i ^ 2 / 2)) +
        t * ((total o fun el j i => w j *
          ((multiplierAt o nu el j i + mu.getD i 0 * P.residual x el j i) *
            (P.residual y el j i - P.residual x el j i))) +
          t * total o fun el j i => w j *
            (mu.getD i 0 * (P.residual y el j i - P.residual x el j i) ^ 2 / 2)) := by
      rw [← total_mul, ← total_add, ← total_mul, ← total_add]
      refine total_congr fun el hel j hj i hi => ?_
      rw [hres el hel j hj i hi]
      ring
    rw [hexp] at hopt
    refine le_of_mul_le_mul_left ?_ ht
    rw [mul_zero]
    linarith

/-- The multipliers come closer to those of the solution. -/
theorem descent {P : RelaxedProgram K} {o : Opts K} {w : Nat → K} {nu nu' : List (List K)}
    {mu mu' : List K} {viol : List (List (List K))} {x best : P.Point} {lam : Nat → Nat → Nat → K}
    (hc : P.Convex o) (hw : ∀ j < o.degree, 0 < w j) (hmu : ∀ i < o.nRelax, 0 < mu.getD i 0)
    (hs : SolvesRelaxed P o w nu mu viol x) (hb : SolutionWith P o w lam best)
    (hstep : ∀ el < o.elements, ∀ j < o.degree, ∀ i < o.nRelax,
      multiplierAt o nu' el j i = multiplierAt o nu el j i + mu.getD i 0 * P.residual x el j i)
    (hle : ∀ i < o.nRelax, mu.getD i 0 ≤ mu'.getD i 0) :
    multiplierGap o w lam nu' mu' + (total o fun el j i => w j * (mu.getD i 0 * P.residual x el j i ^ 2)) ≤
      multiplierGap o w lam nu mu := by
  have h₁ := minimises_lagrangian hc hw hmu hs best hb.feasible
  have h₂ := hb.least x hs.feasible
  have h₃ : multiplierGap o w lam nu' mu' ≤ multiplierGap o w lam nu' mu := by
    refine total_le fun el _ j hj i hi => ?_
    refine mul_le_mul_of_nonneg_left ?_ (hw j hj).le
    exact div_le_div_of_nonneg_left (sq_nonneg _) (hmu i hi) (hle i hi)
  have h₄ : multiplierGap o w lam nu mu = multiplierGap o w lam nu' mu +
      ((total o fun el j i => w j * (mu.getD i 0 * P.residual x el j i ^ 2)) +
        2 * ((total o fun el j i => w j *
          ((multiplierAt o nu el j i + mu.getD i 0 * P.residual x el j i) *
            (P.residual best el j i - P.residual x el j i))) +
          total o fun el j i => w j * (lam el j i * P.residual x el j i))) := by
    unfold multiplierGap
    rw [← total_add, ← total_mul, ← total_add, ← total_add]
    refine total_congr fun el hel j hj i hi => ?_
    rw [hstep el hel j hj i hi, hb.exact el hel j hj i hi]
    have := (hmu i hi).ne'
    field_simp
    ring
  linarith

/-- The penalties stay positive and below their maximum, and do not decrease. -/
theorem primalMu_le {o : Opts K} (hb : 1 ≤ o.beta) : ∀ mu err last : List K,
    (∀ v ∈ mu, 0 < v ∧ v ≤ o.muMax) →
      (primalMu o mu err last).length = mu.length ∧ (∀ v ∈ primalMu o mu err last, 0 < v ∧ v ≤ o.muMax) ∧
      ∀ i, mu.getD i 0 ≤ (primalMu o mu err last).getD i 0
  | [], _, _, _ => by simp [primalMu]
  | c :: mu, [], _, h => by simpa [primalMu] using h
  | c :: mu, e :: err, [], h => by simpa [primalMu] using h
  | c :: mu, e :: err, l :: last, h => by
    obtain ⟨h₁, h₂, h₃⟩ := primalMu_le hb mu err last fun v hv => h v (List.mem_cons_of_mem _ hv)
    obtain ⟨hc, hm⟩ := h c List.mem_cons_self
    have hcb : c ≤ c * o.beta := le_mul_of_one_le_right hc.le hb
    have hle : c ≤ primalEntry o c e l := by
      unfold primalEntry
      split
      · exact le_rfl
      · exact le_min hm hcb
    refine ⟨by simp [primalMu, h₁], ?_, ?_⟩
    · intro v hv
      simp only [primalMu, List.mem_cons] at hv
      rcases hv with rfl | hv
      · refine ⟨hc.trans_le hle, ?_⟩
        unfold primalEntry
        split
        · exact hm
        · exact min_le_left _ _
      · exact h₂ v hv
    · intro i
      cases i with
      | zero => simpa [primalMu] using hle
      | succ i => simpa [primalMu] using h₃ i

theorem updateMu_le {o : Opts K} (hb : 1 ≤ o.beta)
    (hr : o.skipUpdateMu = true ∨ o.rule ∈ ["constant", "primal", "primal-dual", "bounded-increase"])
    (e : List K) (last : Option (List K)) (s : St K) (h0 : ∀ v ∈ s.mu, 0 < v ∧ v ≤ o.muMax) :
    ∃ mu', updateMu o e last s = (.ok (), { s with mu := mu' }) ∧ mu'.length = s.mu.length ∧
      (∀ v ∈ mu', 0 < v ∧ v ≤ o.muMax) ∧ ∀ i, s.mu.getD i 0 ≤ mu'.getD i 0 := by
  unfold updateMu
  by_cases hs : o.skipUpdateMu = true
  · rw [if_pos hs]; exact ⟨s.mu, rfl, rfl, h0, fun _ => le_rfl⟩
  rw [if_neg hs]
  have hr := hr.resolve_left hs
  by_cases h₁ : o.rule = "constant"
  · rw [if_pos h₁]; exact ⟨s.mu, rfl, rfl, h0, fun _ => le_rfl⟩
  rw [if_neg h₁]
  by_cases h₂ : o.rule = "primal"
  · rw [if_pos h₂]
    cases last with
    | none => exact ⟨s.mu, rfl, rfl, h0, fun _ => le_rfl⟩
    | some l =>
      obtain ⟨g₁, g₂, g₃⟩ := primalMu_le hb s.mu e l h0
      exact ⟨_, rfl, g₁, g₂, g₃⟩
  rw [if_neg h₂]
  by_cases h₃ : o.rule = "primal-dual"
  · rw [if_pos h₃]; exact ⟨s.mu, rfl, rfl, h0, fun _ => le_rfl⟩
  rw [if_neg h₃]
  have h₄ : o.rule = "bounded-increase" := by
    simp only [List.mem_cons, List.not_mem_nil, or_false] at hr
    tauto
  rw [if_pos h₄]
  have hle : ∀ c ∈ s.mu, c ≤ min o.muMax (c * o.beta) := fun c hc =>
    le_min (h0 c hc).2 (le_mul_of_one_le_right (h0 c hc).1.le hb)
  refine ⟨_, rfl, by simp, ?_, ?_⟩
  · intro v hv
    obtain ⟨c, hc, rfl⟩ := List.mem_map.1 hv
    exact ⟨(h0 c hc).1.trans_le (hle c hc), min_le_left _ _⟩
  · intro i
    by_cases hi : i < s.mu.length
    · simp only [List.getD_eq_getElem?_getD, List.getElem?_map, List.getElem?_eq_getElem hi, Option.map_some,
        Option.getD_some]
      exact hle _ (List.getElem_mem hi)
    · have h₁ : s.mu[i]? = none := List.getElem?_eq_none (by omega)
      simp [List.getD_eq_getElem?_getD, h₁]

/-- The update after a solution. -/
theorem updateParameters_run {o : Opts K} (h : Converging o) (viol : List (List (List K))) (s : St K)
    (h0 : ∀ v ∈ s.mu, 0 < v ∧ v ≤ o.muMax) :
    ∃ mu', updateParameters o viol s = (.ok (rowErrors o viol), { s with
        nuTilde := some (newNu o s.mu s.nu viol), mu := mu', lastError := some (rowErrors o viol) }) ∧
      mu'.length = s.mu.length ∧ (∀ v ∈ mu', 0 < v ∧ v ≤ o.muMax) ∧ ∀ i, s.mu.getD i 0 ≤ mu'.getD i 0 := by
  have hcomp := computeNu_plain o viol s h.computes h.updates h.always
  obtain ⟨mu', hmu, h₁, h₂, h₃⟩ := updateMu_le h.beta h.rule (rowErrors o viol) s.lastError
    { s with nuTilde := some (newNu o s.mu s.nu viol) } h0
  refine ⟨mu', ?_, h₁, h₂, h₃⟩
  unfold updateParameters
  simp only [Py.bind_eq]
  rw [Py.bind_ok hcomp, Py.get_bind, Py.bind_ok hmu]
  rfl

theorem getD_pos {o : Opts K} {mu : List K} (hl : mu.length = o.nRelax) (h0 : ∀ v ∈ mu, 0 < v ∧ v ≤ o.muMax) :
    ∀ i < o.nRelax, 0 < mu.getD i 0 := by
  intro i hi
  rw [List.getD_eq_getElem?_getD, List.getElem?_eq_getElem (by omega), Option.getD_some]
  exact (h0 _ (List.getElem_mem _)).1

/-- The effect of the update on the distance to the multipliers of the solution. -/
theorem step_gap {P : RelaxedProgram K} {o : Opts K} {w : Nat → K} {nu : List (List K)}
    {mu mu' : List K} {viol : List (List (List K))} {x best : P.Point} {lam : Nat → Nat → Nat → K}
    (hd : Discretised o) (hc : P.Convex o) (hw : ∀ j < o.degree, 0 < w j) (hl : mu.length = o.nRelax)
    (hmu : ∀ v ∈ mu, 0 < v ∧ v ≤ o.muMax)
    (hs : SolvesRelaxed P o w nu mu viol x) (hb : SolutionWith P o w lam best)
    (hle : ∀ i, mu.getD i 0 ≤ mu'.getD i 0) :
    multiplierGap o w lam (newNu o mu nu viol) mu' +
        (total o fun el j i => w j * (mu.getD i 0 * P.residual x el j i ^ 2)) ≤
      multiplierGap o w lam nu mu := by
  refine descent hc hw (getD_pos hl hmu) hs hb ?_ fun i _ => hle i
  intro el hel j hj i hi
  obtain ⟨v, m, r, h₁, h₂, h₃, h₄⟩ := firstOrderStep o hd nu mu viol hl hs.violations el hel j hj i hi
  rw [hs.shows el hel j hj i hi] at h₃
  obtain rfl := Option.some.inj h₃
  unfold multiplierAt
  rw [h₁, h₄, List.getD_eq_getElem?_getD, h₂]
  rfl

/-- An error that is not below the tolerance costs distance. -/
theorem step_cost {P : RelaxedProgram K} {o : Opts K} {w : Nat → K} {nu : List (List K)} {mu : List K}
    {viol : List (List (List K))} {x : P.Point} {w0 m0 : K} (hw0 : 0 < w0) (hm0 : 0 < m0) (htol : 0 < o.tol)
    (hw : ∀ j < o.degree, w0 ≤ w j) (hm : ∀ i < o.nRelax, m0 ≤ mu.getD i 0)
    (hs : SolvesRelaxed P o w nu mu viol x) (hno : ¬ Met o (rowErrors o viol)) :
    w0 * (m0 * o.tol ^ 2) ≤ total o fun el j i => w j * (mu.getD i 0 * P.residual x el j i ^ 2) := by
  unfold Met at hno
  push Not at hno
  obtain ⟨e, he, hte⟩ := hno
  obtain ⟨i, hi, rfl⟩ := List.mem_iff_getElem.1 he
  have hi' : i < o.nRelax := by simpa [rowErrors] using hi
  have hee : (rowErrors o viol)[i] = maxAbs (rowOf o viol i) := by simp [rowErrors]
  rw [hee] at hte
  obtain ⟨-, -, h₃⟩ := largest o viol hs.violations i hi'
  obtain ⟨el, hel, j, hj, r, hr, habs⟩ := h₃ (htol.trans_le hte).ne'
  rw [hs.shows el hel j hj i hi'] at hr
  obtain rfl := Option.some.inj hr
  refine le_trans ?_ (le_total (F := fun el j i => w j * (mu.getD i 0 * P.residual x el j i ^ 2)) ?_ hel hj hi')
  · have h₁ : o.tol ^ 2 ≤ P.residual x el j i ^ 2 := by
      rw [← sq_abs (P.residual x el j i)]
      exact pow_le_pow_left₀ htol.le (by rw [habs]; exact hte) 2
    have h₂ := hm i hi'
    have h₃ := hw j hj
    refine mul_le_mul h₃ (mul_le_mul h₂ h₁ (by positivity) (hm0.le.trans h₂)) (by positivity)
      (hw0.le.trans h₃)
  · intro el _ j hj i hi
    have h₁ := hw0.trans_le (hw j hj)
    have h₂ := hm0.trans_le (hm i hi)
    positivity

/-- The states of the loop. -/
structure Going (o : Opts K) (m0 : K) (s : St K) : Prop where
  count : s.mu.length = o.nRelax
  range : ∀ v ∈ s.mu, 0 < v ∧ v ≤ o.muMax
  least : ∀ i < o.nRelax, m0 ≤ s.mu.getD i 0

/-- What the loop leaves when the tolerance is met. -/
structure Ended (P : RelaxedProgram K) (o : Opts K) (w : Nat → K) (lam : Nat → Nat → Nat → K) (V : K)
    (viol : List (List (List K))) (s' : St K) : Prop where
  met : ∃ e, s'.lastError = some e ∧ e = rowErrors o viol ∧ Met o e
  solved : ∃ nu mu x, mu.length = o.nRelax ∧ (∀ v ∈ mu, 0 < v ∧ v ≤ o.muMax) ∧
    SolvesRelaxed P o w nu mu viol x ∧ multiplierGap o w lam nu mu ≤ V

theorem iterations_end {P : RelaxedProgram K} {o : Opts K} {w : Nat → K} {solve : Solver K}
    {lam : Nat → Nat → Nat → K} {best : P.Point} {w0 m0 : K}
    (h : Converging o) (hc : P.Convex o) (hw0 : 0 < w0) (hm0 : 0 < m0) (hw : ∀ j < o.degree, w0 ≤ w j)
    (hsolve : OptimalSolver P o w solve) (hb : SolutionWith P o w lam best) (n : Nat) :
    ∀ (s : St K) (k : Nat) (last : Option (List (List (List K)))) (V : K), Going o m0 s →
      multiplierGap o w lam (s.nuTilde.getD s.nu) s.mu ≤ V → V < n * (w0 * (m0 * o.tol ^ 2)) →
      ∃ viol s', iterations o false solve n k last s = (.ok (some viol), s') ∧ Ended P o w lam V viol s' := by
  have hw' : ∀ j < o.degree, 0 < w j := fun j hj => hw0.trans_le (hw j hj)
  induction n with
  | zero =>
    intro s k last V hg hV hn
    exfalso
    have : 0 ≤ multiplierGap o w lam (s.nuTilde.getD s.nu) s.mu := by
      refine total_nonneg fun el _ j hj i hi => ?_
      have h₁ := hw' j hj
      have h₂ := getD_pos hg.count hg.range i hi
      positivity
    simp only [Nat.cast_zero, zero_mul] at hn
    linarith
  | succ n ih =>
    intro s k last V hg hV hn
    obtain ⟨viol, x, hrun, hs⟩ := hsolve (s.nuTilde.getD s.nu) s.mu k hg.count fun v hv => (hg.range v hv).1
    obtain ⟨mu', hup, g₁, g₂, g₃⟩ := updateParameters_run h viol
      { s with nu := s.nuTilde.getD s.nu, solves := s.solves ++ [(s.nuTilde.getD s.nu, s.mu)] } hg.range
    simp only at hup g₁ g₃
    have hgap := step_gap h.discretised hc hw' hg.count hg.range hs hb g₃
    have hit : ∃ s₁ : St K, iteration o false solve k s =
        (.ok (viol, meets o (some (rowErrors o viol))), s₁) ∧ s₁.nuTilde = some (newNu o s.mu (s.nuTilde.getD s.nu) viol) ∧
        s₁.mu = mu' ∧ s₁.lastError = some (rowErrors o viol) := by
      refine ⟨{
        nu := s.nuTilde.getD s.nu
        nuTilde := some (newNu o s.mu (s.nuTilde.getD s.nu) viol)
        mu := mu'
        lastError := some (rowErrors o viol)
        solves := s.solves ++ [(s.nuTilde.getD s.nu, s.mu)]
        errors := s.errors ++ [rowErrors o viol] }, ?_, ?_⟩
      · unfold iteration iterationError
        simp only [Py.bind_eq, Py.modify_bind, Py.get_bind, hrun, Py.lift_ok_bind, Bool.false_eq_true, if_false]
        have e₁ := Py.bind_ok (f := fun e => (Py.modify fun s : St K => { s with
          errors := s.errors ++ [e] }).bind fun _ => Py.pure (some e)) hup
        rw [Py.bind_ok e₁]
        rfl
      · exact ⟨rfl, rfl, rfl⟩
    obtain ⟨s₁, hit, ht, hm, hl⟩ := hit
    unfold iterations
    rw [Py.bind_ok hit]
    by_cases hmet : Met o (rowErrors o viol)
    · have hflag : meets o (some (rowErrors o viol)) = true := by
        simpa [meets, Met] using hmet
      rw [hflag]
      exact ⟨viol, s₁, rfl, ⟨_, hl, rfl, hmet⟩, _, _, x, hg.count, hg.range, hs, hV⟩
    · have hflag : meets o (some (rowErrors o viol)) = false := by
        rw [Bool.eq_false_iff]
        intro hf
        exact hmet (by simpa [meets, Met] using hf)
      rw [hflag]
      have hcost := step_cost hw0 hm0 h.tol hw hg.least hs hmet
      have hpos : 0 ≤ total o fun el j i => w j * (s.mu.getD i 0 * P.residual x el j i ^ 2) :=
        total_nonneg fun el _ j hj i hi => by
          have h₁ := hw' j hj
          have h₂ := getD_pos hg.count hg.range i hi
          positivity
      obtain ⟨viol', s', h₁, h₂⟩ := ih s₁ (k + 1) (some viol) (V - w0 * (m0 * o.tol ^ 2))
        ⟨by rw [hm, g₁]; exact hg.count, by rw [hm]; exact g₂, fun i hi => by
          rw [hm]; exact (hg.least i hi).trans (g₃ i)⟩
        (by rw [ht, hm, Option.getD_some]; linarith) (by push_cast at hn; linarith)
      refine ⟨viol', s', h₁, h₂.met, ?_⟩
      obtain ⟨nu, mu, y, q₁, q₂, q₃, q₄⟩ := h₂.solved
      have : 0 < w0 * (m0 * o.tol ^ 2) := by have := h.tol; positivity
      exact ⟨nu, mu, y, q₁, q₂, q₃, by linarith⟩

/-- If the tolerance is met, so it is by the residuals. -/
theorem _root_.Verif.Spec.SolvesRelaxed.residual_lt {P : RelaxedProgram K} {o : Opts K} {w : Nat → K}
    {nu : List (List K)} {mu : List K} {viol : List (List (List K))} {x : P.Point}
    (hs : SolvesRelaxed P o w nu mu viol x) (hmet : Met o (rowErrors o viol)) :
    ∀ el < o.elements, ∀ j < o.degree, ∀ i < o.nRelax, |P.residual x el j i| < o.tol := by
  intro el hel j hj i hi
  refine lt_of_le_of_lt ((largest o viol hs.violations i hi).2.1 el hel j hj _ (hs.shows el hel j hj i hi)) ?_
  exact hmet _ (List.mem_of_getElem? (rowErrors_getElem o viol i hi))

/-- The cost of a solution of the relaxed problem that meets the tolerance. -/
theorem _root_.Verif.Spec.SolvesRelaxed.cost_near {P : RelaxedProgram K} {o : Opts K} {w : Nat → K}
    {nu : List (List K)} {mu : List K} {viol : List (List (List K))} {x best : P.Point}
    {lam : Nat → Nat → Nat → K} {w0 V : K}
    (hs : SolvesRelaxed P o w nu mu viol x) (hw0 : 0 < w0) (hw : ∀ j < o.degree, w0 ≤ w j)
    (hl : mu.length = o.nRelax) (hmu' : ∀ v ∈ mu, 0 < v ∧ v ≤ o.muMax)
    (hb : SolutionWith P o w lam best) (htol : 0 < o.tol)
    (hsmall : ∀ el < o.elements, ∀ j < o.degree, ∀ i < o.nRelax, |P.residual x el j i| < o.tol)
    (hgap : multiplierGap o w lam nu mu ≤ V) :
    P.cost best ≤ P.cost x + o.tol * (total o fun el j i => w j * |lam el j i|) ∧
      ∀ B, 0 ≤ B → V * o.muMax ≤ w0 * B ^ 2 →
        P.cost x ≤ P.cost best + o.tol * total o fun el j i => w j * (|lam el j i| + B) := by
  have hw' : ∀ j < o.degree, 0 < w j := fun j hj => hw0.trans_le (hw j hj)
  constructor
  · refine (hb.least x hs.feasible).trans (by
      rw [← total_mul]
      refine add_le_add_right (total_le fun el hel j hj i hi => ?_) _
      have h₁ : lam el j i * P.residual x el j i ≤ |lam el j i| * o.tol :=
        (le_abs_self _).trans (by
          rw [abs_mul]
          exact mul_le_mul_of_nonneg_left (hsmall el hel j hj i hi).le (abs_nonneg _))
      have := mul_le_mul_of_nonneg_left h₁ (hw' j hj).le
      linarith)
  · intro B hB hVB
    have hopt := hs.optimal best hb.feasible
    have hzero : augmentedCost P o w nu mu best = P.cost best := by
      unfold augmentedCost
      rw [total_congr (G := fun _ _ _ => 0) fun el hel j hj i hi => by
        rw [hb.exact el hel j hj i hi]; ring]
      simp [total]
    rw [hzero] at hopt
    unfold augmentedCost at hopt
    have hsum : 0 ≤ (total o fun el j i => w j * (multiplierAt o nu el j i * P.residual x el j i +
        mu.getD i 0 * P.residual x el j i ^ 2 / 2)) + o.tol * total o fun el j i => w j * (|lam el j i| + B) := by
      rw [← total_mul, ← total_add]
      refine total_nonneg fun el hel j hj i hi => ?_
      have hwj := hw' j hj
      have hmi := getD_pos hl hmu' i hi
      have hmax : mu.getD i 0 ≤ o.muMax := by
        rw [List.getD_eq_getElem?_getD, List.getElem?_eq_getElem (by omega), Option.getD_some]
        exact (hmu' _ (List.getElem_mem _)).2
      have hterm : w j * ((multiplierAt o nu el j i - lam el j i) ^ 2 / mu.getD i 0) ≤ V :=
        le_trans (le_total (F := fun el j i => w j * ((multiplierAt o nu el j i - lam el j i) ^ 2 / mu.getD i 0))
          (fun el _ j hj i hi => by
            have := hw' j hj
            have := getD_pos hl hmu' i hi
            positivity) hel hj hi) hgap
      have hV0 : 0 ≤ V := le_trans (by positivity) hterm
      have hsq : (multiplierAt o nu el j i - lam el j i) ^ 2 ≤ B ^ 2 := by
        refine le_of_mul_le_mul_left ?_ hw0
        have h₁ : w0 * (multiplierAt o nu el j i - lam el j i) ^ 2 ≤
            w j * (multiplierAt o nu el j i - lam el j i) ^ 2 :=
          mul_le_mul_of_nonneg_right (hw j hj) (sq_nonneg _)
        have h₂ : w j * (multiplierAt o nu el j i - lam el j i) ^ 2 =
            w j * ((multiplierAt o nu el j i - lam el j i) ^ 2 / mu.getD i 0) * mu.getD i 0 := by
          field_simp
        have h₃ : w j * ((multiplierAt o nu el j i - lam el j i) ^ 2 / mu.getD i 0) * mu.getD i 0 ≤
            V * o.muMax := mul_le_mul hterm hmax hmi.le hV0
        linarith
      have habs : |multiplierAt o nu el j i| ≤ |lam el j i| + B := by
        have h₁ := abs_le_of_sq_le_sq hsq hB
        have h₂ := abs_add_le (multiplierAt o nu el j i - lam el j i) (lam el j i)
        rw [sub_add_cancel] at h₂
        have h₃ : |multiplierAt o nu el j i - lam el j i| ≤ B := h₁
        linarith
      have h₄ : -(o.tol * (|lam el j i| + B)) ≤ multiplierAt o nu el j i * P.residual x el j i := by
        have h₁ : |multiplierAt o nu el j i * P.residual x el j i| ≤ (|lam el j i| + B) * o.tol := by
          rw [abs_mul]
          exact mul_le_mul habs (hsmall el hel j hj i hi).le (abs_nonneg _) (by positivity)
        have := neg_abs_le (multiplierAt o nu el j i * P.residual x el j i)
        linarith
      have h₅ : 0 ≤ mu.getD i 0 * P.residual x el j i ^ 2 / 2 := by positivity
      have := mul_nonneg hwj.le (show 0 ≤ multiplierAt o nu el j i * P.residual x el j i +
        mu.getD i 0 * P.residual x el j i ^ 2 / 2 + o.tol * (|lam el j i| + B) by linarith)
      linarith
    linarith

end Verif.AugLag
