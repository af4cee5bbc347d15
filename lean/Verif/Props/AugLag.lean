import Verif.Lemmas.AugLag
import Mathlib.Analysis.Calculus.FDeriv.Add
import Mathlib.Analysis.Calculus.FDeriv.Pow
import Mathlib.Analysis.Calculus.FDeriv.Mul
/-!
# Multipliers, penalties and the loop of the augmented Lagrangian (C64-C66, C111-C113)
-/
namespace Verif
open Verif.Spec Verif.AugLag

set_option linter.unusedSectionVars false

variable {K : Type} [Field K] [LinearOrder K]

/-! ### Non-vacuity: two constraints, three collocation points, two elements -/
namespace Example

/-- Collocation points for the examples: `1/d, …, d/d`. -/
def alRoots (d : Nat) : List Rat := (List.range d).map fun k => ((k : Rat) + 1) / d

def alOpts : Opts Rat :=
  { roots := alRoots, t0 := 0, tf := 4, nRelax := 2, nuDegree := 3, degree := 3, elements := 2,
    maxIter := 5, tol := 1 / 100, muMax := 100, beta := 4, minDecrease := 1 / 2 }

/-- The first constraint is violated by 1, the second one by 1/2, everywhere. -/
def alViol : List (List (List Rat)) := List.replicate 2 (List.replicate 3 [1, 1 / 2])

end Example

/-! ### Penalties -/

theorem min_mul_pow [IsStrictOrderedRing K] (M m b : K) (k : Nat) (h0 : 0 < m) (hM : m ≤ M)
    (hb : 1 ≤ b) : min M (min M (m * b ^ k) * b) = min M (m * b ^ (k + 1)) := by
  rcases le_total (m * b ^ k) M with h | h
  · rw [min_eq_right h, pow_succ, mul_assoc]
  · have hM0 : 0 < M := lt_of_lt_of_le h0 hM
    rw [min_eq_left h, min_eq_left (by nlinarith), min_eq_left]
    rw [pow_succ, ← mul_assoc]
    nlinarith

theorem updateParameters_bounded (o : Opts K) (v : List (List (List K))) (s : St K)
    (h : Ready o s) (hr : o.rule = "bounded-increase") (hs : o.skipUpdateMu = false) :
    ∃ e tilde, updateParameters o v s = (.ok e, { s with
      nuTilde := tilde, lastError := some e, mu := s.mu.map fun m => min o.muMax (m * o.beta) }) ∧
      (tilde.isSome ∨ o.skipCompute = true ∨ o.skipUpdateNu = true) := by
  obtain ⟨e, tilde, last, hc, ht⟩ := computeNu_ok o v s h
  refine ⟨e, tilde, ?_, ht⟩
  unfold updateParameters
  simp only [Py.bind_eq]
  rw [Py.bind_ok hc]
  simp [updateMu, hs, hr]

theorem afterUpdates_bounded [IsStrictOrderedRing K] (o : Opts K) (mu0 : K)
    (hr : o.rule = "bounded-increase") (hs : o.skipUpdateMu = false) (h0 : 0 < mu0)
    (h1 : mu0 ≤ o.muMax) (hb : 1 ≤ o.beta) (viols : List (List (List (List K)))) (s : St K)
    (k : Nat) (h : Ready o s)
    (hm : s.mu = List.replicate o.nRelax (min o.muMax (mu0 * o.beta ^ k))) :
    (afterUpdates o viols s).mu =
      List.replicate o.nRelax (min o.muMax (mu0 * o.beta ^ (k + viols.length))) := by
  induction viols generalizing s k with
  | nil => simpa [afterUpdates] using hm
  | cons v viols ih =>
    obtain ⟨e, tilde, hu, ht⟩ := updateParameters_bounded o v s h hr hs
    have := ih (updateParameters o v s).2 (k + 1) (by rw [hu]; exact fun _ => ht) (by
      rw [hu]
      simp only [hm, List.map_replicate]
      rw [min_mul_pow o.muMax mu0 o.beta k h0 h1 hb])
    simp only [afterUpdates, List.foldl_cons] at this ⊢
    rw [this, List.length_cons, show k + 1 + viols.length = k + (viols.length + 1) by omega]

/-- C64: with the bounded-increase rule every penalty is `min(mu_max, mu_0 * beta ^ k)` after `k`
updates, whatever the solutions. -/
theorem C64_closed_form [IsStrictOrderedRing K] (o : Opts K) (mu0 : K)
    (viols : List (List (List (List K)))) (hr : o.rule = "bounded-increase")
    (hs : o.skipUpdateMu = false) (h0 : 0 < mu0) (h1 : mu0 ≤ o.muMax) (hb : 1 ≤ o.beta) :
    (afterUpdates o viols (AugLag.start o mu0)).mu =
      List.replicate o.nRelax (min o.muMax (mu0 * o.beta ^ viols.length)) := by
  have := afterUpdates_bounded o mu0 hr hs h0 h1 hb viols (AugLag.start o mu0) 0
    (fun h => by simp [AugLag.start] at h) (by simp [AugLag.start, h1])
  simpa using this

/-- C64: an update never decreases a penalty and never exceeds the cap. -/
theorem C64_monotone [IsStrictOrderedRing K] (o : Opts K) (mu0 : K)
    (viols : List (List (List (List K)))) (v : List (List (List K)))
    (hr : o.rule = "bounded-increase") (hs : o.skipUpdateMu = false) (h0 : 0 < mu0)
    (h1 : mu0 ≤ o.muMax) (hb : 1 ≤ o.beta) :
    ∃ m m', (afterUpdates o viols (AugLag.start o mu0)).mu = List.replicate o.nRelax m ∧
      (afterUpdates o (viols ++ [v]) (AugLag.start o mu0)).mu = List.replicate o.nRelax m' ∧
      0 < m ∧ m ≤ m' ∧ m' ≤ o.muMax := by
  refine ⟨_, _, C64_closed_form o mu0 viols hr hs h0 h1 hb,
    C64_closed_form o mu0 (viols ++ [v]) hr hs h0 h1 hb, ?_, ?_, min_le_left _ _⟩
  · exact lt_min (lt_of_lt_of_le h0 h1) (by positivity)
  · apply min_le_min_left
    simp only [List.length_append, List.length_cons, List.length_nil, Nat.zero_add]
    have : o.beta ^ viols.length ≤ o.beta ^ (viols.length + 1) :=
      pow_le_pow_right₀ hb (by omega)
    nlinarith

/-- C64: an unknown rule raises, at the first update. -/
theorem C64_unknown_rule (o : Opts K) (v : List (List (List K))) (mu0 : K)
    (hs : o.skipUpdateMu = false)
    (hr : o.rule ∉ ["constant", "primal", "primal-dual", "bounded-increase"]) :
    (updateParameters o v (AugLag.start o mu0)).1 = .error .valueError := by
  simp only [List.mem_cons, List.not_mem_nil, or_false, not_or] at hr
  obtain ⟨e, tilde, last, hc, -⟩ := computeNu_ok o v (AugLag.start o mu0)
    (fun h => by simp [AugLag.start] at h)
  unfold updateParameters
  simp only [Py.bind_eq]
  rw [Py.bind_ok hc]
  simp [updateMu, hs, hr]

example : (afterUpdates Example.alOpts [Example.alViol, Example.alViol] (AugLag.start Example.alOpts 1)).mu
    = [16, 16] := by decide +kernel

/-- C64: setting the penalties: as many values as penalties replace them, one value is given to all of
them, any other number is rejected and changes nothing. -/
theorem C64_set (mu : List K) (s : St K) :
    (mu.length = s.mu.length → setMu mu s = (.ok (), { s with mu := mu })) ∧
    (∀ m, mu = [m] → setMu mu s = (.ok (), { s with mu := List.replicate s.mu.length m })) ∧
    (mu.length ≠ s.mu.length → mu.length ≠ 1 → setMu mu s = (.error .valueError, s)) := by
  refine ⟨fun h => ?_, ?_, fun h h1 => ?_⟩
  · simp [setMu, h]
  · rintro m rfl
    by_cases h : [m].length = s.mu.length
    · simp only [setMu, Py.bind_eq, Py.get_bind, h, if_true]
      simp only [List.length_singleton] at h
      simp [← h, Py.modify]
    · simp only [setMu, Py.bind_eq, Py.get_bind, h, if_false]
      simp [Py.modify, List.map_const']
  · simp only [setMu, Py.bind_eq, Py.get_bind, h, if_false]
    match mu, h1 with
    | [], _ => rfl
    | [_], h1 => simp at h1
    | _ :: _ :: _, _ => rfl

example : (setMu [7] (AugLag.start Example.alOpts 1)).2.mu = [7, 7] := by decide +kernel

/-! ### Multipliers -/

theorem updateMu_keeps (o : Opts K) (error : List K) (last : Option (List K)) (s : St K) :
    (updateMu o error last s).2.nuTilde = s.nuTilde ∧ (updateMu o error last s).2.nu = s.nu ∧
    (updateMu o error last s).2.solves = s.solves ∧ (updateMu o error last s).2.errors = s.errors := by
  unfold updateMu
  split
  · simp
  split
  · simp
  split
  · cases last <;> simp [Py.whenSome]
  split
  · simp
  split
  · simp
  · simp

/-- The new multipliers after an update, whether or not the update of the penalties raises. -/
theorem updateParameters_nuTilde (o : Opts K) (viol : List (List (List K))) (s s' : St K)
    (e : List K) (hc : computeNu o viol s = (.ok e, s')) :
    (updateParameters o viol s).2.nuTilde = s'.nuTilde := by
  unfold updateParameters
  simp only [Py.bind_eq]
  rw [Py.bind_ok hc, Py.get_bind]
  have h := (updateMu_keeps o e s'.lastError s').1
  rcases hu : updateMu o e s'.lastError s' with ⟨r | _, s''⟩
  · rw [Py.bind_error hu]; rw [hu] at h; exact h
  · rw [Py.bind_ok hu]; rw [hu] at h; exact h

/-- C65: after an update each multiplier is, at every collocation point, the old one plus the penalty
times the violation there. -/
theorem C65_update (o : Opts K) (viol : List (List (List K))) (s : St K) (h : Discretised o)
    (hc : o.skipCompute = false) (hn : o.skipUpdateNu = false) (hi : o.onlyImprove = false)
    (hm : s.mu.length = o.nRelax) (hv : Violations o viol) :
    ∃ nu', (updateParameters o viol s).2.nuTilde = some nu' ∧
      FirstOrderStep o s.nu s.mu viol nu' := by
  refine ⟨_, updateParameters_nuTilde o viol s _ _ (computeNu_plain o viol s hc hn hi), ?_⟩
  exact firstOrderStep o h s.nu s.mu viol hm hv

/-- C65: a multiplier is unchanged at a point exactly when the constraint holds there. -/
theorem C65_unchanged_iff (o : Opts K) (viol : List (List (List K))) (nu nu' : List (List K))
    (mu : List K) (hs : FirstOrderStep o nu mu viol nu') (el j i : Nat)
    (he : el < o.elements) (hj : j < o.degree) (hi : i < o.nRelax) (hmu : mu[i]? ≠ some 0) :
    multiplier o nu' el (pointTime o el j) i = multiplier o nu el (pointTime o el j) i ↔
      violation viol el j i = some 0 := by
  obtain ⟨v, m, r, h1, h2, h3, h4⟩ := hs el he j hj i hi
  rw [h4, h1, h3]
  have hm : m ≠ 0 := fun h => hmu (by rw [h2, h])
  simp [hm]

/-- Terms of the augmented Lagrangian of constraints given by position. -/
theorem augmentedTerms_ofFn {F : Type} [Field F] (n : Nat) (nu mu r : Fin n → F) :
    augmentedTerms (List.ofFn nu) (List.ofFn mu) (List.ofFn r) =
      ∑ i, (nu i * r i + mu i / 2 * r i ^ 2) := by
  have : (List.ofFn nu).zip ((List.ofFn mu).zip (List.ofFn r)) =
      List.ofFn fun i => (nu i, mu i, r i) := by
    apply List.ext_getElem
    · simp
    · intro i h₁ h₂; simp
  rw [augmentedTerms, this, List.map_ofFn, List.sum_ofFn]
  rfl

/-- C65: the gradient of the augmented Lagrangian with the old multipliers is the gradient of the
Lagrangian (no penalty terms) with the new ones. -/
theorem C65_gradient {E : Type} [NormedAddCommGroup E] [NormedSpace ℝ E] (n : Nat) (f : E → ℝ)
    (g : Fin n → E → ℝ) (nu mu : Fin n → ℝ) (x : E) (hf : DifferentiableAt ℝ f x)
    (hg : ∀ i, DifferentiableAt ℝ (g i) x) :
    fderiv ℝ (fun z => f z + augmentedTerms (List.ofFn nu) (List.ofFn mu) (List.ofFn fun i => g i z))
        x =
      fderiv ℝ (fun z => f z + augmentedTerms (List.ofFn fun i => nu i + mu i * g i x)
        (List.ofFn fun _ : Fin n => 0) (List.ofFn fun i => g i z)) x := by
  simp only [augmentedTerms_ofFn]
  have h1 : HasFDerivAt (fun z => f z + ∑ i, (nu i * g i z + mu i / 2 * g i z ^ 2))
      (fderiv ℝ f x + ∑ i, (nu i • fderiv ℝ (g i) x +
        (mu i / 2) • ((2 : ℕ) • g i x ^ (2 - 1)) • fderiv ℝ (g i) x)) x := by
    refine hf.hasFDerivAt.add (HasFDerivAt.fun_sum fun i _ => ?_)
    exact ((hg i).hasFDerivAt.const_mul _).add (((hg i).hasFDerivAt.pow 2).const_mul _)
  have h2 : HasFDerivAt (fun z => f z + ∑ i, ((nu i + mu i * g i x) * g i z + 0 / 2 * g i z ^ 2))
      (fderiv ℝ f x + ∑ i, ((nu i + mu i * g i x) • fderiv ℝ (g i) x +
        ((0 : ℝ) / 2) • ((2 : ℕ) • g i x ^ (2 - 1)) • fderiv ℝ (g i) x)) x := by
    refine hf.hasFDerivAt.add (HasFDerivAt.fun_sum fun i _ => ?_)
    exact ((hg i).hasFDerivAt.const_mul _).add (((hg i).hasFDerivAt.pow 2).const_mul _)
  rw [h1.fderiv, h2.fderiv]
  congr 1
  apply Finset.sum_congr rfl
  intro i _
  ext y
  simp
  ring

example : Discretised Example.alOpts where
  same := rfl
  points := by decide
  distinct := by decide +kernel
  positive := by decide
  length := by decide +kernel

example : Violations Example.alOpts Example.alViol := by
  intro el he j hj
  simp only [Example.alOpts] at he hj
  exact ⟨List.replicate 3 [1, 1 / 2], [1, 1 / 2], List.getElem?_replicate_of_lt he,
    List.getElem?_replicate_of_lt hj, rfl⟩

/-! ### The loop -/

theorem meets_iff (o : Opts K) (e : List K) : meets o (some e) = true ↔ Met o e := by
  simp [meets, Met]

/-- An update changes neither the multipliers in use nor the records. -/
theorem updateParameters_keeps (o : Opts K) (viol : List (List (List K))) (s : St K) :
    (updateParameters o viol s).2.nu = s.nu ∧ (updateParameters o viol s).2.solves = s.solves ∧
    (updateParameters o viol s).2.errors = s.errors := by
  have h1 : Py.Always (fun t : St K => t.nu = s.nu ∧ t.solves = s.solves ∧ t.errors = s.errors)
      (computeNu o viol) := by
    unfold computeNu
    split
    · exact Py.Always.pure _
    · refine Py.Always.bind Py.Always.get fun t => ?_
      simp only
      split
      · exact Py.Always.bind (Py.Always.pure _) fun _ => Py.Always.pure _
      · refine Py.Always.bind ?_ fun _ => Py.Always.pure _
        unfold storeNu
        refine Py.Always.bind Py.Always.get fun t => ?_
        split
        · refine Py.Always.forEach _ _ fun e _ => ?_
          unfold improveEntry
          split
          · refine Py.Always.bind (Py.Always.modify _ fun _ h => h) fun _ => ?_
            unfold copyEntry
            refine Py.Always.bind Py.Always.get fun t => ?_
            split
            · exact Py.Always.throw _
            · exact Py.Always.modify _ fun _ h => h
          · exact Py.Always.pure _
        · exact Py.Always.modify _ fun _ h => h
  have h2 : ∀ e l, Py.Always (fun t : St K => t.nu = s.nu ∧ t.solves = s.solves ∧
      t.errors = s.errors) (updateMu o e l) := by
    intro e l t ht
    obtain ⟨-, a, b, c⟩ := updateMu_keeps o e l t
    exact ⟨a.trans ht.1, b.trans ht.2.1, c.trans ht.2.2⟩
  have key : Py.Always (fun t : St K => t.nu = s.nu ∧ t.solves = s.solves ∧ t.errors = s.errors)
      (updateParameters o viol) := by
    unfold updateParameters
    refine Py.Always.bind h1 fun e => ?_
    refine Py.Always.bind Py.Always.get fun t => ?_
    refine Py.Always.bind (h2 _ _) fun _ => ?_
    exact Py.Always.bind (Py.Always.modify _ fun _ h => h) fun _ => Py.Always.pure _
  exact key s ⟨rfl, rfl, rfl⟩

/-- The state in which the solver is called. -/
def atSolve (s : St K) : St K :=
  { s with nu := s.nuTilde.getD s.nu, solves := s.solves ++ [(s.nuTilde.getD s.nu, s.mu)] }

theorem iteration_eq (o : Opts K) (noUpdate : Bool) (solve : Solver K) (k : Nat) (s : St K) :
    iteration o noUpdate solve k s =
      Py.bind (Py.lift (solve (s.nuTilde.getD s.nu) s.mu k))
        (fun viol => Py.bind (iterationError o noUpdate viol)
          fun er => Py.pure (viol, meets o er)) (atSolve s) := rfl

theorem iterationError_solves (o : Opts K) (noUpdate : Bool) (viol : List (List (List K)))
    (s : St K) : (iterationError o noUpdate viol s).2.solves = s.solves := by
  unfold iterationError
  split
  · rfl
  · have h := updateParameters_keeps o viol s
    rcases hu : updateParameters o viol s with ⟨r | e, s'⟩
    · simp only [Py.bind_eq]; rw [Py.bind_error hu]; rw [hu] at h; exact h.2.1
    · simp only [Py.bind_eq]; rw [Py.bind_ok hu]; rw [hu] at h; exact h.2.1

theorem iteration_solves (o : Opts K) (noUpdate : Bool) (solve : Solver K) (k : Nat) (s : St K) :
    (iteration o noUpdate solve k s).2.solves = s.solves ++ [(s.nuTilde.getD s.nu, s.mu)] := by
  rw [iteration_eq]
  rcases solve (s.nuTilde.getD s.nu) s.mu k with e | viol
  · rfl
  · have h := iterationError_solves o noUpdate viol (atSolve s)
    simp only [Py.lift_ok_bind]
    rcases hu : iterationError o noUpdate viol (atSolve s) with ⟨r | e, s'⟩
    · rw [Py.bind_error hu]; rw [hu] at h; exact h
    · rw [Py.bind_ok hu]; rw [hu] at h; exact h

theorem iterations_limit (o : Opts K) (noUpdate : Bool) (solve : Solver K) (n k : Nat)
    (last : Option (List (List (List K)))) (s : St K) :
    (iterations o noUpdate solve n k last s).2.solves.length ≤ s.solves.length + n := by
  induction n generalizing k last s with
  | zero => simp [iterations]
  | succ n ih =>
    have h := iteration_solves o noUpdate solve k s
    unfold iterations
    rcases hu : iteration o noUpdate solve k s with ⟨r | r, s'⟩
    · rw [Py.bind_error hu]; rw [hu] at h; simp only at h ⊢; rw [h]; simp
    · rw [Py.bind_ok hu]; rw [hu] at h
      simp only at h ⊢
      split
      · simp [h]
      · have := ih (k + 1) (some r.1) s'
        rw [h] at this
        simp at this ⊢
        omega

/-- C66: at most `max_iter` subproblems are solved, however the call ends. -/
theorem C66_limit (o : Opts K) (noUpdate : Bool) (solve : Solver K) (s : St K)
    (hs : s.solves = []) : (callSolver o noUpdate solve s).2.solves.length ≤ o.maxIter := by
  have h := iterations_limit o noUpdate solve o.maxIter 0 none s
  rw [hs] at h
  simp only [List.length_nil, Nat.zero_add] at h
  unfold callSolver
  rcases hu : iterations o noUpdate solve o.maxIter 0 none s with ⟨r | r, s'⟩
  · rw [Py.bind_error hu]; rw [hu] at h; exact h
  · rw [Py.bind_ok hu]; rw [hu] at h
    cases r <;> exact h

/-- One iteration with updates that does not raise. -/
theorem iteration_ok (o : Opts K) (solve : Solver K) (k : Nat) (s s' : St K)
    (viol : List (List (List K))) (b : Bool)
    (h : iteration o false solve k s = (.ok (viol, b), s')) :
    solve (s.nuTilde.getD s.nu) s.mu k = .ok viol ∧
    ∃ e, (updateParameters o viol (atSolve s)).1 = .ok e ∧
      s' = { (updateParameters o viol (atSolve s)).2 with errors := s.errors ++ [e] } ∧
      (b = true ↔ Met o e) := by
  rw [iteration_eq] at h
  rcases hs : solve (s.nuTilde.getD s.nu) s.mu k with e | v
  · rw [hs] at h; cases h
  · rw [hs, Py.lift_ok_bind] at h
    obtain ⟨er, s₁, h₁, h₂⟩ := Py.bind_eq_ok.mp h
    simp only [Py.pure_apply, Prod.mk.injEq, Except.ok.injEq] at h₂
    obtain ⟨⟨rfl, rfl⟩, rfl⟩ := h₂
    refine ⟨rfl, ?_⟩
    unfold iterationError at h₁
    simp only [Bool.false_eq_true, if_false, Py.bind_eq] at h₁
    obtain ⟨e, s₂, h₃, h₄⟩ := Py.bind_eq_ok.mp h₁
    simp only [Py.modify_bind, Py.pure_apply, Prod.mk.injEq, Except.ok.injEq] at h₄
    obtain ⟨rfl, rfl⟩ := h₄
    have hk := (updateParameters_keeps o v (atSolve s)).2.2
    rw [h₃] at hk
    refine ⟨e, by rw [h₃], ?_, meets_iff o e⟩
    rw [h₃]
    simp only at hk ⊢
    rw [hk]
    rfl

theorem iterations_stop (o : Opts K) (solve : Solver K) (n k : Nat)
    (last r : Option (List (List (List K)))) (s s' : St K)
    (h : iterations o false solve n k last s = (.ok r, s')) :
    ∃ E : List (List K), s'.errors = s.errors ++ E ∧
      s'.solves.length = s.solves.length + E.length ∧ E.length ≤ n ∧
      (∀ e ∈ E.dropLast, ¬ Met o e) ∧ ((∃ e, E.getLast? = some e ∧ Met o e) ∨ E.length = n) := by
  induction n generalizing k last s with
  | zero =>
    simp only [iterations, Py.pure_apply, Prod.mk.injEq] at h
    obtain ⟨-, rfl⟩ := h
    exact ⟨[], by simp⟩
  | succ n ih =>
    unfold iterations at h
    obtain ⟨⟨viol, b⟩, s₁, h₁, h₂⟩ := Py.bind_eq_ok.mp h
    have hsol := iteration_solves o false solve k s
    rw [h₁] at hsol
    obtain ⟨-, e, -, he, hb⟩ := iteration_ok o solve k s s₁ viol b h₁
    have herr : s₁.errors = s.errors ++ [e] := by rw [he]
    simp only at h₂ hsol
    split at h₂
    · next hc =>
      simp only [Py.pure_apply, Prod.mk.injEq] at h₂
      obtain ⟨-, rfl⟩ := h₂
      exact ⟨[e], herr, by rw [hsol]; simp, by simp, by simp, .inl ⟨e, rfl, hb.1 hc⟩⟩
    · next hc =>
      obtain ⟨E, i1, i2, i3, i4, i5⟩ := ih _ _ _ h₂
      refine ⟨e :: E, ?_, ?_, ?_, ?_, ?_⟩
      · rw [i1, herr]; simp
      · rw [i2, hsol]; simp; omega
      · simp; omega
      · intro x hx
        cases E with
        | nil => simp at hx
        | cons y E =>
          rw [List.dropLast_cons_cons] at hx
          rcases List.mem_cons.1 hx with rfl | hx
          · exact fun hm => hc (hb.2 hm)
          · exact i4 x hx
      · rcases i5 with ⟨x, hx, hm⟩ | hl
        · left
          refine ⟨x, ?_, hm⟩
          cases E with
          | nil => simp at hx
          | cons y E => rw [List.getLast?_cons_cons]; exact hx
        · right; simp [hl]

/-- C66: with updates, the loop ends at the first iteration whose errors are all below the tolerance,
or after `max_iter` iterations if there is none. -/
theorem C66_first_below_tolerance (o : Opts K) (solve : Solver K) (s s' : St K)
    (r : List (List (List K))) (hs : s.solves = []) (he : s.errors = [])
    (h : callSolver o false solve s = (.ok r, s')) :
    s'.errors.length = s'.solves.length ∧ s'.solves.length ≤ o.maxIter ∧
    (∀ e ∈ s'.errors.dropLast, ¬ Met o e) ∧
    ((∃ e, s'.errors.getLast? = some e ∧ Met o e) ∨ s'.errors.length = o.maxIter) := by
  unfold callSolver at h
  obtain ⟨q, s₁, h₁, h₂⟩ := Py.bind_eq_ok.mp h
  have : s' = s₁ := by
    cases q with
    | none => cases h₂
    | some q => cases h₂; rfl
  subst this
  obtain ⟨E, i1, i2, i3, i4, i5⟩ := iterations_stop o solve _ _ _ _ _ _ h₁
  rw [he, List.nil_append] at i1
  rw [hs] at i2
  simp only [List.length_nil, Nat.zero_add] at i2
  rw [i1, i2]
  exact ⟨rfl, i3, i4, i5⟩

theorem iterations_same (o : Opts K) (solve : Solver K) (n k : Nat)
    (last r : Option (List (List (List K)))) (s s' : St K)
    (h : iterations o true solve n k last s = (.ok r, s')) :
    s'.solves = s.solves ++ List.replicate n (s.nuTilde.getD s.nu, s.mu) ∧ s'.mu = s.mu := by
  induction n generalizing k last s with
  | zero =>
    simp only [iterations, Py.pure_apply, Prod.mk.injEq] at h
    obtain ⟨-, rfl⟩ := h
    simp
  | succ n ih =>
    unfold iterations at h
    obtain ⟨⟨viol, b⟩, s₁, h₁, h₂⟩ := Py.bind_eq_ok.mp h
    have hs₁ : s₁ = atSolve s ∧ b = false := by
      rw [iteration_eq] at h₁
      rcases hs : solve (s.nuTilde.getD s.nu) s.mu k with e | v
      · rw [hs] at h₁; cases h₁
      · rw [hs] at h₁
        cases h₁
        exact ⟨rfl, rfl⟩
    obtain ⟨rfl, rfl⟩ := hs₁
    simp only [Bool.false_eq_true, if_false] at h₂
    obtain ⟨i1, i2⟩ := ih _ _ _ h₂
    refine ⟨?_, i2⟩
    rw [i1]
    have : (atSolve s).nuTilde.getD (atSolve s).nu = s.nuTilde.getD s.nu := by
      simp only [atSolve]
      cases s.nuTilde <;> rfl
    rw [this]
    simp [atSolve, List.replicate_succ]

/-- C66: without updates, which is the default, the loop never ends early: the same subproblem is
solved `max_iter` times. -/
theorem C66_no_update (o : Opts K) (solve : Solver K) (s s' : St K) (r : List (List (List K)))
    (hs : s.solves = []) (h : callSolver o true solve s = (.ok r, s')) :
    s'.solves = List.replicate o.maxIter (s.nuTilde.getD s.nu, s.mu) := by
  unfold callSolver at h
  obtain ⟨q, s₁, h₁, h₂⟩ := Py.bind_eq_ok.mp h
  have : s' = s₁ := by
    cases q with
    | none => cases h₂
    | some q => cases h₂; rfl
  subst this
  have := (iterations_same o solve _ _ _ _ _ _ h₁).1
  rw [hs, List.nil_append] at this
  exact this

/-- C66: fails when no iteration is allowed: the test that should raise a clear error reads a variable
that was never set. -/
theorem C66_zero_fails (o : Opts K) (noUpdate : Bool) (solve : Solver K) (s : St K)
    (h : o.maxIter = 0) : callSolver o noUpdate solve s = (.error .unboundLocalError, s) := by
  simp [callSolver, h, iterations]

namespace Example

/-- A solver whose violations are divided by 10 in each iteration. -/
def alSolver : Solver Rat := fun _ _ k =>
  .ok (List.replicate 2 (List.replicate 3 [1 / 10 ^ k, 1 / 10 ^ k]))

end Example

example : (callSolver Example.alOpts false Example.alSolver (AugLag.start Example.alOpts 1)).2.errors =
    [[1, 1], [1 / 10, 1 / 10], [1 / 100, 1 / 100], [1 / 1000, 1 / 1000]] := by decide +kernel

example : (callSolver Example.alOpts true Example.alSolver (AugLag.start Example.alOpts 1)).2.solves.length
    = 5 := by decide +kernel

/-- C66: the error of an iteration holds, for each constraint, its largest absolute violation over all
elements and collocation points. -/
theorem C66_error [IsStrictOrderedRing K] (o : Opts K) (viol : List (List (List K))) (s : St K)
    (e : List K) (hc : o.skipCompute = false) (hv : Violations o viol)
    (h : (updateParameters o viol s).1 = .ok e) :
    e.length = o.nRelax ∧ ∀ i x, e[i]? = some x → LargestViolation o viol i x := by
  have key : e = rowErrors o viol := by
    rcases hu : updateParameters o viol s with ⟨r, s'⟩
    rw [hu] at h
    simp only at h
    subst h
    unfold updateParameters at hu
    obtain ⟨e', s₁, h₁, h₂⟩ := Py.bind_eq_ok.mp hu
    rw [Py.bind_eq, Py.get_bind] at h₂
    obtain ⟨_, s₂, h₃, h₄⟩ := Py.bind_eq_ok.mp h₂
    cases h₄
    unfold computeNu at h₁
    simp only [hc, Bool.false_eq_true, if_false, Py.bind_eq, Py.get_bind] at h₁
    split at h₁
    · cases h₁; rfl
    · obtain ⟨_, s₃, h₅, h₆⟩ := Py.bind_eq_ok.mp h₁
      cases h₆; rfl
  subst key
  refine ⟨by simp [rowErrors], ?_⟩
  intro i x hx
  have hi : i < o.nRelax := by
    have := (List.getElem?_eq_some_iff.1 hx).1
    simpa [rowErrors] using this
  rw [rowErrors_getElem o viol i hi] at hx
  cases hx
  exact largest o viol hv i hi

/-! ### Multipliers of consecutive iterations -/

/-- Consecutive subproblems: the multipliers of the next one are the first-order step of those of the
previous one with its solution. -/
def Consecutive (o : Opts K) (solve : Solver K) (solves : List (List (List K) × List K)) : Prop :=
  ∀ k a b, solves[k]? = some a → solves[k + 1]? = some b → a.2.length = o.nRelax →
    ∃ viol, solve a.1 a.2 k = .ok viol ∧ (Violations o viol → FirstOrderStep o a.1 a.2 viol b.1)

theorem iterations_consecutive (o : Opts K) (solve : Solver K) (h : Discretised o)
    (hc : o.skipCompute = false) (hn : o.skipUpdateNu = false) (hi : o.onlyImprove = false)
    (n : Nat) (last : Option (List (List (List K)))) (s : St K)
    (h₁ : Consecutive o solve s.solves)
    (h₂ : ∀ a, s.solves.getLast? = some a → a.2.length = o.nRelax →
      ∃ viol, solve a.1 a.2 (s.solves.length - 1) = .ok viol ∧
        (Violations o viol → FirstOrderStep o a.1 a.2 viol (s.nuTilde.getD s.nu))) :
    Consecutive o solve (iterations o false solve n s.solves.length last s).2.solves := by
  induction n generalizing last s with
  | zero => exact h₁
  | succ n ih =>
    have hsol := iteration_solves o false solve s.solves.length s
    have hcons : Consecutive o solve (s.solves ++ [(s.nuTilde.getD s.nu, s.mu)]) := by
      intro k a b ha hb hm
      by_cases hk : k + 1 < s.solves.length
      · rw [List.getElem?_append_left (by omega)] at ha
        rw [List.getElem?_append_left hk] at hb
        exact h₁ k a b ha hb hm
      · have hlt := (List.getElem?_eq_some_iff.1 hb).1
        simp only [List.length_append, List.length_cons, List.length_nil] at hlt
        have hk' : k + 1 = s.solves.length := by omega
        rw [List.getElem?_append_left (by omega)] at ha
        rw [hk', List.getElem?_append_right (le_refl _)] at hb
        simp only [Nat.sub_self, List.getElem?_cons_zero, Option.some.injEq] at hb
        subst hb
        have := h₂ a (by rw [List.getLast?_eq_getElem?, ← hk']; exact ha) hm
        rwa [← hk', Nat.add_sub_cancel] at this
    unfold iterations
    rcases hu : iteration o false solve s.solves.length s with ⟨r | ⟨viol, b⟩, s'⟩
    · rw [Py.bind_error hu]; rw [hu] at hsol
      simp only at hsol ⊢
      rw [hsol]; exact hcons
    · rw [Py.bind_ok hu]; rw [hu] at hsol
      simp only at hsol ⊢
      split
      · simp only [Py.pure_apply]; rw [hsol]; exact hcons
      · have hl : s.solves.length + 1 = s'.solves.length := by rw [hsol]; simp
        rw [hl]
        apply ih
        · rw [hsol]; exact hcons
        · intro a ha hm
          rw [hsol, List.getLast?_append] at ha
          simp only [List.getLast?_singleton, Option.some_or, Option.some.injEq] at ha
          subst ha
          obtain ⟨hs, e, he, hs', -⟩ := iteration_ok o solve _ s s' viol b hu
          refine ⟨viol, ?_, ?_⟩
          · rw [← hl]; exact hs
          · intro hv
            have hnt := updateParameters_nuTilde o viol (atSolve s) _ _
              (computeNu_plain o viol (atSolve s) hc hn hi)
            have : s'.nuTilde = some (newNu o s.mu (s.nuTilde.getD s.nu) viol) := by
              rw [hs']; exact hnt
            rw [this]
            exact firstOrderStep o h _ _ _ hm hv

/-- C65: in the loop, the multipliers of each subproblem are the first-order step of those of the
subproblem before, with its solution and its penalties. -/
theorem C65_loop (o : Opts K) (solve : Solver K) (s : St K) (h : Discretised o)
    (hc : o.skipCompute = false) (hn : o.skipUpdateNu = false) (hi : o.onlyImprove = false)
    (hs : s.solves = []) :
    Consecutive o solve (callSolver o false solve s).2.solves := by
  have hl : s.solves.length = 0 := by rw [hs]; rfl
  have key := iterations_consecutive o solve h hc hn hi o.maxIter none s
    (by rw [hs]; intro k a b ha; simp at ha) (by rw [hs]; intro a ha; simp at ha)
  rw [hl] at key
  unfold callSolver
  rcases hu : iterations o false solve o.maxIter 0 none s with ⟨r | r, s'⟩
  · rw [Py.bind_error hu]; rw [hu] at key; exact key
  · rw [Py.bind_ok hu]; rw [hu] at key
    cases r <;> exact key

example : ((callSolver Example.alOpts false Example.alSolver (AugLag.start Example.alOpts 1)).2.solves.map
    fun a => (a.1[0]?.getD []).take 2) = [[0, 0], [1, 1], [1 + 4 / 10, 1 + 4 / 10],
      [1 + 4 / 10 + 16 / 100, 1 + 4 / 10 + 16 / 100]] := by decide +kernel

/-! ### `only_update_if_improve` -/

/-- The state of the loop at an update after the first one: the new multipliers of the last update
are in use, and all vectors have their sizes. -/
structure InLoop (o : Opts K) (s : St K) (last : List K) : Prop where
  inUse : s.nuTilde = some s.nu
  lastError : s.lastError = some last
  lastSize : last.length = o.nRelax
  elements : s.nu.length = o.elements
  sizes : ∀ v ∈ s.nu, v.length = o.degree * o.nRelax
  penalties : s.mu.length = o.nRelax

theorem improve_multiplier [IsStrictOrderedRing K] (o : Opts K) (viol : List (List (List K))) (s : St K) (last : List K)
    (h : Discretised o) (hl : InLoop o s last) (hc : o.skipCompute = false)
    (hn : o.skipUpdateNu = false) (hi : o.onlyImprove = true)
    (hp : ∃ e ∈ rowErrors o viol, 0 < e) :
    ∃ nu', (updateParameters o viol s).2.nuTilde = some nu' ∧
      ∀ el < o.elements, ∀ j < o.degree, ∀ i < o.nRelax, ∀ x y,
        (rowErrors o viol)[i]? = some x → last[i]? = some y →
        multiplier o nu' el (pointTime o el j) i =
          if j = 0 ∧ x < y then multiplier o (newNu o s.mu s.nu viol) el (pointTime o el j) i
          else multiplier o s.nu el (pointTime o el j) i := by
  refine ⟨_, updateParameters_nuTilde o viol s _ _
    (computeNu_improve o viol s s.nu last hc hn hi hl.inUse hl.lastError hp), ?_⟩
  intro el he j hj i hir x y hx hy
  have hlt : el < s.nu.length := by rw [hl.elements]; exact he
  have hrow : s.nu[el]? = some s.nu[el] := List.getElem?_eq_getElem hlt
  have htl : (newNu o s.mu s.nu viol)[el]? = some ((List.range o.degree).flatMap fun j =>
      newNuAt o s.mu (s.nu[el]?.getD []) (violAt viol el j) el j) := by
    simp [newNu, he]
  unfold multiplier pointTime
  simp only [nuAt_timeNu o h _ el j hj]
  rw [improveTilde_row _ _ _ el _ _ hrow htl, htl, hrow]
  simp only [Option.getD_some, List.getElem?_map, List.getElem?_range hir, Option.map_some]
  rw [← apply_ite some]
  congr 1
  unfold entryOf
  rw [improveRow_getElem]
  have hsize : j * o.nRelax + i < s.nu[el].length := by
    rw [hl.sizes _ (List.getElem_mem _)]
    calc j * o.nRelax + i < j * o.nRelax + o.nRelax := by omega
      _ = (j + 1) * o.nRelax := by ring
      _ ≤ o.degree * o.nRelax := Nat.mul_le_mul_right _ hj
  by_cases hj0 : j = 0
  · subst hj0
    have hz : ((rowErrors o viol).zip last)[0 * o.nRelax + i]? = some (x, y) := by
      simp [List.getElem?_zip_eq_some, hx, hy]
    rw [hz]
    simp only [true_and]
    by_cases hxy : x < y
    · rw [if_pos (sub_neg.2 hxy), if_pos hxy, List.getElem?_eq_getElem hsize]; rfl
    · rw [if_neg (fun h => hxy (sub_neg.1 h)), if_neg hxy]
  · have hz : ((rowErrors o viol).zip last)[j * o.nRelax + i]? = none := by
      apply List.getElem?_eq_none
      have : o.nRelax ≤ j * o.nRelax := Nat.le_mul_of_pos_left _ (by omega)
      simp [rowErrors, hl.lastSize]
      omega
    rw [hz, if_neg (fun h => hj0 h.1)]

/-- C111: with `only_update_if_improve`, a multiplier whose violation did not decrease keeps its value
everywhere, and one whose violation decreased gets its new value at the first collocation point of
every element (all points when the degree is one). -/
theorem C111_improved_partial [IsStrictOrderedRing K] (o : Opts K) (viol : List (List (List K))) (s : St K) (last : List K)
    (h : Discretised o) (hl : InLoop o s last) (hc : o.skipCompute = false)
    (hn : o.skipUpdateNu = false) (hi : o.onlyImprove = true) (hv : Violations o viol)
    (hp : ∃ e ∈ rowErrors o viol, 0 < e) :
    ∃ nu', (updateParameters o viol s).2.nuTilde = some nu' ∧
      ∀ el < o.elements, ∀ i < o.nRelax, ∀ x y,
        (rowErrors o viol)[i]? = some x → last[i]? = some y →
        (¬ x < y → ∀ j < o.degree, multiplier o nu' el (pointTime o el j) i =
          multiplier o s.nu el (pointTime o el j) i) ∧
        (x < y → ∃ v m r, multiplier o s.nu el (pointTime o el 0) i = some v ∧ s.mu[i]? = some m ∧
          violation viol el 0 i = some r ∧
          multiplier o nu' el (pointTime o el 0) i = some (v + m * r)) := by
  obtain ⟨nu', h1, h2⟩ := improve_multiplier o viol s last h hl hc hn hi hp
  refine ⟨nu', h1, fun el he i hir x y hx hy => ⟨fun hxy j hj => ?_, fun hxy => ?_⟩⟩
  · rw [h2 el he j hj i hir x y hx hy, if_neg fun h => hxy h.2]
  · obtain ⟨v, m, r, a1, a2, a3, a4⟩ :=
      firstOrderStep o h s.nu s.mu viol hl.penalties hv el he 0 h.positive i hir
    refine ⟨v, m, r, a1, a2, a3, ?_⟩
    rw [h2 el he 0 h.positive i hir x y hx hy, if_pos ⟨rfl, hxy⟩, a4]

/-- C111: fails at all other collocation points: there the multiplier keeps its old value although the
violation decreased. -/
theorem C111_other_points_fails [IsStrictOrderedRing K] (o : Opts K) (viol : List (List (List K))) (s : St K)
    (last : List K) (h : Discretised o) (hl : InLoop o s last) (hc : o.skipCompute = false)
    (hn : o.skipUpdateNu = false) (hi : o.onlyImprove = true)
    (hp : ∃ e ∈ rowErrors o viol, 0 < e) :
    ∃ nu', (updateParameters o viol s).2.nuTilde = some nu' ∧
      ∀ el < o.elements, ∀ j < o.degree, 0 < j → ∀ i < o.nRelax,
        multiplier o nu' el (pointTime o el j) i = multiplier o s.nu el (pointTime o el j) i := by
  obtain ⟨nu', h1, h2⟩ := improve_multiplier o viol s last h hl hc hn hi hp
  refine ⟨nu', h1, fun el he j hj h0 i hir => ?_⟩
  rw [h2 el he j hj i hir _ _ (rowErrors_getElem o viol i hir)
    (List.getElem?_eq_getElem (by rw [hl.lastSize]; exact hir)), if_neg fun h => by omega]

example : InLoop { Example.alOpts with onlyImprove := true }
    { AugLag.start Example.alOpts 1 with
      nuTilde := some (AugLag.start Example.alOpts 1).nu, lastError := some [2, 2] } [2, 2] where
  inUse := rfl
  lastError := rfl
  lastSize := rfl
  elements := rfl
  sizes := by decide
  penalties := rfl

example : ∃ e ∈ rowErrors Example.alOpts Example.alViol, (0 : Rat) < e := by decide +kernel

/-! ### The primal rule -/

theorem primalMu_getElem (o : Opts K) (mu err last : List K) (i : Nat) (m e l : K)
    (hm : mu[i]? = some m) (he : err[i]? = some e) (hl : last[i]? = some l) :
    (primalMu o mu err last)[i]? = some (primalEntry o m e l) := by
  induction mu generalizing err last i with
  | nil => simp at hm
  | cons m' mu ih =>
    cases err with
    | nil => simp at he
    | cons e' err =>
      cases last with
      | nil => simp at hl
      | cons l' last =>
        cases i with
        | zero => simp at hm he hl; subst hm he hl; rfl
        | succ i => exact ih err last i (by simpa using hm) (by simpa using he) (by simpa using hl)

theorem updateParameters_primal (o : Opts K) (viol : List (List (List K))) (s : St K)
    (e : List K) (t : Option (List (List K))) (last : List K)
    (hcomp : computeNu o viol s = (.ok e, { s with nuTilde := t, lastError := some last }))
    (hr : o.rule = "primal") (hs : o.skipUpdateMu = false) :
    (updateParameters o viol s).1 = .ok e ∧
    (updateParameters o viol s).2.mu = primalMu o s.mu e last := by
  unfold updateParameters
  simp only [Py.bind_eq]
  rw [Py.bind_ok hcomp]
  simp [updateMu, hs, hr, Py.whenSome]

/-- C112: with the primal rule a penalty grows exactly when the violation of its constraint did not
decrease by the required factor. Without `only_update_if_improve`. -/
theorem C112_primal_partial (o : Opts K) (viol : List (List (List K))) (s : St K)
    (last e : List K) (hr : o.rule = "primal") (hs : o.skipUpdateMu = false)
    (hc : o.skipCompute = false) (hn : o.skipUpdateNu = false) (hi : o.onlyImprove = false)
    (hl : s.lastError = some last) (he : (updateParameters o viol s).1 = .ok e) (i : Nat) (m x y : K)
    (hm : s.mu[i]? = some m) (hx : e[i]? = some x) (hy : last[i]? = some y) :
    (updateParameters o viol s).2.mu[i]? =
      some (if x ≤ o.minDecrease * y then m else min o.muMax (m * o.beta)) := by
  have hcomp := computeNu_plain o viol s hc hn hi
  obtain ⟨h1, h2⟩ := updateParameters_primal o viol s _ (some (newNu o s.mu s.nu viol)) last
    (by rw [hcomp, ← hl]) hr hs
  rw [h1] at he
  cases he
  rw [h2]
  exact primalMu_getElem o _ _ _ i m x y hm hx hy

/-- C112: fails with `only_update_if_improve`: a violation that decreased, by whatever factor, is
compared with itself, and the penalty grows unless the violation is zero. -/
theorem C112_improved_fails [IsStrictOrderedRing K] (o : Opts K) (viol : List (List (List K)))
    (s : St K) (last e : List K) (hr : o.rule = "primal") (hs : o.skipUpdateMu = false)
    (hc : o.skipCompute = false) (hn : o.skipUpdateNu = false) (hi : o.onlyImprove = true)
    (hl : InLoop o s last) (he : (updateParameters o viol s).1 = .ok e) (i : Nat) (m x y : K)
    (hm : s.mu[i]? = some m) (hx : e[i]? = some x) (hy : last[i]? = some y)
    (hd : o.minDecrease < 1) (h0 : 0 < x) (hxy : x < y) :
    (updateParameters o viol s).2.mu[i]? = some (min o.muMax (m * o.beta)) := by
  have hee : rowErrors o viol = e ∧ (updateParameters o viol s).2.mu = primalMu o s.mu e
      ((e.zip last).zipIdx.foldl (fun L e => improveLast e L) last) := by
    by_cases hp : ∃ e ∈ rowErrors o viol, 0 < e
    · have hcomp := computeNu_improve o viol s s.nu last hc hn hi hl.inUse hl.lastError hp
      obtain ⟨h1, h2⟩ := updateParameters_primal o viol s _ _ _ hcomp hr hs
      rw [h1] at he
      cases he
      exact ⟨rfl, h2⟩
    · exfalso
      have hnp : (rowErrors o viol).any (fun e => decide (0 < e)) = false := by
        rw [List.any_eq_false]
        intro e he
        simp only [decide_eq_true_eq]
        exact fun h => hp ⟨e, he, h⟩
      have hcomp : computeNu o viol s = (.ok (rowErrors o viol), { s with
          nuTilde := some (newNu o s.mu s.nu viol), lastError := some last }) := by
        unfold computeNu storeNu
        simp only [hc, hn, hnp, Bool.and_false, Bool.false_eq_true, if_false, ← hl.lastError]
        rfl
      obtain ⟨h1, -⟩ := updateParameters_primal o viol s _ _ _ hcomp hr hs
      rw [h1] at he
      cases he
      exact hp ⟨x, List.mem_of_getElem? hx, h0⟩
  rw [hee.2, primalMu_getElem o _ _ _ i m x x hm hx]
  · rw [primalEntry, if_neg]
    rw [not_le]
    nlinarith
  · rw [improveLast_getElem e last i x y hx hy, if_pos (by linarith)]

example : (updateParameters { Example.alOpts with rule := "primal", onlyImprove := true } Example.alViol
    { AugLag.start Example.alOpts 1 with
      nuTilde := some (AugLag.start Example.alOpts 1).nu, lastError := some [1000, 1000] }).2.mu =
    [4, 4] := by decide +kernel

example : (updateParameters { Example.alOpts with rule := "primal" } Example.alViol
    { AugLag.start Example.alOpts 1 with
      nuTilde := some (AugLag.start Example.alOpts 1).nu, lastError := some [1000, 1 / 2] }).2.mu =
    [1, 4] := by decide +kernel

/-! ### Discretisation of the method and of its solver -/

/-- All parts use the discretisation `degree` with `elements` elements. -/
def OneDiscretisation (b : Built) (degree elements : Nat) : Prop :=
  b.nuDegree = degree ∧ b.degree = degree ∧ b.solverDegree = degree ∧
  b.nuElements = elements ∧ b.elements = elements ∧ b.solverElements = elements

/-- C113: the multipliers, the method and its solver use one discretisation, the one in the options of
the method, when the options of the solver do not ask for another. -/
theorem C113_same_partial (d e : Given) (b : Built) (h : build d e = .ok b)
    (hd : d.solver = none ∨ d.solver = some d.own) (he : e.solver = none ∨ e.solver = some e.own) :
    OneDiscretisation b d.own e.own := by
  have key : ∀ (g : Given) r, syncOption g = .ok r → (g.solver = none ∨ g.solver = some g.own) →
      r = (g.own, g.own) := by
    intro g r hr hg
    unfold syncOption at hr
    rcases hg with hg | hg <;> rw [hg] at hr
    · cases hr; rfl
    · cases hk : g.keyword with
      | none => rw [hk] at hr; cases hr; rfl
      | some k =>
        rw [hk] at hr
        simp only at hr
        split at hr
        · cases hr
        · cases hr; rfl
  unfold build at h
  simp only [bind, Except.bind] at h
  rcases h1 : syncOption d with _ | r1
  · rw [h1] at h; cases h
  · rw [h1] at h
    simp only at h
    rcases h2 : syncOption e with _ | r2
    · rw [h2] at h; cases h
    · rw [h2] at h
      cases h
      rw [key d r1 h1 hd, key e r2 h2 he]
      exact ⟨rfl, rfl, rfl, rfl, rfl, rfl⟩

/-- C113: the method and its solver agree always. -/
theorem C113_solver_agrees (d e : Given) (b : Built) (h : build d e = .ok b) :
    b.degree = b.solverDegree ∧ b.elements = b.solverElements := by
  have key : ∀ (g : Given) r, syncOption g = .ok r → r.1 = r.2 := by
    intro g r hr
    unfold syncOption at hr
    split at hr
    · split at hr
      · cases hr
      · cases hr; rfl
    · cases hr; rfl
    · cases hr; rfl
  unfold build at h
  simp only [bind, Except.bind] at h
  rcases h1 : syncOption d with _ | r1
  · rw [h1] at h; cases h
  · rw [h1] at h
    simp only at h
    rcases h2 : syncOption e with _ | r2
    · rw [h2] at h; cases h
    · rw [h2] at h
      cases h
      exact ⟨key d r1 h1, key e r2 h2⟩

/-- C113: fails when the options of the solver ask for another degree: the multipliers have the degree
of the options of the method, the solver the other one. -/
theorem C113_degree_fails (own other : Nat) (e : Given) (he : e.solver = none)
    (hne : own ≠ other) :
    ∃ b, build { own := own, solver := some other, keyword := none } e = .ok b ∧
      b.nuDegree = own ∧ b.degree = other ∧ b.nuDegree ≠ b.degree := by
  refine ⟨⟨own, e.own, other, e.own, other, e.own⟩, ?_, rfl, rfl, hne⟩
  simp [build, syncOption, he, bind, Except.bind]

/-- C113: the same for the number of elements: there are multipliers for the elements of the options
of the method only. -/
theorem C113_elements_fails (own other : Nat) (d : Given) (hd : d.solver = none)
    (hne : own ≠ other) :
    ∃ b, build d { own := own, solver := some other, keyword := none } = .ok b ∧
      b.nuElements = own ∧ b.elements = other ∧ b.nuElements ≠ b.elements := by
  refine ⟨⟨d.own, own, d.own, other, d.own, other⟩, ?_, rfl, rfl, hne⟩
  simp [build, syncOption, hd, bind, Except.bind]

/-- C113: fails for a degree given as a keyword argument: it is ignored. -/
theorem C113_keyword_fails (own keyword : Nat) (e : Given) (he : e.solver = none) :
    ∃ b, build { own := own, solver := none, keyword := some keyword } e = .ok b ∧
      b.degree = own ∧ b.solverDegree = own := by
  refine ⟨⟨own, e.own, own, e.own, own, e.own⟩, ?_, rfl, rfl⟩
  simp [build, syncOption, he, bind, Except.bind]

example : build ⟨3, some 5, none⟩ ⟨20, none, none⟩ = .ok ⟨3, 20, 5, 20, 5, 20⟩ := by decide

end Verif
