import Verif.Lemmas.AugLagResult
/-!
# Result of the augmented Lagrangian (C143)
-/
namespace Verif
open Verif.Spec Verif.AugLag

set_option linter.unusedSectionVars false

variable {K : Type} [Field K] [LinearOrder K]

/-- C143: after a solve with updates the result describes the last solution of the relaxed problem:
the multipliers it was found with and its violations, each at its point and time, and the largest
violations. -/
theorem C143_describes_partial [IsStrictOrderedRing K] (o : Opts K) (h : Discretised o) (nAlg : Nat)
    (hn : nAlg ≤ o.nRelax) (hc : o.skipCompute = false) (before : Stored K) (solve : Solver K)
    (hsolve : ∀ nu mu k v, solve nu mu k = .ok v → Violations o v) (s s' : St K)
    (hs : SizedState o s) (viol : List (List (List K)))
    (hrun : callSolver o false solve s = (.ok viol, s')) :
    ∃ r nu mu k, solveResult o nAlg false before solve s = (.ok r, s') ∧
      s'.solves.getLast? = some (nu, mu) ∧ solve nu mu k = .ok viol ∧
      Describes o nAlg nu viol r := by
  obtain ⟨hsz, hv, ⟨mu, k, hl1, hl2⟩, t, e, he1, he2⟩ := callSolver_solved o solve hsolve s s' viol hs
    hrun
  obtain ⟨r, hr, r1, r2, r3, r4, r5⟩ := result_ok o h nAlg hn hc before viol s' hsz hv
  have ht := fun el hel j hj => (violAt_take o viol hv nAlg hn el hel j hj).1
  have hd := fun el hel j hj => (violAt_take o viol hv nAlg hn el hel j hj).2
  obtain ⟨l2, v2⟩ := violationRows_sized o nAlg (·.take nAlg) viol ht
  obtain ⟨l3, v3⟩ := violationRows_sized o (o.nRelax - nAlg) (·.drop nAlg) viol hd
  refine ⟨r, s'.nu, mu, k, ?_, hl1, hl2, ?_, ?_, ?_, ?_, ?_⟩
  · unfold solveResult
    rw [Py.bind_eq, Py.bind_ok hrun, Py.bind_eq, Py.get_bind, hr]
    rfl
  · intro el hel j hj
    rw [r4]
    simp [hel, hj, pointTime]
  · intro el hel j hj
    have hrow := perPoint_row o h.positive o.nRelax s'.nu hsz.nu.1 hsz.nu.2 r.nu r1 el hel j hj
    refine ⟨?_, fun i hi => ?_⟩
    · rw [rowsAt, hrow, Option.map_some, row_length o o.nRelax s'.nu hsz.nu.1 hsz.nu.2 el hel j hj]
    · rw [reported, hrow, Option.bind_some, row_entry _ _ _ _ hi]
      unfold multiplier pointTime
      rw [nuAt_timeNu o h _ el j hj]
      simp only [List.getElem?_map, List.getElem?_range hi, Option.map_some]
      have hlen : (s'.nu[el]?.getD []).length = o.nRelax * o.degree := by
        have hel' : s'.nu[el]? = some (s'.nu[el]'(by rw [hsz.nu.1]; exact hel)) :=
          List.getElem?_eq_getElem _
        rw [hel', Option.getD_some]
        exact hsz.nu.2 _ (List.getElem_mem _)
      have hlt : j * o.nRelax + i < (s'.nu[el]?.getD []).length := by
        rw [hlen]
        have h1 : (j + 1) * o.nRelax ≤ o.degree * o.nRelax := Nat.mul_le_mul_right _ hj
        rw [Nat.add_mul] at h1
        rw [Nat.mul_comm o.nRelax]
        omega
      rw [entryOf, List.getElem?_eq_getElem hlt]
      rfl
  · intro el hel j hj
    have hrow := perPoint_row o h.positive nAlg _ l2 v2 r.alg r2 el hel j hj
    refine ⟨?_, fun i hi => ?_⟩
    · rw [rowsAt, hrow, Option.map_some, row_length o nAlg _ l2 v2 el hel j hj]
    · rw [reported, hrow, Option.bind_some, row_entry _ _ _ _ hi,
        violationRows_row o nAlg _ viol ht el hel j hj i hi, violation_eq, List.getElem?_take,
        if_pos hi]
  · intro el hel j hj
    have hrow := perPoint_row o h.positive (o.nRelax - nAlg) _ l3 v3 r.eq r3 el hel j hj
    refine ⟨?_, fun i hi => ?_⟩
    · rw [rowsAt, hrow, Option.map_some, row_length o (o.nRelax - nAlg) _ l3 v3 el hel j hj]
    · rw [reported, hrow, Option.bind_some, row_entry _ _ _ _ hi,
        violationRows_row o (o.nRelax - nAlg) _ viol hd el hel j hj i hi, violation_eq,
        List.getElem?_drop]
  · refine ⟨e, by rw [r5, he2], ?_⟩
    exact C66_error o viol t e hc hv he1

/-- C143: fails with `no_update_after_solving`, as in the distributed method: the violations and errors
of the result are those of the last update before this solve, whatever the solution. -/
theorem C143_no_update_fails (o : Opts K) (nAlg : Nat) (before : Stored K) (solve : Solver K)
    (s s' : St K) (r : Result K)
    (hrun : solveResult o nAlg true before solve s = (.ok r, s')) :
    perPoint o before.alg = .ok r.alg ∧ perPoint o before.eq = .ok r.eq ∧ r.error = s.lastError := by
  unfold solveResult at hrun
  obtain ⟨viol, s₁, h₁, h₂⟩ := Py.bind_eq_ok.mp hrun
  rw [Py.bind_eq, Py.get_bind] at h₂
  have hlast : s₁.lastError = s.lastError := by
    have hit : ∀ k, Py.Always (fun t : St K => t.lastError = s.lastError) (iteration o true solve k) := by
      intro k
      unfold iteration iterationError
      refine Py.Always.bind (Py.Always.modify _ fun _ h => h) fun _ => ?_
      refine Py.Always.bind Py.Always.get fun t => ?_
      refine Py.Always.bind (Py.Always.modify _ fun _ h => h) fun _ => ?_
      refine Py.Always.bind (Py.Always.lift _) fun v => ?_
      exact Py.Always.bind (Py.Always.pure _) fun _ => Py.Always.pure _
    have hits : ∀ n k last, Py.Always (fun t : St K => t.lastError = s.lastError)
        (iterations o true solve n k last) := by
      intro n
      induction n with
      | zero => exact fun k last => Py.Always.pure _
      | succ n ih =>
        intro k last
        unfold iterations
        refine Py.Always.bind (hit k) fun q => ?_
        split
        · exact Py.Always.pure _
        · exact ih _ _
    have hcall : Py.Always (fun t : St K => t.lastError = s.lastError) (callSolver o true solve) := by
      unfold callSolver
      refine Py.Always.bind (hits _ _ _) fun q => ?_
      cases q
      · exact Py.Always.throw _
      · exact Py.Always.pure _
    have := hcall s rfl
    rw [h₁] at this
    exact this
  simp only [storedAfter, Bool.true_or, if_true] at h₂
  have h3 : result o before s₁ = .ok r := by
    rcases hres : result o before s₁ with e | r'
    · rw [hres] at h₂; cases h₂
    · rw [hres] at h₂; cases h₂; rfl
  unfold result at h3
  simp only [bind, Except.bind] at h3
  rcases p1 : perPoint o s₁.nu with e | a <;> rw [p1] at h3
  · cases h3
  rcases p2 : perPoint o before.alg with e | b <;> rw [p2] at h3
  · cases h3
  rcases p3 : perPoint o before.eq with e | c <;> rw [p3] at h3
  · cases h3
  simp only [Except.ok.injEq] at h3
  subst h3
  exact ⟨rfl, rfl, hlast⟩

/-- C143: fails when the computation of the errors is switched off
(`debug_skip_compute_nu_and_error`): the violations reported are those from before the call, whatever
the solver returned. -/
theorem C143_skip_fails (o : Opts K) (nAlg : Nat) (noUpdate : Bool) (hc : o.skipCompute = true)
    (before : Stored K) (solve : Solver K) (s s' : St K) (r : Result K)
    (hrun : solveResult o nAlg noUpdate before solve s = (.ok r, s')) :
    perPoint o before.alg = .ok r.alg ∧ perPoint o before.eq = .ok r.eq := by
  unfold solveResult at hrun
  obtain ⟨viol, s₁, h₁, h₂⟩ := Py.bind_eq_ok.mp hrun
  rw [Py.bind_eq, Py.get_bind] at h₂
  simp only [storedAfter, hc, Bool.or_true, if_true] at h₂
  have h3 : result o before s₁ = .ok r := by
    rcases hres : result o before s₁ with e | r'
    · rw [hres] at h₂; cases h₂
    · rw [hres] at h₂; cases h₂; rfl
  unfold result at h3
  simp only [bind, Except.bind] at h3
  rcases p1 : perPoint o s₁.nu with e | a <;> rw [p1] at h3
  · cases h3
  rcases p2 : perPoint o before.alg with e | b <;> rw [p2] at h3
  · cases h3
  rcases p3 : perPoint o before.eq with e | c <;> rw [p3] at h3
  · cases h3
  simp only [Except.ok.injEq] at h3
  subst h3
  exact ⟨rfl, rfl⟩

/-- C143: fails when the multipliers were made with another degree than the one of the solver
(`C113_degree_fails`) and it does not divide their number: there is no result at all. -/
theorem C143_degree_fails (o : Opts K) (stored : Stored K) (s : St K) (he : 0 < o.elements)
    (v : List K) (hv : s.nu[0]? = some v) (hl : v.length = o.nRelax * o.nuDegree)
    (hd : ¬ o.degree ∣ o.nRelax * o.nuDegree) : result o stored s = .error .runtimeError := by
  have h1 : perPoint o s.nu = .error .runtimeError := by
    unfold perPoint
    obtain ⟨n, hn⟩ : ∃ n, o.elements = n + 1 := ⟨o.elements - 1, by omega⟩
    rw [hn, List.range_succ_eq_map, List.mapM_cons]
    have : unvec o.degree v = .error .runtimeError := by
      unfold unvec
      rw [if_neg]
      intro h
      exact hd (by rw [← hl, ← h]; exact Nat.dvd_mul_left _ _)
    simp [atElement, hv, this, bind, Except.bind]
  simp only [result, h1, bind, Except.bind]

example : SizedState Example.alOpts (AugLag.start Example.alOpts 1) where
  nu := by refine ⟨by decide +kernel, ?_⟩; decide +kernel
  tilde := by intro t ht; cases ht
  mu := by decide +kernel

/-- The multipliers reported after a solve. -/
def Example.reportedNu (r : Except Err (Result Rat)) : List (List (List Rat)) :=
  match r with
  | .ok r => r.nu
  | .error _ => []

/-- Four solves: the last multipliers are the sum of three steps with penalties 1, 4 and 16. -/
example : Example.reportedNu (solveResult Example.alOpts 1 false ⟨[], []⟩ Example.alSolver
    (AugLag.start Example.alOpts 1)).1 =
    List.replicate 2 (List.replicate 3 [1 + 4 / 10 + 16 / 100, 1 + 4 / 10 + 16 / 100]) := by
  decide +kernel

/-- Without the computation of errors the violations of before are reported. -/
example : ((solveResult { Example.alOpts with skipCompute := true } 1 false
    ⟨List.replicate 2 [5, 5, 5], List.replicate 2 [6, 6, 6]⟩ Example.alSolver
    (AugLag.start Example.alOpts 1)).1.toOption.map fun r => (r.alg, r.eq)) =
    some (List.replicate 2 [[5], [5], [5]], List.replicate 2 [[6], [6], [6]]) := by
  decide +kernel

/-- The multipliers have degree 3, the solver has degree 4. -/
example : ¬ ({ Example.alOpts with degree := 4 } : Opts Rat).degree ∣
    ({ Example.alOpts with degree := 4 } : Opts Rat).nRelax * Example.alOpts.nuDegree := by decide

end Verif
