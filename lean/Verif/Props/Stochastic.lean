import Verif.Lemmas.Stochastic
import Verif.Lemmas.Pce
/-!
# C135–C137: stochastic optimal control problems
-/
namespace Verif
open Spec StochasticOcp

/-! ## C135: registering uncertain quantities -/

/-- After any history of calls (rejected ones included) the uncertain parameters and the uncertain
initial conditions are exactly those validly registered, in order, with their means and distributions;
the covariance has their size, is the registered one inside a registration and zero between two. -/
theorem C135_registered (o : Ocp) (cs : List Call) :
    Collects (validOnes askedParameters cs) (history o cs).pUnc ∧
    Collects (validOnes askedInitial cs) (history o cs).x0Unc :=
  ⟨by simpa [history] using history_parameters cs { problem := o } [] collects_nil,
   by simpa [history] using history_initial cs { problem := o } [] collects_nil⟩

/-- A registration is accepted exactly when there is one mean per symbol and the covariance is square
of that size; otherwise it raises `ValueError`. -/
theorem C135_accepted (s : StochasticOcp) (par : List Sym) (mean : List Rat) (cov : Weight)
    (dist : String) :
    ((setParameterUncertain par mean cov dist s).1 = .ok () ↔
      (Registration.mk par mean cov dist).Valid) ∧
    ((includeUncertain par mean cov dist s).1 = .ok () ↔
      (Registration.mk par mean cov dist).Valid) ∧
    ((setInitialUncertain par mean cov dist s).1 = .ok () ↔
      (Registration.mk par mean cov dist).Valid) := by
  rw [includeUncertain_run, setParameterUncertain_run, setParameterUncertain_run,
    setInitialUncertain_run]
  by_cases hv : (Registration.mk par mean cov dist).Valid
  · simp [hv]
  · simp [hv]

/-- A rejected registration of existing parameters or of initial conditions changes nothing. -/
theorem C135_rejected_partial (s s' : StochasticOcp) (par : List Sym) (mean : List Rat) (cov : Weight)
    (dist : String) (e : Err)
    (h : setParameterUncertain par mean cov dist s = (.error e, s') ∨
      setInitialUncertain par mean cov dist s = (.error e, s')) : s' = s ∧ e = .valueError := by
  rw [setParameterUncertain_run, setInitialUncertain_run] at h
  by_cases hv : (Registration.mk par mean cov dist).Valid
  · simp [hv] at h
  · simp only [hv, if_false, or_self, Prod.mk.injEq, Except.error.injEq] at h
    exact ⟨h.2.symm, h.1.symm⟩

/-- A rejected `include_uncertain_parameter` or `create_uncertain_parameter` leaves its parameter in the
model, as an ordinary one: for every invalid registration. -/
theorem C135_rejected_fails (s : StochasticOcp) (par : List Sym) (mean : List Rat) (cov : Weight)
    (dist : String) (h : ¬(Registration.mk par mean cov dist).Valid) :
    (includeUncertain par mean cov dist s).1 = .error .valueError ∧
    (includeUncertain par mean cov dist s).2.problem.model.p = s.problem.model.p ++ par ∧
    (includeUncertain par mean cov dist s).2.pUnc = s.pUnc := by
  rw [includeUncertain_run, setParameterUncertain_run, if_neg h]
  exact ⟨rfl, rfl, rfl⟩

section Examples
/-- A 2 × 2 and a 1 × 1 covariance. -/
private def cov2 : Weight := ⟨2, 2, fun i j => if i = j then 4 else 1⟩
private def cov1 : Weight := ⟨1, 1, fun _ _ => 9⟩

/-- Two parameters, a rejected registration, an initial condition, one more parameter. -/
private def calls : List Call :=
  [.setParameter [10, 11] [1, 2] cov2 "normal", .includeParameter [12] [1, 2] cov1 "normal",
    .setInitial [20] [5] cov1 "normal", .includeParameter [13] [3] cov1 "lognormal"]

example (o : Ocp) : (validOnes askedParameters calls).map (·.syms) = [[10, 11], [13]] ∧
    (history o calls).pUnc.syms = [10, 11, 13] ∧
    (history o calls).pUnc.dist = ["normal", "normal", "lognormal"] ∧
    (history o calls).pUnc.cov.entry 1 0 = 1 ∧ (history o calls).pUnc.cov.entry 2 2 = 9 ∧
    (history o calls).pUnc.cov.entry 0 2 = 0 ∧ (history o calls).x0Unc.mean = [5] := by
  refine ⟨by decide +kernel, rfl, rfl, rfl, rfl, rfl, rfl⟩

example : ¬(Registration.mk [12] [1, 2] cov1 "normal").Valid := by decide
end Examples

/-! ## C136: chance inequalities -/

/-- Every inequality of a history has a right-hand side: as many as inequalities, those of the
accepted calls in order, zero where none is given; a call is accepted exactly when the sizes agree. -/
theorem C136_inequalities_partial (o : Ocp) (cs : List Call) :
    (history o cs).ineq.length = (history o cs).rhs.length ∧
    ∀ (s : StochasticOcp) (ineq : List Expr) (prob : List Rat) (rhs : Option (List Rat)) (w : String),
      ((includeChance ineq prob rhs w s).1 = .ok () ↔ ∀ r, rhs = some r → r.length = ineq.length) ∧
      ((includeChance ineq prob rhs w s).1 = .ok () →
        (includeChance ineq prob rhs w s).2 = { s with
          ineq := s.ineq ++ ineq
          rhs := s.rhs ++ rhs.getD (List.replicate ineq.length 0)
          prob := s.prob ++ prob }) ∧
      ((includeChance ineq prob rhs w s).1 ≠ .ok () → includeChance ineq prob rhs w s =
        (.error .valueError, s)) := by
  refine ⟨?_, fun s ineq prob rhs w => ?_⟩
  · have key : ∀ (cs : List Call) (s : StochasticOcp), s.ineq.length = s.rhs.length →
        (runHistory (fun c s => (Call.run c s).2) cs s).ineq.length =
          (runHistory (fun c s => (Call.run c s).2) cs s).rhs.length := by
      intro cs
      induction cs with
      | nil => intro s h; exact h
      | cons c cs ih =>
          intro s h
          refine ih _ ?_
          cases c with
          | setParameter par mean cov dist =>
              show (setParameterUncertain par mean cov dist s).2.ineq.length =
                (setParameterUncertain par mean cov dist s).2.rhs.length
              rw [setParameterUncertain_run]
              split <;> exact h
          | includeParameter par mean cov dist =>
              show (includeUncertain par mean cov dist s).2.ineq.length =
                (includeUncertain par mean cov dist s).2.rhs.length
              rw [includeUncertain_run, setParameterUncertain_run]
              split <;> exact h
          | setInitial par mean cov dist =>
              show (setInitialUncertain par mean cov dist s).2.ineq.length =
                (setInitialUncertain par mean cov dist s).2.rhs.length
              rw [setInitialUncertain_run]
              split <;> exact h
          | chance ineq prob rhs w =>
              show (includeChance ineq prob rhs w s).2.ineq.length =
                (includeChance ineq prob rhs w s).2.rhs.length
              rw [includeChance_run]
              split
              · rename_i he
                simp only [List.length_append]
                omega
              · exact h
    exact key cs _ rfl
  · rw [includeChance_run]
    cases rhs with
    | none => simp
    | some r =>
        by_cases h : ineq.length = r.length
        · simp [h]
        · have h' : ¬ r.length = ineq.length := fun e => h e.symm
          simp [h, h']

/-- The number of probabilities is not checked: whenever a call with `prob` is accepted, so is the same
call with any other list of probabilities, of whatever length; the counts then disagree. -/
theorem C136_probabilities_fails (s : StochasticOcp) (ineq : List Expr) (prob prob' : List Rat)
    (rhs : Option (List Rat)) (w : String) (h : (includeChance ineq prob rhs w s).1 = .ok ()) :
    (includeChance ineq prob' rhs w s).1 = .ok () ∧
    (includeChance ineq prob' rhs w s).2.prob.length = s.prob.length + prob'.length ∧
    (includeChance ineq prob' rhs w s).2.ineq.length = s.ineq.length + ineq.length := by
  rw [includeChance_run] at h ⊢
  by_cases hc : ineq.length = (rhs.getD (List.replicate ineq.length 0)).length
  · rw [if_pos hc]
    exact ⟨rfl, by simp, by simp⟩
  · rw [if_neg hc] at h; cases h

/-- Where an inequality is to hold (`when`) leaves no trace in the problem. -/
theorem C136_when_fails (s : StochasticOcp) (ineq : List Expr) (prob : List Rat)
    (rhs : Option (List Rat)) (w w' : String) :
    includeChance ineq prob rhs w s = includeChance ineq prob rhs w' s := rfl

/-- Two inequalities with one probability. -/
example (o : Ocp) : (includeChance [.sym 1, .sym 2] [1/2] none "end" { problem := o }).1 = .ok () ∧
    (includeChance [.sym 1, .sym 2] [1/2] none "end" { problem := o }).2.prob.length = 1 ∧
    (includeChance [.sym 1, .sym 2] [1/2] none "end" { problem := o }).2.ineq.length = 2 :=
  ⟨rfl, rfl, rfl⟩

example (o : Ocp) : (includeChance [.sym 1, .sym 2] [1/2, 1/2] (some [3]) "end" { problem := o }).1 =
    .error .valueError := rfl

/-! ## C137: using the problem -/

/-- Listing the uncertain parameters, the certain ones or the uncertain initial conditions never
succeeds: for every stochastic problem these three calls raise `AttributeError`. -/
theorem C137_lists_fails (s : StochasticOcp) :
    s.uncertainIndices = .error .attributeError ∧ s.certainParameters = .error .attributeError ∧
    s.initialIndices = .error .attributeError :=
  ⟨rfl, rfl, rfl⟩

/-- No stochastic problem can be converted by polynomial chaos: without uncertainties the conversion
raises `ValueError`, with one that is not normal `NotImplementedError`, and otherwise
`AttributeError`, whatever the problem and whatever the rest of the conversion would do. -/
theorem C137_conversion_fails {α : Type} (s : StochasticOcp) (t tau : Sym)
    (rest : SysModel → Except Err α) :
    s.convert t tau rest = .error
      (if s.pUnc.syms = [] ∧ s.x0Unc.syms = [] then .valueError
       else if ∀ d ∈ s.pUnc.dist ++ s.x0Unc.dist, d = "normal" then .attributeError
       else .notImplementedError) := by
  unfold convert Pce.usedCovariances
  have hs : s.startModel t tau = .error .attributeError := rfl
  simp only [hs, bind, Except.bind]
  have hall : ((s.pUnc.dist ++ s.x0Unc.dist).all (· == "normal")) =
      decide (∀ d ∈ s.pUnc.dist ++ s.x0Unc.dist, d = "normal") := by
    rw [Bool.eq_iff_iff]
    simp only [List.all_eq_true, beq_iff_eq, decide_eq_true_eq]
  rw [hall]
  by_cases hp : s.pUnc.syms = [] <;> by_cases hx : s.x0Unc.syms = [] <;>
    by_cases hd : ∀ d ∈ s.pUnc.dist ++ s.x0Unc.dist, d = "normal" <;>
    simp only [hp, hx, List.length_nil, lt_self_iff_false, false_and, and_false,
      and_self, if_true, if_false, List.length_pos_iff, ne_eq, not_false_eq_true] <;>
    first
    | (simp only [decide_eq_true_eq, if_pos hd]; done)
    | (simp only [decide_eq_true_eq]; rw [if_neg hd, if_neg hd])

/-- The checks made first do what they should: a problem without uncertain quantities is refused with
`ValueError`, one with a distribution other than the normal one with `NotImplementedError`. After any
history these are decided by the valid registrations. -/
theorem C137_checks_partial {α : Type} (o : Ocp) (cs : List Call) (t tau : Sym)
    (rest : SysModel → Except Err α) :
    ((∀ r ∈ validOnes askedParameters cs ++ validOnes askedInitial cs, r.syms = []) →
      (history o cs).convert t tau rest = .error .valueError) ∧
    ((∃ r ∈ validOnes askedParameters cs ++ validOnes askedInitial cs, r.syms ≠ [] ∧
        r.dist ≠ "normal") →
      (history o cs).convert t tau rest = .error .notImplementedError) := by
  obtain ⟨hp, hx⟩ := C135_registered o cs
  rw [C137_conversion_fails, hp.syms, hx.syms, hp.dist, hx.dist]
  constructor
  · intro h
    have e1 : (validOnes askedParameters cs).flatMap (·.syms) = [] := by
      rw [List.flatMap_eq_nil_iff]
      exact fun r hr => h r (List.mem_append_left _ hr)
    have e2 : (validOnes askedInitial cs).flatMap (·.syms) = [] := by
      rw [List.flatMap_eq_nil_iff]
      exact fun r hr => h r (List.mem_append_right _ hr)
    rw [if_pos ⟨e1, e2⟩]
  · rintro ⟨r, hr, hne, hd⟩
    rw [if_neg, if_neg]
    · intro hall
      refine hd (hall r.dist ?_)
      rw [← List.flatMap_append, List.mem_flatMap]
      exact ⟨r, hr, by
        rw [List.mem_replicate]
        exact ⟨by simpa using hne, rfl⟩⟩
    · rintro ⟨e1, e2⟩
      rw [List.flatMap_eq_nil_iff] at e1 e2
      rcases List.mem_append.1 hr with h | h
      · exact hne (e1 r h)
      · exact hne (e2 r h)

/-- The default number of samples is the number of polynomials of the expansion; a given number is
used as it is. -/
theorem C137_samples (s : StochasticOcp) (order : Nat) :
    s.numberOfSamples order none = (s.pUnc.syms.length + s.x0Unc.syms.length + order).choose order ∧
    ∀ n, s.numberOfSamples order (some n) = n := by
  refine ⟨?_, fun n => rfl⟩
  exact Pce.nPol_eq _ order

end Verif
