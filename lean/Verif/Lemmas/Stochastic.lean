import Verif.Spec.Stochastic
import Verif.Lemmas.Py
/-!
# Lemmas about uncertain quantities
-/
namespace Verif.Spec
open Verif

theorem before_append (rs : List Registration) (r : Registration) (a : Nat) (h : a ≤ rs.length) :
    before (rs ++ [r]) a = before rs a := by
  unfold before
  rw [List.take_append_of_le_length h]

theorem before_all (rs : List Registration) :
    before rs rs.length = (rs.flatMap (·.syms)).length := by
  unfold before
  rw [List.take_length, List.length_flatMap]

theorem before_add_lt (rs : List Registration) (a : Nat) (r : Registration) (h : rs[a]? = some r)
    (i : Nat) (hi : i < r.syms.length) : before rs a + i < (rs.flatMap (·.syms)).length := by
  rw [← before_all]
  unfold before
  have ha : a < rs.length := (List.getElem?_eq_some_iff.1 h).1
  have hr : rs[a] = r := (List.getElem?_eq_some_iff.1 h).2
  have : rs.take rs.length = rs.take a ++ r :: rs.drop (a + 1) := by
    rw [List.take_length, ← hr, List.cons_getElem_drop_succ, List.take_append_drop]
  rw [this]
  simp only [List.map_append, List.map_cons, List.sum_append, List.sum_cons]
  omega

theorem collects_nil : Collects [] {} :=
  ⟨rfl, rfl, rfl, rfl, rfl, by simp⟩

/-- Joining covariances whose sizes are those of the symbols. -/
theorem collects_snoc (rs : List Registration) (q : Uncertain) (r : Registration) (h : Collects rs q)
    (hr : r.Valid) (join : Weight → Weight → Weight)
    (hjoin : ∀ W : Weight, W.rows = W.cols → (W.rows ≠ 0 ∧ r.cov.rows ≠ 0 →
      join W r.cov = W.diagcat r.cov) ∧ (W.rows = 0 → r.cov.rows ≠ 0 → join W r.cov = r.cov) ∧
      (r.cov.rows = 0 → ((join W r.cov).rows = W.rows ∧ (join W r.cov).cols = W.cols ∧
        ∀ i j, i < W.rows → j < W.cols → (join W r.cov).entry i j = W.entry i j))) :
    Collects (rs ++ [r]) ⟨q.syms ++ r.syms, q.mean ++ r.mean, join q.cov r.cov,
      q.dist ++ List.replicate r.syms.length r.dist⟩ := by
  obtain ⟨hm, hro, hco⟩ := hr
  have hsq : q.cov.rows = q.cov.cols := by rw [h.rows, h.cols]
  obtain ⟨j1, j2, j3⟩ := hjoin q.cov hsq
  have hshape : (join q.cov r.cov).rows = q.cov.rows + r.cov.rows ∧
      (join q.cov r.cov).cols = q.cov.cols + r.cov.cols ∧
      ∀ i j, i < q.cov.rows + r.cov.rows → j < q.cov.cols + r.cov.cols →
        (join q.cov r.cov).entry i j = (q.cov.diagcat r.cov).entry i j := by
    by_cases hz : r.cov.rows = 0
    · obtain ⟨k1, k2, k3⟩ := j3 hz
      have hz' : r.cov.cols = 0 := by omega
      refine ⟨by omega, by omega, fun i j hi hj => ?_⟩
      rw [k3 i j (by omega) (by omega)]
      simp only [Weight.diagcat]
      rw [if_pos (by omega)]
    · by_cases hw : q.cov.rows = 0
      · rw [j2 hw hz]
        refine ⟨by omega, by omega, fun i j hi hj => ?_⟩
        simp only [Weight.diagcat]
        rw [if_neg (by omega), if_pos (by omega)]
        congr 1 <;> omega
      · rw [j1 ⟨hw, hz⟩]
        exact ⟨rfl, rfl, fun _ _ _ _ => rfl⟩
  obtain ⟨s1, s2, s3⟩ := hshape
  refine ⟨by simp [h.syms], by simp [h.mean], by simp [h.dist], ?_, ?_, ?_⟩
  · simp only [List.length_append, s1, h.rows, hro]
  · simp only [List.length_append, s2, h.cols, hco]
  · intro a b ra rb ha hb i j hi hj
    simp only
    have hq : q.syms.length = (rs.flatMap (·.syms)).length := by rw [h.syms]
    have hrow := h.rows
    have hcol := h.cols
    -- where an index lies
    have loc : ∀ (c : Nat) (rc : Registration), (rs ++ [r])[c]? = some rc →
        (c < rs.length ∧ rs[c]? = some rc ∧ before (rs ++ [r]) c = before rs c) ∨
        (c = rs.length ∧ rc = r ∧ before (rs ++ [r]) c = q.syms.length) := by
      intro c rc hc
      by_cases hlt : c < rs.length
      · left
        rw [List.getElem?_append_left hlt] at hc
        exact ⟨hlt, hc, before_append rs r c hlt.le⟩
      · right
        rw [List.getElem?_append_right (by omega)] at hc
        have hc0 : c - rs.length = 0 := by
          by_contra hne
          rw [List.getElem?_eq_none (by simp; omega)] at hc
          cases hc
        rw [hc0] at hc
        simp only [List.getElem?_cons_zero, Option.some.injEq] at hc
        have hc1 : c = rs.length := by omega
        refine ⟨hc1, hc.symm, ?_⟩
        rw [hc1, before_append rs r _ le_rfl, before_all, hq]
    rcases loc a ra ha with ⟨la, ha', ea⟩ | ⟨la, rfl, ea⟩ <;>
      rcases loc b rb hb with ⟨lb, hb', eb⟩ | ⟨lb, rfl, eb⟩
    · have hai := before_add_lt rs a ra ha' i hi
      have hbj := before_add_lt rs b rb hb' j hj
      rw [ea, eb, s3 _ _ (by omega) (by omega)]
      simp only [Weight.diagcat]
      rw [if_pos (by omega)]
      exact h.cov a b ra rb ha' hb' i j hi hj
    · have hai := before_add_lt rs a ra ha' i hi
      rw [ea, eb, s3 _ _ (by omega) (by omega)]
      simp only [Weight.diagcat]
      rw [if_neg (by omega), if_neg (by omega), if_neg (by omega)]
    · have hbj := before_add_lt rs b rb hb' j hj
      rw [ea, eb, s3 _ _ (by omega) (by omega)]
      simp only [Weight.diagcat]
      rw [if_neg (by omega), if_neg (by omega), if_neg (by omega)]
    · rw [ea, eb, s3 _ _ (by omega) (by omega)]
      simp only [Weight.diagcat]
      rw [if_neg (by omega), if_pos (by omega), if_pos (by omega)]
      congr 1 <;> omega

end Verif.Spec

namespace Verif.StochasticOcp
open Verif Spec

theorem checkSizes_run (par : List Sym) (mean : List Rat) (cov : Weight) (dist : String)
    (s : StochasticOcp) :
    checkSizes par mean cov s =
      (if (Registration.mk par mean cov dist).Valid then .ok () else .error .valueError, s) := by
  by_cases h1 : par.length = mean.length
  · have e1 : decide (par.length ≠ mean.length) = false := by simp [h1]
    by_cases h2 : cov.rows = mean.length ∧ cov.cols = mean.length
    · have hv : (Registration.mk par mean cov dist).Valid := ⟨h1, by rw [h1]; exact h2⟩
      have e2 : decide (¬(cov.rows = mean.length ∧ cov.cols = mean.length)) = false := by simp [h2]
      simp only [hv, if_true, checkSizes, e1, e2]
      rfl
    · have hv : ¬(Registration.mk par mean cov dist).Valid := fun h => h2 (by
        have := h.2
        rwa [h1] at this)
      have e2 : decide (¬(cov.rows = mean.length ∧ cov.cols = mean.length)) = true :=
        decide_eq_true h2
      simp only [hv, if_false, checkSizes, e1, e2]
      rfl
  · have hv : ¬(Registration.mk par mean cov dist).Valid := fun h => h1 h.1
    have e1 : decide (par.length ≠ mean.length) = true := by simpa using h1
    simp only [hv, if_false, checkSizes, e1]
    rfl

/-- What a registration of parameters does. -/
theorem setParameterUncertain_run (par : List Sym) (mean : List Rat) (cov : Weight) (dist : String)
    (s : StochasticOcp) :
    setParameterUncertain par mean cov dist s =
      if (Registration.mk par mean cov dist).Valid then
        (.ok (), { s with pUnc := ⟨s.pUnc.syms ++ par, s.pUnc.mean ++ mean,
          joinParameterCov s.pUnc.cov cov, s.pUnc.dist ++ List.replicate par.length dist⟩ })
      else (.error .valueError, s) := by
  unfold setParameterUncertain
  have h := checkSizes_run par mean cov dist s
  by_cases hv : (Registration.mk par mean cov dist).Valid
  · rw [if_pos hv] at h ⊢
    rw [Py.bind_eq, Py.bind_ok h]
    rfl
  · rw [if_neg hv] at h ⊢
    rw [Py.bind_eq, Py.bind_error h]

/-- What a registration of initial conditions does. -/
theorem setInitialUncertain_run (par : List Sym) (mean : List Rat) (cov : Weight) (dist : String)
    (s : StochasticOcp) :
    setInitialUncertain par mean cov dist s =
      if (Registration.mk par mean cov dist).Valid then
        (.ok (), { s with x0Unc := ⟨s.x0Unc.syms ++ par, s.x0Unc.mean ++ mean,
          joinInitialCov s.x0Unc.cov cov, s.x0Unc.dist ++ List.replicate par.length dist⟩ })
      else (.error .valueError, s) := by
  unfold setInitialUncertain
  have h := checkSizes_run par mean cov dist s
  by_cases hv : (Registration.mk par mean cov dist).Valid
  · rw [if_pos hv] at h ⊢
    rw [Py.bind_eq, Py.bind_ok h]
    rfl
  · rw [if_neg hv] at h ⊢
    rw [Py.bind_eq, Py.bind_error h]

/-- The model is changed first. -/
theorem includeUncertain_run (par : List Sym) (mean : List Rat) (cov : Weight) (dist : String)
    (s : StochasticOcp) :
    includeUncertain par mean cov dist s = setParameterUncertain par mean cov dist
      { s with problem := { s.problem with
          model := { s.problem.model with p := s.problem.model.p ++ par } } } := by
  have h : onModel (SysModel.includeParameter par) s = (.ok (), { s with problem := { s.problem with
          model := { s.problem.model with p := s.problem.model.p ++ par } } }) := rfl
  unfold includeUncertain
  rw [Py.bind_eq, Py.bind_ok h]

/-- What a chance inequality does. -/
theorem includeChance_run (ineq : List Expr) (prob : List Rat) (rhs : Option (List Rat)) (w : String)
    (s : StochasticOcp) :
    includeChance ineq prob rhs w s =
      if ineq.length = (rhs.getD (List.replicate ineq.length 0)).length then
        (.ok (), { s with
          ineq := s.ineq ++ ineq
          rhs := s.rhs ++ rhs.getD (List.replicate ineq.length 0)
          prob := s.prob ++ prob })
      else (.error .valueError, s) := by
  unfold includeChance
  generalize rhs.getD (List.replicate ineq.length 0) = r
  by_cases h : ineq.length = r.length
  · have e : decide (ineq.length ≠ r.length) = false := by simpa using h
    rw [if_pos h]
    simp only [e]
    rfl
  · have e : decide (ineq.length ≠ r.length) = true := by simpa using h
    rw [if_neg h]
    simp only [e]
    rfl

/-- The join of the parameters' covariances. -/
theorem joinParameterCov_spec (W c : Weight) (hW : W.rows = W.cols) (hc : c.rows = c.cols) :
    (W.rows ≠ 0 ∧ c.rows ≠ 0 → joinParameterCov W c = W.diagcat c) ∧
    (W.rows = 0 → c.rows ≠ 0 → joinParameterCov W c = c) ∧
    (c.rows = 0 → ((joinParameterCov W c).rows = W.rows ∧ (joinParameterCov W c).cols = W.cols ∧
      ∀ i j, i < W.rows → j < W.cols → (joinParameterCov W c).entry i j = W.entry i j)) := by
  unfold joinParameterCov Weight.numel
  refine ⟨fun h => ?_, fun h _ => ?_, fun h => ?_⟩
  · rw [if_neg (by rw [← hW]; simp [h.1])]
  · rw [if_pos (by rw [h]; simp)]
  · by_cases hz : W.rows = 0
    · rw [if_pos (by rw [hz]; simp)]
      exact ⟨by omega, by omega, fun i j hi _ => by omega⟩
    · rw [if_neg (by rw [← hW]; simp [hz])]
      refine ⟨by simp [Weight.diagcat, h], by simp [Weight.diagcat]; omega, fun i j hi hj => ?_⟩
      simp [Weight.diagcat, hi, hj]

/-- The join of the initial conditions' covariances. -/
theorem joinInitialCov_spec (W c : Weight) (hW : W.rows = W.cols) (hc : c.rows = c.cols) :
    (W.rows ≠ 0 ∧ c.rows ≠ 0 → joinInitialCov W c = W.diagcat c) ∧
    (W.rows = 0 → c.rows ≠ 0 → joinInitialCov W c = c) ∧
    (c.rows = 0 → ((joinInitialCov W c).rows = W.rows ∧ (joinInitialCov W c).cols = W.cols ∧
      ∀ i j, i < W.rows → j < W.cols → (joinInitialCov W c).entry i j = W.entry i j)) := by
  unfold joinInitialCov Weight.numel
  rw [← hW, ← hc]
  refine ⟨fun h => ?_, fun h h' => ?_, fun h => ?_⟩
  · have a := Nat.pos_of_ne_zero h.1
    have b := Nat.pos_of_ne_zero h.2
    rw [if_pos ⟨Nat.mul_pos b b, Nat.mul_pos a a⟩]
  · have b := Nat.pos_of_ne_zero h'
    rw [h, if_neg (by simp), if_pos (Nat.mul_pos b b)]
  · rw [h, if_neg (by simp), if_neg (by simp)]
    exact ⟨rfl, hW.symm, fun _ _ _ _ => rfl⟩

/-- One call and the parameters. -/
theorem run_parameters (c : Call) (s : StochasticOcp) (rs : List Registration)
    (h : Collects rs s.pUnc) : Collects (rs ++ validOnes askedParameters [c]) (c.run s).2.pUnc := by
  have reg : ∀ (par : List Sym) (mean : List Rat) (cov : Weight) (dist : String) (s : StochasticOcp),
      Collects rs s.pUnc →
      Collects (rs ++ List.filter (fun r => decide r.Valid) [⟨par, mean, cov, dist⟩])
        (setParameterUncertain par mean cov dist s).2.pUnc := by
    intro par mean cov dist s h
    rw [setParameterUncertain_run]
    by_cases hv : (Registration.mk par mean cov dist).Valid
    · rw [if_pos hv, List.filter_cons_of_pos (by simpa using hv), List.filter_nil]
      exact collects_snoc rs s.pUnc ⟨par, mean, cov, dist⟩ h hv joinParameterCov
        (fun W hW => joinParameterCov_spec W cov hW (by rw [hv.2.1, hv.2.2]))
    · rw [if_neg hv, List.filter_cons_of_neg (by simpa using hv), List.filter_nil, List.append_nil]
      exact h
  cases c with
  | setParameter par mean cov dist => exact reg par mean cov dist s h
  | includeParameter par mean cov dist =>
      show Collects _ ((includeUncertain par mean cov dist) s).2.pUnc
      rw [includeUncertain_run]
      exact reg par mean cov dist _ h
  | setInitial par mean cov dist =>
      show Collects (rs ++ []) (setInitialUncertain par mean cov dist s).2.pUnc
      rw [setInitialUncertain_run, List.append_nil]
      by_cases hv : (Registration.mk par mean cov dist).Valid
      · rw [if_pos hv]; exact h
      · rw [if_neg hv]; exact h
  | chance ineq prob rhs w =>
      show Collects (rs ++ []) (includeChance ineq prob rhs w s).2.pUnc
      rw [List.append_nil, includeChance_run]
      split <;> exact h

/-- One call and the initial conditions. -/
theorem run_initial (c : Call) (s : StochasticOcp) (rs : List Registration)
    (h : Collects rs s.x0Unc) : Collects (rs ++ validOnes askedInitial [c]) (c.run s).2.x0Unc := by
  have keep : ∀ (par : List Sym) (mean : List Rat) (cov : Weight) (dist : String) (s : StochasticOcp),
      (setParameterUncertain par mean cov dist s).2.x0Unc = s.x0Unc := by
    intro par mean cov dist s
    rw [setParameterUncertain_run]
    split <;> rfl
  cases c with
  | setParameter par mean cov dist =>
      show Collects (rs ++ []) (setParameterUncertain par mean cov dist s).2.x0Unc
      rw [keep, List.append_nil]; exact h
  | includeParameter par mean cov dist =>
      show Collects (rs ++ []) ((includeUncertain par mean cov dist) s).2.x0Unc
      rw [includeUncertain_run, keep, List.append_nil]
      exact h
  | setInitial par mean cov dist =>
      show Collects (rs ++ List.filter (fun r => decide r.Valid) [⟨par, mean, cov, dist⟩])
        (setInitialUncertain par mean cov dist s).2.x0Unc
      rw [setInitialUncertain_run]
      by_cases hv : (Registration.mk par mean cov dist).Valid
      · rw [if_pos hv, List.filter_cons_of_pos (by simpa using hv), List.filter_nil]
        exact collects_snoc rs s.x0Unc ⟨par, mean, cov, dist⟩ h hv joinInitialCov
          (fun W hW => joinInitialCov_spec W cov hW (by rw [hv.2.1, hv.2.2]))
      · rw [if_neg hv, List.filter_cons_of_neg (by simpa using hv), List.filter_nil, List.append_nil]
        exact h
  | chance ineq prob rhs w =>
      show Collects (rs ++ []) (includeChance ineq prob rhs w s).2.x0Unc
      rw [List.append_nil, includeChance_run]
      split <;> exact h

theorem validOnes_cons (asked : Call → Option Registration) (c : Call) (cs : List Call) :
    validOnes asked (c :: cs) = validOnes asked [c] ++ validOnes asked cs := by
  unfold validOnes
  rw [← List.filter_append, ← List.filterMap_append]
  rfl

/-- A whole history and the parameters. -/
theorem history_parameters (cs : List Call) (s : StochasticOcp) (rs : List Registration)
    (h : Collects rs s.pUnc) :
    Collects (rs ++ validOnes askedParameters cs) (runHistory (fun c s => (c.run s).2) cs s).pUnc := by
  induction cs generalizing s rs with
  | nil => simpa [validOnes, runHistory] using h
  | cons c cs ih =>
      rw [validOnes_cons, ← List.append_assoc]
      exact ih _ _ (run_parameters c s rs h)

/-- A whole history and the initial conditions. -/
theorem history_initial (cs : List Call) (s : StochasticOcp) (rs : List Registration)
    (h : Collects rs s.x0Unc) :
    Collects (rs ++ validOnes askedInitial cs) (runHistory (fun c s => (c.run s).2) cs s).x0Unc := by
  induction cs generalizing s rs with
  | nil => simpa [validOnes, runHistory] using h
  | cons c cs ih =>
      rw [validOnes_cons, ← List.append_assoc]
      exact ih _ _ (run_initial c s rs h)

end Verif.StochasticOcp
