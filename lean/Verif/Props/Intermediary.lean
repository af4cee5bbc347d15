import Verif.Lemmas.Intermediary
/-!
# Intermediary nodes (C69, C70)
-/
namespace Verif
open Verif.Spec Verif.AugLag Verif.Intermediary

set_option linter.unusedSectionVars false
variable {K : Type} [Field K] [LinearOrder K]

/-- C69: with one variable, the same penalty for both constraints and no other parameters, the result is
at every point the only minimiser of the augmented Lagrangian of the node. -/
theorem C69_minimiser_partial [IsStrictOrderedRing K] (o : Opts K) (hd : 0 < o.degree) (s : St K)
    (y1 u2 nu1 nu2 : Nat → Nat → K) (mu : K) (hm : 0 < mu)
    (hnu : s.nu = pairRows o.elements o.degree nu1 nu2) (hmu : s.mu = [mu, mu]) :
    ∃ r, Intermediary.solve o (pairRows o.elements o.degree y1 u2) none s = .ok r ∧
      r.length = o.elements * o.degree ∧
      ∀ el j, el < o.elements → j < o.degree → ∃ z, r[el * o.degree + j]? = some z ∧
        UniqueMinimiser (intermediaryCost mu mu (y1 el j) (u2 el j) (nu1 el j) (nu2 el j)) z := by
  have hp := parts_rows o.degree o.elements hd y1 u2 nu1 nu2 (pairRows o.elements o.degree y1 u2) s.nu
    (by rw [hnu]; simp [pairRows, List.zipWith_map_left, List.zipWith_map_right, List.zipWith_self])
  refine ⟨_, ?_, length_values mu o.elements o.degree y1 u2 nu1 nu2, ?_⟩
  · unfold Intermediary.solve
    simp only [hp, hmu, firstParameter, bind, Except.bind, Option.getD_none, List.nil_append]
  · intro el j hel hj
    refine ⟨_, getElem?_values mu o.elements o.degree y1 u2 nu1 nu2 el j hel hj, ?_⟩
    · intro w hw
      have hne : w - Intermediary.value mu (y1 el j) (u2 el j) (nu1 el j) (nu2 el j) ≠ 0 :=
        sub_ne_zero.2 hw
      have hkey : intermediaryCost mu mu (y1 el j) (u2 el j) (nu1 el j) (nu2 el j) w -
          intermediaryCost mu mu (y1 el j) (u2 el j) (nu1 el j) (nu2 el j)
            (Intermediary.value mu (y1 el j) (u2 el j) (nu1 el j) (nu2 el j)) =
          mu * (w - Intermediary.value mu (y1 el j) (u2 el j) (nu1 el j) (nu2 el j)) ^ 2 := by
        unfold intermediaryCost Intermediary.value
        field_simp
        ring
      have : 0 < mu * (w - Intermediary.value mu (y1 el j) (u2 el j) (nu1 el j) (nu2 el j)) ^ 2 :=
        mul_pos hm (by positivity)
      linarith

/-- C69: fails when the penalties of the two constraints differ: only the first one is used. The
penalty rule "primal" changes them separately. -/
theorem C69_penalties_fails [IsStrictOrderedRing K] (mu1 mu2 y u : K) (h1 : 0 < mu1) (h2 : 0 < mu2)
    (hne : mu1 ≠ mu2) (hyu : y ≠ u) (o : Opts K) (s : St K) (hd : o.degree = 1)
    (hnu : s.nu = [[0, 0]]) (hmu : s.mu = [mu1, mu2]) :
    ∃ z, Intermediary.solve o [[y, u]] none s = .ok [z] ∧
      ¬ UniqueMinimiser (intermediaryCost mu1 mu2 y u 0 0) z := by
  refine ⟨(y + u) / 2, ?_, ?_⟩
  · have hp := parts_rows 1 1 (by omega) (fun _ _ => y) (fun _ _ => u) (fun _ _ => (0 : K))
      (fun _ _ => 0) [[y, u]] s.nu (by rw [hnu]; simp)
    unfold Intermediary.solve
    rw [hd]
    simp only [hp, hmu, firstParameter, bind, Except.bind, Option.getD_none, List.nil_append]
    simp [values, points, Intermediary.value]
  · intro h
    have hs : (0 : K) < mu1 + mu2 := by linarith
    have hw := h ((mu1 * y + mu2 * u) / (mu1 + mu2)) (by
      intro he
      field_simp at he
      have : (mu1 - mu2) * (y - u) = 0 := by
        have h0 := sub_eq_zero.2 he
        rw [← h0]; ring
      rcases mul_eq_zero.1 this with h' | h'
      · exact hne (sub_eq_zero.1 h')
      · exact hyu (sub_eq_zero.1 h'))
    have hkey : intermediaryCost mu1 mu2 y u 0 0 ((y + u) / 2) -
        intermediaryCost mu1 mu2 y u 0 0 ((mu1 * y + mu2 * u) / (mu1 + mu2)) =
        (mu1 + mu2) / 2 * ((y + u) / 2 - (mu1 * y + mu2 * u) / (mu1 + mu2)) ^ 2 := by
      unfold intermediaryCost
      field_simp
      ring
    have : 0 ≤ (mu1 + mu2) / 2 * ((y + u) / 2 - (mu1 * y + mu2 * u) / (mu1 + mu2)) ^ 2 :=
      mul_nonneg (by linarith) (sq_nonneg _)
    linarith

/-- C69: fails for connections of two variables: one value per point is returned, and it is computed from
the two outputs of the first neighbour, with the inputs of the second one in place of the
multipliers. -/
theorem C69_two_variables_fails (o : Opts K) (hd : 0 < o.degree) (s : St K)
    (ya yb ua ub : Nat → Nat → K) (mu : K) (rest : List K) (hmu : s.mu = mu :: rest)
    (hnu : s.nu.length = o.elements) :
    ∃ r, Intermediary.solve o (List.zipWith (· ++ ·) (pairRows o.elements o.degree ya yb)
        (pairRows o.elements o.degree ua ub)) none s = .ok r ∧
      r.length = o.elements * o.degree ∧
      ∀ el j, el < o.elements → j < o.degree → r[el * o.degree + j]? =
        some ((ub el j - ua el j) / (2 * mu) + (ya el j + yb el j) / 2) := by
  have hs := fun i hi => splitVector_prefix o.degree o.elements hd
    (fun el => [ya el, yb el, ua el, ub el]) i 4 (fun _ => rfl) hi
    (List.zipWith (· ++ ·) (pairRows o.elements o.degree ya yb)
        (pairRows o.elements o.degree ua ub)) s.nu hnu
    (by simp [pairRows, List.zipWith_map_left, List.zipWith_map_right, List.zipWith_self])
  refine ⟨_, ?_, length_values mu o.elements o.degree ya yb ua ub,
    fun el j hel hj => getElem?_values mu o.elements o.degree ya yb ua ub el j hel hj⟩
  · unfold Intermediary.solve parts
    simp only [hs 0 (by omega), hs 1 (by omega), hs 2 (by omega), hs 3 (by omega), hmu, firstParameter,
      bind, Except.bind, Option.getD_none, List.nil_append]
    rfl

namespace Example

/-- Two elements of degree two. -/
def dummyOpts : Opts Rat where
  roots := fun _ => [1 / 3, 1]
  t0 := 0
  tf := 1
  nRelax := 2
  nuDegree := 2
  degree := 2
  elements := 2
  maxIter := 1
  tol := 1 / 10
  muMax := 1000
  beta := 4
  minDecrease := 1 / 2

end Example

example : Intermediary.solve Example.dummyOpts [[1, 2, 3, 4], [5, 6, 7, 8]] none
    (AugLag.start Example.dummyOpts 1) = .ok [2, 3, 6, 7] := by decide +kernel

example : (AugLag.start Example.dummyOpts (1 : Rat)).nu =
    pairRows 2 2 (fun _ _ => 0) (fun _ _ => 0) := by decide +kernel

/-- C69: rejections. A theta without the values of the two neighbours (and multipliers) for some
element, or no penalty, is an `IndexError`. -/
theorem C69_rejected (o : Opts K) (theta : List (List K)) (p : Option (List K)) (s : St K) :
    (∀ row ∈ List.zipWith (· ++ ·) theta s.nu, row = []) ∧ theta ≠ [] ∧ s.nu ≠ [] ∨
      s.mu = [] ∧ p.getD [] = [] →
    Intermediary.solve o theta p s = .error .indexError := by
  intro h
  have hc : ∀ (v : List K) (i : Nat) (e : Err), chunk o.degree v i = .error e → e = .indexError := by
    intro v i e he
    unfold chunk at he
    split at he <;> cases he
    rfl
  have hsplit : ∀ (l : List (List K)) (i : Nat) (e : Err), splitVector o.degree l i = .error e → e = .indexError := by
    intro l i e he
    unfold splitVector at he
    cases hm : l.mapM fun v => chunk o.degree v i with
    | error e' =>
      rw [hm] at he
      cases he
      clear h
      induction l with
      | nil => cases hm
      | cons v l ih =>
        rw [List.mapM_cons] at hm
        cases hv : chunk o.degree v i with
        | error e₁ =>
          rw [hv] at hm
          cases hm
          exact hc v i _ hv
        | ok w =>
          cases hl : l.mapM fun v => chunk o.degree v i with
          | error e₂ =>
            simp only [hv, hl, bind, Except.bind, Except.error.injEq] at hm
            exact ih (by rw [hl, hm])
          | ok ws => simp [hv, hl, bind, Except.bind, pure, Except.pure] at hm
    | ok v => rw [hm] at he; cases he
  have hparts : ∀ e, parts o.degree theta s.nu = .error e → e = .indexError := by
    intro e he
    unfold parts at he
    simp only [bind, Except.bind] at he
    split at he
    · next h' => cases he; exact hsplit _ _ _ h'
    split at he
    · next h' => cases he; exact hsplit _ _ _ h'
    split at he
    · next h' => cases he; exact hsplit _ _ _ h'
    split at he
    · next h' => cases he; exact hsplit _ _ _ h'
    cases he
  unfold Intermediary.solve
  rcases h with ⟨h, ht, hn⟩ | ⟨h, hp⟩
  · have : parts o.degree theta s.nu = .error .indexError := by
      unfold parts splitVector
      match theta, ht, hv : s.nu, hn with
      | a :: theta, _, b :: nu, _ =>
        have hab : a ++ b = [] := h _ (by rw [hv]; simp)
        simp [chunk, hab, bind, Except.bind, Except.map]
    simp [this, bind, Except.bind]
  · cases hx : parts o.degree theta s.nu with
    | error e => simp [bind, Except.bind, hparts e hx]
    | ok x => simp [bind, Except.bind, firstParameter, h, hp]

/-- C70: the update stores the multipliers of the first-order rule. -/
theorem C70_stored_partial (o : Opts K) (hd : 0 < o.degree) (s : St K) (hc : o.skipCompute = false)
    (hu : o.skipUpdateNu = false) (hi : o.onlyImprove = false)
    (y1 u2 nu1 nu2 uc : Nat → Nat → K) (mu : K) (rest : List K)
    (hnu : s.nu = pairRows o.elements o.degree nu1 nu2) (hmu : s.mu = mu :: rest) :
    (Intermediary.computeNu o (pairRows o.elements o.degree y1 u2) none
      ((List.range o.elements).flatMap fun el => (List.range o.degree).map (uc el)) s).2 =
    { s with nuTilde := some ((List.range o.elements).map fun el =>
        (List.range o.degree).flatMap fun j =>
          [nu1 el j + mu * (uc el j - y1 el j), nu2 el j + mu * (u2 el j - uc el j)]) } := by
  have hp := parts_rows o.degree o.elements hd y1 u2 nu1 nu2 (pairRows o.elements o.degree y1 u2) s.nu
    (by rw [hnu]; simp [pairRows, List.zipWith_map_left, List.zipWith_map_right, List.zipWith_self])
  have hnew : Intermediary.newNu o mu
      ⟨points o.elements o.degree y1, points o.elements o.degree u2,
       points o.elements o.degree nu1, points o.elements o.degree nu2⟩
      ((List.range o.elements).flatMap fun el => (List.range o.degree).map (uc el)) =
      (List.range o.elements).map fun el => (List.range o.degree).flatMap fun j =>
          [nu1 el j + mu * (uc el j - y1 el j), nu2 el j + mu * (u2 el j - uc el j)] := by
    unfold Intermediary.newNu
    apply List.map_congr_left
    intro el hel
    rw [List.mem_range] at hel
    apply List.flatMap_congr
    intro j hj
    rw [List.mem_range] at hj
    simp only [points, getElem?_points o.elements o.degree _ el j hel hj, Option.getD_some]
  rw [← hnew]
  unfold Intermediary.computeNu
  simp only [hc, hu, Bool.false_eq_true, if_false]
  simp [bind, Py.bind, Py.get, Py.lift, hp, hmu, firstParameter, storeNu, hi, Py.modify, Py.pure]

/-- C70: the errors returned with the update are the largest differences between the intermediary
value and each neighbour's value, over all elements and points. -/
theorem C70_errors [IsStrictOrderedRing K] (o : Opts K) (hd : 0 < o.degree) (s : St K)
    (hc : o.skipCompute = false) (hu : o.skipUpdateNu = false) (hi : o.onlyImprove = false)
    (y1 u2 nu1 nu2 uc : Nat → Nat → K) (mu : K) (rest : List K)
    (hnu : s.nu = pairRows o.elements o.degree nu1 nu2) (hmu : s.mu = mu :: rest) :
    ∃ e1 e2, (Intermediary.computeNu o (pairRows o.elements o.degree y1 u2) none
        ((List.range o.elements).flatMap fun el => (List.range o.degree).map (uc el)) s).1 =
        .ok [e1, e2] ∧
      LargestDifference o.elements o.degree uc y1 e1 ∧
      LargestDifference o.elements o.degree u2 uc e2 := by
  have hp := parts_rows o.degree o.elements hd y1 u2 nu1 nu2 (pairRows o.elements o.degree y1 u2) s.nu
    (by rw [hnu]; simp [pairRows, List.zipWith_map_left, List.zipWith_map_right, List.zipWith_self])
  refine ⟨_, _, ?_, largestDifference _ _ uc y1, largestDifference _ _ u2 uc⟩
  unfold Intermediary.computeNu
  simp only [hc, hu, Bool.false_eq_true, if_false]
  simp [bind, Py.bind, Py.get, Py.lift, hp, hmu, firstParameter, storeNu, hi, Py.modify, Py.pure,
    errors, points]

example : (Intermediary.computeNu Example.dummyOpts (pairRows 2 2 (fun el j => el + j) fun _ _ => 1)
    none ((List.range 2).flatMap fun _ => (List.range 2).map fun _ => 1 / 2)
    (AugLag.start Example.dummyOpts 1)).1 = .ok [3 / 2, 1 / 2] := by decide +kernel

/-- C70: fails: after any history of updates the node is solved with the multipliers it was made with;
only the penalties change. -/
theorem C70_never_used_fails (o : Opts K) (ops : List (Intermediary.Op K)) (s : St K) (theta : List (List K))
    (p : Option (List K)) :
    Intermediary.solve o theta p (after o ops s) =
      Intermediary.solve o theta p { s with mu := (after o ops s).mu } := by
  have h : (after o ops s).nu = s.nu := after_nu o ops s
  unfold Intermediary.solve
  simp only [h]

namespace Example

/-- One point. -/
def onePoint : Opts Rat :=
  { dummyOpts with degree := 1, elements := 1, nuDegree := 1, rule := "constant" }

/-- After one update. -/
def updated : St Rat := after onePoint [.update [[1, 4]] none [2]] (AugLag.start onePoint 1)

end Example

/-- C70: a case in which the stored multipliers would have changed the next solution. -/
theorem C70_example_fails :
    Example.updated.nuTilde = some [[1, 2]] ∧
    Intermediary.solve Example.onePoint [[1, 4]] none Example.updated = .ok [5 / 2] ∧
    Intermediary.solve Example.onePoint [[1, 4]] none { Example.updated with nu := [[1, 2]] } =
      .ok [3] := by decide +kernel

end Verif
