import Verif.Lemmas.Kalman
import Verif.Lemmas.Expansion
import Mathlib.Tactic.LinearCombination
/-!
# Kalman filters (C79-C81, C83, C120-C126)
-/
namespace Verif
open Verif.Spec Verif.Kalman Matrix

set_option linter.unusedSectionVars false
variable {K : Type} [Field K] [LinearOrder K] [IsStrictOrderedRing K] {nx ny nu nm : Nat}

/-! ### Unscented transformation -/

/-- C79: there are `2 n + 1` weights of each kind, the mean weights sum to one and the covariance weights
to `2 - alpha² + beta`. -/
theorem C79_weights (ell : Nat) (h : 0 < ell) :
    (weightsMean K ell).length = 2 * ell + 1 ∧ (weightsCov K ell).length = 2 * ell + 1 ∧
    (weightsMean K ell).sum = 1 ∧
    (weightsCov K ell).sum = 2 - (1 / 1000) ^ 2 + 2 ∧ ∀ c ∈ weightsCov K ell, 0 ≤ c := by
  have hs : (ell : K) + lamb ell ≠ 0 := (scale_ne_zero h).ne'
  have hsum : ((List.range (2 * ell)).map fun _ => 1 / (2 * ((ell : K) + lamb ell))).sum =
      (ell : K) / ((ell : K) + lamb ell) := by
    rw [List.map_const', List.sum_replicate, List.length_range, nsmul_eq_mul]
    push_cast
    field_simp
  refine ⟨by simp [weightsMean], by simp [weightsCov], ?_, ?_, weightsCov_nonneg ell⟩
  · unfold weightsMean
    rw [List.sum_cons, hsum]
    field_simp
    ring
  · unfold weightsCov alpha beta
    rw [List.sum_cons, hsum]
    field_simp
    ring

/-- C80: the weighted mean of the sigma points is the mean, and their weighted covariance the
covariance. -/
theorem C80_sigma_points (hn : 0 < nx)
    (chol : Matrix (Fin nx) (Fin nx) K → Matrix (Fin nx) (Fin nx) K) (x : Fin nx → K)
    (p : Matrix (Fin nx) (Fin nx) K) (hp : IsCovariance p)
    (hc : ∀ m, IsCovariance m → (chol m).transpose * chol m = m) :
    (sigmaPoints chol x p).length = 2 * nx + 1 ∧
    weightedSum (weightsMean K nx) (sigmaPoints chol x p) = x ∧
    weightedOuter (weightsCov K nx) (sigmaPoints chol x p) x (sigmaPoints chol x p) x = p := by
  have hid : ∀ l : List (Fin nx → K),
      (l.map fun v => (1 : Matrix (Fin nx) (Fin nx) K).mulVec v + 0) = l := by
    intro l
    simp
  have h1 := weightedSum_affine hn chol x p (1 : Matrix (Fin nx) (Fin nx) K) 0
  have h2 := weightedOuter_affine hn chol x p
    (hc _ (IsCovariance.smul hp (scale_ne_zero hn).le)) (1 : Matrix (Fin nx) (Fin nx) K) 0
    (1 : Matrix (Fin nx) (Fin nx) K) 0
  rw [hid] at h1 h2
  simp only [one_mulVec, add_zero, Matrix.one_mul, transpose_one, Matrix.mul_one] at h1 h2
  exact ⟨by simp [sigmaPoints], h1, h2⟩

/-! ### Extended Kalman filter -/

/-- C81: the prediction of a covariance is a covariance. -/
theorem C81_predict (env : EkfEnv nx ny nu nm K) (cfg : Config nx nm K) (s : State nx ny K)
    (hs : IsCovariance s.pAug) (hv : IsCovariance cfg.rV) (x : Fin nx → K) (y : Fin ny → K) :
    IsCovariance (ekfPredict env cfg s x y) := by
  unfold ekfPredict predictCov
  simp only [← Matrix.mul_assoc]
  exact IsCovariance.add (IsCovariance.conj hs _) (IsCovariance.conj hv _)

/-- C81: the correction is the Kalman correction of the prediction: the covariance is that of the error
with the gain that is used, which is symmetric; every other gain adds a covariance to it, and so has at
least its trace; and an exact prediction is not changed. -/
theorem C81_update (inv : Matrix (Fin nm) (Fin nm) K → Matrix (Fin nm) (Fin nm) K)
    (r : Matrix (Fin nm) (Fin nm) K) (hr : IsCovariance r) (p : AugMatrix nx ny K)
    (hp : IsCovariance p) (g : Matrix (Fin nm) (Fin nx ⊕ Fin ny) K)
    (hi : inv (g * p * g.transpose + r) * (g * p * g.transpose + r) = 1) (v : Aug nx ny K)
    (innovation : Fin nm → K) :
    (ekfCorrect (ekfGain inv r p g) g v p innovation).2 =
      errorCovariance p g r (ekfGain inv r p g) ∧
    IsCovariance (ekfCorrect (ekfGain inv r p g) g v p innovation).2 ∧
    (∀ l, IsCovariance (errorCovariance p g r l -
      (ekfCorrect (ekfGain inv r p g) g v p innovation).2)) ∧
    (∀ l, (ekfCorrect (ekfGain inv r p g) g v p innovation).2.trace ≤
      (errorCovariance p g r l).trace) ∧
    (ekfCorrect (ekfGain inv r p g) g v p 0).1 = v ∧
    ∀ z d, IsKalmanUpdate g d r v p z
      (ekfCorrect (ekfGain inv r p g) g v p (z - (g.mulVec v + d))).1
      (ekfCorrect (ekfGain inv r p g) g v p (z - (g.mulVec v + d))).2 := by
  have hk : ekfGain inv r p g * (g * p * g.transpose + r) = p * g.transpose := by
    unfold ekfGain
    rw [Matrix.mul_assoc (p * g.transpose), ← Matrix.mul_assoc g p, hi, Matrix.mul_one]
  have he := errorCovariance_gain p g r _ hk
  have hcov : IsCovariance (errorCovariance p g r (ekfGain inv r p g)) := by
    unfold errorCovariance
    exact IsCovariance.add (IsCovariance.conj hp _) (IsCovariance.conj hr _)
  have hother : ∀ l, IsCovariance (errorCovariance p g r l -
      errorCovariance p g r (ekfGain inv r p g)) := by
    intro l
    rw [errorCovariance_other p hp.1 g r hr.1 _ l hk, add_sub_cancel_left]
    exact IsCovariance.conj (IsCovariance.add (IsCovariance.conj hp g) hr) _
  have h2 : ∀ i, (ekfCorrect (ekfGain inv r p g) g v p i).2 =
      errorCovariance p g r (ekfGain inv r p g) := fun i => he.symm
  refine ⟨h2 _, by rw [h2]; exact hcov, fun l => by rw [h2]; exact hother l, fun l => ?_, ?_, ?_⟩
  · rw [h2]
    have h := IsCovariance.trace_nonneg (hother l)
    rw [trace_sub] at h
    linarith
  · simp [ekfCorrect]
  · intro z d
    exact ⟨ekfGain inv r p g, hk, rfl, h2 _⟩

/-- C81: after every history of measurements, whether or not the calls raise, the covariances are
covariances. -/
theorem C81_history (env : EkfEnv nx ny nu nm K) (cfg : Config nx nm K)
    (hv : IsCovariance cfg.rV) (hn : PositiveCovariance cfg.rN)
    (hi : ∀ m, PositiveCovariance m → env.inv m * m = 1)
    (t : K) (x : Fin nx → K) (p : Matrix (Fin nx) (Fin nx) K) (hp : IsCovariance p)
    (yGuess : Fin ny → K) (history : List ((Fin nm → K) × (Fin nu → K))) :
    let s := runHistory (fun yu s => (ekfEstimate env cfg yu.1 yu.2 s).2) history
      (ekfStart t x p yGuess)
    IsCovariance s.pAug ∧ IsCovariance s.pK := by
  have step : ∀ (yu : (Fin nm → K) × (Fin nu → K)) (s : State nx ny K),
      IsCovariance s.pAug ∧ IsCovariance s.pK →
      IsCovariance (ekfEstimate env cfg yu.1 yu.2 s).2.pAug ∧
      IsCovariance (ekfEstimate env cfg yu.1 yu.2 s).2.pK := by
    intro yu s hs
    rcases ekfEstimate_state env cfg yu.1 yu.2 s with h | ⟨g, m, -, -, h, -⟩
    · rw [h]; exact hs
    · rw [h]
      have hp := C81_predict env cfg s hs.1 hv (env.simulate s.t (s.t + cfg.tS) s.xMean yu.2).1
        (env.simulate s.t (s.t + cfg.tS) s.xMean yu.2).2.1
      have hpos := IsCovariance.add_positive (IsCovariance.conj hp g) hn
      have := (C81_update env.inv cfg.rN (PositiveCovariance.covariance hn) _ hp g (hi _ hpos)
        (vert (env.simulate s.t (s.t + cfg.tS) s.xMean yu.2).1
          (env.simulate s.t (s.t + cfg.tS) s.xMean yu.2).2.1) (yu.1 - m)).2.1
      exact ⟨this, IsCovariance.statesBlock this⟩
  have all : ∀ s : State nx ny K, IsCovariance s.pAug ∧ IsCovariance s.pK →
      IsCovariance (runHistory (fun yu s => (ekfEstimate env cfg yu.1 yu.2 s).2) history s).pAug ∧
      IsCovariance (runHistory (fun yu s => (ekfEstimate env cfg yu.1 yu.2 s).2) history s).pK := by
    induction history with
    | nil => exact fun s hs => hs
    | cons yu history ih => exact fun s hs => ih _ (step yu s hs)
  exact all _ ⟨IsCovariance.fromBlocks_one hp, hp⟩

/-- The hypotheses of C81 with one state and one algebraic variable. -/
example : IsCovariance (1 : Matrix (Fin 1) (Fin 1) Rat) ∧
    PositiveCovariance (1 : Matrix (Fin 1) (Fin 1) Rat) := by
  have h : PositiveCovariance (1 : Matrix (Fin 1) (Fin 1) Rat) := by
    refine ⟨by simp, fun v hv => ?_⟩
    have : v 0 ≠ 0 := fun h => hv (by funext i; rw [Subsingleton.elim i 0]; exact h)
    simpa [dotProduct] using this
  exact ⟨PositiveCovariance.covariance h, h⟩

/-! ### Construction -/

/-- C120: fails: no Kalman filter can be constructed. The entries of the new data set are assigned before
they exist. -/
theorem C120_construction_fails (meas : Meas nx ny nu nm K) :
    newUkf meas = .error .keyError ∧
    (∀ yGuess augmented, newEkf ny yGuess augmented meas ≠ .ok ()) ∧
    (newEkf ny true (.ok ()) meas = .error .keyError) ∧
    (∀ n order nSamples ls, newPceKf n order nSamples ls ≠ .ok ()) ∧
    (∀ n order, newPceKf n order none (.ok ()) = .error .keyError) := by
  refine ⟨rfl, ?_, by unfold newEkf; rw [if_neg (by simp)]; rfl, ?_, ?_⟩
  · intro yGuess augmented
    unfold newEkf
    by_cases h : 0 < ny ∧ yGuess = false
    · simp [h, bind, Except.bind, throw, throwThe, MonadExceptOf.throw]
    · rw [if_neg h]
      cases augmented <;> intro hh <;> cases hh
  · intro n order nSamples ls
    unfold newPceKf
    cases pceCheck n order (pceSamples n order nSamples) <;> cases ls <;> intro hh <;> cases hh
  · intro n order
    have : pceCheck n order (pceSamples n order none) = .ok () := by
      unfold pceCheck pceSamples
      simp
    unfold newPceKf
    rw [this]
    rfl

/-- C120: the checks before that: algebraic variables need a guess, and there must be at least as many
samples as polynomials. -/
theorem C120_checks_partial (meas : Meas nx ny nu nm K) (augmented : Except Err Unit) :
    (0 < ny → newEkf ny false augmented meas = .error .valueError) ∧
    ∀ n order k ls, k < Nat.choose (n + order) order →
      newPceKf n order (some k) ls = .error .valueError := by
  constructor
  · intro h
    unfold newEkf
    rw [if_pos ⟨h, rfl⟩]
    rfl
  · intro n order k ls h
    unfold newPceKf
    have : pceCheck n order (pceSamples n order (some k)) = .error .valueError := by
      unfold pceCheck pceSamples
      rw [Option.getD_some, if_pos (by rw [Pce.nPol_eq]; exact h)]
    rw [this]
    rfl

/-! ### Unscented Kalman filter -/

theorem ukfCorrect_covariance (cfg : Config nx nm K) (hv : IsCovariance cfg.rV)
    (hn : PositiveCovariance cfg.rN)
    (solve : Matrix (Fin nm) (Fin nm) K → Matrix (Fin nm) (Fin nx ⊕ Fin ny) K →
      Matrix (Fin nm) (Fin nx ⊕ Fin ny) K)
    (hsolve : ∀ a b, PositiveCovariance a → a * solve a b = b)
    (augs : List (Aug nx ny K)) (ms : List (Fin nm → K)) (h : augs.length = ms.length)
    (y : Fin nm → K) :
    IsCovariance (ukfCorrect solve (ukfPredicted cfg augs ms) y).2 ∧
    IsCovariance (ukfPredicted cfg augs ms).cov := by
  have hw := weightsCov_nonneg (K := K) nx
  have hyy := weightedOuter_covariance (weightsCov K nx) hw ms
    (weightedSum (weightsMean K nx) ms)
  have hpos := IsCovariance.add_positive hyy hn
  refine ⟨?_, IsCovariance.add (weightedOuter_covariance _ hw _ _) (IsCovariance.fromBlocks hv)⟩
  refine corrected_covariance _ _ _ cfg.rN _ _ (weightedOuter_residual _ _ _ _ hw augs ms h) hyy
    (IsCovariance.fromBlocks hv) (PositiveCovariance.covariance hn) ?_
  have hS := hpos.1
  have := hsolve _ (weightedOuter (weightsCov K nx) augs (weightedSum (weightsMean K nx) augs) ms
    (weightedSum (weightsMean K nx) ms)).transpose hpos
  have ht := congrArg transpose this
  rw [transpose_mul, hS, transpose_transpose] at ht
  show (solve (weightedOuter (weightsCov K nx) ms (weightedSum (weightsMean K nx) ms) ms
    (weightedSum (weightsMean K nx) ms) + cfg.rN).transpose _).transpose * _ = _
  rw [hS]
  exact ht

/-- C121: after every history of measurements, whether or not the calls raise, the covariances of the
unscented filter are covariances, whatever the Cholesky factorisation returns. -/
theorem C121_unscented (env : UkfEnv nx ny nu nm K) (cfg : Config nx nm K)
    (hv : IsCovariance cfg.rV) (hn : PositiveCovariance cfg.rN)
    (hsolve : ∀ a b, PositiveCovariance a → a * env.solve a b = b)
    (history : List ((Fin nm → K) × (Fin nu → K))) (s : State nx ny K)
    (hs : IsCovariance s.pAug ∧ IsCovariance s.pK) :
    let s' := runHistory (fun yu s => (ukfEstimate env cfg yu.1 yu.2 s).2) history s
    IsCovariance s'.pAug ∧ IsCovariance s'.pK := by
  induction history generalizing s with
  | nil => exact hs
  | cons yu history ih =>
    refine ih _ ?_
    rcases ukfEstimate_state env cfg yu.1 yu.2 s with h | ⟨ms, hms, h, -⟩
    · simp only [h]; exact hs
    · simp only [h]
      have hl := mapM_length _ _ _ hms
      have := ukfCorrect_covariance cfg hv hn env.solve hsolve (ukfSimulated env cfg s yu.2) ms hl.symm
        yu.1
      exact ⟨this.2, IsCovariance.statesBlock this.1⟩

/-- The unscented filter on a linear system: the mean is the Kalman estimate for a prediction without
process noise, and the covariance that of its error plus the process noise. -/
theorem ukf_linear (hn : 0 < nx) (env : UkfEnv nx ny nu nm K) (cfg : Config nx nm K)
    (hN : PositiveCovariance cfg.rN)
    (hsolve : ∀ a b, PositiveCovariance a → a * env.solve a b = b) (s : State nx ny K)
    (hp : IsCovariance s.pK)
    (hc : (env.chol (((nx : K) + lamb nx) • s.pK)).transpose *
      env.chol (((nx : K) + lamb nx) • s.pK) = ((nx : K) + lamb nx) • s.pK)
    (F : Matrix (Fin nx ⊕ Fin ny) (Fin nx) K) (f : Aug nx ny K)
    (H : Matrix (Fin nm) (Fin nx ⊕ Fin ny) K) (d : Fin nm → K) (u : Fin nu → K)
    (hsim : ∀ x0, vert (env.simulate s.t (s.t + cfg.tS) x0 u).1
      (env.simulate s.t (s.t + cfg.tS) x0 u).2 = F.mulVec x0 + f)
    (hmeas : ∀ v : Aug nx ny K,
      measure env.meas (states v) (algebraics v) u = .ok (H.mulVec v + d))
    (y : Fin nm → K) :
    ∃ p : AugMatrix nx ny K,
      IsKalmanUpdate H d cfg.rN (F.mulVec s.xMean + f) (F * s.pK * F.transpose) y
        (ukfEstimate env cfg y u s).2.xAug p ∧
      (ukfEstimate env cfg y u s).2.xMean = states (ukfEstimate env cfg y u s).2.xAug ∧
      (ukfEstimate env cfg y u s).2.pK = statesBlock p + cfg.rV := by
  have hsimul : ukfSimulated env cfg s u =
      (sigmaPoints env.chol s.xMean s.pK).map fun v => F.mulVec v + f := by
    unfold ukfSimulated
    exact List.map_congr_left fun v _ => hsim v
  have hmeasd : ukfMeasured env.meas u (ukfSimulated env cfg s u) =
      .ok ((sigmaPoints env.chol s.xMean s.pK).map fun v =>
        (H * F).mulVec v + (H.mulVec f + d)) := by
    unfold ukfMeasured
    rw [mapM_all_ok _ (fun v => H.mulVec v + d) _ fun v _ => hmeas v, hsimul, List.map_map]
    congr 1
    apply List.map_congr_left
    intro v _
    simp only [Function.comp_apply, mulVec_add, mulVec_mulVec, add_assoc]
  have hstate : (ukfEstimate env cfg y u s).2 =
      { s with
        xAug := (ukfCorrect env.solve (ukfPredicted cfg (ukfSimulated env cfg s u)
          ((sigmaPoints env.chol s.xMean s.pK).map fun v =>
            (H * F).mulVec v + (H.mulVec f + d))) y).1
        xMean := states (ukfCorrect env.solve (ukfPredicted cfg (ukfSimulated env cfg s u)
          ((sigmaPoints env.chol s.xMean s.pK).map fun v =>
            (H * F).mulVec v + (H.mulVec f + d))) y).1
        pAug := (ukfPredicted cfg (ukfSimulated env cfg s u)
          ((sigmaPoints env.chol s.xMean s.pK).map fun v =>
            (H * F).mulVec v + (H.mulVec f + d))).cov
        pK := statesBlock (ukfCorrect env.solve (ukfPredicted cfg (ukfSimulated env cfg s u)
          ((sigmaPoints env.chol s.xMean s.pK).map fun v =>
            (H * F).mulVec v + (H.mulVec f + d))) y).2 } := by
    by_cases hy : ny = 1 <;>
      simp [ukfEstimate, hmeasd, hmeas, savePy, Py.raiseIf, hy]
  have hpred : ukfPredicted cfg (ukfSimulated env cfg s u)
      ((sigmaPoints env.chol s.xMean s.pK).map fun v => (H * F).mulVec v + (H.mulVec f + d)) =
      { x := F.mulVec s.xMean + f
        meas := (H * F).mulVec s.xMean + (H.mulVec f + d)
        cov := addStates (F * s.pK * F.transpose) cfg.rV
        covMeas := H * F * s.pK * (H * F).transpose + cfg.rN
        cross := F * s.pK * (H * F).transpose } := by
    unfold ukfPredicted
    simp only [hsimul]
    rw [weightedSum_affine hn, weightedSum_affine hn, weightedOuter_affine hn _ _ _ hc,
      weightedOuter_affine hn _ _ _ hc, weightedOuter_affine hn _ _ _ hc]
  have hpos : PositiveCovariance (H * F * s.pK * (H * F).transpose + cfg.rN) :=
    IsCovariance.add_positive (IsCovariance.conj hp _) hN
  have hk : (env.solve (H * F * s.pK * (H * F).transpose + cfg.rN).transpose
      (F * s.pK * (H * F).transpose).transpose).transpose *
      (H * F * s.pK * (H * F).transpose + cfg.rN) = F * s.pK * (H * F).transpose := by
    have h1 := hsolve _ (F * s.pK * (H * F).transpose).transpose hpos
    have ht := congrArg transpose h1
    rw [transpose_mul, hpos.1, transpose_transpose] at ht
    rw [hpos.1]
    exact ht
  rw [hstate, hpred]
  unfold ukfCorrect
  simp only
  generalize (env.solve (H * F * s.pK * (H * F).transpose + cfg.rN).transpose
      (F * s.pK * (H * F).transpose).transpose).transpose = k at hk ⊢
  have hk' : k * (H * (F * s.pK * F.transpose) * H.transpose + cfg.rN) =
      F * s.pK * F.transpose * H.transpose := by
    rw [transpose_mul] at hk
    simpa only [Matrix.mul_assoc] using hk
  refine ⟨errorCovariance (F * s.pK * F.transpose) H cfg.rN k, ⟨k, hk', ?_, rfl⟩, trivial, ?_⟩
  · congr 2
    rw [mulVec_add, mulVec_mulVec, add_assoc]
  · have hform : addStates (F * s.pK * F.transpose) cfg.rV -
        k * ((H * F * s.pK * (H * F).transpose + cfg.rN) * k.transpose) =
        errorCovariance (F * s.pK * F.transpose) H cfg.rN k + Matrix.fromBlocks cfg.rV 0 0 0 := by
      rw [errorCovariance_gain _ _ _ _ hk', ← Matrix.mul_assoc k, hk]
      unfold addStates
      have : k * H * (F * s.pK * F.transpose) = F * s.pK * (H * F).transpose * k.transpose := by
        have hP := (IsCovariance.conj hp F).1
        have hR := (PositiveCovariance.covariance hN).1
        have hS : (H * (F * s.pK * F.transpose) * H.transpose + cfg.rN).transpose =
            H * (F * s.pK * F.transpose) * H.transpose + cfg.rN := by
          rw [transpose_add, hR, (IsCovariance.conj (IsCovariance.conj hp F) H).1]
        have h3 := congrArg transpose hk'
        rw [transpose_mul, hS, transpose_mul, transpose_transpose, hP] at h3
        rw [Matrix.mul_assoc k, ← h3, ← Matrix.mul_assoc, hk', transpose_mul]
        simp only [Matrix.mul_assoc]
      rw [Matrix.sub_mul, Matrix.one_mul, this]
      abel
    rw [hform]
    rfl

/-- C122: on a linear system without process noise the unscented filter is the Kalman filter. -/
theorem C122_linear_partial (hn : 0 < nx) (env : UkfEnv nx ny nu nm K) (cfg : Config nx nm K)
    (hV : cfg.rV = 0) (hN : PositiveCovariance cfg.rN)
    (hsolve : ∀ a b, PositiveCovariance a → a * env.solve a b = b) (s : State nx ny K)
    (hp : IsCovariance s.pK) (hc : ∀ m, IsCovariance m → (env.chol m).transpose * env.chol m = m)
    (F : Matrix (Fin nx ⊕ Fin ny) (Fin nx) K) (f : Aug nx ny K)
    (H : Matrix (Fin nm) (Fin nx ⊕ Fin ny) K) (d : Fin nm → K) (u : Fin nu → K)
    (hsim : ∀ x0, vert (env.simulate s.t (s.t + cfg.tS) x0 u).1
      (env.simulate s.t (s.t + cfg.tS) x0 u).2 = F.mulVec x0 + f)
    (hmeas : ∀ v : Aug nx ny K,
      measure env.meas (states v) (algebraics v) u = .ok (H.mulVec v + d))
    (y : Fin nm → K) :
    ∃ p : AugMatrix nx ny K,
      IsKalmanUpdate H d cfg.rN (F.mulVec s.xMean + f) (F * s.pK * F.transpose) y
        (ukfEstimate env cfg y u s).2.xAug p ∧
      (ukfEstimate env cfg y u s).2.xMean = states (ukfEstimate env cfg y u s).2.xAug ∧
      (ukfEstimate env cfg y u s).2.pK = statesBlock p := by
  obtain ⟨p, h1, h2, h3⟩ := ukf_linear hn env cfg hN hsolve s hp
    (hc _ (IsCovariance.smul hp (scale_ne_zero hn).le)) F f H d u hsim hmeas y
  exact ⟨p, h1, h2, by rw [h3, hV, add_zero]⟩

/-- C122: fails with process noise: it is added to the covariance of the states but neither to that of the
measurement nor to the gain. Already with one state and one measurement the result is never that of the
Kalman filter for the system with the noise. -/
theorem C122_process_noise_fails (env : UkfEnv 1 0 nu 1 K) (cfg : Config 1 1 K)
    (hN : PositiveCovariance cfg.rN) (hq : 0 < cfg.rV 0 0)
    (hsolve : ∀ a b, PositiveCovariance a → a * env.solve a b = b) (s : State 1 0 K)
    (hp : IsCovariance s.pK) (hp0 : 0 < s.pK 0 0)
    (hc : ∀ m, IsCovariance m → (env.chol m).transpose * env.chol m = m)
    (F : Matrix (Fin 1 ⊕ Fin 0) (Fin 1) K) (hF : F (.inl 0) 0 ≠ 0) (f : Aug 1 0 K)
    (H : Matrix (Fin 1) (Fin 1 ⊕ Fin 0) K) (hH : H 0 (.inl 0) ≠ 0) (d : Fin 1 → K) (u : Fin nu → K)
    (hsim : ∀ x0, vert (env.simulate s.t (s.t + cfg.tS) x0 u).1
      (env.simulate s.t (s.t + cfg.tS) x0 u).2 = F.mulVec x0 + f)
    (hmeas : ∀ v : Aug 1 0 K,
      measure env.meas (states v) (algebraics v) u = .ok (H.mulVec v + d))
    (y : Fin 1 → K) (p : AugMatrix 1 0 K)
    (h : IsKalmanUpdate H d cfg.rN (F.mulVec s.xMean + f)
      (F * s.pK * F.transpose + Matrix.fromBlocks cfg.rV 0 0 0) y
      (ukfEstimate env cfg y u s).2.xAug p) :
    (statesBlock p) 0 0 < (ukfEstimate env cfg y u s).2.pK 0 0 := by
  obtain ⟨p', ⟨k', hk', -, rfl⟩, -, h3⟩ := ukf_linear (by omega) env cfg hN hsolve s hp
    (hc _ (IsCovariance.smul hp (scale_ne_zero (by omega)).le)) F f H d u hsim hmeas y
  obtain ⟨k, hk, -, rfl⟩ := h
  rw [h3, errorCovariance_gain _ _ _ _ hk, errorCovariance_gain _ _ _ _ hk']
  have hr : 0 < cfg.rN 0 0 := by
    have := hN.2 (fun _ => 1) (by intro h; simpa using congrFun h 0)
    simpa [dotProduct, mulVec] using this
  have e1 := congrFun (congrFun hk (.inl 0)) 0
  have e2 := congrFun (congrFun hk' (.inl 0)) 0
  simp [Matrix.mul_apply] at e1 e2
  simp [statesBlock, Matrix.mul_apply, Matrix.sub_apply]
  refine scalar_noise _ _ _ _ _ _ ?_ hq hr hH e1 e2
  have : 0 < F (.inl 0) 0 * F (.inl 0) 0 := mul_self_pos.2 hF
  nlinarith [mul_pos this hp0]

/-! ### Clock, linearisation, sizes -/

/-- C123: fails: no filter advances its clock, so that every measurement after the first one is compared
with a prediction over the first sampling interval. -/
theorem C123_clock_fails (ekf : EkfEnv nx ny nu nm K) (ukf : UkfEnv nx ny nu nm K)
    (cfg : Config nx nm K) (s : State nx ny K) (history : List ((Fin nm → K) × (Fin nu → K))) :
    (runHistory (fun yu s => (ekfEstimate ekf cfg yu.1 yu.2 s).2) history s).t = s.t ∧
    (runHistory (fun yu s => (ukfEstimate ukf cfg yu.1 yu.2 s).2) history s).t = s.t ∧
    (history ≠ [] → cfg.tS ≠ 0 →
      (runHistory (fun yu s => (ekfEstimate ekf cfg yu.1 yu.2 s).2) history s).t ≠
        s.t + (history.length : K) * cfg.tS) := by
  have h1 : ∀ s : State nx ny K,
      (runHistory (fun yu s => (ekfEstimate ekf cfg yu.1 yu.2 s).2) history s).t = s.t := by
    induction history with
    | nil => exact fun s => rfl
    | cons yu history ih =>
      intro s
      refine (ih _).trans ?_
      rcases ekfEstimate_state ekf cfg yu.1 yu.2 s with h | ⟨g, m, -, -, h, -⟩ <;> simp only [h]
  have h2 : ∀ s : State nx ny K,
      (runHistory (fun yu s => (ukfEstimate ukf cfg yu.1 yu.2 s).2) history s).t = s.t := by
    clear h1
    induction history with
    | nil => exact fun s => rfl
    | cons yu history ih =>
      intro s
      refine (ih _).trans ?_
      rcases ukfEstimate_state ukf cfg yu.1 yu.2 s with h | ⟨ms, -, h, -⟩ <;> simp only [h]
  refine ⟨h1 s, h2 s, fun hne ht h => ?_⟩
  rw [h1 s] at h
  have hl : (history.length : K) ≠ 0 := by
    rw [Nat.cast_ne_zero]
    exact fun h => hne (List.length_eq_zero_iff.1 h)
  exact mul_ne_zero hl ht (by linear_combination -h)

/-- C124: fails: the covariance is propagated with the Jacobians at zero control. A model whose Jacobians
differ from them at every other control gives the same estimates. -/
theorem C124_control_fails (env : EkfEnv nx ny nu nm K) (cfg : Config nx nm K)
    (odeX : K → (Fin nx → K) → (Fin ny → K) → (Fin nu → K) → Matrix (Fin nx) (Fin nx) K)
    (odeY : K → (Fin nx → K) → (Fin ny → K) → (Fin nu → K) → Matrix (Fin nx) (Fin ny) K)
    (h : ∀ t x y, odeX t x y 0 = env.odeX t x y 0 ∧ odeY t x y 0 = env.odeY t x y 0)
    (y : Fin nm → K) (u : Fin nu → K) :
    ekfEstimate { env with odeX := odeX, odeY := odeY } cfg y u = ekfEstimate env cfg y u := by
  have hp : ∀ s x y, ekfPredict { env with odeX := odeX, odeY := odeY } cfg s x y =
      ekfPredict env cfg s x y := by
    intro s x y
    unfold ekfPredict
    simp only [(h s.t x y).1, (h s.t x y).2]
  unfold ekfEstimate
  simp only [hp]

/-- C124: a model that is linear in the states and algebraic variables for the control zero has its
covariance propagated by the exponential of that matrix, for every control: for `x' = u x` it is not
changed at all. -/
theorem C124_bilinear_fails (env : EkfEnv 1 0 1 nm K) (cfg : Config 1 nm K)
    (hode : ∀ t x y u, env.odeX t x y u = fun _ _ => u 0) (he : env.expm 0 = 1) (s : State 1 0 K)
    (x : Fin 1 → K) (y : Fin 0 → K) :
    statesBlock (ekfPredict env cfg s x y) = statesBlock s.pAug + cfg.rV := by
  have h0 : augMatrix (env.odeX s.t x y 0) (env.odeY s.t x y 0)
      (env.solve (env.algY s.t x y 0) (env.algX s.t x y 0)) = 0 := by
    ext i j
    rcases i with i | i
    · rcases j with j | j
      · simp only [hode, augMatrix]
        rfl
      · exact j.elim0
    · exact i.elim0
  unfold ekfPredict predictCov
  simp only [h0, smul_zero, he]
  ext i j
  simp [statesBlock, gammaMatrix, Matrix.mul_apply, Subsingleton.elim i 0, Subsingleton.elim j 0]

/-- C125: the extended filter returns as many entries as there are states, when it returns. -/
theorem C125_extended_partial (env : EkfEnv nx ny nu nm K) (cfg : Config nx nm K) (y : Fin nm → K)
    (u : Fin nu → K) (s : State nx ny K) (out : Output K)
    (h : (ekfEstimate env cfg y u s).1 = .ok out) :
    out.x = List.ofFn (ekfEstimate env cfg y u s).2.xMean ∧ out.x.length = nx ∧
      out.covRows = nx ∧ out.covCols = nx := by
  rcases ekfEstimate_result env cfg y u s with ⟨-, e, h'⟩ | ⟨g, m, -, -, h2, h'⟩
  · rw [h'] at h; cases h
  · rw [h'] at h
    by_cases hy : ny = 1
    · rw [if_pos hy] at h
      obtain rfl := Except.ok.inj h
      rw [h2]
      simp
    · rw [if_neg hy] at h; cases h

/-- C125: fails: the unscented filter returns the algebraic variables too, when it returns: one entry more
than there are states. -/
theorem C125_unscented_fails (env : UkfEnv nx ny nu nm K) (cfg : Config nx nm K) (y : Fin nm → K)
    (u : Fin nu → K) (s : State nx ny K) (out : Output K)
    (h : (ukfEstimate env cfg y u s).1 = .ok out) :
    out.x.length = nx + 1 ∧ out.covRows = nx + 1 ∧ out.covCols = nx + 1 ∧
      out.x ≠ List.ofFn (ukfEstimate env cfg y u s).2.xMean := by
  rcases ukfEstimate_result env cfg y u s with ⟨-, e, h'⟩ | ⟨ms, -, h2, h'⟩
  · rw [h'] at h; cases h
  · rw [h'] at h
    by_cases hy : ny = 1
    · rw [if_pos hy] at h
      obtain rfl := Except.ok.inj h
      refine ⟨by simp [flat, hy], by simp [hy], by simp [hy], fun h => ?_⟩
      have := congrArg List.length h
      simp [flat, hy] at this
    · rw [if_neg hy] at h; cases h

/-- C125: fails: without algebraic variables, or with more than one, every call raises, although the
filter has already been updated with the measurement. -/
theorem C125_algebraic_fails (hy : ny ≠ 1) (ekf : EkfEnv nx ny nu nm K) (ukf : UkfEnv nx ny nu nm K)
    (cfg : Config nx nm K) (y : Fin nm → K) (u : Fin nu → K) (s : State nx ny K) :
    (∃ e, (ekfEstimate ekf cfg y u s).1 = .error e) ∧
    (∃ e, (ukfEstimate ukf cfg y u s).1 = .error e) ∧
    (∀ c d, ekf.meas = .matrix c d → (ekfEstimate ekf cfg y u s).1 = .error .valueError ∧
      let f := ekf.simulate s.t (s.t + cfg.tS) s.xMean u
      let p := ekfPredict ekf cfg s f.1 f.2.1
      (ekfEstimate ekf cfg y u s).2.pAug =
        (1 - ekfGain ekf.inv cfg.rN p c * c) * p) := by
  refine ⟨?_, ?_, fun c d hm => ?_⟩
  · rcases ekfEstimate_result ekf cfg y u s with ⟨-, e, h'⟩ | ⟨g, m, -, -, h2, h'⟩
    · exact ⟨e, h'⟩
    · exact ⟨_, h'.trans (if_neg hy)⟩
  · rcases ukfEstimate_result ukf cfg y u s with ⟨-, e, h'⟩ | ⟨ms, -, h2, h'⟩
    · exact ⟨e, h'⟩
    · exact ⟨_, h'.trans (if_neg hy)⟩
  · rcases ekfEstimate_result ekf cfg y u s with ⟨h1 | h1, -⟩ | ⟨g, m, hg, -, h2, h'⟩
    · obtain ⟨e, h1⟩ := h1
      simp [measureJacobian, hm] at h1
    · obtain ⟨e, h1⟩ := h1
      simp [Kalman.measure, hm] at h1
    · refine ⟨h'.trans (if_neg hy), ?_⟩
      rw [h2]
      rw [hm] at hg
      obtain rfl := Except.ok.inj hg
      rfl

/-! ### Linear differential-algebraic systems -/

/-- C126: on a linear differential-algebraic system, from a covariance that is that of the states carried
over by the algebraic equations, the extended filter is the Kalman filter of the system with the algebraic
variables eliminated, and its covariance stays of that form. -/
theorem C126_linear_partial (env : EkfEnv nx ny nu nm K) (cfg : Config nx nm K) (s : State nx ny K)
    (a : Matrix (Fin nx) (Fin nx) K) (b : Matrix (Fin nx) (Fin ny) K) (dc : Matrix (Fin ny) (Fin nx) K)
    (hode : ∀ t x y, env.odeX t x y 0 = a ∧ env.odeY t x y 0 = b)
    (halg : ∀ t x y, env.solve (env.algY t x y 0) (env.algX t x y 0) = dc)
    (phi : Matrix (Fin nx) (Fin nx) K)
    (hexp : env.expm (cfg.tS • augMatrix a b dc) * gammaMatrix dc = gammaMatrix dc * phi)
    (c : Matrix (Fin nm) (Fin nx ⊕ Fin ny) K) (d : Option (Matrix (Fin nm) (Fin nu) K))
    (hmeas : env.meas = .matrix c d) (hv : IsCovariance cfg.rV) (hn : PositiveCovariance cfg.rN)
    (hinv : ∀ m, PositiveCovariance m → env.inv m * m = 1)
    (p : Matrix (Fin nx) (Fin nx) K) (hp : IsCovariance p)
    (hs : s.pAug = gammaMatrix dc * p * (gammaMatrix dc).transpose) (y : Fin nm → K)
    (u : Fin nu → K) :
    let f := env.simulate s.t (s.t + cfg.tS) s.xMean u
    let s' := (ekfEstimate env cfg y u s).2
    IsKalmanUpdate (c * gammaMatrix dc)
      (linearMeas c (vert f.1 f.2.1) f.2.2 d - (c * gammaMatrix dc).mulVec f.1) cfg.rN f.1
      (phi * p * phi.transpose + cfg.rV) y s'.xMean s'.pK ∧
    IsCovariance s'.pK ∧
    s'.pAug = gammaMatrix dc * s'.pK * (gammaMatrix dc).transpose ∧
    algebraics s'.xAug = f.2.1 - dc.mulVec (s'.xMean - f.1) := by
  intro f s'
  rcases ekfEstimate_result env cfg y u s with ⟨h1 | h1, -⟩ | ⟨g, m, hg, hm, h2, -⟩
  · obtain ⟨e, h1⟩ := h1
    simp [measureJacobian, hmeas] at h1
  · obtain ⟨e, h1⟩ := h1
    simp [Kalman.measure, hmeas] at h1
  rw [hmeas] at hg hm
  obtain rfl := Except.ok.inj hg
  obtain rfl := Except.ok.inj hm
  have hs' : s' = _ := h2
  have hpred : ekfPredict env cfg s f.1 f.2.1 =
      gammaMatrix dc * (phi * p * phi.transpose + cfg.rV) * (gammaMatrix dc).transpose := by
    unfold ekfPredict predictCov
    simp only [hode, halg, hs]
    have ht := congrArg transpose hexp
    rw [transpose_mul, transpose_mul] at ht
    rw [show ∀ t : AugMatrix nx ny K, t * (gammaMatrix dc * p * (gammaMatrix dc).transpose *
      t.transpose) = (t * gammaMatrix dc) * p * ((gammaMatrix dc).transpose * t.transpose) from
      fun t => by simp only [Matrix.mul_assoc], hexp, ht]
    simp only [Matrix.mul_add, Matrix.add_mul, Matrix.mul_assoc]
  have hpx : IsCovariance (phi * p * phi.transpose + cfg.rV) := IsCovariance.add (IsCovariance.conj hp phi) hv
  rw [show ekfPredict env cfg s (env.simulate s.t (s.t + cfg.tS) s.xMean u).1
    (env.simulate s.t (s.t + cfg.tS) s.xMean u).2.1 = _ from hpred] at hs'
  change s' = { s with
    xAug := (ekfCorrect _ c (vert f.1 f.2.1) _ (y - linearMeas c (vert f.1 f.2.1) f.2.2 d)).1
    xMean := _, pAug := _, pK := _ } at hs'
  generalize phi * p * phi.transpose + cfg.rV = q at hs' hpx ⊢
  have hS : c * (gammaMatrix dc * q * (gammaMatrix dc).transpose) * c.transpose =
      c * gammaMatrix dc * q * (c * gammaMatrix dc).transpose := by
    rw [transpose_mul]
    simp only [Matrix.mul_assoc]
  have hpos : PositiveCovariance (c * gammaMatrix dc * q * (c * gammaMatrix dc).transpose + cfg.rN) :=
    IsCovariance.add_positive (IsCovariance.conj hpx _) hn
  have hgain : ekfGain env.inv cfg.rN (gammaMatrix dc * q * (gammaMatrix dc).transpose) c =
      gammaMatrix dc * (q * (c * gammaMatrix dc).transpose *
        env.inv (c * gammaMatrix dc * q * (c * gammaMatrix dc).transpose + cfg.rN)) := by
    unfold ekfGain
    rw [← Matrix.mul_assoc c, hS, transpose_mul]
    simp only [Matrix.mul_assoc]
  have hk : (q * (c * gammaMatrix dc).transpose *
        env.inv (c * gammaMatrix dc * q * (c * gammaMatrix dc).transpose + cfg.rN)) *
      (c * gammaMatrix dc * q * (c * gammaMatrix dc).transpose + cfg.rN) =
      q * (c * gammaMatrix dc).transpose := by
    rw [Matrix.mul_assoc _ _ (_ + _), hinv _ hpos, Matrix.mul_one]
  rw [hgain] at hs'
  generalize q * (c * gammaMatrix dc).transpose *
        env.inv (c * gammaMatrix dc * q * (c * gammaMatrix dc).transpose + cfg.rN) = k at hs' hk
  have hcov : (1 - gammaMatrix dc * k * c) * (gammaMatrix dc * q * (gammaMatrix dc).transpose) =
      gammaMatrix dc * ((1 - k * (c * gammaMatrix dc)) * q) * (gammaMatrix dc).transpose := by
    simp only [Matrix.sub_mul, Matrix.mul_sub, Matrix.one_mul, Matrix.mul_assoc]
  have hblock : ∀ m : Matrix (Fin nx) (Fin nx) K,
      statesBlock (gammaMatrix dc * m * (gammaMatrix dc).transpose) = m := statesBlock_gamma dc
  have hmean : ∀ v : Fin nx → K, (gammaMatrix dc).mulVec v = vert v (-(dc.mulVec v)) :=
    gammaMatrix_mulVec dc
  have hPK : s'.pK = (1 - k * (c * gammaMatrix dc)) * q := by
    rw [hs']
    show statesBlock ((1 - gammaMatrix dc * k * c) * _) = _
    rw [hcov, hblock]
  have hX : s'.xAug = vert f.1 f.2.1 + (gammaMatrix dc).mulVec
      (k.mulVec (y - linearMeas c (vert f.1 f.2.1) f.2.2 d)) := by
    rw [hs', mulVec_mulVec]
    rfl
  have hXM : s'.xMean = f.1 + k.mulVec (y - linearMeas c (vert f.1 f.2.1) f.2.2 d) := by
    have : s'.xMean = states s'.xAug := by rw [hs']
    rw [this, hX, hmean]
    rfl
  have hPA : s'.pAug = gammaMatrix dc * s'.pK * (gammaMatrix dc).transpose := by
    rw [hPK, ← hcov, hs']
    rfl
  refine ⟨⟨k, hk, ?_, ?_⟩, ?_, hPA, ?_⟩
  · rw [hXM]
    congr 3
    abel
  · rw [hPK, errorCovariance_gain _ _ _ _ hk]
  · rw [hPK, ← errorCovariance_gain _ _ _ _ hk]
    unfold errorCovariance
    exact IsCovariance.add (IsCovariance.conj hpx _)
      (IsCovariance.conj (PositiveCovariance.covariance hn) _)
  · rw [hX, hXM, hmean, add_sub_cancel_left]
    ext i
    simp [algebraics, vert, sub_eq_add_neg]

/-- C126: the hypothesis on the exponential holds for the matrix exponential over the reals, with the
exponential of the matrix of the reduced system. -/
theorem C126_exponential (t : ℝ) (a : Matrix (Fin nx) (Fin nx) ℝ) (b : Matrix (Fin nx) (Fin ny) ℝ)
    (dc : Matrix (Fin ny) (Fin nx) ℝ) :
    NormedSpace.exp (t • augMatrix a b dc) * gammaMatrix dc =
      gammaMatrix dc * NormedSpace.exp (t • (a - b * dc)) := by
  refine exp_intertwine _ _ _ ?_
  rw [Matrix.smul_mul, Matrix.mul_smul, augMatrix_gamma]

/-- C125: a filter that knows nothing about the measurements cannot estimate. -/
theorem C125_missing (ekf : EkfEnv nx ny nu nm K) (ukf : UkfEnv nx ny nu nm K)
    (cfg : Config nx nm K) (y : Fin nm → K) (u : Fin nu → K) (s : State nx ny K)
    (he : ekf.meas = .missing) (hu : ukf.meas = .missing) :
    nMeas ekf.meas = .error .exception ∧
    ekfEstimate ekf cfg y u s = (.error .valueError, s) ∧
    ukfEstimate ukf cfg y u s = (.error .valueError, s) := by
  refine ⟨by rw [he]; rfl, ?_, ?_⟩
  · simp [ekfEstimate, he, measureJacobian, bind, Py.bind, Py.get]
  · have : ukfMeasured ukf.meas u (ukfSimulated ukf cfg s u) = .error .valueError := by
      unfold ukfMeasured ukfSimulated sigmaPoints
      rw [List.map_cons, List.mapM_cons, hu]
      simp [Kalman.measure, bind, Except.bind]
    simp [ukfEstimate, this, bind, Py.bind, Py.get]

/-- C126: fails: the covariance after construction is never of that form when there are algebraic
variables, and for `x' = y`, `0 = y`, whose states do not move, the first prediction adds the square of the
sampling time to the covariance of the state. -/
theorem C126_start_fails (t : K) (xMean : Fin nx → K) (pK : Matrix (Fin nx) (Fin nx) K)
    (yGuess : Fin ny → K) (hy : 0 < ny) (dc : Matrix (Fin ny) (Fin nx) K)
    (p : Matrix (Fin nx) (Fin nx) K) :
    (ekfStart t xMean pK yGuess).pAug ≠ gammaMatrix dc * p * (gammaMatrix dc).transpose := by
  intro h
  have hp : p = pK := by
    have := statesBlock_gamma dc p
    rw [← h] at this
    exact this.symm
  subst hp
  have h21 : -dc * p = 0 := by
    ext i j
    have := congrFun (congrFun h (.inr i)) (.inl j)
    rw [gammaMatrix_lower] at this
    exact this.symm
  have h22 := congrFun (congrFun h (.inr ⟨0, hy⟩)) (.inr ⟨0, hy⟩)
  rw [gammaMatrix_corner, h21] at h22
  simp [ekfStart] at h22

theorem C126_prediction_fails (env : EkfEnv 1 1 nu nm K) (cfg : Config 1 nm K)
    (hode : ∀ t x y, env.odeX t x y 0 = 0 ∧ env.odeY t x y 0 = 1)
    (halg : ∀ t x y, env.algX t x y 0 = 0 ∧ env.algY t x y 0 = 1)
    (hsolve : ∀ m, env.solve 1 m = m) (hexp : ∀ m, m * m = 0 → env.expm m = 1 + m) (t : K)
    (xMean : Fin 1 → K) (pK : Matrix (Fin 1) (Fin 1) K) (yGuess x y : Fin 1 → K) :
    statesBlock (ekfPredict env cfg (ekfStart t xMean pK yGuess) x y) =
      pK + cfg.rV + cfg.tS ^ 2 • 1 := by
  have hM : augMatrix (0 : Matrix (Fin 1) (Fin 1) K) 1 (0 : Matrix (Fin 1) (Fin 1) K) =
      Matrix.fromBlocks 0 1 0 0 := by
    unfold augMatrix
    simp
  have hz : (cfg.tS • Matrix.fromBlocks 0 1 0 0 : AugMatrix 1 1 K) *
      (cfg.tS • Matrix.fromBlocks 0 1 0 0) = 0 := by
    rw [Matrix.smul_mul, Matrix.mul_smul, fromBlocks_multiply]
    simp
  unfold ekfPredict predictCov
  simp only [hode, halg, hsolve, hM, hexp _ hz]
  ext i j
  fin_cases i; fin_cases j
  simp [statesBlock, ekfStart, gammaMatrix, Matrix.mul_apply, Matrix.add_apply]
  ring

/-! ### Concrete systems -/

/-- One state that is doubled in every interval and measured, unscented filter. -/
noncomputable def doublingUkf : UkfEnv 1 0 1 1 ℝ where
  simulate _ _ x0 u := (fun i => 2 * x0 i + u 0, Fin.elim0)
  chol m := Matrix.of fun _ _ => Real.sqrt (m 0 0)
  solve a b := Matrix.of fun _ j => b 0 j / a 0 0
  meas := .matrix (Matrix.of fun _ _ => 1) none

/-- A state with the algebraic variable `y = x`, extended filter; the transition doubles the state. -/
noncomputable def doublingEkf : EkfEnv 1 1 1 1 ℝ where
  simulate _ _ x0 u := (fun i => 2 * x0 i, fun i => 2 * x0 i, u)
  odeX _ _ _ _ := 0
  odeY _ _ _ _ := 1
  algX _ _ _ _ := -1
  algY _ _ _ _ := 1
  solve _ b := b
  expm _ := (2 : ℝ) • 1
  inv m := Matrix.of fun _ _ => 1 / m 0 0
  meas := .matrix (Matrix.of fun _ _ => 1) none

theorem one_positive : PositiveCovariance (1 : Matrix (Fin 1) (Fin 1) ℝ) := by
  refine ⟨by simp, fun v hv => ?_⟩
  have : v 0 ≠ 0 := fun h => hv (by funext i; rw [Subsingleton.elim i 0]; exact h)
  simpa [dotProduct] using this

theorem positive_entry (m : Matrix (Fin 1) (Fin 1) ℝ) (h : PositiveCovariance m) : 0 < m 0 0 := by
  have := h.2 (fun _ => 1) (by intro h; simpa using congrFun h 0)
  simpa [dotProduct, mulVec] using this

theorem covariance_entry (m : Matrix (Fin 1) (Fin 1) ℝ) (h : IsCovariance m) : 0 ≤ m 0 0 := by
  have := h.2 (fun _ => 1)
  simpa [dotProduct, mulVec] using this

theorem doubling_chol (m : Matrix (Fin 1) (Fin 1) ℝ) (h : IsCovariance m) :
    (doublingUkf.chol m).transpose * doublingUkf.chol m = m := by
  ext i j
  fin_cases i; fin_cases j
  simp [doublingUkf, Matrix.mul_apply, Real.mul_self_sqrt (covariance_entry m h)]

theorem doubling_solve (a : Matrix (Fin 1) (Fin 1) ℝ) (b : Matrix (Fin 1) (Fin 1 ⊕ Fin 0) ℝ)
    (h : PositiveCovariance a) : a * doublingUkf.solve a b = b := by
  ext i j
  fin_cases i
  have := (positive_entry a h).ne'
  simp only [doublingUkf, Matrix.mul_apply, Finset.univ_unique, Finset.sum_singleton]
  rw [Matrix.of_apply]
  exact mul_div_cancel₀ _ this

/-- The hypotheses of C80. -/
example (x : Fin 1 → ℝ) : weightedOuter (weightsCov ℝ 1) (sigmaPoints doublingUkf.chol x 1) x
    (sigmaPoints doublingUkf.chol x 1) x = 1 :=
  (C80_sigma_points (by omega) doublingUkf.chol x 1 (PositiveCovariance.covariance one_positive)
    doubling_chol).2.2

/-- The hypotheses of C121, with any history. -/
example (history : List ((Fin 1 → ℝ) × (Fin 1 → ℝ))) :
    IsCovariance (runHistory (fun yu s => (ukfEstimate doublingUkf
      { tS := 1, rV := 1, rN := 1 } yu.1 yu.2 s).2) history
      { t := 0, xMean := 0, pK := 1, xAug := 0, pAug := 0 }).pK :=
  (C121_unscented doublingUkf _ (PositiveCovariance.covariance one_positive) one_positive
    doubling_solve history _
    ⟨IsCovariance.zero, PositiveCovariance.covariance one_positive⟩).2

/-- The hypotheses of C122: the corrected covariance of the doubled state is `4 / 5`. -/
example (y u : Fin 1 → ℝ) :
    (ukfEstimate doublingUkf { tS := 1, rV := 0, rN := 1 } y u
      { t := 0, xMean := 0, pK := 1, xAug := 0, pAug := 0 }).2.pK 0 0 = 4 / 5 := by
  obtain ⟨p, ⟨k, hk, -, rfl⟩, -, h3⟩ := C122_linear_partial (by omega) doublingUkf
    { tS := 1, rV := 0, rN := 1 } rfl one_positive doubling_solve
    { t := 0, xMean := 0, pK := 1, xAug := 0, pAug := 0 }
    (PositiveCovariance.covariance one_positive) doubling_chol (Matrix.of fun _ _ => 2)
    (fun _ => u 0) (Matrix.of fun _ _ => 1) 0 u
    (by
      intro x0
      funext i
      rcases i with i | i
      · rw [Subsingleton.elim i 0]
        simp [doublingUkf, vert, mulVec, dotProduct]
      · exact i.elim0)
    (by
      intro v
      simp only [doublingUkf, Kalman.measure, linearMeas]
      congr 1
      rw [add_zero]
      congr 1
      funext i
      rcases i with i | i
      · rfl
      · exact i.elim0) y
  rw [h3, errorCovariance_gain _ _ _ _ hk]
  have e := congrFun (congrFun hk (.inl 0)) 0
  simp [Matrix.mul_apply] at e
  simp [statesBlock, Matrix.mul_apply, Matrix.sub_apply]
  linarith

/-- The hypotheses of C126: the measured sum of the state and the algebraic variable has covariance 16 plus
that of the noise. -/
example (y u : Fin 1 → ℝ) :
    (ekfEstimate doublingEkf { tS := 1, rV := 0, rN := 1 } y u
      { t := 0, xMean := 0, pK := 1, xAug := 0,
        pAug := gammaMatrix (-1) * (1 : Matrix (Fin 1) (Fin 1) ℝ) * (gammaMatrix (-1)).transpose }).2.pK 0 0 = 4 / 17 := by
  obtain ⟨⟨k, hk, -, h⟩, -⟩ := C126_linear_partial doublingEkf { tS := 1, rV := 0, rN := 1 }
    { t := 0, xMean := 0, pK := 1, xAug := 0,
      pAug := gammaMatrix (-1) * (1 : Matrix (Fin 1) (Fin 1) ℝ) * (gammaMatrix (-1)).transpose } 0 1 (-1)
    (fun _ _ _ => ⟨rfl, rfl⟩) (fun _ _ _ => rfl) ((2 : ℝ) • 1) (by simp [doublingEkf])
    (Matrix.of fun _ _ => 1) none rfl IsCovariance.zero one_positive
    (by
      intro m hm
      ext i j
      fin_cases i; fin_cases j
      have := (positive_entry m hm).ne'
      simp [doublingEkf, Matrix.mul_apply, this]) 1
    (PositiveCovariance.covariance one_positive) rfl y u
  rw [h, errorCovariance_gain _ _ _ _ hk]
  have e := congrFun (congrFun hk 0) 0
  simp [Matrix.mul_apply, gammaMatrix] at e
  simp [Matrix.mul_apply, Matrix.sub_apply, gammaMatrix]
  linarith

end Verif
