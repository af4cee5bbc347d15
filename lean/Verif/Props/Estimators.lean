import Verif.Model.Estimators
/-!
# C200: a filter can be created for a model

The claim would be: with arguments that fit, the constructors of the three filters return an estimator, and with
arguments the documentation excludes they raise `ValueError`. No call returns an estimator: the constructors
store names in entries of a new dataset, which has none, and the extended filter reads attributes the model does
not have before that.
-/
namespace Verif
open Estimators

theorem Estimators.assign_empty (entry : String) : assign [] entry = .error .keyError := rfl

theorem Estimators.storage_error (m : SysModel) (a : Args) : storage m a = .error .keyError := rfl

theorem Estimators.augmented_error {α : Type} (m : SysModel) (rest : Except Err α) :
    augmented m rest = .error .attributeError := rfl

/-- The unscented filter: every call raises `KeyError`. -/
theorem C200_unscented_fails (m : SysModel) (a : Args) : unscented m a = .error .keyError := rfl

/-- The extended filter: no call returns. When the covariance fits and a guess is given for the algebraic
variables there are, it raises `AttributeError`. -/
theorem C200_extended_fails {α : Type} (m : SysModel) (a : Args) (block : Except Err Unit) (rest : Except Err α) :
    (∀ d, extended m a block rest ≠ .ok d) ∧
    (block = .ok () → (m.y ≠ [] → ∃ n, a.yGuess = some n) →
      extended m a block rest = .error .attributeError) := by
  constructor
  · intro d h
    cases block with
    | error e => cases h
    | ok _ =>
      by_cases hc : m.y.length > 0 ∧ a.yGuess = none
      · simp [extended, hc, bind, Except.bind] at h
      · simp [extended, hc, augmented_error, bind, Except.bind] at h
  · rintro rfl hy
    have hc : ¬ (m.y.length > 0 ∧ a.yGuess = none) := by
      rintro ⟨h₁, h₂⟩
      obtain ⟨n, hn⟩ := hy (List.length_pos_iff.1 h₁)
      rw [h₂] at hn
      cases hn
    simp [extended, hc, augmented_error, bind, Except.bind]

/-- The filter with polynomial chaos: no call returns. When the values fit, there are enough samples and the
factor can be computed, it raises `KeyError`. -/
theorem C200_chaos_fails (m : SysModel) (a : Args) (types : Except Err Nat) (factor : Except Err Unit) :
    (∀ d, chaos m a types factor ≠ .ok d) ∧
    (∀ n, types = .ok n → factor = .ok () →
      (∀ s, a.nSamples = some s → Pce.nPol (a.nUncertain.getD n) a.order ≤ s) →
      chaos m a types factor = .error .keyError) := by
  constructor
  · intro d h
    cases types with
    | error e => cases h
    | ok n =>
      by_cases hc : a.nSamples.getD (Pce.nPol (a.nUncertain.getD n) a.order) < Pce.nPol (a.nUncertain.getD n) a.order
      · simp [chaos, hc, bind, Except.bind] at h
      · cases factor <;> simp [chaos, hc, assign_empty, bind, Except.bind] at h
  · rintro n rfl rfl hs
    have hc : ¬ a.nSamples.getD (Pce.nPol (a.nUncertain.getD n) a.order) < Pce.nPol (a.nUncertain.getD n) a.order := by
      cases h : a.nSamples with
      | none => simp
      | some s => simpa using hs s h
    simp [chaos, hc, assign_empty, bind, Except.bind]

/-- The arguments the documentation excludes: `ValueError` exactly when a guess is missing for the algebraic
variables. -/
theorem C200_guess_partial {α : Type} (m : SysModel) (a : Args) (rest : Except Err α) :
    extended m a (.ok ()) rest = .error .valueError ↔ m.y ≠ [] ∧ a.yGuess = none := by
  by_cases hc : m.y.length > 0 ∧ a.yGuess = none
  · have : m.y ≠ [] := List.length_pos_iff.1 hc.1
    simp [extended, hc, this, bind, Except.bind]
  · have : ¬ (m.y ≠ [] ∧ a.yGuess = none) := fun h => hc ⟨List.length_pos_iff.2 h.1, h.2⟩
    simp [extended, hc, this, augmented_error, bind, Except.bind]

/-- And `ValueError` exactly when there are fewer samples than polynomials. -/
theorem C200_samples_partial (m : SysModel) (a : Args) (n : Nat) :
    chaos m a (.ok n) (.ok ()) = .error .valueError ↔
      ∃ s, a.nSamples = some s ∧ s < Pce.nPol (a.nUncertain.getD n) a.order := by
  by_cases hc : a.nSamples.getD (Pce.nPol (a.nUncertain.getD n) a.order) < Pce.nPol (a.nUncertain.getD n) a.order
  · have : ∃ s, a.nSamples = some s ∧ s < Pce.nPol (a.nUncertain.getD n) a.order := by
      cases h : a.nSamples with
      | none => simp [h] at hc
      | some s => exact ⟨s, rfl, by simpa [h] using hc⟩
    simp [chaos, hc, this, bind, Except.bind]
  · have : ¬ ∃ s, a.nSamples = some s ∧ s < Pce.nPol (a.nUncertain.getD n) a.order := by
      rintro ⟨s, hs, hl⟩
      exact hc (by simpa [hs] using hl)
    simp [chaos, hc, this, assign_empty, bind, Except.bind]

/-- The filter of examples/mpc_example.py:88-96: states, no algebraic variables, one measurement. -/
example : extended { t := 0, tau := 1, x := [2, 3], u := [4] } { cMatrix := some 1 } (.ok ())
    (.ok ()) = .error .attributeError :=
  (C200_extended_fails _ _ _ _).2 rfl (by simp)

/-- One uncertain value and order 4 need five samples. -/
example : chaos { t := 0, tau := 1, x := [2] } { nSamples := some 4 } (.ok 1) (.ok ()) = .error .valueError := by
  rw [C200_samples_partial]
  exact ⟨4, rfl, by decide +kernel⟩

example : chaos { t := 0, tau := 1, x := [2] } { nSamples := some 5 } (.ok 1) (.ok ()) = .error .keyError :=
  (C200_chaos_fails _ _ _ _).2 1 rfl rfl (by rintro s ⟨⟩; decide +kernel)

example : extended { t := 0, tau := 1, x := [2], y := [3] } {} (.ok ()) (.ok ()) = .error .valueError := by
  rw [C200_guess_partial]
  simp

end Verif
