import Verif.Lemmas.Expm
/-!
# C154: the matrix exponential
-/
namespace Verif
open Verif.Expm

/-- C154: with an integrator without error, `expm` returns the exponential of every square matrix with at
least one row. -/
theorem C154_exponential {n : Nat} (hn : 0 < n) (integ : OdeIntegrator n ℝ)
    (hi : Spec.ExactIntegrator integ) (a : Matrix (Fin n) (Fin n) ℝ) :
    expm integ a = .ok (NormedSpace.exp a) := by
  have h0 : n ≠ 0 := by omega
  simp only [expm, create, dif_pos, bind, Except.bind, h0, if_false]
  congr 1
  ext i j
  have hs : Spec.Solves (ode (r := n) (vec a)) 1
      (fun t => (NormedSpace.exp (t • a)).mulVec (fun k => if k = j then 1 else 0)) := by
    have := solves_exp a (fun k => if k = j then 1 else 0) 1
    intro t ht
    rw [ode_vec]
    exact this t ht
  obtain ⟨x, hx0, hx, he⟩ := hi (fun p x i => ode (r := n) p x i) 1 (fun k => if k = j then 1 else 0)
    (vec a) ⟨_, by simp, hs⟩
  have hx' : Spec.Solves a.mulVec 1 x := by
    intro t ht
    have := hx t ht
    simp only at this
    rwa [show (fun i => ode (r := n) (vec a) (x t) i) = a.mulVec (x t) from ode_vec a (x t)] at this
  have := solves_unique a zero_le_one (by simp [hx0]) hx'
    (solves_exp a (fun k => if k = j then 1 else 0) 1)
  have hx1 : x 1 i = NormedSpace.exp a i j := by
    rw [this]
    simp [Matrix.mulVec, dotProduct]
  rw [← hx1, ← he]
  rfl

/-- C154: `expm(A * h)` takes the value at time zero of every solution of `x' = A x` to its value at time
`h`. -/
theorem C154_transition {n : Nat} (hn : 0 < n) (integ : OdeIntegrator n ℝ)
    (hi : Spec.ExactIntegrator integ) (a : Matrix (Fin n) (Fin n) ℝ) (h : ℝ) (hh : 0 ≤ h)
    (x : ℝ → Fin n → ℝ) (hx : Spec.Solves a.mulVec h x) :
    ∃ m, expm integ (h • a) = .ok m ∧ m.mulVec (x 0) = x h :=
  ⟨_, C154_exponential hn integ hi _,
    (solves_unique a hh (by simp) hx (solves_exp a (x 0) h)).symm⟩

/-- C154: a matrix that is not square is rejected, whatever the integrator. -/
theorem C154_shape {r c : Nat} (h : r ≠ c) (integ : OdeIntegrator c ℝ) (a : Matrix (Fin r) (Fin c) ℝ) :
    expm integ a = .error .runtimeError := by
  simp [expm, create, h, bind, Except.bind]

/-- C154: the matrix without rows and columns is rejected, whatever the integrator. -/
theorem C154_empty (integ : OdeIntegrator 0 ℝ) (a : Matrix (Fin 0) (Fin 0) ℝ) :
    expm integ a = .error .runtimeError := by
  simp [expm, create, bind, Except.bind]

open Classical in
/-- An integrator without error: the final value of a solution, if there is one. -/
noncomputable def Example.exact (n : Nat) : OdeIntegrator n ℝ := fun f tf x₀ p =>
  if h : ∃ x, x 0 = x₀ ∧ Spec.Solves (f p) tf x then h.choose tf else 0

example (n : Nat) : Spec.ExactIntegrator (Example.exact n) := by
  intro f tf x₀ p h
  exact ⟨h.choose, h.choose_spec.1, h.choose_spec.2, by rw [Example.exact, dif_pos h]⟩

example (a : Matrix (Fin 3) (Fin 3) ℝ) :
    Spec.Solves a.mulVec 2 (fun t => (NormedSpace.exp (t • a)).mulVec ![1, 2, 3]) :=
  solves_exp a _ 2

end Verif
