import Verif.Model.OcpCost
import Verif.Lemmas.Ocp
import Mathlib.Algebra.BigOperators.Group.Finset.Basic
import Mathlib.Algebra.Order.BigOperators.Group.Finset
import Mathlib.Algebra.BigOperators.Fin
import Mathlib.Algebra.BigOperators.Ring.Finset
import Mathlib.Tactic.Linarith
/-!
# C40: quadratic cost
-/
namespace Verif
open Spec

section
variable {K : Type} [Field K]

/-- `vᵀ W v`, where a one-by-one matrix acts as a number. -/
def Spec.quad (n : Nat) (W : Weight) (v : Nat → K) : K :=
  if W.rows = 1 ∧ W.cols = 1 then ∑ i ∈ Finset.range n, v i * (W.entry 0 0 : K) * v i
  else ∑ i ∈ Finset.range n, ∑ j ∈ Finset.range n, v i * (W.entry i j : K) * v j

/-- The contribution of a weight that may be absent. -/
def Spec.quadOpt (n : Nat) (W : Option Weight) (v : Nat → K) : K :=
  match W with
  | none => 0
  | some W => Spec.quad n W v

/-- The `i`-th entry of a reference: zero when absent, the number itself when one number is given
for the whole vector. -/
def Spec.refEntry (ref : Option (List Rat)) (i : Nat) : Rat :=
  match ref with
  | none => 0
  | some r => if r.length = 1 then r.getD 0 0 else r.getD i 0

/-- A reference with one entry for each entry of the vector, or one for all. -/
def Spec.RefFits (n : Nat) (ref : Option (List Rat)) : Prop :=
  ∀ r, ref = some r → r.length = n ∨ r.length = 1

/-- Distance of a vector of symbols to its reference. -/
def Spec.distance (v : List Sym) (ref : Option (List Rat)) (ρ : Sym → K) (i : Nat) : K :=
  (v[i]?.map ρ).getD 0 - (Spec.refEntry ref i : K)

theorem Expr.eval_sumOver (ops : Expr.Ops K) (ρ : Sym → K) (n : Nat) (f : Nat → Expr) :
    (Expr.sumOver n f).eval ops ρ = ∑ i ∈ Finset.range n, (f i).eval ops ρ := by
  unfold Expr.sumOver
  rw [Finset.sum_range, ← List.sum_ofFn]
  have : (List.ofFn fun i : Fin n => (f i).eval ops ρ) =
      (List.range n).map fun i => (f i).eval ops ρ := by
    apply List.ext_getElem <;> simp
  rw [this]
  induction List.range n with
  | nil => simp [Expr.eval]
  | cons a l ih => simp [Expr.eval, ih]

theorem quadForm_eval (ops : Expr.Ops K) (ρ : Sym → K) (v : List Expr) (W : Weight) (e : Expr)
    (h : quadForm v W = .ok e) :
    e.eval ops ρ = quad v.length W fun i => (Expr.entry v i).eval ops ρ := by
  unfold quadForm at h
  unfold quad
  split at h
  · next hc =>
    cases h
    rw [if_pos hc, Expr.eval_sumOver]
    rfl
  · next hc =>
    split at h
    · cases h
      rw [if_neg hc, Expr.eval_sumOver, Finset.sum_comm]
      apply Finset.sum_congr rfl
      intro j _
      simp only [Expr.eval, Expr.eval_sumOver]
      rw [Finset.sum_mul]
    · simp at h

theorem vecSub_same (a b : List Expr) (h : a.length = b.length) :
    vecSub a b = .ok (List.zipWith Expr.sub a b) := by
  unfold vecSub
  rw [if_pos h]

theorem vecSub_number (a : List Expr) (y : Expr) (h : a.length ≠ 1) :
    vecSub a [y] = .ok (a.map (Expr.sub · y)) := by
  unfold vecSub
  rw [if_neg (by simpa using h)]
  match a with
  | [] => rfl
  | [x] => simp at h
  | x :: x' :: a => rfl

theorem minusRef_entry (v : List Sym) (ref : Option (List Rat)) (hf : RefFits v.length ref) :
    ∃ d, minusRef v (ref.getD (List.replicate v.length 0)) = .ok d ∧ d.length = v.length ∧
      ∀ (ops : Expr.Ops K) (ρ : Sym → K),
        ∀ i < v.length, (Expr.entry d i).eval ops ρ = distance v ref ρ i := by
  have key : ∀ r : List Rat, r.length = v.length → ∃ d, minusRef v r = .ok d ∧
      d.length = v.length ∧ ∀ (ops : Expr.Ops K) (ρ : Sym → K), ∀ i < v.length,
        (Expr.entry d i).eval ops ρ = (v[i]?.map ρ).getD 0 - (r.getD i 0 : K) := by
    intro r hr
    refine ⟨_, vecSub_same _ _ (by simp [hr]), by simp [hr], fun ops ρ i hi => ?_⟩
    have hi' : i < r.length := hr ▸ hi
    simp [Expr.entry, hi, hi', Expr.eval]
  cases ref with
  | none =>
    obtain ⟨d, h₁, h₂, h₃⟩ := key (List.replicate v.length 0) (by simp)
    refine ⟨d, h₁, h₂, fun ops ρ i hi => ?_⟩
    rw [h₃ ops ρ i hi]
    simp [distance, refEntry, hi]
  | some r =>
    by_cases h1 : r.length = 1
    · by_cases hv : v.length = 1
      · obtain ⟨d, h₁, h₂, h₃⟩ := key r (by rw [h1, hv])
        refine ⟨d, h₁, h₂, fun ops ρ i hi => ?_⟩
        have : i = 0 := by omega
        subst this
        rw [h₃ ops ρ 0 hi]
        simp [distance, refEntry, h1]
      · obtain ⟨q, rfl⟩ := List.length_eq_one_iff.mp h1
        refine ⟨_, vecSub_number _ _ (by simpa using hv), by simp, fun ops ρ i hi => ?_⟩
        simp [Expr.entry, hi, Expr.eval, distance, refEntry]
    · obtain ⟨d, h₁, h₂, h₃⟩ := key r ((hf r rfl).resolve_right h1)
      refine ⟨d, h₁, h₂, fun ops ρ i hi => ?_⟩
      rw [h₃ ops ρ i hi]
      simp [distance, refEntry, h1]

theorem quad_congr (n : Nat) (W : Weight) (v w : Nat → K) (h : ∀ i < n, v i = w i) :
    quad n W v = quad n W w := by
  unfold quad
  split
  · exact Finset.sum_congr rfl fun i hi => by rw [h i (Finset.mem_range.mp hi)]
  · refine Finset.sum_congr rfl fun i hi => Finset.sum_congr rfl fun j hj => ?_
    rw [h i (Finset.mem_range.mp hi), h j (Finset.mem_range.mp hj)]

/-- A weight for a vector of `n` entries. -/
def Spec.WeightFits (n : Nat) (W : Option Weight) : Prop :=
  ∀ M, W = some M → (M.rows = n ∧ M.cols = n) ∨ (M.rows = 1 ∧ M.cols = 1)

theorem addWeighted_eval (W : Option Weight) (d : List Expr) (cost : Expr)
    (hW : WeightFits d.length W) :
    ∃ e, Ocp.addWeighted W (.ok d) cost = .ok e ∧ ∀ (ops : Expr.Ops K) (ρ : Sym → K),
      e.eval ops ρ = cost.eval ops ρ + quadOpt d.length W fun i => (Expr.entry d i).eval ops ρ := by
  cases W with
  | none => exact ⟨cost, rfl, fun ops ρ => by simp [quadOpt]⟩
  | some M =>
    have : ∃ q, quadForm d M = .ok q := by
      unfold quadForm
      split
      · exact ⟨_, rfl⟩
      · next hc =>
        rw [if_pos ((hW M rfl).resolve_right hc)]
        exact ⟨_, rfl⟩
    obtain ⟨q, hq⟩ := this
    refine ⟨.add cost q, ?_, ?_⟩
    · simp only [Ocp.addWeighted, bind, Except.bind, hq]
      rfl
    · intro ops ρ
      simp only [Expr.eval, quadForm_eval ops ρ d M q hq, quadOpt]

/-- C40. The running cost is the weighted squared distance of states and inputs to their references,
the final cost that of the states plus the weighted square of the states themselves; absent weights
contribute nothing and absent references are zero. -/
theorem C40_cost (par : QuadPar) (o : Ocp) (hx : RefFits o.model.x.length par.xRef)
    (hu : RefFits o.model.u.length par.uRef) (hQ : WeightFits o.model.x.length par.Q)
    (hR : WeightFits o.model.u.length par.R) (hQv : WeightFits o.model.x.length par.Qv)
    (hRv : WeightFits o.model.x.length par.Rv) :
    ∃ o' par', o.createQuadraticCost par = (.ok par', o') ∧ ∀ (ops : Expr.Ops K) (ρ : Sym → K),
      o'.L.eval ops ρ =
        quadOpt o.model.x.length par.Q (distance o.model.x par.xRef ρ) +
        quadOpt o.model.u.length par.R (distance o.model.u par.uRef ρ) ∧
      o'.V.eval ops ρ =
        quadOpt o.model.x.length par.Qv (distance o.model.x par.xRef ρ) +
        quadOpt o.model.x.length par.Rv (distance o.model.x none ρ) := by
  obtain ⟨dx, hx₁, hx₂, hx₃⟩ := minusRef_entry (K := K) o.model.x par.xRef hx
  obtain ⟨du, hu₁, hu₂, hu₃⟩ := minusRef_entry (K := K) o.model.u par.uRef hu
  obtain ⟨l₁, a₁, b₁⟩ := addWeighted_eval (K := K) par.Q dx (.const 0) (by rwa [hx₂])
  obtain ⟨l₂, a₂, b₂⟩ := addWeighted_eval (K := K) par.R du l₁ (by rwa [hu₂])
  obtain ⟨v₁, a₃, b₃⟩ := addWeighted_eval (K := K) par.Qv dx (.const 0) (by rwa [hx₂])
  obtain ⟨v₂, a₄, b₄⟩ := addWeighted_eval (K := K) par.Rv (o.model.x.map .sym) v₁
    (by rwa [List.length_map])
  refine ⟨{ o with
    L := l₂
    V := v₂ }, Ocp.withRefs par o, ?_, fun ops ρ => ?_⟩
  · unfold Ocp.createQuadraticCost
    simp only [Py.bind_eq, Py.modify_bind, Py.get_bind, hx₁, hu₁, a₁, a₂, a₃, a₄, Py.lift_ok_bind]
    rfl
  · have qx : ∀ W, quadOpt dx.length W (fun i => (Expr.entry dx i).eval ops ρ) =
        quadOpt o.model.x.length W (distance o.model.x par.xRef ρ) := by
      intro W
      cases W with
      | none => rfl
      | some W =>
        simp only [quadOpt, hx₂]
        exact quad_congr _ _ _ _ (hx₃ ops ρ)
    have qu : ∀ W, quadOpt du.length W (fun i => (Expr.entry du i).eval ops ρ) =
        quadOpt o.model.u.length W (distance o.model.u par.uRef ρ) := by
      intro W
      cases W with
      | none => rfl
      | some W =>
        simp only [quadOpt, hu₂]
        exact quad_congr _ _ _ _ (hu₃ ops ρ)
    have qr : ∀ W, quadOpt (o.model.x.map Expr.sym).length W
        (fun i => (Expr.entry (o.model.x.map Expr.sym) i).eval ops ρ) =
        quadOpt o.model.x.length W (distance o.model.x none ρ) := by
      intro W
      cases W with
      | none => rfl
      | some W =>
        simp only [quadOpt, List.length_map]
        refine quad_congr _ _ _ _ fun i hi => ?_
        simp [Expr.entry, hi, Expr.eval, distance, refEntry]
    constructor
    · simp only [b₂, b₁, qx, qu]
      simp [Expr.eval]
    · simp only [b₄, b₃, qx, qr]
      simp [Expr.eval]

end

/-- C40. A weight of the wrong size for the states is a `RuntimeError`; the costs of the problem are
lost although the call is rejected. -/
theorem C40_rejected_fails (par : QuadPar) (o : Ocp) (hx : RefFits o.model.x.length par.xRef)
    (hQ : ¬ WeightFits o.model.x.length par.Q) :
    o.createQuadraticCost par = (.error .runtimeError, { o with L := .const 0, V := .const 0 }) := by
  unfold WeightFits at hQ
  push Not at hQ
  obtain ⟨W, hW, h₁, h₂⟩ := hQ
  obtain ⟨d, hd, hl, -⟩ := minusRef_entry (K := Rat) o.model.x par.xRef hx
  have hq : quadForm d W = .error .runtimeError := by
    unfold quadForm
    rw [if_neg (fun h => h₂ h.1 h.2), if_neg (by rw [hl]; exact fun h => h₁ h.1 h.2)]
  have : Ocp.addWeighted par.Q (minusRef o.model.x (par.xRef.getD
      (List.replicate o.model.x.length 0))) (.const 0) = .error .runtimeError := by
    rw [hW, Ocp.addWeighted, hd]
    simp [bind, Except.bind, hq]
  unfold Ocp.createQuadraticCost
  simp only [bind, Py.bind, Py.modify, Py.get, Py.lift]
  rw [this]

/-- A weight whose quadratic form is never negative. -/
def Spec.Semidefinite (K : Type) [Field K] [LinearOrder K] (n : Nat) (W : Option Weight) : Prop :=
  ∀ v : Nat → K, 0 ≤ quadOpt n W v

/-- C40. With positive semidefinite weights the cost is never negative, and it is zero when states
and inputs are at their references (for the final cost, without weight on the states themselves). -/
theorem C40_nonneg {K : Type} [Field K] [LinearOrder K] [IsStrictOrderedRing K] (par : QuadPar)
    (o o' : Ocp) (par' : QuadPar) (hx : RefFits o.model.x.length par.xRef)
    (hu : RefFits o.model.u.length par.uRef) (hQ : WeightFits o.model.x.length par.Q)
    (hR : WeightFits o.model.u.length par.R) (hQv : WeightFits o.model.x.length par.Qv)
    (hRv : WeightFits o.model.x.length par.Rv)
    (hr : o.createQuadraticCost par = (.ok par', o'))
    (pQ : Semidefinite K o.model.x.length par.Q) (pR : Semidefinite K o.model.u.length par.R)
    (pQv : Semidefinite K o.model.x.length par.Qv) (pRv : Semidefinite K o.model.x.length par.Rv)
    (ops : Expr.Ops K) (ρ : Sym → K) :
    0 ≤ o'.L.eval ops ρ ∧ 0 ≤ o'.V.eval ops ρ ∧
    ((∀ i < o.model.x.length, distance o.model.x par.xRef ρ i = 0) →
      (∀ i < o.model.u.length, distance o.model.u par.uRef ρ i = 0) → o'.L.eval ops ρ = 0) ∧
    (par.Rv = none → (∀ i < o.model.x.length, distance o.model.x par.xRef ρ i = 0) →
      o'.V.eval ops ρ = 0) := by
  obtain ⟨o'', par'', h, hc⟩ := C40_cost (K := K) par o hx hu hQ hR hQv hRv
  rw [hr] at h
  simp only [Prod.mk.injEq, Except.ok.injEq] at h
  obtain ⟨-, rfl⟩ := h
  obtain ⟨hL, hV⟩ := hc ops ρ
  have z : ∀ (n : Nat) (W : Option Weight) (d : Nat → K), (∀ i < n, d i = 0) → quadOpt n W d = 0 := by
    intro n W d hd
    cases W with
    | none => rfl
    | some W =>
      simp only [quadOpt]
      rw [quad_congr n W d (fun _ => 0) hd]
      unfold quad
      simp
  refine ⟨?_, ?_, ?_, ?_⟩
  · rw [hL]; exact add_nonneg (pQ _) (pR _)
  · rw [hV]; exact add_nonneg (pQv _) (pRv _)
  · intro h₁ h₂
    rw [hL, z _ _ _ h₁, z _ _ _ h₂, add_zero]
  · intro hn h₁
    rw [hV, hn, z _ _ _ h₁]
    simp [quadOpt]

/-- A problem with two states and an input. -/
def Example.twoStates : Ocp := Ocp.new { SysModel.new 0 1 with
  x := [2, 3]
  x0 := [4, 5]
  ode := [(2, some (.sym 3)), (3, some (.sym 6))]
  u := [6]
  uExpr := [.sym 6]
  uPar := [6] } (some [0, 0]) 0 1

/-- The weights `Q = [[2, 1], [1, 3]]`, `R = 5` and the reference `x = (1, 2)`. -/
def Example.weights : QuadPar where
  xRef := some [1, 2]
  Q := some ⟨2, 2, fun i j => if i = j then 2 + i else 1⟩
  R := some ⟨1, 1, fun _ _ => 5⟩

/-- The hypotheses are met, with these semidefinite weights. -/
example : RefFits 2 Example.weights.xRef ∧ RefFits 1 Example.weights.uRef ∧
    WeightFits 2 Example.weights.Q ∧ WeightFits 1 Example.weights.R ∧
    Semidefinite Rat 2 Example.weights.Q ∧ Semidefinite Rat 1 Example.weights.R := by
  refine ⟨?_, ?_, ?_, ?_, ?_, ?_⟩
  · intro r h; cases h; simp
  · intro r h; cases h
  · intro M h; cases h; simp
  · intro M h; cases h; simp
  · intro v
    simp [quadOpt, quad, Example.weights, Finset.sum_range_succ]
    nlinarith [sq_nonneg (v 0 + v 1), sq_nonneg (v 0), sq_nonneg (v 1)]
  · intro v
    simp [quadOpt, quad, Example.weights]
    nlinarith [sq_nonneg (v 0)]

end Verif
