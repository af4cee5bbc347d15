import Verif.Spec.TranscribeShooting
import Verif.Lemmas.DirectCommon
import Verif.Props.Shooting
/-! Lemmas on the problem that multiple shooting discretises. -/
namespace Verif
open Spec

namespace Dae

theorem checked_ok_iff {d d' : Dae} : d.checked = .ok d' ↔
    (∀ e ∈ d.ode ++ d.alg, ∀ s ∈ e.syms, s ∈ d.inputs) ∧ d' = d := by
  have : d.closed = true ↔ ∀ e ∈ d.ode ++ d.alg, ∀ s ∈ e.syms, s ∈ d.inputs := by
    simp only [closed, List.all_eq_true, List.contains_iff_mem]
  rw [← this]
  unfold checked
  split
  · next h => simp [h, eq_comm]
  · next h => simp [h]

theorem checked_error {d : Dae} {e : Err} (h : d.checked = .error e) : e = .runtimeError := by
  unfold checked at h
  split at h
  · cases h
  · cases h; rfl

end Dae

namespace Ocp

/-- The equations of an element in terms of the time. -/
def daeOf (o : Ocp) (N el : Nat) : Dae where
  x := o.model.x
  ode := o.model.odeVec.map (o.inTime N el)
  t := o.model.t
  y := o.model.y
  p := o.model.p ++ o.model.theta ++ o.model.uPar
  alg := o.algOf.map (o.inTime N el)
  tau := some o.model.tau

theorem convert_getDae (o : Ocp) (N el : Nat) :
    o.model.getDae.convertFromTau (o.timeBreakpoint N el) (o.timeBreakpoint N (el + 1)) =
      .ok (o.daeOf N el) := by
  have h₁ : (if o.model.isDae = true then o.model.alg else []) = o.algOf := by
    unfold algOf SysModel.isDae
    by_cases h : o.model.y = []
    · simp [h]
    · simp [h, List.length_pos_iff]
  have h₂ : (if o.model.isDae = true then o.model.y else []) = o.model.y := by
    unfold SysModel.isDae
    by_cases h : o.model.y = []
    · simp [h]
    · simp [List.length_pos_iff, h]
  have h₃ : (if o.model.p.length + o.model.theta.length + o.model.uPar.length > 0
      then o.model.p ++ o.model.theta ++ o.model.uPar else []) =
      o.model.p ++ o.model.theta ++ o.model.uPar := by
    split
    · rfl
    · next h =>
      have h₁ : o.model.p = [] := List.length_eq_zero_iff.mp (by omega)
      have h₂ : o.model.theta = [] := List.length_eq_zero_iff.mp (by omega)
      have h₃ : o.model.uPar = [] := List.length_eq_zero_iff.mp (by omega)
      simp [h₁, h₂, h₃]
  simp only [Dae.convertFromTau, SysModel.getDae, h₁, h₂, h₃]
  rfl

theorem mem_inputs (o : Ocp) (N el : Nat) (s : Sym) : s ∈ (o.daeOf N el).inputs ↔
    s = o.model.t ∨ s ∈ o.model.x ∨ s ∈ (if o.model.alg = [] then [] else o.model.y) ∨
      s ∈ o.model.p ++ o.model.theta ++ o.model.uPar := by
  have hy : (if (o.daeOf N el).isDae = true then o.model.y else []) =
      if o.model.alg = [] then [] else o.model.y := by
    by_cases h : o.model.y = []
    · simp [h]
    · simp [Dae.isDae, daeOf, algOf, h]
  have hp : ∀ l : List Sym, (if l.length > 0 then l else []) = l := by
    intro l; cases l <;> simp
  unfold Dae.inputs
  have e₁ : (o.daeOf N el).x = o.model.x := rfl
  have e₂ : (o.daeOf N el).y = o.model.y := rfl
  have e₃ : (o.daeOf N el).p = o.model.p ++ o.model.theta ++ o.model.uPar := rfl
  have e₄ : (o.daeOf N el).t = o.model.t := rfl
  rw [e₂, hy, e₃, hp, e₁, e₄]
  simp only [List.mem_append, List.mem_singleton]
  tauto

theorem elementDae_ok {o : Ocp} {N : Nat} (el : Nat) (d : Dae) : o.elementDae N el = .ok d ↔
    (∀ e ∈ o.model.odeVec ++ o.algOf, ∀ s ∈ e.syms,
      s ∈ [o.model.t, o.model.tau] ++ o.model.x ++ (if o.model.alg = [] then [] else o.model.y) ++
        o.model.p ++ o.model.theta ++ o.model.uPar) ∧ d = o.daeOf N el := by
  simp only [elementDae, convert_getDae, bind, Except.bind, Dae.checked_ok_iff]
  have hl : (o.daeOf N el).ode ++ (o.daeOf N el).alg =
      (o.model.odeVec ++ o.algOf).map (o.inTime N el) := by
    rw [List.map_append]; rfl
  rw [hl, List.forall_mem_map]
  refine and_congr_left fun _ => forall₂_congr fun e _ => ?_
  simp only [mem_inputs, inTime, mem_syms_convert]
  constructor
  · intro h s hs
    by_cases hc : s = o.model.tau
    · simp [hc]
    · have := h s (.inl ⟨hs, hc⟩)
      simp only [List.mem_append, List.mem_cons, List.not_mem_nil, or_false] at this ⊢
      tauto
  · rintro h s (⟨h₁, h₂⟩ | ⟨h₁, rfl⟩)
    · have := h s h₁
      simp only [List.mem_append, List.mem_cons, List.not_mem_nil, or_false] at this ⊢
      tauto
    · exact .inl rfl

/-- The function of the final cost. -/
def finalCostOf (o : Ocp) (sum : Bool) : Fun := if sum then ⟨[], []⟩ else ⟨[o.model.x, o.model.p], [o.V]⟩

theorem finalCost_ok {o : Ocp} {sum : Bool} (f : Fun) : o.finalCost sum = .ok f ↔
    (sum = false → ∀ s ∈ o.V.syms, s ∈ o.model.x ++ o.model.p) ∧ f = o.finalCostOf sum := by
  cases sum
  · simp only [finalCost, finalCostOf, Bool.false_eq_true, if_false, Fun.make_ok_iff, true_implies]
    simp
  · simp [finalCost, finalCostOf, eq_comm]

/-- What multiple shooting discretises when all symbols are inputs. -/
def shootingOf {K : Type} [Field K] (ops : Expr.Ops K) (integ : DaeIntegrator K) (o : Ocp)
    (N degree degreeControl : Nat) (sum : Bool) : ShootingMethod K :=
  let f := o.functionsOf N
  { dims := o.dims N degree degreeControl
    roots := []
    t0 := (o.t0 : K)
    tf := (o.tf : K)
    ode := fun _ _ => []
    alg := fun _ _ => []
    sCost := fun el pt => scalar ((funAt f.sCost el).callAt ops pt)
    gIneq := pathCons ops f.gIneq o.timeGIneq
    gEq := pathCons ops f.gEq o.timeGEq
    hInitial := fun x x0 => f.initial.call ops [x, x0]
    hFinal := fun x eta p => f.final.call ops [x, eta, p]
    h := fun p => f.timeless.call ops [p]
    vCost := fun x p => scalar ((o.finalCostOf sum).call ops [x, p])
    duMin := o.duMin.map boundValue
    duMax := o.duMax.map boundValue
    pOptIndices := o.pOptIndices
    thetaOptIndices := o.thetaOptIndices
    simulate := fun el t t' x p theta u =>
      integ (daeAt ((List.range N).map (o.daeOf N)) el) t t' x (p ++ theta ++ u)
    costAsSum := sum }

theorem shooting_ok_iff {K : Type} [Field K] (ops : Expr.Ops K) (integ : DaeIntegrator K) (o : Ocp)
    (N degree degreeControl : Nat) (sum : Bool) (hN : 0 < N) (m : ShootingMethod K) :
    o.shooting ops integ N degree degreeControl sum = .ok m ↔
      ShotScope o sum ∧ m = o.shootingOf ops integ N degree degreeControl sum := by
  unfold shooting
  simp only [bind, bind_ok_iff, Fun.make_ok_iff, mapM_ok_iff elementDae_ok,
    mapM_ok_iff (elementFunctions_ok hN), elementFunctions_ok hN, finalCost_ok, Except.ok.injEq]
  constructor
  · rintro ⟨_, ⟨h₁, rfl⟩, _, ⟨h₃, rfl⟩, _, ⟨h₄, rfl⟩, _, ⟨h₅, rfl⟩, _, ⟨h₂, rfl⟩, _, ⟨h₆, rfl⟩, _,
      ⟨h₇, rfl⟩, _, ⟨h₈, rfl⟩, rfl⟩
    refine ⟨⟨?_, ?_, ?_, ?_, ?_, ?_⟩, rfl⟩
    · intro e he
      simp only [List.mem_append, List.mem_singleton] at he
      rcases he with (he | he) | rfl
      · exact h₃ e he
      · exact h₄ e he
      · exact h₅
    · exact h₂ 0 (List.mem_range.mpr hN)
    · simpa using h₁
    · simpa [or_assoc] using h₆
    · simpa using h₇
    · exact h₈
  · rintro ⟨⟨h₁, h₀, h₂, h₃, h₄, h₅⟩, rfl⟩
    refine ⟨_, ⟨by simpa using h₂, rfl⟩, _, ⟨?_, rfl⟩, _, ⟨?_, rfl⟩, _, ⟨?_, rfl⟩, _, ⟨fun _ _ => h₀, rfl⟩,
      _, ⟨by simpa [or_assoc] using h₃, rfl⟩, _, ⟨by simpa using h₄, rfl⟩, _, ⟨h₅, rfl⟩, rfl⟩
    · exact fun e he => h₁ e (by simp [he])
    · exact fun e he => h₁ e (by simp [he])
    · exact h₁ _ (by simp)

theorem shooting_error {K : Type} [Field K] {ops : Expr.Ops K} {integ : DaeIntegrator K} {o : Ocp}
    {N degree degreeControl : Nat} {sum : Bool} {e : Err}
    (h : o.shooting ops integ N degree degreeControl sum = .error e) : e = .runtimeError := by
  have hb : ∀ {α β : Type} {x : Except Err α} {f : α → Except Err β} {e : Err},
      x.bind f = .error e → x = .error e ∨ ∃ a, x = .ok a ∧ f a = .error e := by
    intro α β x f e h
    cases x with
    | error e' => exact .inl (by simpa [Except.bind] using h)
    | ok a => exact .inr ⟨a, rfl, h⟩
  have he : ∀ x e, o.elementFunctions N x = .error e → e = .runtimeError := fun x e h =>
    mapM_only_error (fun _ _ h => Fun.make_error h) _ _ h
  unfold shooting at h
  rcases hb h with h | ⟨_, -, h⟩
  · exact Fun.make_error h
  rcases hb h with h | ⟨_, -, h⟩
  · exact mapM_only_error he _ _ h
  rcases hb h with h | ⟨_, -, h⟩
  · exact mapM_only_error he _ _ h
  rcases hb h with h | ⟨_, -, h⟩
  · exact he _ _ h
  rcases hb h with h | ⟨_, -, h⟩
  · refine mapM_only_error (fun el e h => ?_) _ _ h
    simp only [elementDae, convert_getDae, bind, Except.bind] at h
    exact Dae.checked_error h
  rcases hb h with h | ⟨_, -, h⟩
  · exact Fun.make_error h
  rcases hb h with h | ⟨_, -, h⟩
  · exact Fun.make_error h
  rcases hb h with h | ⟨_, -, h⟩
  · unfold finalCost at h
    split at h
    · cases h
    · exact Fun.make_error h
  · cases h

end Ocp
end Verif
