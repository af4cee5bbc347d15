import Verif.Spec.Equilibrium
import Verif.Lemmas.Expr
import Mathlib.Data.Rat.Cast.CharZero
/-!
# C152, C153: equilibria and linearisation
-/
namespace Verif
open Equilibrium Spec
variable {K : Type} [Field K]

namespace Equilibrium

omit [Field K] in
theorem unknowns_eq (m : SysModel) : unknowns m = m.x ++ m.y ++ m.p ++ m.theta := by
  simp [unknowns, SysModel.allSym]

theorem mem_equations {m : SysModel} {more : List Expr} {t0 : Rat} {e : Expr}
    (h : e ∈ m.odeVec ∨ e ∈ m.alg ∨ e ∈ more) :
    (e.subst [m.t] [.const t0]).subst [m.tau] [.const 0] ∈ equations m more t0 := by
  unfold equations
  refine List.mem_map.mpr ⟨e, ?_, rfl⟩
  simp only [List.mem_append]
  tauto

theorem toVector_ok {a : Additional} {l : List Expr} (h : a.toVector = .ok l) : l = extra a := by
  cases a with
  | vector v => cases h; rfl
  | list v =>
    cases v with
    | nil => cases h
    | cons a v => cases h; rfl

/-- What a call that returns has computed. -/
theorem findEquilibrium_ok {rf : Rootfinder K} {m : SysModel} {a : Additional}
    {guess : Option (List K)} {t0 : Rat} {x y u : List K}
    (h : findEquilibrium rf m a guess t0 = .ok (x, y, u)) :
    ∃ g res, (∀ e ∈ equations m (extra a) t0, ∀ s ∈ e.syms, s ∈ unknowns m) ∧
      (equations m (extra a) t0).length = (unknowns m).length ∧
      rf (unknowns m) (equations m (extra a) t0) g = .ok res ∧
      x = res.take m.x.length ∧ y = (res.drop m.x.length).take m.y.length ∧
      u = res.drop (m.x.length + m.y.length) := by
  simp only [findEquilibrium, bind, Except.bind] at h
  cases ha : a.toVector with
  | error e => rw [ha] at h; cases h
  | ok more =>
  rw [ha] at h
  rw [toVector_ok ha] at h
  simp only at h
  cases hf : functionOf (unknowns m) (equations m (extra a) t0) with
  | error e => rw [hf] at h; cases h
  | ok eqs =>
  rw [hf] at h
  simp only at h
  unfold functionOf at hf
  split at hf
  case isFalse => cases hf
  case isTrue hall =>
  cases hf
  cases hs : square (unknowns m) (equations m (extra a) t0) with
  | error e => rw [hs] at h; cases h
  | ok w =>
  rw [hs] at h
  simp only at h
  cases hg : fit (unknowns m).length (guessOf m guess) with
  | error e => rw [hg] at h; cases h
  | ok g =>
  rw [hg] at h
  simp only at h
  cases hr : rf (unknowns m) (equations m (extra a) t0) g with
  | error e => rw [hr] at h; cases h
  | ok res =>
  rw [hr] at h
  simp only [Except.ok.injEq, Prod.mk.injEq] at h
  refine ⟨g, res, ?_, ?_, hr, h.1.symm, h.2.1.symm, h.2.2.symm⟩
  · intro e he s hs'
    have := List.all_eq_true.mp hall e he
    exact of_decide_eq_true (List.all_eq_true.mp this s hs')
  · unfold square at hs
    split at hs
    · assumption
    · cases hs

end Equilibrium

/-- C152, proved part. If the call returns, the first two results are the states and algebraic
variables of an equilibrium at the time given; the third are the values of the parameters. -/
theorem C152_values_partial (ops : Expr.Ops K) {rf : Rootfinder K} (hrf : FindsRoots ops rf)
    (m : SysModel) (a : Additional) (guess : Option (List K)) (t0 : Rat) (x y u : List K)
    (h : findEquilibrium rf m a guess t0 = .ok (x, y, u)) :
    x.length = m.x.length ∧ y.length = m.y.length ∧
    ∀ ρ : Sym → K, ρ m.t = (t0 : K) → ρ m.tau = 0 → HasValues ρ m.x x → HasValues ρ m.y y →
      HasValues ρ (m.p ++ m.theta) u → IsEquilibrium ops m a ρ := by
  obtain ⟨g, res, -, -, hr, rfl, rfl, rfl⟩ := findEquilibrium_ok h
  obtain ⟨hlen, hroot⟩ := hrf _ _ _ _ hr
  rw [unknowns_eq] at hlen hroot
  simp only [List.length_append] at hlen
  refine ⟨by simp; omega, by simp; omega, ?_⟩
  intro ρ h1 h2 hx hy hu e he
  have hv : HasValues ρ (m.x ++ m.y ++ m.p ++ m.theta) res := by
    unfold HasValues at *
    rw [List.map_append] at hu
    rw [List.map_append, List.map_append, List.map_append, hx, hy, List.append_assoc, hu,
      ← List.drop_drop, List.append_assoc, List.take_append_drop, List.take_append_drop]
  have h0 := hroot ρ hv _ (mem_equations (m := m) (t0 := t0) he)
  rw [Expr.eval_subst ops ρ ρ [m.tau] [.const 0] (by simp) rfl
      (by intro i hi _; obtain rfl : i = 0 := by simpa using hi
          simpa [Expr.eval] using h2) (fun _ _ => rfl),
    Expr.eval_subst ops ρ ρ [m.t] [.const t0] (by simp) rfl
      (by intro i hi _; obtain rfl : i = 0 := by simpa using hi
          simpa [Expr.eval] using h1) (fun _ _ => rfl)] at h0
  exact h0

/-- C152 fails: the third result are not the controls, it has one entry for each parameter. -/
theorem C152_third_fails (ops : Expr.Ops K) {rf : Rootfinder K} (hrf : FindsRoots ops rf)
    (m : SysModel) (a : Additional) (guess : Option (List K)) (t0 : Rat) (x y u : List K)
    (h : findEquilibrium rf m a guess t0 = .ok (x, y, u)) :
    u.length = m.p.length + m.theta.length := by
  obtain ⟨g, res, -, -, hr, rfl, rfl, rfl⟩ := findEquilibrium_ok h
  obtain ⟨hlen, -⟩ := hrf _ _ _ _ hr
  rw [unknowns_eq] at hlen
  simp only [List.length_append] at hlen
  simp only [List.length_drop]
  omega

/-- C152 fails: no equilibrium is found for a model as documented if it has not as many parameters as
controls, in particular if it has controls and no parameters, whatever the root finder. -/
theorem C152_documented_fails (rf : Rootfinder K) (m : SysModel) (a : Additional)
    (guess : Option (List K)) (t0 : Rat) (hw : WellDefined m a)
    (hu : m.u.length ≠ m.p.length + m.theta.length) (r : List K × List K × List K) :
    findEquilibrium rf m a guess t0 ≠ .ok r := by
  intro h
  obtain ⟨x, y, u⟩ := r
  obtain ⟨g, res, -, hl, -⟩ := findEquilibrium_ok h
  rw [unknowns_eq] at hl
  simp only [equations, List.length_map, List.length_append, hw.ode, hw.alg, hw.extra] at hl
  omega

/-- C152 fails: no equilibrium is found if a control occurs in an equation. -/
theorem C152_control_fails (rf : Rootfinder K) (m : SysModel) (a : Additional)
    (guess : Option (List K)) (t0 : Rat) (hc : UsesControl m a) (r : List K × List K × List K) :
    findEquilibrium rf m a guess t0 ≠ .ok r := by
  intro h
  obtain ⟨x, y, u⟩ := r
  obtain ⟨g, res, hs, -⟩ := findEquilibrium_ok h
  obtain ⟨e, he, s, hse, hn, h1, h2⟩ := hc
  have hm := hs _ (mem_equations (t0 := t0) he) s ?_
  · rw [unknowns_eq] at hm
    exact hn hm
  · rw [Expr.subst, Expr.mem_syms_mapSyms]
    refine ⟨s, ?_, ?_⟩
    · rw [Expr.subst, Expr.mem_syms_mapSyms]
      exact ⟨s, hse, by rw [Expr.replacementOf_not_mem _ _ _ (by simpa using h1)]; simp [Expr.syms]⟩
    · rw [Expr.replacementOf_not_mem _ _ _ (by simpa using h2)]; simp [Expr.syms]

/-- C152. A model without controls whose equations contain states, algebraic variables and time only is
solved: the result is that of the root finder. -/
theorem C152_returns (rf : Rootfinder K) (m : SysModel) (v : List Expr) (t0 : Rat)
    (hp : m.p = []) (hth : m.theta = []) (hu : m.u = [])
    (hw : WellDefined m (.vector v)) (hc : ¬ UsesControl m (.vector v)) (res : List K)
    (hr : rf (m.x ++ m.y) (equations m v t0) (List.replicate (m.x.length + m.y.length) 1) = .ok res) :
    findEquilibrium rf m (.vector v) none t0 = .ok (res.take m.x.length,
      (res.drop m.x.length).take m.y.length, res.drop (m.x.length + m.y.length)) := by
  have hv : unknowns m = m.x ++ m.y := by rw [unknowns_eq, hp, hth]; simp
  have h1 : functionOf (m.x ++ m.y) (equations m v t0) = .ok (equations m v t0) := by
    rw [functionOf, if_pos]
    rw [List.all_eq_true]
    intro e he
    rw [List.all_eq_true]
    intro s hs
    apply decide_eq_true
    obtain ⟨e', he', rfl⟩ := List.mem_map.mp he
    rcases Expr.mem_syms_subst _ _ (by simp) _ _ hs with ⟨hs1, hs2⟩ | ⟨r, hr', hs1⟩
    · rcases Expr.mem_syms_subst _ _ (by simp) _ _ hs1 with ⟨hs3, hs4⟩ | ⟨r, hr', hs3⟩
      · by_contra hn
        refine hc ⟨e', ?_, s, hs3, ?_, by simpa using hs4, by simpa using hs2⟩
        · simp only [List.mem_append] at he'
          simp only [extra]
          tauto
        · simpa [hp, hth] using hn
      · simp only [List.mem_singleton] at hr'
        subst hr'
        simp [Expr.syms] at hs3
    · simp only [List.mem_singleton] at hr'
      subst hr'
      simp [Expr.syms] at hs1
  have h2 : square (m.x ++ m.y) (equations m v t0) = .ok () := by
    rw [square, if_pos]
    have := hw.extra
    simp only [extra, hu, List.length_nil] at this
    simp [equations, hw.ode, hw.alg, this]
  have h3 : fit (K := K) (m.x ++ m.y).length (guessOf m none) =
      .ok (List.replicate (m.x.length + m.y.length) 1) := by
    simp [fit, guessOf, hu]
  simp only [findEquilibrium, Additional.toVector, bind, Except.bind, hv, h1, h2, h3, hr]

/-- C153 fails: `linearize` never returns. -/
theorem C153_fails (jacobians : Except Err Unit) (t tau : Sym) (m : SysModel) :
    linearize jacobians t tau ≠ .ok m := by
  unfold linearize
  cases jacobians <;> simp [bind, Except.bind, newModel, ctorKeywords]

/-- C152. The ways the call is rejected: an empty list is not turned into a vector; equations with
other symbols, too few or too many equations, and a guess of the wrong size are a `RuntimeError`. -/
theorem C152_errors (rf : Rootfinder K) (m : SysModel) (a : Additional) (guess : Option (List K))
    (t0 : Rat) :
    findEquilibrium rf m (.list []) guess t0 = .error .notImplementedError ∧
    (a ≠ .list [] → UsesControl m a ∨
        WellDefined m a ∧ m.u.length ≠ m.p.length + m.theta.length ∨
        (∃ g, guess = some g ∧ g.length ≠ 1 ∧
          g.length ≠ m.x.length + m.y.length + m.p.length + m.theta.length) →
      findEquilibrium rf m a guess t0 = .error .runtimeError) := by
  refine ⟨rfl, fun ha h => ?_⟩
  have hv : a.toVector = .ok (extra a) := by
    cases a with
    | vector v => rfl
    | list l => cases l with
      | nil => exact absurd rfl ha
      | cons e l => rfl
  simp only [findEquilibrium, bind, Except.bind, hv]
  unfold functionOf
  by_cases hall : ((equations m (extra a) t0).all fun e => e.syms.all fun s =>
      decide (s ∈ unknowns m)) = true
  · rw [if_pos hall]
    simp only
    unfold square
    by_cases hl : (equations m (extra a) t0).length = (unknowns m).length
    · rw [if_pos hl]
      simp only
      rcases h with hc | ⟨hw, hu⟩ | ⟨g, rfl, h1, hn⟩
      · exfalso
        obtain ⟨e, he, s, hse, hn, h1, h2⟩ := hc
        have := List.all_eq_true.mp (List.all_eq_true.mp hall _ (mem_equations (t0 := t0) he)) s ?_
        · rw [decide_eq_true_eq, unknowns_eq] at this
          exact hn this
        · rw [Expr.subst, Expr.mem_syms_mapSyms]
          refine ⟨s, ?_, ?_⟩
          · rw [Expr.subst, Expr.mem_syms_mapSyms]
            refine ⟨s, hse, ?_⟩
            rw [Expr.replacementOf_not_mem _ _ _ (by simpa using h1)]
            simp [Expr.syms]
          · rw [Expr.replacementOf_not_mem _ _ _ (by simpa using h2)]
            simp [Expr.syms]
      · exfalso
        rw [unknowns_eq] at hl
        simp only [equations, List.length_map, List.length_append, hw.ode, hw.alg, hw.extra] at hl
        omega
      · have : (unknowns m).length = m.x.length + m.y.length + m.p.length + m.theta.length := by
          rw [unknowns_eq]; simp only [List.length_append]
        unfold fit guessOf
        rw [Option.getD_some, if_neg (by rw [this]; exact hn)]
        match g, h1 with
        | [], _ => rfl
        | [a], h1 => exact absurd rfl h1
        | a :: b :: g, _ => rfl
    · rw [if_neg hl]
  · rw [if_neg hall]

/-- C153. The keywords a model is made with are checked: any other than the two of the constructor is
a `TypeError`. -/
theorem C153_keywords (keywords : List String) (t tau : Sym) :
    (∀ k ∈ keywords, k = "name" ∨ k = "model_name_as_prefix") ∧
        newModel keywords t tau = .ok (SysModel.new t tau) ∨
      (∃ k ∈ keywords, k ≠ "name" ∧ k ≠ "model_name_as_prefix") ∧
        newModel keywords t tau = .error .typeError := by
  unfold newModel ctorKeywords
  by_cases h : ∀ k ∈ keywords, k = "name" ∨ k = "model_name_as_prefix"
  · refine .inl ⟨h, if_pos ?_⟩
    rw [List.all_eq_true]
    intro k hk
    simpa using h k hk
  · refine .inr ⟨by push Not at h; exact h, if_neg ?_⟩
    rw [List.all_eq_true]
    intro h'
    exact h fun k hk => by simpa using h' k hk

/-- C153. If the Jacobians can be made, the call is a `TypeError`. -/
theorem C153_error (t tau : Sym) : linearize (.ok ()) t tau = .error .typeError := by
  simp [linearize, bind, Except.bind, newModel, ctorKeywords]

/-! ## The hypotheses are met -/

/-- `x' = u - x` with or without the control. -/
def Example.storage (controlled : Bool) : SysModel :=
  { SysModel.new 0 1 with
    x := [2]
    x0 := [3]
    ode := [(2, some (.sub (if controlled then .sym 4 else .sym 0) (.sym 2)))]
    u := if controlled then [4] else []
    uExpr := if controlled then [.sym 4] else []
    uPar := if controlled then [4] else [] }

/-- The equilibrium of `x' = t - x` at time 7. -/
example : (findEquilibrium (fun _ _ _ => .ok [(7 : Rat)]) (Example.storage false) (.vector []) none 7).toOption =
    some ([7], [], []) := by decide +kernel

example : WellDefined (Example.storage false) (.vector []) ∧ ¬ UsesControl (Example.storage false) (.vector []) := by
  refine ⟨⟨by decide, by decide, by decide⟩, ?_⟩
  rintro ⟨e, he, s, hs, h⟩
  simp [Example.storage, SysModel.odeVec, Dict.values, SysModel.new, extra] at he
  subst he
  simp [Expr.syms, Example.storage, SysModel.new] at hs h
  rcases hs with rfl | rfl
  · exact h.2.1 rfl
  · exact h.1 rfl

/-- A root finder that returns the guess if it is a root. -/
example : FindsRoots (⟨fun _ a => a, fun _ a _ => a⟩ : Expr.Ops Rat) fun v eqs g =>
    if g.length = v.length ∧ v.Nodup ∧ (∀ e ∈ eqs, ∀ s ∈ e.syms, s ∈ v) ∧
      ∀ e ∈ eqs, e.eval ⟨fun _ a => a, fun _ a _ => a⟩ (fun s => g.getD (v.idxOf s) 0) = 0
    then .ok g else .error .runtimeError := by
  intro v eqs g r h
  simp only at h
  split at h
  case isFalse => cases h
  case isTrue hc =>
  cases h
  obtain ⟨h1, h2, h3, h4⟩ := hc
  refine ⟨h1, fun ρ hρ e he => ?_⟩
  rw [← h4 e he]
  apply Expr.eval_congr
  intro s hs
  have hi := List.idxOf_lt_length_of_mem (h3 e he s hs)
  have hρ' : v.map ρ = g := hρ
  rw [← hρ']
  simp [hi]

example : WellDefined (Example.storage true) (.list [.sub (.sym 4) (.const 1)]) ∧
    (Example.storage true).u.length ≠ (Example.storage true).p.length + (Example.storage true).theta.length :=
  ⟨⟨by decide, by decide, by decide⟩, by decide⟩

example : UsesControl (Example.storage true) (.list [.sub (.sym 4) (.const 1)]) :=
  ⟨_, .inr (.inr (List.mem_singleton.mpr rfl)), 4, by decide, by decide, by decide, by decide⟩

end Verif
