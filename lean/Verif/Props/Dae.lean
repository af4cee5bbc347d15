import Verif.Model.Dae
import Verif.Lemmas.Scope
import Verif.Props.TimeConversion
/-!
# C22, C87, C88: the DAE system of a model
-/
namespace Verif
open SysModel

/-- C22. The parameter vector of the DAE system is `[p; theta; u_par]`; the symbols of the model,
in order, are time, states, algebraics, `p`, `theta`, `u_par`. -/
theorem C22_layout (m : SysModel) :
    m.getDae.p = m.p ++ m.theta ++ m.uPar ∧
    m.getDae.x = m.x ∧ m.getDae.t = m.t ∧
    m.allSym.flatten = m.t :: (m.x ++ m.y ++ (m.p ++ m.theta ++ m.uPar)) := by
  refine ⟨?_, rfl, rfl, by simp [allSym]⟩
  unfold getDae
  simp only
  split
  · rfl
  · next h =>
    have h₁ : m.p.length = 0 := by omega
    have h₂ : m.theta.length = 0 := by omega
    have h₃ : m.uPar.length = 0 := by omega
    rw [List.length_eq_zero_iff] at h₁ h₂ h₃
    simp [h₁, h₂, h₃]

/-- C22. The symbols handed to the integrator are those of `all_sym` (in another order), for a model
in which algebraic equations exist when algebraic variables do. -/
theorem C22_integrator_symbols (m : SysModel) (halg : m.y ≠ [] → m.alg ≠ []) (s : Sym) :
    s ∈ m.getDae.inputs ↔ s ∈ m.allSym.flatten := by
  have hp := (C22_layout m).1
  have ht := (C22_layout m).2.2.2
  rw [ht]
  unfold Dae.inputs
  rw [hp]
  by_cases hy : m.y = []
  · have hd : m.getDae.isDae = false := by simp [Dae.isDae, getDae, isDae, hy]
    rw [hd]
    have hpp : (if (m.p ++ m.theta ++ m.uPar).length > 0 then m.p ++ m.theta ++ m.uPar else []) =
        m.p ++ m.theta ++ m.uPar := by
      split
      · rfl
      · next h => exact (List.eq_nil_of_length_eq_zero (by omega)).symm
    rw [hpp]
    simp only [Bool.false_eq_true, if_false, hy, List.append_nil, List.mem_append, List.mem_cons,
      List.not_mem_nil, or_false]
    simp only [getDae]
    tauto
  · have hyl : m.isDae = true := by
      simpa [isDae] using List.length_pos_iff.mpr hy
    have hd : m.getDae.isDae = true := by
      simpa [Dae.isDae, getDae, hyl] using halg hy
    rw [hd]
    have hpp : (if (m.p ++ m.theta ++ m.uPar).length > 0 then m.p ++ m.theta ++ m.uPar else []) =
        m.p ++ m.theta ++ m.uPar := by
      split
      · rfl
      · next h => exact (List.eq_nil_of_length_eq_zero (by omega)).symm
    rw [hpp]
    simp only [if_true, List.mem_append, List.mem_cons, List.not_mem_nil, or_false]
    simp only [getDae, hyl, if_true]
    tauto

/-- C22. Start from a new model and run any program of building calls whose expressions mention only
variables the model has by then. Every equation of the resulting model (differential, algebraic or
control expression) mentions only element time or symbols of `all_sym`. -/
theorem C22_complete (cs : List Call) (t tau : Sym) (m : SysModel)
    (hp : Spec.ScopedProgram cs (SysModel.new t tau))
    (hrun : runCalls cs (SysModel.new t tau) = (.ok (), m)) :
    ∀ e ∈ Spec.equations m, ∀ s ∈ e.syms, s = m.tau ∨ s ∈ m.allSym.flatten := by
  have h := (good_program cs _ m ⟨by simp [Spec.WellScoped, Spec.equations, odeVec, SysModel.new,
    Dict.values], rfl⟩ hp hrun).1
  intro e he s hs
  rw [(C22_layout m).2.2.2]
  have := h e he s hs
  simp only [Spec.InScope] at this
  simp only [List.mem_cons, List.mem_append]
  tauto

/-- C22. The same for the DAE system handed to the integrator: with as many algebraic equations as
algebraic variables, an equation free of element time mentions only the integrator's inputs. -/
theorem C22_dae_complete (cs : List Call) (t tau : Sym) (m : SysModel)
    (hp : Spec.ScopedProgram cs (SysModel.new t tau))
    (hrun : runCalls cs (SysModel.new t tau) = (.ok (), m))
    (hsq : m.alg.length = m.y.length) (htau : m.getDae.dependsOn [m.tau] = false) :
    ∀ e ∈ m.getDae.ode ++ m.getDae.alg, ∀ s ∈ e.syms, s ∈ m.getDae.inputs := by
  intro e he s hs
  rw [C22_integrator_symbols m (by
    intro hy h0
    rw [h0] at hsq
    exact hy (List.eq_nil_of_length_eq_zero hsq.symm))]
  have hne : s ≠ m.tau := by
    rintro rfl
    simp only [Dae.dependsOn, List.any_eq_false, Bool.not_eq_true] at htau
    have := htau e he
    rw [Expr.dependsOn] at this
    simp only [List.any_eq_false] at this
    exact this m.tau (by simp) (by simpa using hs)
  have hem : e ∈ Spec.equations m := by
    rw [List.mem_append] at he
    rw [Spec.equations, List.mem_append, List.mem_append]
    rcases he with he | he
    · exact .inl (.inl he)
    · simp only [getDae] at he
      split at he
      · exact .inl (.inr he)
      · simp at he
  exact (C22_complete cs t tau m hp hrun e hem s hs).resolve_left hne

/-- A model with a parametrised control: `der(x) = a x + u`, `u = k y`, `y = x + t`. -/
def daeExample : List Call :=
  [.includeState [2] none none 50, .includeControl [3], .includeParameter [4],
   .includeTheta [5], .includeAlgebraic [6] (some [.sub (.sym 6) (.add (.sym 2) (.sym 0))]),
   .includeEquations [.diff [2] [.add (.mul (.sym 4) (.sym 2)) (.sym 3)]] none none [],
   .parametrizeControl [3] [.mul (.sym 7) (.sym 6)] (some [7])]

/-- `ScopedProgram` can be checked by running. -/
def scopedCheck : List Call → SysModel → Bool
  | [], _ => true
  | c :: cs, m =>
    let r := Call.run c m
    Spec.isBuilding c &&
      (match r.1 with
        | .ok _ => true
        | .error _ => false) &&
      ((Spec.argExprs c).all fun e => e.syms.all fun s =>
        s == r.2.t || s == r.2.tau || decide (s ∈ r.2.x) || decide (s ∈ r.2.y) ||
          decide (s ∈ r.2.p) || decide (s ∈ r.2.theta) || decide (s ∈ r.2.uPar)) &&
      scopedCheck cs r.2

theorem scopedCheck_sound (cs : List Call) (m : SysModel) (h : scopedCheck cs m = true) :
    Spec.ScopedProgram cs m := by
  induction cs generalizing m with
  | nil => trivial
  | cons c cs ih =>
    simp only [scopedCheck, Bool.and_eq_true, List.all_eq_true, Bool.or_eq_true, beq_iff_eq,
      decide_eq_true_eq] at h
    obtain ⟨⟨⟨h₁, h₂⟩, h₃⟩, h₄⟩ := h
    refine ⟨h₁, (Call.run c m).2, ?_, ?_, ih _ h₄⟩
    · match hr : Call.run c m with
      | (.ok (), s) => rfl
      | (.error e, s) => rw [hr] at h₂; simp at h₂
    · intro e he s hs
      have := h₃ e he s hs
      simp only [Spec.InScope]
      tauto

example : Spec.ScopedProgram daeExample (SysModel.new 0 1) :=
  scopedCheck_sound _ _ (by decide +kernel)

example : (runCalls daeExample (SysModel.new 0 1)).2.getDae =
    { x := [2], ode := [.add (.mul (.sym 4) (.sym 2)) (.mul (.sym 7) (.sym 6))], t := 0, y := [6],
      p := [4, 5, 7], alg := [.sub (.sym 6) (.add (.sym 2) (.sym 0))], tau := some 1 } := by
  decide +kernel

/-! ## C87: merged models -/

/-- C87 (the part that holds). Merging well-scoped models whose controls are not parametrised gives a
well-scoped model. -/
theorem C87_merged_scoped_partial (m : SysModel) (ks : List SysModel) (h : Spec.Mergeable m ks)
    (hm : Spec.WellScoped m) (hk : ∀ k ∈ ks, Spec.WellScoped k)
    (hu : ∀ k ∈ ks, k.uPar = k.u) (m' : SysModel) (hrun : includeModels ks m = (.ok (), m')) :
    Spec.WellScoped m' := by
  rw [includeModels_run m ks h] at hrun
  have hm' : m' = Spec.merged m ks := by simpa [eq_comm] using hrun
  subst hm'
  have hmono : ∀ s, Spec.InScope m s → Spec.InScope (Spec.merged m ks) s := by
    intro s hs
    simp only [Spec.InScope, Spec.merged, List.mem_append] at hs ⊢
    tauto
  have hkk : ∀ k ∈ ks, ∀ e, (∀ s ∈ e.syms, Spec.InScope k s) →
      ∀ s ∈ (Spec.retime m k e).syms, Spec.InScope (Spec.merged m ks) s := by
    intro k hk' e he s hs
    rcases Expr.mem_syms_subst [k.t, k.tau] [.sym m.t, .sym m.tau] rfl e s hs with
      ⟨h₁, h₂⟩ | ⟨r, hr, h₁⟩
    · have := he s h₁
      simp only [List.mem_cons, List.not_mem_nil, or_false, not_or] at h₂
      simp only [Spec.InScope, hu k hk'] at this
      simp only [Spec.InScope, Spec.merged, List.mem_append, List.mem_flatMap]
      rcases this with h | h | h | h | h | h | h
      · exact absurd h h₂.1
      · exact absurd h h₂.2
      · exact .inr (.inr (.inl (.inr ⟨k, hk', h⟩)))
      · exact .inr (.inr (.inr (.inl (.inr ⟨k, hk', h⟩))))
      · exact .inr (.inr (.inr (.inr (.inl (.inr ⟨k, hk', h⟩)))))
      · exact .inr (.inr (.inr (.inr (.inr (.inl (.inr ⟨k, hk', h⟩))))))
      · exact .inr (.inr (.inr (.inr (.inr (.inr (.inr ⟨k, hk', h⟩))))))
    · simp only [List.mem_cons, List.not_mem_nil, or_false] at hr
      rcases hr with rfl | rfl
      · simp only [Expr.syms, List.mem_singleton] at h₁
        exact .inl h₁
      · simp only [Expr.syms, List.mem_singleton] at h₁
        exact .inr (.inl h₁)
  intro e he s hs
  rw [mem_equations] at he
  simp only [Spec.merged, List.mem_append, List.mem_flatMap] at he
  rcases he with ⟨a, he | ⟨k, hk', he⟩⟩ | (he | ⟨k, hk', he⟩) | (he | ⟨k, hk', he⟩)
  · exact hmono s (hm e ((mem_equations ..).mpr (.inl ⟨a, he⟩)) s hs)
  · simp only [Spec.retimedOde, List.mem_map] at he
    obtain ⟨⟨a', o⟩, hmem, heq⟩ := he
    cases o with
    | none => simp at heq
    | some o =>
      simp only [Option.map_some, Prod.mk.injEq, Option.some.injEq] at heq
      rw [← heq.2] at hs
      exact hkk k hk' o (hk k hk' o ((mem_equations ..).mpr (.inl ⟨a', hmem⟩))) s hs
  · exact hmono s (hm e ((mem_equations ..).mpr (.inr (.inl he))) s hs)
  · obtain ⟨o, ho, rfl⟩ := List.mem_map.mp he
    exact hkk k hk' o (hk k hk' o ((mem_equations ..).mpr (.inr (.inl ho)))) s hs
  · exact hmono s (hm e ((mem_equations ..).mpr (.inr (.inr he))) s hs)
  · obtain ⟨a, ha, rfl⟩ := List.mem_map.mp he
    simp only [Expr.syms, List.mem_singleton] at hs
    subst hs
    simp only [Spec.InScope, Spec.merged, List.mem_append, List.mem_flatMap]
    exact .inr (.inr (.inr (.inr (.inr (.inr (.inr ⟨k, hk', ha⟩))))))

/-- `der(x) = u` with `u` parametrised by the symbol 15. -/
def parametrisedExample : SysModel where
  t := 10
  tau := 11
  x := [12]
  x0 := [13]
  ode := [(12, some (.sym 15))]
  u := [14]
  uExpr := [.sym 15]
  uPar := [15]
  parametrized := [14]

/-- C87 is false of the code when a merged-in model has a parametrised control: its parameter is used
by the merged equations but is in no list of the merged model. -/
theorem C87_parametrised_fails : ∃ (m k m' : SysModel), Spec.WellScoped m ∧ Spec.WellScoped k ∧
    Spec.Mergeable m [k] ∧ includeModels [k] m = (.ok (), m') ∧ ¬ Spec.WellScoped m' := by
  refine ⟨SysModel.new 0 1, parametrisedExample,
    Spec.merged (SysModel.new 0 1) [parametrisedExample], ?_, ?_, ?_, ?_, ?_⟩
  · simp [Spec.WellScoped, Spec.equations, odeVec, SysModel.new, Dict.values]
  · simp [parametrisedExample, Spec.WellScoped, Spec.equations, odeVec, Dict.values, Expr.syms,
      Spec.InScope]
  · refine ⟨?_, ?_, ?_, ?_, ?_, ?_⟩ <;>
      simp [Spec.Complete, SysModel.new, Dict.keys, Spec.Brings, Spec.equations, odeVec,
        Dict.values, parametrisedExample]
  · decide +kernel
  · intro h
    have := h (.sym 15) (by decide +kernel) 15 (by simp [Expr.syms])
    simp [Spec.InScope, Spec.merged, SysModel.new, parametrisedExample] at this

/-! ## C88: joining DAE systems, element time -/

/-- C88. Joining keeps both systems: when the symbols of the two systems are different and neither
lists the other's time, the joined system has the variables of both, in order, and every equation
has, at every point, the value of the original one with the second system's time and element time
set to those of the first. -/
theorem C88_join {K : Type u} [Field K] (ops : Expr.Ops K) (d d' : Dae) (tau tau' : Sym)
    (htau : d.tau = some tau) (htau' : d'.tau = some tau')
    (hvars : ∀ s ∈ d.x ++ d'.x ++ (d.y ++ d'.y) ++ (d.p ++ d'.p), s ≠ d'.t ∧ s ≠ tau')
    (hne : d.t ≠ tau') (htt : d'.t ≠ tau') (ρ ρ' : Sym → K)
    (hρ : ρ' d'.t = ρ d.t ∧ ρ' tau' = ρ tau ∧ ∀ s, s ≠ d'.t → s ≠ tau' → ρ' s = ρ s) :
    (d.join d').x = d.x ++ d'.x ∧ (d.join d').y = d.y ++ d'.y ∧ (d.join d').p = d.p ++ d'.p ∧
    (d.join d').t = d.t ∧ (d.join d').tau = d.tau ∧
    (d.join d').ode.map (Expr.eval ops ρ) = (d.ode ++ d'.ode).map (Expr.eval ops ρ') ∧
    (d.join d').alg.map (Expr.eval ops ρ) = (d.alg ++ d'.alg).map (Expr.eval ops ρ') := by
  have hid : ∀ (a b : Sym) (l : List Sym), (∀ s ∈ l, s ≠ a) → Dae.substSyms a b l = l := by
    intro a b l hl
    unfold Dae.substSyms
    conv_rhs => rw [← List.map_id l]
    exact List.map_congr_left fun s hs => by simp [hl s hs]
  have hx : ∀ s ∈ d.x ++ d'.x, s ≠ d'.t ∧ s ≠ tau' := fun s hs => hvars s (by
    simp only [List.mem_append] at hs ⊢; tauto)
  have hy : ∀ s ∈ d.y ++ d'.y, s ≠ d'.t ∧ s ≠ tau' := fun s hs => hvars s (by
    simp only [List.mem_append] at hs ⊢; tauto)
  have hp : ∀ s ∈ d.p ++ d'.p, s ≠ d'.t ∧ s ≠ tau' := fun s hs => hvars s (by
    simp only [List.mem_append] at hs ⊢; tauto)
  have hev : ∀ e : Expr, ((e.subst [d'.t] [.sym d.t]).subst [tau'] [.sym tau]).eval ops ρ =
      e.eval ops ρ' := by
    intro e
    rw [Expr.eval_subst ops ρ (fun s => if s = tau' then ρ tau else ρ s) [tau'] [.sym tau]
      (by simp) (by simp) (by
        intro i h₁ h₂
        have : i = 0 := by simpa using h₁
        subst this; simp [Expr.eval]) (by
        intro s hs
        have : s ≠ tau' := by simpa using hs
        simp [this])]
    refine Expr.eval_subst ops _ ρ' [d'.t] [.sym d.t] (by simp) (by simp) ?_ ?_ e
    · intro i h₁ h₂
      have : i = 0 := by simpa using h₁
      subst this
      simp [Expr.eval, hne, hρ.1]
    · intro s hs
      have hs' : s ≠ d'.t := by simpa using hs
      by_cases h : s = tau'
      · subst h; simp [hρ.2.1]
      · simp [h, hρ.2.2 s hs' h]
  have hj : d.join d' = { d with
      x := d.x ++ d'.x
      y := d.y ++ d'.y
      p := d.p ++ d'.p
      ode := (d.ode ++ d'.ode).map fun e => (e.subst [d'.t] [.sym d.t]).subst [tau'] [.sym tau]
      alg := (d.alg ++ d'.alg).map fun e =>
        (e.subst [d'.t] [.sym d.t]).subst [tau'] [.sym tau] } := by
    simp only [Dae.join, Dae.joinTau, htau, htau', Dae.substituteVariable, List.map_map]
    rw [hid d'.t d.t _ fun s hs => (hx s hs).1, hid d'.t d.t _ fun s hs => (hy s hs).1,
      hid d'.t d.t _ fun s hs => (hp s hs).1, hid tau' tau _ fun s hs => (hx s hs).2,
      hid tau' tau _ fun s hs => (hy s hs).2, hid tau' tau _ fun s hs => (hp s hs).2]
    rfl
  rw [hj]
  refine ⟨rfl, rfl, rfl, rfl, rfl, ?_, ?_⟩
  · rw [List.map_map]; exact List.map_congr_left fun e _ => hev e
  · rw [List.map_map]; exact List.map_congr_left fun e _ => hev e

/-- C88. After converting element time to time the system no longer depends on element time (so
`simulate` accepts it), and its equations have the value of the original ones at the element time of
the given interval. -/
theorem C88_convert {K : Type u} [Field K] [CharZero K] (ops : Expr.Ops K) (d : Dae) (tau : Sym)
    (htau : d.tau = some tau) (hne : d.t ≠ tau) (tk tkp1 : Rat) (ρ ρ' : Sym → K)
    (hρ : ρ' tau = (ρ d.t - (tk : K)) / ((tkp1 : K) - (tk : K)) ∧ ∀ s, s ≠ tau → ρ' s = ρ s) :
    ∃ d', d.convertFromTau tk tkp1 = .ok d' ∧ d'.dependsOn [tau] = false ∧
      d'.ode.map (Expr.eval ops ρ) = d.ode.map (Expr.eval ops ρ') ∧
      d'.alg.map (Expr.eval ops ρ) = d.alg.map (Expr.eval ops ρ') := by
  have hdep : ∀ e : Expr, (convertTauToTime e d.t tau tk tkp1).dependsOn [tau] = false := by
    intro e
    simp only [Expr.dependsOn, List.any_cons, List.any_nil, Bool.or_false]
    rw [Bool.eq_false_iff]
    intro h
    simp only [List.contains_iff_mem] at h
    rcases Expr.mem_syms_subst [tau] _ (by simp) e tau h with ⟨-, h'⟩ | ⟨r, hr, h'⟩
    · simp at h'
    · simp only [List.mem_singleton] at hr
      subst hr
      simp only [Expr.syms, List.append_nil, List.mem_singleton] at h'
      exact hne h'.symm
  have hev : ∀ e : Expr, (convertTauToTime e d.t tau tk tkp1).eval ops ρ = e.eval ops ρ' := by
    intro e
    rw [C05_tau_to_time_value]
    apply Expr.eval_congr
    intro s _
    by_cases h : s = tau
    · subst h; simp [hρ.1]
    · simp [h, hρ.2 s h]
  refine ⟨_, by rw [Dae.convertFromTau, htau], ?_, ?_, ?_⟩
  · rw [Dae.dependsOn, List.any_eq_false]
    intro e he
    simp only [← List.map_append, List.mem_map] at he
    obtain ⟨e₀, -, rfl⟩ := he
    simp [hdep]
  · rw [List.map_map]; exact List.map_congr_left fun e _ => hev e
  · rw [List.map_map]; exact List.map_congr_left fun e _ => hev e

/-- C88. Without an element time the conversion raises. -/
theorem C88_convert_needs_tau (d : Dae) (h : d.tau = none) (tk tkp1 : Rat) :
    d.convertFromTau tk tkp1 = .error .attributeError := by simp [Dae.convertFromTau, h]

/-- Two systems with their own time: joining gives one system in the first one's time. -/
example : (Dae.join ⟨[2], [.add (.sym 2) (.sym 0)], 0, [], [3], [], some 1⟩
    ⟨[12], [.mul (.sym 10) (.sym 11)], 10, [14], [], [.sym 14], some 11⟩) =
    ⟨[2, 12], [.add (.sym 2) (.sym 0), .mul (.sym 0) (.sym 1)], 0, [14], [3], [.sym 14],
      some 1⟩ := by decide +kernel

end Verif
