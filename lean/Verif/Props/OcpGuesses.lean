import Verif.Props.OcpSizes
import Verif.Props.OcpBounds
/-!
# C32: guesses have the size of their variables
-/
namespace Verif
open Spec

/-- If there is a guess for the inputs, it has one entry per input. -/
def Spec.InputsGuessed (o : Ocp) : Prop := ∀ g, o.uGuess = some g → g.length = o.model.u.length

/-- If there is a guess for the algebraic variables, it has one entry per variable. -/
def Spec.AlgebraicGuessed (o : Ocp) : Prop := ∀ g, o.yGuess = some g → g.length = o.model.y.length

/-- `Spec.Admissible`, and merged problems have input guesses of the right size. -/
def Spec.AdmissibleInputs (c : Ocp.Call) (o : Ocp) : Prop :=
  Admissible c o ∧ ∀ ks, c = .merge ks → ∀ k ∈ ks, InputsGuessed k

/-- `Spec.AdmissibleInputs`, merged problems have algebraic guesses of the right size, a guess given
with algebraic variables has one entry for each, and inputs are only connected by an equation when
there is a guess for them or none for the algebraic variables. -/
def Spec.AdmissibleGuesses (c : Ocp.Call) (o : Ocp) : Prop :=
  AdmissibleInputs c o ∧ (∀ ks, c = .merge ks → ∀ k ∈ ks, AlgebraicGuessed k) ∧
  (∀ var alg lo hi g, c = .includeAlgebraic var alg lo hi (some g) → g.length = var.length) ∧
  ∀ u y, c = .connect u y false → o.yGuess.isSome → o.uGuess.isSome

namespace Ocp

/-- Neither the guesses nor the variables they are for change. -/
def SameGuesses (o o' : Ocp) : Prop :=
  o'.uGuess = o.uGuess ∧ o'.yGuess = o.yGuess ∧ o'.model.u = o.model.u ∧ o'.model.y = o.model.y

theorem SameGuesses.inputs {o o' : Ocp} (h : SameGuesses o o') (hi : InputsGuessed o) :
    InputsGuessed o' := by
  intro g hg
  rw [h.1] at hg
  rw [h.2.2.1]
  exact hi g hg

theorem SameGuesses.algebraic {o o' : Ocp} (h : SameGuesses o o') (hi : AlgebraicGuessed o) :
    AlgebraicGuessed o' := by
  intro g hg
  rw [h.2.1] at hg
  rw [h.2.2.2]
  exact hi g hg

theorem SameGuesses.trans {o o' o'' : Ocp} (h : SameGuesses o o') (h' : SameGuesses o' o'') :
    SameGuesses o o'' :=
  ⟨h'.1.trans h.1, h'.2.1.trans h.2.1, h'.2.2.1.trans h.2.2.1, h'.2.2.2.trans h.2.2.2⟩

theorem onModel_same {α : Type} {c : Py SysModel α} {a : α} {o o' : Ocp}
    (hc : ∀ X Y U, Py.Always (SysModel.HasVars X Y U) c) (hr : onModel c o = (.ok a, o')) :
    SameGuesses o o' := by
  have := SysModel.vars_of_always hc o.model
  obtain ⟨m', hm, rfl⟩ := onModel_ok.mp hr
  rw [hm] at this
  exact ⟨rfl, rfl, this.2.2, this.2.1⟩

theorem includeState_same {var ode x0 lo hi hI xs s f} {o o' : Ocp}
    (hr : includeState var ode x0 lo hi hI xs s f o = (.ok (), o')) : SameGuesses o o' := by
  obtain ⟨-, lo, hi, m', hh, -, -, -, -, -, h₆, -, rfl⟩ := includeState_ok_iff.mp hr
  obtain ⟨-, -, -, -, rfl⟩ := (SysModel.includeState_ok_iff ..).mp h₆
  exact ⟨rfl, rfl, rfl, rfl⟩

theorem replaceVariable_same {v w} {o o' : Ocp} (hr : replaceVariable v w o = (.ok (), o')) :
    SameGuesses o o' := by
  rw [replaceVariable_run] at hr
  split at hr
  · simp at hr
  · simp only [Prod.mk.injEq, true_and] at hr
    subst hr
    have := SysModel.vars_of_always (c := SysModel.replaceVariable v w)
      (fun X Y U => SysModel.v_replaceVariable) o.model
    exact ⟨rfl, rfl, this.2.2, this.2.1⟩

/-- The calls that change neither inputs nor algebraic variables. -/
def Call.other : Call → Bool
  | .includeAlgebraic .. | .includeControl .. | .removeAlgebraic .. | .removeControl ..
  | .merge .. | .connect .. => false
  | _ => true

theorem call_same (c : Call) (hc : c.other = true) (o o' : Ocp) (hr : c.run o = (.ok (), o')) :
    SameGuesses o o' := by
  cases c with
  | includeState => exact includeState_same hr
  | includeParameter v => exact onModel_same (fun _ _ _ => SysModel.v_includeParameter) hr
  | includeTheta v => exact onModel_same (fun _ _ _ => SysModel.v_includeTheta) hr
  | setParameterOpt =>
    obtain ⟨-, -, rfl⟩ := setParameterOpt_ok_iff.mp hr; exact ⟨rfl, rfl, rfl, rfl⟩
  | setThetaOpt => obtain ⟨-, -, rfl⟩ := setThetaOpt_ok_iff.mp hr; exact ⟨rfl, rfl, rfl, rfl⟩
  | includeParameterOpt v lo hi =>
    obtain ⟨_, o₁, h₁, h₂⟩ := Py.bind_eq_ok.mp
      (show Py.bind (onModel (SysModel.includeParameter v)) (fun _ => setParameterOpt v lo hi) o = _
        from hr)
    obtain ⟨-, -, rfl⟩ := setParameterOpt_ok_iff.mp h₂
    exact (onModel_same (fun _ _ _ => SysModel.v_includeParameter) h₁).trans ⟨rfl, rfl, rfl, rfl⟩
  | includeThetaOpt v lo hi =>
    obtain ⟨_, o₁, h₁, h₂⟩ := Py.bind_eq_ok.mp
      (show Py.bind (onModel (SysModel.includeTheta v)) (fun _ => setThetaOpt v lo hi) o = _
        from hr)
    obtain ⟨-, -, rfl⟩ := setThetaOpt_ok_iff.mp h₂
    exact (onModel_same (fun _ _ _ => SysModel.v_includeTheta) h₁).trans ⟨rfl, rfl, rfl, rfl⟩
  | includeInitialEquality => cases hr; exact ⟨rfl, rfl, rfl, rfl⟩
  | includeFinalEquality => cases hr; exact ⟨rfl, rfl, rfl, rfl⟩
  | includeTimeInequality => cases hr; exact ⟨rfl, rfl, rfl, rfl⟩
  | includeTimeEquality => cases hr; exact ⟨rfl, rfl, rfl, rfl⟩
  | includeEquality => cases hr; exact ⟨rfl, rfl, rfl, rfl⟩
  | includeSystemEquations ode alg =>
    exact onModel_same (fun _ _ _ => SysModel.v_includeEquations) hr
  | replaceVariable => exact replaceVariable_same hr
  | parametrizeControl u e up =>
    obtain ⟨m', hm, hs⟩ := parametrizeControl_ok_iff.mp hr
    exact (onModel_same (fun _ _ _ => SysModel.v_parametrizeControl)
      (onModel_ok.mpr ⟨m', hm, rfl⟩)).trans (replaceVariable_same hs)
  | createCostState xc f =>
    obtain ⟨o₁, h₁, rfl⟩ := createCostState_ok_iff.mp hr
    exact (includeState_same h₁).trans ⟨rfl, rfl, rfl, rfl⟩
  | includeAlgebraic => simp [Call.other] at hc
  | includeControl => simp [Call.other] at hc
  | removeAlgebraic => simp [Call.other] at hc
  | removeControl => simp [Call.other] at hc
  | merge => simp [Call.other] at hc
  | connect => simp [Call.other] at hc

theorem mergeGuess_length {n n' : Nat} {a b : Option (List Rat)} {g : List Rat}
    (ha : ∀ g, a = some g → g.length = n) (hb : ∀ g, b = some g → g.length = n')
    (h : mergeGuess n a b = some g) : g.length = n + n' := by
  unfold mergeGuess at h
  split at h
  · split at h
    · next h0 => cases h; rw [hb _ rfl, h0, Nat.zero_add]
    · simp at h
  · cases h; rw [List.length_append, ha _ rfl, hb _ rfl]
  · simp at h

theorem removeGuess_length {v l : List Sym} {a g' : Option (List Rat)} {g : List Rat}
    (ha : ∀ g, a = some g → g.length = l.length)
    (h : removeGuess ((findIndices v l).map Int.ofNat) a = .ok g') (hg : g' = some g) :
    g.length = (l.filter fun s => decide (s ∉ v)).length := by
  cases a with
  | none => subst hg; simp [removeGuess] at h
  | some a =>
    rw [removeGuess_find v l a (ha a rfl)] at h
    subst hg
    cases h
    exact kept_length v l a (ha a rfl)

theorem mergeOne_guesses {k o o' : Ocp} (hr : mergeOne k o = (.ok (), o')) :
    (InputsGuessed o → InputsGuessed k → InputsGuessed o') ∧
    (AlgebraicGuessed o → AlgebraicGuessed k → AlgebraicGuessed o') := by
  obtain ⟨-, -, m', hm, rfl⟩ := mergeOne_ok_iff.mp hr
  obtain ⟨hx, hy, hu⟩ := SysModel.merge_vars _ _ _ hm
  constructor <;> intro h hk g hg
  · simp only [mergeAttributes] at hg
    rw [hu, List.length_append]
    exact mergeGuess_length h hk hg
  · simp only [mergeAttributes] at hg
    rw [hy, List.length_append]
    exact mergeGuess_length h hk hg

theorem call_inputs (c : Call) (o o' : Ocp) (hs : Sized o) (ha : AdmissibleInputs c o)
    (h : InputsGuessed o) (hr : c.run o = (.ok (), o')) : InputsGuessed o' := by
  by_cases hc : c.other = true
  · exact (call_same c hc o o' hr).inputs h
  cases c with
  | includeAlgebraic =>
    obtain ⟨-, -, rfl⟩ := includeAlgebraic_ok_iff.mp hr
    exact h
  | includeControl var lo hi dlo dhi g =>
    obtain ⟨h₀, -, -, -, -, h₅, rfl⟩ := includeControl_ok_iff.mp hr
    intro g' hg'
    simp only [controlGuess] at hg'
    simp only [List.length_append]
    split at hg'
    · next hgn => rw [h _ hg'] ; simp_all
    · next g₁ hgs =>
      simp only [Option.any_some, decide_eq_false_iff_not, ne_eq, not_not] at h₅
      split at hg'
      · next h0 => cases hg'; omega
      · split at hg'
        · simp at hg'
        · next g₂ hg₂ => cases hg'; rw [List.length_append, h _ hg₂, h₅]
  | removeAlgebraic v eq =>
    obtain ⟨g, m', -, hm, rfl⟩ := (removeAlgebraic_ok_iff hs.yMax hs.yMin).mp hr
    obtain ⟨-, -, hu, -⟩ := SysModel.removeAlgebraic_ok _ _ _ _ hm
    intro g hg
    rw [hu]
    exact h g hg
  | removeControl v =>
    obtain ⟨g, m', hg, hm, rfl⟩ := (removeControl_ok_iff hs.uMax hs.uMin hs.duMax hs.duMin).mp hr
    obtain ⟨-, -, hu⟩ := SysModel.removeControl_vars _ _ _ hm
    intro g' hg'
    rw [hu]
    exact removeGuess_length h hg hg'
  | merge ks =>
    have : Py.Triple InputsGuessed (Py.forEach ks mergeOne) InputsGuessed :=
      Py.Triple.forEach ks mergeOne fun k hk o a o' ho ho' =>
        (mergeOne_guesses ho').1 ho (ha.2 ks rfl k hk)
    exact this o () o' h hr
  | connect u y r =>
    obtain ⟨-, m', gy, gu, hm, -, hg, rfl⟩ :=
      (connect_ok_iff hs.uMax hs.uMin hs.duMax hs.duMin).mp hr
    obtain ⟨-, -, hv⟩ := SysModel.connect_vars _ _ _ _ _ hm
    intro g' hg'
    rw [hv]
    exact removeGuess_length h hg hg'
  | _ => exact absurd rfl hc

theorem call_algebraic (c : Call) (o o' : Ocp) (hs : Sized o) (ha : AdmissibleGuesses c o)
    (hi : InputsGuessed o) (h : AlgebraicGuessed o) (hr : c.run o = (.ok (), o')) :
    AlgebraicGuessed o' := by
  by_cases hc : c.other = true
  · exact (call_same c hc o o' hr).algebraic h
  cases c with
  | includeAlgebraic var alg lo hi g =>
    obtain ⟨-, -, rfl⟩ := includeAlgebraic_ok_iff.mp hr
    intro g' hg'
    simp only [extendGuess] at hg'
    simp only [List.length_append]
    split at hg'
    · simp at hg'
    · next g₀ h₀ =>
      cases hg'
      rw [List.length_append, h _ h₀]
      cases g with
      | none => simp
      | some g => simp [ha.2.2.1 _ _ _ _ _ rfl]
  | includeControl var lo hi dlo dhi g =>
    obtain ⟨-, -, -, -, -, -, rfl⟩ := includeControl_ok_iff.mp hr
    exact h
  | removeAlgebraic v eq =>
    obtain ⟨g, m', hg, hm, rfl⟩ := (removeAlgebraic_ok_iff hs.yMax hs.yMin).mp hr
    obtain ⟨-, hy, -, -⟩ := SysModel.removeAlgebraic_ok _ _ _ _ hm
    intro g' hg'
    rw [hy]
    refine removeGuess_length h (g' := g) ?_ hg'
    rw [← hg]
    unfold removeGuess
    simp only [removeByIndices_reverse]
  | removeControl v =>
    obtain ⟨g, m', hg, hm, rfl⟩ := (removeControl_ok_iff hs.uMax hs.uMin hs.duMax hs.duMin).mp hr
    obtain ⟨-, hy, -⟩ := SysModel.removeControl_vars _ _ _ hm
    intro g' hg'
    rw [hy]
    exact h g' hg'
  | merge ks =>
    have : Py.Triple AlgebraicGuessed (Py.forEach ks mergeOne) AlgebraicGuessed :=
      Py.Triple.forEach ks mergeOne fun k hk o a o' ho ho' =>
        (mergeOne_guesses ho').2 ho (ha.2.1 ks rfl k hk)
    exact this o () o' h hr
  | connect u y r =>
    obtain ⟨-, m', gy, gu, hm, hgy, -, rfl⟩ :=
      (connect_ok_iff hs.uMax hs.uMin hs.duMax hs.duMin).mp hr
    obtain ⟨-, hy, -⟩ := SysModel.connect_vars _ _ _ _ _ hm
    intro g' hg'
    rw [hy]
    cases r with
    | true =>
      simp only [if_true, Except.ok.injEq] at hgy ⊢
      exact h g' (hgy.trans hg')
    | false =>
      simp only [Bool.false_eq_true, if_false, List.length_append] at hgy ⊢
      simp only at hg'
      cases hy₀ : o.yGuess with
      | none =>
        rw [hy₀] at hgy
        simp only [connectGuess, Except.ok.injEq] at hgy
        rw [hg'] at hgy
        simp at hgy
      | some g₀ =>
        have hsome := ha.2.2.2 u y rfl (by rw [hy₀]; rfl)
        obtain ⟨g₁, hu₀⟩ := Option.isSome_iff_exists.mp hsome
        have hl := hi _ hu₀
        rw [hy₀, hu₀] at hgy
        simp only [connectGuess, gather_find u _ g₁ hl] at hgy
        cases hgy.trans (congrArg Except.ok hg')
        rw [List.length_append, h _ hy₀,
          gathered_length u _ _ hl ha.1.1.1 ha.1.1.2]
  | _ => exact absurd rfl hc

end Ocp

/-- C32, proved part. A guess for the inputs has one entry per input after every history of
successful calls. -/
theorem C32_inputs_partial (calls : List Ocp.Call) (o o' : Ocp) (hs : Sized o)
    (h : InputsGuessed o) (ha : Follows Ocp.Call.run AdmissibleInputs calls o)
    (hr : Ocp.runCalls calls o = (.ok (), o')) : InputsGuessed o' := by
  induction calls generalizing o with
  | nil => cases hr; exact h
  | cons c cs ih =>
    obtain ⟨_, o₁, h₁, h₂⟩ := Py.bind_eq_ok.mp hr
    have e := congrArg Prod.snd h₁
    simp only at e
    exact ih o₁ (Ocp.call_sized c o o₁ hs ha.1.1 h₁) (Ocp.call_inputs c o o₁ hs ha.1 h h₁)
      (e ▸ ha.2) h₂

/-- C32, proved part. A guess for the algebraic variables has one entry per variable after every
history of successful calls in which guesses given for new variables have their size and inputs are
connected only when their guess is known too. -/
theorem C32_algebraic_partial (calls : List Ocp.Call) (o o' : Ocp) (hs : Sized o)
    (hi : InputsGuessed o) (h : AlgebraicGuessed o)
    (ha : Follows Ocp.Call.run AdmissibleGuesses calls o)
    (hr : Ocp.runCalls calls o = (.ok (), o')) : AlgebraicGuessed o' := by
  induction calls generalizing o with
  | nil => cases hr; exact h
  | cons c cs ih =>
    obtain ⟨_, o₁, h₁, h₂⟩ := Py.bind_eq_ok.mp hr
    have e := congrArg Prod.snd h₁
    simp only at e
    exact ih o₁ (Ocp.call_sized c o o₁ hs ha.1.1.1 h₁)
      (Ocp.call_inputs c o o₁ hs ha.1.1 hi h₁)
      (Ocp.call_algebraic c o o₁ hs ha.1 hi h h₁) (e ▸ ha.2) h₂

/-- C32, proved part. A guess given with inputs is kept when there were none before, or when they all
had a guess. -/
theorem C32_kept_partial (var : List Sym) (lo hi dlo dhi : Option (List XRat)) (g : List Rat)
    (o o' : Ocp) (hr : o.includeControl var lo hi dlo dhi (some g) = (.ok (), o')) :
    (o.model.u = [] → o'.uGuess = some g) ∧
    ∀ g₀, o.model.u ≠ [] → o.uGuess = some g₀ → o'.uGuess = some (g₀ ++ g) := by
  obtain ⟨-, -, -, -, -, -, rfl⟩ := Ocp.includeControl_ok_iff.mp hr
  constructor
  · intro h; simp [Ocp.controlGuess, h]
  · intro g₀ h h₀; simp [Ocp.controlGuess, h, h₀]

/-- C32 fails. The guess given with the first algebraic variables of a problem is always lost: the
guess can only be started by assigning it. -/
theorem C32_algebraic_lost_fails (var : List Sym) (alg : Option (List Expr))
    (lo hi : Option (List XRat)) (g : List Rat) (o o' : Ocp) (h : o.yGuess = none)
    (hr : o.includeAlgebraic var alg lo hi (some g) = (.ok (), o')) : o'.yGuess = none := by
  obtain ⟨-, -, rfl⟩ := Ocp.includeAlgebraic_ok_iff.mp hr
  simp [Ocp.extendGuess, h]

/-- C32 fails. The guess given with inputs is lost when the inputs already there have none. -/
theorem C32_inputs_lost_fails (var : List Sym) (lo hi dlo dhi : Option (List XRat)) (g : List Rat)
    (o o' : Ocp) (h : o.uGuess = none) (hu : o.model.u ≠ [])
    (hr : o.includeControl var lo hi dlo dhi (some g) = (.ok (), o')) : o'.uGuess = none := by
  obtain ⟨-, -, -, -, -, -, rfl⟩ := Ocp.includeControl_ok_iff.mp hr
  simp [Ocp.controlGuess, h, hu]

/-- C32 fails. A guess of the wrong size for algebraic variables is accepted. -/
theorem C32_wrong_size_fails : ¬ ∀ (var : List Sym) (g : List Rat) (o o' : Ocp), Sized o →
    AlgebraicGuessed o → o.includeAlgebraic var none none none (some g) = (.ok (), o') →
    AlgebraicGuessed o' := by
  intro h
  have := h [31] [1, 2] Example.bounded
    (Example.bounded.includeAlgebraic [31] none none none (some [1, 2])).2
    (by constructor <;> decide +kernel)
    (by intro g hg; cases hg; decide +kernel) (Prod.ext (by decide +kernel) rfl)
    [8, 1, 2] (by decide +kernel)
  revert this
  decide +kernel

/-- C32 fails. Connecting inputs without a guess leaves the guess of the algebraic variables too
short. -/
theorem C32_connect_fails : ¬ ∀ (u : List Sym) (y : List Expr) (o o' : Ocp), Sized o →
    InputsGuessed o → AlgebraicGuessed o → o.model.u.Nodup → (∀ v ∈ u, v ∈ o.model.u) →
    o.connect u y false = (.ok (), o') → AlgebraicGuessed o' := by
  intro h
  have := h [20] [.sym 30] { Example.bounded with uGuess := none }
    (Ocp.connect [20] [.sym 30] false { Example.bounded with uGuess := none }).2
    (by constructor <;> decide +kernel) (by intro g hg; cases hg)
    (by intro g hg; cases hg; decide +kernel) (by decide +kernel) (by decide +kernel)
    (Prod.ext (by decide +kernel) rfl) [8] (by decide +kernel)
  revert this
  decide +kernel

/-- The hypotheses are met, and guesses do grow and move. -/
example :
    let calls : List Ocp.Call :=
      [.includeAlgebraic [31, 32] none none none (some [1, 2]),
       .includeControl [23] none none none none (some [3]),
       .connect [20] [.sym 31] false, .removeAlgebraic [31] none, .removeControl [21]]
    Follows Ocp.Call.run AdmissibleGuesses calls Example.bounded ∧
      (Ocp.runCalls calls Example.bounded).1 = .ok () ∧
      (Ocp.runCalls calls Example.bounded).2.yGuess = some [8, 2, 5] ∧
      (Ocp.runCalls calls Example.bounded).2.uGuess = some [7, 3] ∧
      (Ocp.runCalls calls Example.bounded).2.model.y = [30, 32, 20] ∧
      (Ocp.runCalls calls Example.bounded).2.model.u = [22, 23] := by
  refine ⟨?_, by decide +kernel, by decide +kernel, by decide +kernel, by decide +kernel,
    by decide +kernel⟩
  simp only [Follows, AdmissibleGuesses, AdmissibleInputs, Admissible, true_and, and_true,
    reduceCtorEq, false_imp_iff, implies_true, Ocp.Call.includeAlgebraic.injEq,
    Ocp.Call.connect.injEq, Option.some.injEq]
  refine ⟨?_, by decide +kernel, ?_⟩
  · rintro var _ _ _ g ⟨rfl, -, -, -, rfl⟩
    rfl
  · intro _ _ _ _
    decide +kernel

end Verif
