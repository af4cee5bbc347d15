import Verif.Props.OcpCost
/-!
# C193: using a dictionary of weights for several problems
-/
namespace Verif
open Spec

/-- The dictionary after a successful call is the given one with the references filled in. -/
theorem createQuadraticCost_dict (par par' : QuadPar) (o o' : Ocp)
    (h : o.createQuadraticCost par = (.ok par', o')) : par' = Ocp.withRefs par o := by
  unfold Ocp.createQuadraticCost at h
  simp only [Py.bind_eq, Py.modify_bind, Py.get_bind] at h
  obtain ⟨l₁, s₁, -, h⟩ := Py.bind_eq_ok.mp h
  simp only [Py.modify_bind] at h
  obtain ⟨l₂, s₂, -, h⟩ := Py.bind_eq_ok.mp h
  simp only [Py.modify_bind] at h
  obtain ⟨v₁, s₃, -, h⟩ := Py.bind_eq_ok.mp h
  simp only [Py.modify_bind] at h
  obtain ⟨v₂, s₄, -, h⟩ := Py.bind_eq_ok.mp h
  simp only [Py.modify_bind] at h
  exact (Except.ok.inj (congrArg Prod.fst h)).symm

/-- C193. What the call leaves in the caller's dictionary: the weights and the given references
stay, an absent reference becomes zeros of the sizes of the problem. -/
theorem C193_dictionary (par par' : QuadPar) (o o' : Ocp)
    (h : o.createQuadraticCost par = (.ok par', o')) :
    par'.Q = par.Q ∧ par'.R = par.R ∧ par'.Qv = par.Qv ∧ par'.Rv = par.Rv ∧
    par'.xRef = some (par.xRef.getD (List.replicate o.model.x.length 0)) ∧
    par'.uRef = some (par.uRef.getD (List.replicate o.model.u.length 0)) := by
  rw [createQuadraticCost_dict par par' o o' h]
  exact ⟨rfl, rfl, rfl, rfl, rfl, rfl⟩

/-- C193. A dictionary without a reference for the states is not what it was. -/
theorem C193_unchanged_fails (par par' : QuadPar) (o o' : Ocp) (hx : par.xRef = none)
    (h : o.createQuadraticCost par = (.ok par', o')) : par' ≠ par := by
  intro he
  have := (C193_dictionary par par' o o' h).2.2.2.2.1
  rw [he, hx] at this
  cases this

/-- C193. For a problem with as many states and inputs the dictionary gives exactly what it would
have given before: the same costs, the same error and the same dictionary. The same holds for any
problem when the references were given. -/
theorem C193_reuse_partial (par par' : QuadPar) (o o' b : Ocp)
    (h : o.createQuadraticCost par = (.ok par', o'))
    (hx : par.xRef ≠ none ∨ b.model.x.length = o.model.x.length)
    (hu : par.uRef ≠ none ∨ b.model.u.length = o.model.u.length) :
    b.createQuadraticCost par' = b.createQuadraticCost par := by
  have e := createQuadraticCost_dict par par' o o' h
  have ex : par'.xRef.getD (List.replicate b.model.x.length 0) =
      par.xRef.getD (List.replicate b.model.x.length 0) := by
    rw [e]
    cases hr : par.xRef with
    | none =>
      rw [hx.resolve_left (fun h => h hr)]
      simp [Ocp.withRefs, hr]
    | some r => simp [Ocp.withRefs, hr]
  have eu : par'.uRef.getD (List.replicate b.model.u.length 0) =
      par.uRef.getD (List.replicate b.model.u.length 0) := by
    rw [e]
    cases hr : par.uRef with
    | none =>
      rw [hu.resolve_left (fun h => h hr)]
      simp [Ocp.withRefs, hr]
    | some r => simp [Ocp.withRefs, hr]
  have eQ : par'.Q = par.Q := by rw [e]; rfl
  have eR : par'.R = par.R := by rw [e]; rfl
  have eQv : par'.Qv = par.Qv := by rw [e]; rfl
  have eRv : par'.Rv = par.Rv := by rw [e]; rfl
  have ew : Ocp.withRefs par' b = Ocp.withRefs par b := by
    simp only [Ocp.withRefs, ex, eu, eQ, eR, eQv, eRv]
  unfold Ocp.createQuadraticCost
  simp only [Py.bind_eq, Py.modify_bind, Py.get_bind, ex, eu, eQ, eR, eQv, eRv]
  have ew' : Ocp.withRefs par' { b with L := .const 0, V := .const 0 } =
      Ocp.withRefs par { b with L := .const 0, V := .const 0 } := ew
  rw [ew']

/-- A number as weight, or none: it fits every problem. -/
def Spec.NumberWeight (W : Option Weight) : Prop := ∀ M, W = some M → M.rows = 1 ∧ M.cols = 1

/-- C193. Weights given as numbers, without references: they are accepted by every problem, but
after the call for a problem with two or more states, a problem with another number of states (two
or more) rejects the same dictionary. -/
theorem C193_fails (par par' : QuadPar) (o o' b : Ocp) (hx : par.xRef = none)
    (hu : par.uRef = none) (W : Weight) (hQ : par.Q = some W) (h1 : NumberWeight par.Q)
    (h2 : NumberWeight par.R) (h3 : NumberWeight par.Qv) (h4 : NumberWeight par.Rv)
    (h : o.createQuadraticCost par = (.ok par', o')) (hn : o.model.x.length ≠ b.model.x.length)
    (ho : 2 ≤ o.model.x.length) (hb : 2 ≤ b.model.x.length) :
    (∃ q b', b.createQuadraticCost par = (.ok q, b')) ∧
    (b.createQuadraticCost par').1 = .error .runtimeError := by
  have nofit : ∀ n, RefFits n none := fun n r hr => nomatch hr
  have wfit : ∀ n V, NumberWeight V → WeightFits n V := fun n V hV M hM => Or.inr (hV M hM)
  constructor
  · obtain ⟨b', q, hb', -⟩ := C40_cost (K := Rat) par b (hx ▸ nofit _) (hu ▸ nofit _)
      (wfit _ _ h1) (wfit _ _ h2) (wfit _ _ h3) (wfit _ _ h4)
    exact ⟨q, b', hb'⟩
  · obtain ⟨dQ, -, -, -, dx, -⟩ := C193_dictionary par par' o o' h
    have ex : par'.xRef.getD (List.replicate b.model.x.length 0) =
        List.replicate o.model.x.length 0 := by rw [dx, hx]; rfl
    have em : minusRef b.model.x (List.replicate o.model.x.length 0) = .error .runtimeError := by
      unfold minusRef vecSub
      rw [if_neg (by simpa using fun h => hn h.symm)]
      obtain ⟨m, hm⟩ : ∃ m, o.model.x.length = m + 2 := ⟨_, (Nat.sub_add_cancel ho).symm⟩
      rw [hm]
      match b.model.x, hb with
      | [], hb => simp at hb
      | [_], hb => simp at hb
      | _ :: _ :: _, _ => rfl
    have ea : Ocp.addWeighted par'.Q (minusRef b.model.x
        (par'.xRef.getD (List.replicate b.model.x.length 0))) (.const 0) = .error .runtimeError := by
      rw [dQ, hQ, ex, em]
      rfl
    unfold Ocp.createQuadraticCost
    simp only [Py.bind_eq, Py.modify_bind, Py.get_bind, ea]
    rfl

/-- The weights `Q = 1`, `R = 5`. -/
def Example.numberWeights : QuadPar where
  Q := some ⟨1, 1, fun _ _ => 1⟩
  R := some ⟨1, 1, fun _ _ => 5⟩

/-- A problem with three states and an input. -/
def Example.threeStates : Ocp := Ocp.new { SysModel.new 0 1 with
  x := [2, 3, 7]
  x0 := [4, 5, 8]
  ode := [(2, some (.sym 3)), (3, some (.sym 6)), (7, some (.sym 2))]
  u := [6]
  uExpr := [.sym 6]
  uPar := [6] } (some [0, 0, 0]) 0 1

/-- The hypotheses are met: the weights are accepted by a problem with two states; the problem with
three states then rejects them. -/
example : ∃ par' o', Example.twoStates.createQuadraticCost Example.numberWeights = (.ok par', o') ∧
    (∃ q b', Example.threeStates.createQuadraticCost Example.numberWeights = (.ok q, b')) ∧
    (Example.threeStates.createQuadraticCost par').1 = .error .runtimeError ∧
    Example.twoStates.createQuadraticCost par' =
      Example.twoStates.createQuadraticCost Example.numberWeights := by
  have nw : ∀ c : Rat, NumberWeight (some ⟨1, 1, fun _ _ => c⟩) := by
    intro c M h
    cases h
    exact ⟨rfl, rfl⟩
  have no : NumberWeight none := fun M h => nomatch h
  have fit : ∀ n V, NumberWeight V → WeightFits n V := fun n V hV M hM => Or.inr (hV M hM)
  obtain ⟨o', par', h, -⟩ := C40_cost (K := Rat) Example.numberWeights Example.twoStates
    (fun r h => nomatch h) (fun r h => nomatch h) (fit _ _ (nw 1)) (fit _ _ (nw 5))
    (fit _ _ no) (fit _ _ no)
  obtain ⟨h₁, h₂⟩ := C193_fails Example.numberWeights par' Example.twoStates o'
    Example.threeStates rfl rfl _ rfl (nw 1) (nw 5) no no h (by decide) (by decide) (by decide)
  exact ⟨par', o', h, h₁, h₂, C193_reuse_partial _ _ _ _ _ h (Or.inr rfl) (Or.inr rfl)⟩

end Verif
