import Verif.Lemmas.ShootIndirect
import Verif.Props.TranscribeShooting
import Verif.Props.TranscribeIndirect
/-!
# C185: an indirect method with multiple shooting gives Pontryagin's conditions in continuous time
-/
namespace Verif
open Spec Indirect Set

/-- C185. A problem is prepared by an indirect method and discretised by multiple shooting, with an
integrator that is exact. `X el` is, during element `el`, the trajectory that starts at the states and
adjoints of the decision vector: it satisfies the dynamics, the algebraic equations, the equations of
the adjoints and of the multipliers, and at every time the controls minimise the Hamiltonian within
their bounds. Then the program has the objective zero, and its constraints hold at the decision vector
exactly when the pieces fit together to an extremal of the problem of the user, with its constraints and
the conditions of transversality. Missing for the full property: Hessians that couple controls with
bounds (C127), stage costs and limits on the changes of the controls. -/
theorem C185_partial (B : Backend) (ops : Expr.Ops ℝ) (hops : MinMax ops opFmin opFmax)
    (integ : DaeIntegrator ℝ) (prepared : Bool) (base xc fresh : Sym) (o q : Ocp)
    (h : prepare B false prepared base xc fresh o = (.ok (), q)) (ho : IndirectProblem o)
    (he : PathAtEnds o) (M : Mesh) (hN : 0 < M.elements) (m : ShootingMethod ℝ)
    (hm : q.indirectShooting ops integ M.elements M.roots.length = .ok m)
    (hi : ∀ el < M.elements, ∀ d, q.elementDae M.elements el = .ok d →
      ExactShots ops integ d (nodeTime o M el) (nodeTime o M (el + 1))) (b : Blocks ℝ)
    (hb : ShootingShape (indirectDims o M) b) (x0 p : List ℝ) (theta : List (List ℝ))
    (hd : IndirectData o M x0 p theta) (lastU : Option (List ℝ)) (H : Expr)
    (hH : o.hamiltonian (addedTo o q).lamb (addedTo o q).nu = .ok H) (X : Nat → ℝ → Sym → ℝ)
    (hX : ∀ el < M.elements, ExtremalPath ops o (addedTo o q) M b x0 p theta el (X el))
    (hs : ∀ el < M.elements, ∀ t ∈ elementTimes o M el, SolvableControls ops B o H (X el t))
    (hk : DerivativesAlong ops B.table o M X) :
    ∃ cons, m.discretize b x0 p theta lastU = .ok (cons, 0) ∧
      ((∀ c ∈ cons, c.Holds) ↔ ShotExtremal ops o (addedTo o q) M b X) := by
  obtain ⟨H', us, hp⟩ := prepared_of h
  obtain rfl : H' = H := by
    have := hp.hamiltonian
    simp only [addedTo, hp.x, hp.y, List.drop_left] at hH
    exact Except.ok.inj (this.symm.trans hH)
  obtain ⟨hf, rfl, -⟩ := shooting_built hN ops integ hm
  have A : Along ops B o q H' M b x0 p theta X := ⟨hN, he, hb, hd, hX, hs, hk⟩
  obtain ⟨cons, h₁, h₂⟩ := (shots hp ho ops hops A hf).program (integ := integ)
    (fun el hel d hd => by rw [node_own hp, node_own hp]; exact hi el hel d hd) lastU
  exact ⟨cons, h₁, h₂.trans (fits_iff hp ho ops hops A hf)⟩

/-- C185. Where the pieces meet, the states and the adjoints are continuous. -/
theorem C185_continuous (ops : Expr.Ops ℝ) (o : Ocp) (a : Added) (M : Mesh) (b : Blocks ℝ)
    (x0 p : List ℝ) (theta : List (List ℝ)) (X : Nat → ℝ → Sym → ℝ)
    (hX : ∀ el < M.elements, ExtremalPath ops o a M b x0 p theta el (X el))
    (h : ShotExtremal ops o a M b X) (el : Nat) (hel : el + 1 < M.elements) (s : Sym)
    (hs : s ∈ o.model.x ++ a.lamb) :
    X el (nodeTime o M (el + 1)) s = X (el + 1) (nodeTime o M (el + 1)) s := by
  obtain ⟨i, hi⟩ := List.getElem?_of_mem hs
  rw [← h.states el (by omega) i s hi, (hX (el + 1) hel).start i s hi]

/-- C185. With at least two collocation points and an integrator that is exact between any two times of
an element, the controls the result has are those that minimise the Hamiltonian, at the collocation
points of each element. -/
theorem C185_controls_partial (B : Backend) (ops : Expr.Ops ℝ) (hops : MinMax ops opFmin opFmax)
    (integ : DaeIntegrator ℝ) (prepared : Bool) (base xc fresh : Sym) (o q : Ocp)
    (h : prepare B false prepared base xc fresh o = (.ok (), q)) (ho : IndirectProblem o)
    (he : PathAtEnds o) (M : Mesh) (hM : GoodMesh M) (m : ShootingMethod ℝ)
    (hm : q.indirectShooting ops integ M.elements M.roots.length = .ok m)
    (hi : ∀ el < M.elements, ∀ d, q.elementDae M.elements el = .ok d → ∀ t t', nodeTime o M el ≤ t →
      t < t' → t' ≤ nodeTime o M (el + 1) → ExactShots ops integ d t t') (b : Blocks ℝ)
    (hb : ShootingShape (indirectDims o M) b) (x0 p : List ℝ) (theta : List (List ℝ))
    (hd : IndirectData o M x0 p theta) (H : Expr)
    (hH : o.hamiltonian (addedTo o q).lamb (addedTo o q).nu = .ok H) (X : Nat → ℝ → Sym → ℝ)
    (hX : ∀ el < M.elements, ExtremalPath ops o (addedTo o q) M b x0 p theta el (X el))
    (hs : ∀ el < M.elements, ∀ t ∈ elementTimes o M el, SolvableControls ops B o H (X el t))
    (hk : DerivativesAlong ops B.table o M X) :
    q.reportedControls ops integ M.roots M.elements b (m.fullP b p) (m.fullTheta b theta) =
      .ok ((List.range M.elements).map fun el =>
        (reportTimes o M el).map fun t => o.model.u.map (X el t)) := by
  obtain ⟨H', us, hp⟩ := prepared_of h
  obtain rfl : H' = H := by
    have := hp.hamiltonian
    simp only [addedTo, hp.x, hp.y, List.drop_left] at hH
    exact Except.ok.inj (this.symm.trans hH)
  have hN := hM.elements
  obtain ⟨hf, rfl, laws, hlaws⟩ := shooting_built hN ops integ hm
  obtain ⟨hu, hlaw⟩ := law_ok hlaws hN
  have A : Along ops B o q H' M b x0 p theta X := ⟨hN, he, hb, hd, hX, hs, hk⟩
  have C := shots hp ho ops hops A hf
  have hpos : 0 < stepLength (K := ℝ) o M := by
    have := C.step_pos
    rwa [step_own hp] at this
  have hbreak : ∀ el, ((q.timeBreakpoint M.elements el : Rat) : ℝ) = nodeTime o M el := by
    intro el
    simp [Ocp.timeBreakpoint, nodeTime, stepLength, hp.times.1, hp.times.2]
  have htimes : ∀ el, q.controlTimes M.roots M.elements el = reportTimes o M el := by
    intro el
    have : M.roots.length ≠ 1 := by have := hM.points; omega
    simp only [Ocp.controlTimes, Ocp.controlPositions, if_neg this, List.map_map, reportTimes, hbreak]
    refine List.map_congr_left fun r _ => ?_
    simp [stepLength, hp.times.1, hp.times.2]
  have hsort : ∀ el, (nodeTime o M el :: reportTimes o M el).Pairwise (· < ·) := by
    intro el
    have hr := hM.increasing
    have : nodeTime o M el :: reportTimes o M el =
        (0 :: M.roots).map fun r : Rat => nodeTime o M el + stepLength o M * (r : ℝ) := by
      simp [reportTimes]
    rw [this, List.pairwise_map]
    refine hr.imp fun {a c} hac => ?_
    have : (a : ℝ) < (c : ℝ) := by exact_mod_cast hac
    have := mul_lt_mul_of_pos_left this hpos
    linarith
  have hend : ∀ el, ∀ t ∈ reportTimes o M el, t ≤ nodeTime o M (el + 1) := by
    intro el t ht
    obtain ⟨r, hr, rfl⟩ := List.mem_map.mp ht
    have hr1 : r ≤ 1 := by
      have hne : M.roots ≠ [] := List.ne_nil_of_mem hr
      have hl : M.roots.getLast hne = 1 := by
        have := hM.last
        rw [List.getLast?_eq_some_getLast hne] at this
        exact Option.some.inj this
      rw [← hl]
      have hpw : M.roots.Pairwise (· ≤ ·) :=
        (List.pairwise_cons.mp hM.increasing).2.imp fun h => le_of_lt h
      exact hpw.rel_getLast hr
    have : (r : ℝ) ≤ 1 := by exact_mod_cast hr1
    have := mul_le_mul_of_nonneg_left this hpos.le
    simp only [nodeTime]
    push_cast
    linarith
  have hel' : ∀ el < M.elements, q.elementControls ops integ M.roots M.elements b
      (Direct.fullP { q with V := .const 0 } b p)
      ((Own.Shots.built ops integ M { q with V := .const 0 }).fullTheta b theta) el =
      .ok ((reportTimes o M el).map fun t => o.model.u.map (X el t)) := by
    intro el hel
    have hth : ((Own.Shots.built ops integ M { q with V := .const 0 }).fullTheta b theta).getD el [] =
        Direct.fullTheta { q with V := .const 0 } b theta el := by
      have hd : (Own.Shots.built ops integ M { q with V := .const 0 }).dims.elements = M.elements := rfl
      unfold Transcription.fullTheta
      rw [hd, List.getD_eq_getElem?_getD, List.getElem?_map, List.getElem?_range hel]
      rfl
    have hx := Transcription.grid_columns hb.x (show el < M.elements + 1 by omega)
    have hx1 : itemAt b.x el = .ok (b.x.getD el []) := by
      have : b.x[el]? = some (b.x.getD el []) :=
        Transcription.getElem?_getD [] (by rw [hb.x.1]; exact Nat.lt_succ_of_lt hel)
      unfold itemAt
      rw [this]
    have hx0 : itemAt (b.x.getD el []) 0 = .ok (q.model.x.map (X el (nodeTime o M el))) := by
      have h0 : (b.x.getD el [])[0]? = some ((b.x.getD el []).getD 0 []) :=
        Transcription.getElem?_getD [] (by rw [hx.1]; omega)
      have := (C.paths el hel).start
      rw [node_own hp] at this
      rw [this] at h0
      unfold itemAt
      rw [h0]
    have hns : nodeTime o M el ∉ reportTimes o M el := fun hmem =>
      lt_irrefl _ ((List.pairwise_cons.mp (hsort el)).1 _ hmem)
    have hpw := (List.pairwise_cons.mp (hsort el)).2
    have hdd : (reportTimes o M el).dedup = reportTimes o M el :=
      List.dedup_eq_self.mpr (hpw.imp fun h => ne_of_lt h)
    have hss : (reportTimes o M el).insertionSort (fun a b => a ≤ b) = reportTimes o M el :=
      (hpw.imp fun h => le_of_lt h).insertionSort_eq
    have hdae : q.elementDae M.elements el = .ok (Ocp.daeOf { q with V := .const 0 } M.elements el) :=
      C.dae_ok el
    unfold Ocp.elementControls
    simp only [bind, Except.bind, hx1, hx0, hlaw el hel, hdae, htimes, hdd, hss, hbreak, if_neg hns, List.erase_of_not_mem hns, hth]
    rw [law_along hp ho ops hops A hf hu integ el hel
      (fun c d h₁ h₂ h₃ => hi el hel _ (C.dae_ok el) c d h₁ h₂ h₃) _ _ le_rfl (hsort el) (hend el)]
  exact mapM_ok _ _ _ fun el hel => hel' el (List.mem_range.mp hel)

/-- C185 is false with one collocation point: the control is reported at the start of the elements,
where it is not implemented, so the solved problem ends with `NotImplementedError`. -/
theorem C185_degree_fails (ops : Expr.Ops ℝ) (integ : DaeIntegrator ℝ) (q : Ocp) (M : Mesh)
    (hN : 0 < M.elements) (h1 : M.roots.length = 1) (m : ShootingMethod ℝ)
    (hm : q.indirectShooting ops integ M.elements M.roots.length = .ok m) (b : Blocks ℝ)
    (hb : ShootingShape m.dims b) (p : List ℝ) (theta : List (List ℝ)) :
    q.reportedControls ops integ M.roots M.elements b p theta = .error .notImplementedError := by
  obtain ⟨hf, rfl, laws, hlaws⟩ := shooting_built hN ops integ hm
  obtain ⟨hu, hlaw⟩ := law_ok hlaws hN
  have hx1 : itemAt b.x 0 = .ok (b.x.getD 0 []) := by
    have : b.x[0]? = some (b.x.getD 0 []) :=
      Transcription.getElem?_getD [] (by rw [hb.x.1]; omega)
    unfold itemAt
    rw [this]
  have hx := Transcription.grid_columns hb.x (Nat.succ_pos _)
  have hx0 : itemAt (b.x.getD 0 []) 0 = .ok ((b.x.getD 0 []).getD 0 []) := by
    have : (b.x.getD 0 [])[0]? = some ((b.x.getD 0 []).getD 0 []) :=
      Transcription.getElem?_getD [] (by rw [hx.1]; omega)
    unfold itemAt
    rw [this]
  have hd : q.elementDae M.elements 0 = .ok ({ q with V := .const 0 }.daeOf M.elements 0) :=
    (Ocp.elementDae_ok (o := { q with V := .const 0 }) 0 _).mpr ⟨hf.dynamics, rfl⟩
  have hel : q.elementControls ops integ M.roots M.elements b p theta 0 = .error .notImplementedError := by
    unfold Ocp.elementControls
    simp only [bind, Except.bind, hx1, hx0, hlaw 0 hN, hd]
    rw [if_pos]
    simp [Ocp.controlTimes, Ocp.controlPositions, h1]
  obtain ⟨n, hn⟩ : ∃ n, M.elements = n + 1 := ⟨M.elements - 1, by omega⟩
  unfold Ocp.reportedControls
  rw [hn] at hel ⊢
  rw [List.range_succ_eq_map, List.mapM_cons, hel]
  rfl

/-! ## Example: `x' = u`, the cost `u²` and the final cost `x²` -/

namespace Example

/-- The problem. -/
def leapProblem : Ocp :=
  { Ocp.new { SysModel.new 0 1 with
      x := [2]
      x0 := [3]
      ode := [(2, some (.sym 4))]
      u := [4]
      uExpr := [.sym 4]
      uPar := [4] } (some [1]) 0 2 with
    L := .mul (.sym 4) (.sym 4)
    V := .mul (.sym 2) (.sym 2) }

/-- The prepared problem. -/
def leapPrepared : Ocp := (prepare pontryaginBackend false false 10 20 21 leapProblem).2

/-- The control law `-λ / 2`, as it is computed. -/
def leapLaw : Expr :=
  .neg (.add (.const 0) (.mul (.const (1 / 2)) (.add (.add (.add (.mul (.const 1) (.const 0))
    (.mul (.const 0) (.const 1))) (.add (.const 0) (.add (.mul (.const 0) (.const 0))
    (.mul (.sym 10) (.const 1))))) (.const 0))))

/-- The right-hand side of the adjoint, as it is computed: zero. -/
def leapAdjoint : Expr :=
  .neg (.add (.add (.add (.mul (.const 0) leapLaw) (.mul leapLaw (.const 0)))
    (.add (.const 0) (.add (.mul (.const 0) leapLaw) (.mul (.sym 10) (.const 0))))) (.const 0))

/-- The equations of every element. -/
def leapDae : Dae := ⟨[2, 10], [leapLaw, leapAdjoint], 0, [], [], [], some 1⟩

theorem leap_prepared : prepare pontryaginBackend false false 10 20 21 leapProblem =
    (.ok (), leapPrepared) := by
  have : (prepare pontryaginBackend false false 10 20 21 leapProblem).1 = .ok () := by decide +kernel
  exact Prod.ext this rfl

theorem leap_added : addedTo leapProblem leapPrepared = ⟨[10], [], [], [11]⟩ := by
  have : (addedTo leapProblem leapPrepared).lamb = [10] ∧
      (addedTo leapProblem leapPrepared).nu = [] ∧
      (addedTo leapProblem leapPrepared).eta = [] ∧
      (addedTo leapProblem leapPrepared).starts = [11] := by decide +kernel
  obtain ⟨h₁, h₂, h₃, h₄⟩ := this
  cases h : addedTo leapProblem leapPrepared
  simp_all

theorem leap_problem : IndirectProblem leapProblem where
  horizon := by decide +kernel
  complete := by unfold Complete; decide +kernel
  starts := rfl
  controls := by decide
  free := by decide
  parameters := by decide
  thetas := by decide
  tags := by decide
  tagged := by decide
  sized := by constructor <;> decide +kernel
  unlimited := by decide +kernel

theorem leap_dae (el : Nat) (hel : el < 2) (d : Dae) (h : leapPrepared.elementDae 2 el = .ok d) :
    d = leapDae := by
  have : (leapPrepared.elementDae 2 el).toOption = some leapDae := by
    match el, hel with
    | 0, _ => decide +kernel
    | 1, _ => decide +kernel
  rw [h] at this
  exact Option.some.inj this

/-- The exact integrator. -/
noncomputable def leapInteg : DaeIntegrator ℝ := fun d t t' x _ =>
  if d = leapDae then ([x.getD 0 0 + -(x.getD 1 0 / 2) * (t' - t), x.getD 1 0], []) else ([], [])

theorem leapInteg_exact (ops : Expr.Ops ℝ) (a b : ℝ) (hab : a ≤ b) :
    ExactShots ops leapInteg leapDae a b where
  sized _ _ _ _ := by simp [leapInteg, leapDae]
  exact par Y h := by
    have h₂ := linear_of_derivative (f := fun r => Y r 10) (c := 0) hab (fun t ht => by
      have := h.ode t ht 1 10 leapAdjoint rfl rfl
      simpa [leapAdjoint, Expr.eval] using this)
    have h₃ : ∀ t ∈ Icc a b, Y t 10 = Y a 10 := by
      intro t ht
      have := linear_of_derivative (f := fun r => Y r 10) (b := t) (c := 0) ht.1 (fun r hr => by
        have := h.ode r ⟨hr.1, hr.2.trans ht.2⟩ 1 10 leapAdjoint rfl rfl
        have : HasDerivWithinAt (fun r => Y r 10) 0 (Icc a b) r := by
          simpa [leapAdjoint, Expr.eval] using this
        exact this.mono (Icc_subset_Icc le_rfl ht.2))
      simpa using this
    have h₁ := linear_of_derivative (f := fun r => Y r 2) (c := -(Y a 10 / 2)) hab (fun t ht => by
      have := h.ode t ht 0 2 leapLaw rfl rfl
      have e : Expr.eval ops (Y t) leapLaw = -(Y a 10 / 2) := by
        simp [leapLaw, Expr.eval, h₃ t ht]
        ring
      rwa [e] at this)
    simp only [leapInteg, if_true]
    simp only [leapDae, List.map_cons, List.map_nil, List.getD_cons_zero, List.getD_cons_succ]
    rw [h₁, h₂]
    simp

theorem leap_hamiltonian_value (σ : Sym → ℝ) :
    hamiltonianAt (minMaxOps ℝ) leapProblem [10] [] σ = σ 4 * σ 4 + σ 10 * σ 4 := by
  rw [← eval_hamiltonian (minMaxOps ℝ) σ leapProblem [10] []
    (.add (.add (.mul (.sym 4) (.sym 4)) (Expr.dot [.sym 10] [.sym 4])) (Expr.dot [] [])) rfl]
  simp [Expr.eval, Expr.dot]

theorem leap_solvable (ρ : Sym → ℝ) : SolvableControls (minMaxOps ℝ) pontryaginBackend leapProblem
    (.add (.add (.mul (.sym 4) (.sym 4)) (Expr.dot [.sym 10] [.sym 4])) (Expr.dot [] [])) ρ := by
  have hq : QuadraticInControls (minMaxOps ℝ) plainTable
      (.add (.add (.mul (.sym 4) (.sym 4)) (Expr.dot [.sym 10] [.sym 4])) (Expr.dot [] [])) [4] ρ
      0 ![ρ 10] !![2] := by
    refine ⟨fun w => ?_, fun w => ?_, fun w s hs => ?_⟩
    · have h4 : assign [4] w ρ 4 = w 0 := assign_get [4] (by decide) w ρ 0
      have h10 : assign [4] w ρ 10 = ρ 10 := assign_not_mem _ _ _ _ (by decide)
      simp [Expr.dot, Expr.eval, h4, h10, quadratic, dotProduct, Matrix.mulVec]
      ring
    · simp [Expr.dot, Expr.SmoothAt]
    · fin_cases hs <;> simp [Expr.dot, Expr.diff, Expr.SmoothAt]
  have hA : StrictlyConvex (!![(2 : ℝ)]) := by
    refine ⟨by ext i j; fin_cases i; fin_cases j; rfl, fun d hd => ?_⟩
    have h0 : d 0 ≠ 0 := fun h => hd (by ext i; fin_cases i; exact h)
    have := mul_self_pos.mpr h0
    simp [dotProduct, Matrix.mulVec]
    linarith
  refine ⟨⟨rfl, by decide⟩, ?_, _, _, _, hq, hA, ?_⟩
  · have hM := hessian_matrix (u := [4]) (by decide) hA.1 hq
    refine Eq.trans ?_ (congrArg _ hM).symm
    symm
    apply Matrix.inv_eq_left_inv
    ext i j
    fin_cases i
    fin_cases j
    show ∑ k : Fin 1, matrixAt (minMaxOps ℝ) ρ 1 [[.const (1 / 2)]] 0 k * (!![(2 : ℝ)]) k 0 = 1
    simp [matrixAt, Expr.eval]
  · intro i j hij
    exact absurd (Subsingleton.elim (α := Fin 1) i j) hij

theorem leap_shooting (d : Nat) (integ : DaeIntegrator ℝ) :
    ∃ m, leapPrepared.indirectShooting (minMaxOps ℝ) integ 2 d = .ok m := by
  have h₁ : ShotScope { leapPrepared with V := .const 0 } false := by
    refine ⟨?_, ?_, ?_, ?_, ?_, ?_⟩ <;> (try unfold InScope) <;> decide +kernel
  have h₂ : ((List.range 2).mapM (leapPrepared.lawFunction 2)).toOption.isSome = true := by
    decide +kernel
  cases h₃ : (List.range 2).mapM (leapPrepared.lawFunction 2) with
  | error e => rw [h₃] at h₂; simp [Except.toOption] at h₂
  | ok fs =>
    have h₄ := (Ocp.shooting_ok_iff (minMaxOps ℝ) integ { leapPrepared with V := .const 0 } 2 d d false
      (by decide) _).mpr ⟨h₁, rfl⟩
    unfold Ocp.indirectShooting
    rw [h₄]
    simp only [bind, Except.bind, h₃]
    exact ⟨_, rfl⟩

/-- The trajectory during an element. -/
noncomputable def leapPath (b : Blocks ℝ) (el : Nat) (t : ℝ) : Sym → ℝ
  | 0 => t
  | 1 => t - el
  | 2 => shotState b el 0 + -(shotState b el 1 / 2) * (t - el)
  | 3 => 1
  | 4 => -(shotState b el 1 / 2)
  | 10 => shotState b el 1
  | _ => 0

theorem leap_step : stepLength (K := ℝ) leapProblem pontryaginMesh = 1 := by
  simp [stepLength, leapProblem, pontryaginMesh, Ocp.new]

theorem leapPath_extremal (b : Blocks ℝ) (el : Nat) :
    ExtremalPath (minMaxOps ℝ) leapProblem ⟨[10], [], [], [11]⟩ pontryaginMesh b [1, 0] [] [[], []] el
      (leapPath b el) where
  known t _ := {
    time := rfl
    position := by rw [leap_step]; show t - el = _; ring
    parameters := by intro i s hs; simp [leapProblem, SysModel.new, Ocp.new] at hs
    optimised := by intro i s hs; simp [leapProblem, SysModel.new, Ocp.new] at hs
    thetas := by intro i s hs; simp [leapProblem, SysModel.new, Ocp.new] at hs
    optimisedThetas := by intro i s hs; simp [leapProblem, SysModel.new, Ocp.new] at hs
    starts := by
      intro i s hs
      match i, hs with
      | 0, hs => cases hs; rfl
      | 1, hs => cases hs; rfl
    etas := by intro i s hs; simp at hs }
  start := by
    intro i s hs
    match i, hs with
    | 0, hs =>
      cases hs
      show shotState b el 0 + -(shotState b el 1 / 2) * (nodeTime leapProblem pontryaginMesh el - el) = _
      rw [nodeTime, leap_step]
      ring
    | 1, hs => cases hs; rfl
  controls := by
    intro t _
    refine ⟨?_, fun w _ => ?_⟩
    · intro i lo hi h₁ h₂
      obtain ⟨i, hi'⟩ := i
      match i, hi', h₁, h₂ with
      | 0, _, h₁, h₂ =>
        cases h₁
        cases h₂
        exact ⟨by decide, by decide, by simp, by simp⟩
    · rw [leap_hamiltonian_value, leap_hamiltonian_value]
      have h4 : assign leapProblem.model.u w (leapPath b el t) 4 = w ⟨0, by decide⟩ :=
        assign_get [4] (by decide) w (leapPath b el t) 0
      have h10 : assign leapProblem.model.u w (leapPath b el t) 10 = shotState b el 1 :=
        assign_not_mem _ _ _ _ (by decide)
      rw [h4, h10]
      show -(shotState b el 1 / 2) * -(shotState b el 1 / 2) +
        shotState b el 1 * -(shotState b el 1 / 2) ≤ _
      nlinarith [sq_nonneg (w ⟨0, by decide⟩ + shotState b el 1 / 2)]
  ode := by
    intro t _ s e he
    have hse : s = 2 ∧ e = .sym 4 := by
      by_cases h : s = 2
      · subst h
        have he : some (some (Expr.sym 4)) = some (some e) := he
        exact ⟨rfl, (Option.some.inj (Option.some.inj he)).symm⟩
      · simp [leapProblem, Ocp.new, Dict.get?] at he
        exact absurd he.1 h
    obtain ⟨rfl, rfl⟩ := hse
    show HasDerivWithinAt (fun r => shotState b el 0 + -(shotState b el 1 / 2) * (r - el))
      (-(shotState b el 1 / 2)) _ t
    have := (((hasDerivAt_id t).sub_const (el : ℝ)).const_mul (-(shotState b el 1 / 2))).const_add
      (shotState b el 0)
    simpa using this.hasDerivWithinAt
  costate := by
    intro t _ i s l hs hl
    match i, hs, hl with
    | 0, hs, hl =>
      cases hs
      cases hl
      have : (fun v => hamiltonianAt (minMaxOps ℝ) leapProblem [10] []
          (Function.update (leapPath b el t) 2 v)) = fun _ =>
          leapPath b el t 4 * leapPath b el t 4 + leapPath b el t 10 * leapPath b el t 4 := by
        funext v
        rw [leap_hamiltonian_value, Function.update_of_ne (by decide), Function.update_of_ne (by decide)]
      simp only [this, deriv_const, neg_zero]
      exact hasDerivWithinAt_const _ _ (shotState b el 1)
  alg := by intro t _ e he; simp [leapProblem, SysModel.new, Ocp.new] at he
  stationary := by intro t _ s hs; simp [leapProblem, SysModel.new, Ocp.new] at hs

theorem leap_derivatives (b : Blocks ℝ) :
    DerivativesAlong (minMaxOps ℝ) pontryaginBackend.table leapProblem pontryaginMesh (leapPath b) := by
  refine ⟨fun el _ t _ e he => ?_, fun e he => ?_⟩
  · have : e = leapProblem.L ∨ e = .sym 4 := by
      simpa [SysModel.odeVec, leapProblem, Ocp.new, SysModel.new, Dict.values] using he
    rcases this with rfl | rfl <;> simp [leapProblem, Expr.SmoothAt]
  · have : e = leapProblem.V := by simpa [leapProblem, Ocp.new] using he
    subst this
    simp [leapProblem, Expr.SmoothAt]

end Example

open Example in
/-- The hypotheses of `C185_partial` and `C185_controls_partial` are met for every decision vector of the
right size. -/
example (b : Blocks ℝ) (hb : ShootingShape (indirectDims leapProblem pontryaginMesh) b) :
    ∃ m cons, leapPrepared.indirectShooting (minMaxOps ℝ) leapInteg 2 2 = .ok m ∧
      m.discretize b [1, 0] [] [[], []] none = .ok (cons, 0) ∧
      ((∀ c ∈ cons, c.Holds) ↔ ShotExtremal (minMaxOps ℝ) leapProblem ⟨[10], [], [], [11]⟩ pontryaginMesh
        b (leapPath b)) ∧
      leapPrepared.reportedControls (minMaxOps ℝ) leapInteg [1 / 2, 1] 2 b (m.fullP b [])
        (m.fullTheta b [[], []]) = .ok ((List.range 2).map fun el =>
          (reportTimes leapProblem pontryaginMesh el).map fun t => [leapPath b el t 4]) := by
  obtain ⟨m, hm⟩ := leap_shooting 2 leapInteg
  have hH : leapProblem.hamiltonian (addedTo leapProblem leapPrepared).lamb
      (addedTo leapProblem leapPrepared).nu = .ok (.add (.add (.mul (.sym 4) (.sym 4))
        (Expr.dot [.sym 10] [.sym 4])) (Expr.dot [] [])) := by
    rw [leap_added]; rfl
  have hX : ∀ el < pontryaginMesh.elements, ExtremalPath (minMaxOps ℝ) leapProblem
      (addedTo leapProblem leapPrepared) pontryaginMesh b [1, 0] [] [[], []] el (leapPath b el) := by
    rw [leap_added]
    exact fun el _ => leapPath_extremal b el
  have hi : ∀ el < pontryaginMesh.elements, ∀ d, leapPrepared.elementDae pontryaginMesh.elements el = .ok d →
      ∀ t t', nodeTime leapProblem pontryaginMesh el ≤ t → t ≤ t' →
      t' ≤ nodeTime leapProblem pontryaginMesh (el + 1) → ExactShots (minMaxOps ℝ) leapInteg d t t' := by
    intro el hel d hd t t' _ ht _
    have := leap_dae el hel d hd
    subst this
    exact leapInteg_exact _ _ _ ht
  obtain ⟨cons, h₁, h₂⟩ := C185_partial pontryaginBackend (minMaxOps ℝ) (minMaxOps_ok ℝ) leapInteg false 10
    20 21 leapProblem leapPrepared leap_prepared leap_problem (by unfold PathAtEnds; decide) pontryaginMesh
    (by decide) m hm (fun el hel d hd => hi el hel d hd _ _ le_rfl (by
      rw [nodeTime, nodeTime, leap_step]; push_cast; linarith) le_rfl) b hb [1, 0] [] [[], []]
    ⟨rfl, rfl, by decide⟩ none _ hH (leapPath b) hX (fun _ _ _ _ => leap_solvable _) (leap_derivatives b)
  have h₃ := C185_controls_partial pontryaginBackend (minMaxOps ℝ) (minMaxOps_ok ℝ) leapInteg false 10
    20 21 leapProblem leapPrepared leap_prepared leap_problem (by unfold PathAtEnds; decide) pontryaginMesh
    pontryaginMesh_good m hm (fun el hel d hd t t' h₁ h₂ h₃ => hi el hel d hd t t' h₁ h₂.le h₃) b hb
    [1, 0] [] [[], []] ⟨rfl, rfl, by decide⟩ _ hH (leapPath b) hX (fun _ _ _ _ => leap_solvable _)
    (leap_derivatives b)
  rw [leap_added] at h₂
  exact ⟨m, cons, hm, h₁, h₂, h₃⟩

namespace Example

/-- Decision values that fit together: the adjoint is `2 / 3`. -/
noncomputable def leapBlocks : Blocks ℝ :=
  ⟨[[[1, 2 / 3]], [[2 / 3, 2 / 3]], [[1 / 3, 2 / 3]]], [[[]], [[]]], [[], []], [], [], [[], []]⟩

theorem leapBlocks_shape : ShootingShape (indirectDims leapProblem pontryaginMesh) leapBlocks := by
  refine ⟨⟨?_, rfl, rfl, ?_⟩, ?_, ?_⟩
  · simp [leapBlocks, Grid, Columns, indirectDims, leapProblem, pontryaginMesh, controlPoints, SysModel.new, Ocp.new]
  · simp [leapBlocks, Columns, indirectDims, leapProblem, pontryaginMesh, SysModel.new, Ocp.new]
  · simp [leapBlocks, Grid, Columns, indirectDims, leapProblem, pontryaginMesh, SysModel.new, Ocp.new]
  · simp [leapBlocks, Grid, Columns, indirectDims, leapProblem, pontryaginMesh, SysModel.new, Ocp.new]

theorem leapBlocks_extremal : ShotExtremal (minMaxOps ℝ) leapProblem ⟨[10], [], [], [11]⟩ pontryaginMesh
    leapBlocks (leapPath leapBlocks) := by
  have hn : ∀ el, nodeTime leapProblem pontryaginMesh el = el := by
    intro el
    rw [nodeTime, leap_step, one_mul]
  have two : ∀ el < pontryaginMesh.elements, el = 0 ∨ el = 1 := by
    intro el hel
    have : el < 2 := hel
    omega
  refine ⟨?_, ?_, ?_, ?_, ?_, ?_, ?_, ?_⟩
  · intro e he
    simp [leapProblem, SysModel.new, Ocp.new] at he
    subst he
    simp [Expr.eval, leapPath, shotState, leapBlocks]
  · intro el hel i s hs
    match i, hs with
    | 0, hs =>
      cases hs
      rw [hn]
      show _ = shotState _ _ _ + -(shotState _ _ _ / 2) * (_ - _)
      rcases two el hel with rfl | rfl <;> norm_num [shotState, leapBlocks]
    | 1, hs =>
      cases hs
      show _ = shotState _ _ _
      rcases two el hel with rfl | rfl <;> norm_num [shotState, leapBlocks]
  · intro el _ i s hs
    simp [leapProblem, SysModel.new, Ocp.new] at hs
  · intro el hel e he; simp [leapProblem, Ocp.new] at he
  · intro el hel e he; simp [leapProblem, Ocp.new] at he
  · intro e he; simp [leapProblem, Ocp.new] at he
  · intro i s l hs hl
    match i, hs, hl with
    | 0, hs, hl =>
      cases hs
      cases hl
      have : (fun v : ℝ => finalAt (minMaxOps ℝ) leapProblem []
          (leapPath leapBlocks (pontryaginMesh.elements - 1) (nodeTime leapProblem pontryaginMesh pontryaginMesh.elements))
          (Function.update (leapPath leapBlocks (pontryaginMesh.elements - 1)
            (nodeTime leapProblem pontryaginMesh pontryaginMesh.elements)) 2 v)) = fun v => v * v := by
        funext v
        simp [finalAt, leapProblem, Expr.eval, Ocp.new]
      rw [this, hn]
      have hd : deriv (fun v : ℝ => v * v) = fun v => v + v := by
        funext v
        simpa using ((hasDerivAt_id v).mul (hasDerivAt_id v)).deriv
      rw [hd]
      norm_num [leapPath, shotState, leapBlocks, pontryaginMesh]
  · intro e he; simp [leapProblem, Ocp.new] at he

end Example

open Example in
/-- There are decision values that fit together. -/
example : ∃ b, ShootingShape (indirectDims leapProblem pontryaginMesh) b ∧
    ShotExtremal (minMaxOps ℝ) leapProblem ⟨[10], [], [], [11]⟩ pontryaginMesh b (leapPath b) :=
  ⟨leapBlocks, leapBlocks_shape, leapBlocks_extremal⟩

open Example in
/-- The hypotheses of `C185_degree_fails` are met. -/
example : ∃ m, leapPrepared.indirectShooting (minMaxOps ℝ) leapInteg 2 1 = .ok m :=
  leap_shooting 1 leapInteg

end Verif
