import Verif.Spec.ConvexShots
import Verif.Lemmas.ConvexLocal
import Verif.Lemmas.SolveShootingRun
import Mathlib.MeasureTheory.Integral.IntervalIntegral.Basic
import Mathlib.Analysis.Calculus.Deriv.Add
import Mathlib.Analysis.Calculus.Deriv.Mul
/-! # Between two decisions of a convex problem for multiple shooting -/
namespace Verif.ConvexShots
open Spec SolveDirect RelaxDirect PolyDecision Polynomial Set ConvexDirect

/-! ## Tables of values -/

section
variable {K : Type} [Field K] [LinearOrder K] [IsStrictOrderedRing K]

omit [LinearOrder K] [IsStrictOrderedRing K] in
theorem table_grid (e n : Nat) (nodes : List K) (P : Nat → Nat → K[X]) :
    Grid e nodes.length n (sampleTable e n nodes P) := by
  refine ⟨by simp [sampleTable], fun l hl => ?_⟩
  obtain ⟨el, -, rfl⟩ := List.mem_map.1 hl
  refine ⟨by simp, fun c hc => ?_⟩
  obtain ⟨tau, -, rfl⟩ := List.mem_map.1 hc
  simp

omit [IsStrictOrderedRing K] in
theorem table_through {e n : Nat} {nodes : List K} (hn : nodes.Nodup) {P : Nat → Nat → K[X]} {el i : Nat}
    (he : el < e) (hi : i < n) (hd : (P el i).natDegree < nodes.length) :
    through nodes ((sampleTable e n nodes P).getD el []) i = P el i := by
  refine Transcription.through_eq hn hd fun j hj => ?_
  unfold sampleTable
  rw [Transcription.range_map_getD_lt _ _ he]
  simp [List.getD_eq_getElem?_getD, hj, hi]

omit [LinearOrder K] [IsStrictOrderedRing K] in
theorem single_entry (cols : List (List K)) (i : Nat) :
    (through [0] cols i).eval 0 = (cols.getD 0 []).getD i 0 :=
  Lagrange.eval_interpolate_at_node (s := Finset.univ) (v := ([0] : List K).get)
    (fun j => (cols.getD j []).getD i 0) (nodes_injOn (List.nodup_singleton 0))
    (Finset.mem_univ (⟨0, Nat.one_pos⟩ : Fin 1))

theorem table_single {e n : Nat} {f : Nat → Nat → K} {el i : Nat} (he : el < e) (hi : i < n) :
    (((sampleTable e n [0] fun k i => C (f k i)).getD el []).getD 0 []).getD i 0 = f el i := by
  rw [← single_entry, table_through (List.nodup_singleton 0) he hi (by simp), eval_C]

end

variable {ops : Expr.Ops ℝ} {o : Ocp} {M : Mesh} {x0 p : List ℝ} {theta : List (List ℝ)}

theorem step_pos (hM : ControlMesh M) (hlen : o.t0 < o.tf) : (0 : ℝ) < stepLength o M := by
  unfold stepLength
  exact div_pos (sub_pos.2 (by exact_mod_cast hlen)) (by exact_mod_cast hM.elements)

theorem node_le (hM : ControlMesh M) (hlen : o.t0 < o.tf) (el : Nat) :
    nodeTime o M el ≤ nodeTime o M (el + 1) := by
  unfold nodeTime
  refine mul_le_mul_of_nonneg_left ?_ (step_pos hM hlen).le
  push_cast
  linarith

theorem same_data (hopt : o.pOpt = [] ∧ o.thetaOpt = []) {b₁ b₂ : Blocks ℝ} {el : Nat} {tau : ℝ}
    {ρ₁ ρ₂ : Sym → ℝ} (h₁ : ReadsData o M b₁ x0 p theta el tau ρ₁) (h₂ : ReadsData o M b₂ x0 p theta el tau ρ₂) :
    SameGiven o ρ₁ ρ₂ := by
  intro s hs
  simp only [List.mem_append, List.mem_cons, List.not_mem_nil, or_false] at hs
  rcases hs with (((rfl | rfl) | hs) | hs) | hs
  · rw [h₁.time, h₂.time]
  · rw [h₁.position, h₂.position]
  · obtain ⟨i, hi⟩ := List.getElem?_of_mem hs
    rw [h₁.parameters i s hi (by rw [hopt.1]; simp), h₂.parameters i s hi (by rw [hopt.1]; simp)]
  · obtain ⟨i, hi⟩ := List.getElem?_of_mem hs
    rw [h₁.thetas i s hi (by rw [hopt.2]; simp), h₂.thetas i s hi (by rw [hopt.2]; simp)]
  · obtain ⟨i, hi⟩ := List.getElem?_of_mem hs
    rw [h₁.starts i s hi, h₂.starts i s hi]

/-! ## The running cost -/

section
variable {a b : ℝ} {f g m z : ℝ → ℝ}

theorem integral_between (hab : a ≤ b) (hf : ContinuousOn f (Icc a b)) (hg : ContinuousOn g (Icc a b))
    (hm : ContinuousOn m (Icc a b)) {t : ℝ} (h : ∀ r ∈ Icc a b, m r ≤ (1 - t) * f r + t * g r) :
    ∫ r in a..b, m r ≤ (1 - t) * (∫ r in a..b, f r) + t * ∫ r in a..b, g r := by
  have if' := hf.intervalIntegrable_of_Icc hab (μ := MeasureTheory.volume)
  have ig := hg.intervalIntegrable_of_Icc hab (μ := MeasureTheory.volume)
  have im := hm.intervalIntegrable_of_Icc hab (μ := MeasureTheory.volume)
  rw [← intervalIntegral.integral_const_mul, ← intervalIntegral.integral_const_mul,
    ← intervalIntegral.integral_add (if'.const_mul _) (ig.const_mul _)]
  exact intervalIntegral.integral_mono_on hab im ((if'.const_mul _).add (ig.const_mul _)) h

theorem integral_near (hab : a ≤ b) (hf : ContinuousOn f (Icc a b)) (hg : ContinuousOn g (Icc a b))
    (hm : ContinuousOn m (Icc a b)) (hz : ContinuousOn z (Icc a b)) {t : ℝ}
    (h : ∀ r ∈ Icc a b, |m r - f r| ≤ t * (|g r - f r| + |z r - f r|)) :
    |(∫ r in a..b, m r) - ∫ r in a..b, f r| ≤ t * ∫ r in a..b, (|g r - f r| + |z r - f r|) := by
  have if' := hf.intervalIntegrable_of_Icc hab (μ := MeasureTheory.volume)
  have im := hm.intervalIntegrable_of_Icc hab (μ := MeasureTheory.volume)
  have iB := ((hg.sub hf).abs.add (hz.sub hf).abs).intervalIntegrable_of_Icc hab (μ := MeasureTheory.volume)
  have ia := (hm.sub hf).abs.intervalIntegrable_of_Icc hab (μ := MeasureTheory.volume)
  rw [← intervalIntegral.integral_sub im if', ← intervalIntegral.integral_const_mul]
  refine (intervalIntegral.abs_integral_le_integral_abs hab).trans ?_
  exact intervalIntegral.integral_mono_on hab ia (iB.const_mul _) h

end

/-- The running cost of an element on the way from one trajectory to another. -/
theorem running_between (hM : ControlMesh M) (hlen : o.t0 < o.tf) (hopt : o.pOpt = [] ∧ o.thetaOpt = [])
    (hx : ConvexExprs ops o) (hL : SteadyCost ops o M x0 p theta) {b₁ b₂ : Blocks ℝ} {el : Nat}
    (hel : el < M.elements) {X₁ X₂ : ℝ → Sym → ℝ} (h₁ : ElementPath ops o M b₁ x0 p theta el X₁)
    (h₂ : ElementPath ops o M b₂ x0 p theta el X₂) :
    ∃ B, 0 ≤ B ∧ ∀ t, 0 ≤ t → t ≤ 1 →
      runningCost ops o M el (fun r => partWay t (X₁ r) (X₂ r)) ≤
        (1 - t) * runningCost ops o M el X₁ + t * runningCost ops o M el X₂ ∧
      |runningCost ops o M el (fun r => partWay t (X₁ r) (X₂ r)) - runningCost ops o M el X₁| ≤ t * B := by
  have hab := node_le hM hlen el (o := o)
  have hc := hx.convex o.L (by simp)
  have hs : ∀ r ∈ Icc (nodeTime o M el) (nodeTime o M (el + 1)), SameGiven o (X₁ r) (X₂ r) := fun r hr =>
    same_data hopt (h₁.reads r hr) (h₂.reads r hr)
  refine ⟨∫ r in (nodeTime o M el)..(nodeTime o M (el + 1)), (|o.L.eval ops (X₂ r) - o.L.eval ops (X₁ r)| +
    |o.L.eval ops (partWay (-1) (X₁ r) (X₂ r)) - o.L.eval ops (X₁ r)|),
    intervalIntegral.integral_nonneg hab fun r _ => by positivity, fun t h0 h1 => ⟨?_, ?_⟩⟩
  · exact integral_between hab h₁.running h₂.running (hL el hel b₁ b₂ X₁ X₂ h₁ h₂ t) fun r hr =>
      hc t _ _ h0 h1 (hs r hr)
  · exact integral_near hab h₁.running h₂.running (hL el hel b₁ b₂ X₁ X₂ h₁ h₂ t)
      (hL el hel b₁ b₂ X₁ X₂ h₁ h₂ (-1)) fun r hr => convex_near_by hc (hs r hr) h0 h1

/-- The value of the cost state at the nodes. -/
noncomputable def costAt (ops : Expr.Ops ℝ) (o : Ocp) (M : Mesh) (sum : Bool) (X : Nat → ℝ → Sym → ℝ) (k : Nat) : ℝ :=
  if sum then 0 else ((List.range k).map fun el => runningCost ops o M el (X el)).sum

theorem costAt_eq {sum : Bool} {lastU : Option (List ℝ)} {b : Blocks ℝ} {X : Nat → ℝ → Sym → ℝ}
    (h : ShotSolution ops o M b lastU sum X) : ∀ k ≤ M.elements,
      shotState b k o.model.x.length = costAt ops o M sum X k := by
  intro k
  induction k with
  | zero =>
    intro _
    rw [h.costStart]
    unfold costAt
    split <;> simp
  | succ k ih =>
    intro hk
    rw [h.running k hk]
    have := ih (by omega)
    unfold costAt at this ⊢
    split
    · rfl
    · rw [if_neg (by assumption)] at this
      rw [this, List.range_succ, List.map_append, List.sum_append]
      simp

/-- A decision at a part of the way from one decision to another. -/
theorem mixed_shots (hM : ControlMesh M) (hn : M.controlRoots.Nodup) (hu : 0 < o.model.u.length)
    (hB : BoundsFit o) (hpos : o.positiveObjective = false)
    (hopt : o.pOpt = [] ∧ o.thetaOpt = []) (hlen : o.t0 < o.tf) (hx : ConvexExprs ops o)
    (hL : SteadyCost ops o M x0 p theta) {t : ℝ} (h0 : 0 ≤ t) (h1 : t ≤ 1) {lastU : Option (List ℝ)}
    {sum : Bool} {b₁ b₂ : Blocks ℝ} {X₁ X₂ : Nat → ℝ → Sym → ℝ}
    (hD₁ : ShotDecision ops o M x0 p theta lastU sum b₁ X₁)
    (hD₂ : ShotDecision ops o M x0 p theta lastU sum b₂ X₂) :
    ∃ b, ShotDecision ops o M x0 p theta lastU sum b (fun el r => partWay t (X₁ el r) (X₂ el r)) ∧
      shotCost ops o M sum (fun el r => partWay t (X₁ el r) (X₂ el r)) ≤
        (1 - t) * shotCost ops o M sum X₁ + t * shotCost ops o M sum X₂ ∧
      (∀ k ≤ M.elements, ∀ i < o.model.x.length, shotState b k i =
        (1 - t) * shotState b₁ k i + t * shotState b₂ k i) ∧
      (∀ k ≤ M.elements, shotState b k o.model.x.length =
        costAt ops o M sum (fun el r => partWay t (X₁ el r) (X₂ el r)) k) ∧
      (∀ el < M.elements, ∀ i < o.model.y.length, shotAlgebraic b el i =
        (1 - t) * shotAlgebraic b₁ el i + t * shotAlgebraic b₂ el i) ∧
      (∀ el < M.elements, ∀ i < o.model.u.length, controlPoly M b el i =
        C (1 - t) * controlPoly M b₁ el i + C t * controlPoly M b₂ el i) ∧
      b.eta = (List.range o.eta.length).map fun i => (1 - t) * b₁.eta.getD i 0 + t * b₂.eta.getD i 0 := by
  set X : Nat → ℝ → Sym → ℝ := fun el r => partWay t (X₁ el r) (X₂ el r) with hX
  let xv : Nat → Nat → ℝ := fun k i => if i < o.model.x.length then
    (1 - t) * shotState b₁ k i + t * shotState b₂ k i else costAt ops o M sum X k
  let b : Blocks ℝ :=
    { x := sampleTable (M.elements + 1) (o.model.x.length + 1) [0] fun k i => C (xv k i)
      y := sampleTable M.elements o.model.y.length [0] fun el i =>
        C ((1 - t) * shotAlgebraic b₁ el i + t * shotAlgebraic b₂ el i)
      u := sampleTable M.elements o.model.u.length (inField M.controlRoots) fun el i =>
        C (1 - t) * controlPoly M b₁ el i + C t * controlPoly M b₂ el i
      eta := (List.range o.eta.length).map fun i => (1 - t) * b₁.eta.getD i 0 + t * b₂.eta.getD i 0
      pOpt := b₁.pOpt
      thetaOpt := b₁.thetaOpt }
  have hE := hM.elements
  have hstep := step_pos hM hlen
  have hle := fun el => node_le hM hlen el (o := o)
  have hnode₀ : nodeTime o M 0 = 0 := by simp [nodeTime]
  have hlast : M.elements - 1 < M.elements := by omega
  have hend : M.elements - 1 + 1 = M.elements := by omega
  have hstart : ∀ el, nodeTime o M el ∈ Icc (nodeTime o M el) (nodeTime o M (el + 1)) := fun el =>
    ⟨le_rfl, hle el⟩
  have hstop : ∀ el, nodeTime o M (el + 1) ∈ Icc (nodeTime o M el) (nodeTime o M (el + 1)) := fun el =>
    ⟨hle el, le_rfl⟩
  have hsame : ∀ el < M.elements, ∀ r ∈ Icc (nodeTime o M el) (nodeTime o M (el + 1)),
      SameGiven o (X₁ el r) (X₂ el r) := fun el he r hr =>
    same_data hopt ((hD₁.paths el he).reads r hr) ((hD₂.paths el he).reads r hr)
  have haff : ∀ e ∈ o.model.odeVec ++ o.model.alg ++ o.gEq ++ o.hInitial ++ o.hFinal ++ o.h,
      ∀ el < M.elements, ∀ r ∈ Icc (nodeTime o M el) (nodeTime o M (el + 1)), e.eval ops (X el r) =
        (1 - t) * e.eval ops (X₁ el r) + t * e.eval ops (X₂ el r) :=
    fun e he el hel r hr => hx.affine e he t _ _ h0 h1 (hsame el hel r hr)
  have hcvx : ∀ e ∈ o.gIneq ++ [o.L, o.S, o.V], ∀ el < M.elements,
      ∀ r ∈ Icc (nodeTime o M el) (nodeTime o M (el + 1)), e.eval ops (X el r) ≤
        (1 - t) * e.eval ops (X₁ el r) + t * e.eval ops (X₂ el r) :=
    fun e he el hel r hr => hx.convex e he t _ _ h0 h1 (hsame el hel r hr)
  have hxs : ∀ k ≤ M.elements, ∀ i < o.model.x.length, shotState b k i =
      (1 - t) * shotState b₁ k i + t * shotState b₂ k i := by
    intro k hk i hi
    refine (table_single (f := xv) (by omega) (by omega)).trans ?_
    exact if_pos hi
  have hxc : ∀ k ≤ M.elements, shotState b k o.model.x.length = costAt ops o M sum X k := by
    intro k hk
    refine (table_single (f := xv) (by omega) (by omega)).trans ?_
    exact if_neg (lt_irrefl _)
  have hys : ∀ el < M.elements, ∀ i < o.model.y.length, shotAlgebraic b el i =
      (1 - t) * shotAlgebraic b₁ el i + t * shotAlgebraic b₂ el i := fun el he i hi =>
    table_single (f := fun el i => (1 - t) * shotAlgebraic b₁ el i + t * shotAlgebraic b₂ el i) he hi
  have hus : ∀ el < M.elements, ∀ i < o.model.u.length, controlPoly M b el i =
      C (1 - t) * controlPoly M b₁ el i + C t * controlPoly M b₂ el i := by
    intro el he i hi
    refine table_through (inField_nodup hn) he hi ?_
    have d₁ := control_degree hn hM.controls b₁ el i
    have d₂ := control_degree hn hM.controls b₂ el i
    have : (C (1 - t) * controlPoly M b₁ el i + C t * controlPoly M b₂ el i).natDegree ≤
        M.controlRoots.length - 1 := by
      refine (natDegree_add_le _ _).trans (max_le ?_ ?_)
      · exact (natDegree_C_mul_le _ _).trans (by omega)
      · exact (natDegree_C_mul_le _ _).trans (by omega)
    have hl : (inField M.controlRoots : List ℝ).length = M.controlRoots.length := by simp [inField]
    have hc := hM.controls
    omega
  have hev : ∀ (f g : ℝ[X]) (v : ℝ), (C (1 - t) * f + C t * g).eval v = (1 - t) * f.eval v + t * g.eval v := by
    intro f g v
    simp
  have hpts : controlPoints (directDims o M) = M.controlRoots.length := by
    rw [points_eq o M hM.controls, if_neg (by omega)]
  have hdata : ShootingShape (directDims o M) b := by
    refine ⟨⟨?_, by simp [b, directDims], hD₁.data.pOpt, hD₁.data.thetaOpt⟩, ?_, ?_⟩
    · rw [hpts]
      have := table_grid M.elements o.model.u.length (inField M.controlRoots : List ℝ) fun el i =>
        C (1 - t) * controlPoly M b₁ el i + C t * controlPoly M b₂ el i
      rw [show (inField M.controlRoots : List ℝ).length = M.controlRoots.length by simp [inField]] at this
      exact this
    · exact table_grid _ _ _ _
    · exact table_grid _ _ _ _
  have zero : ∀ {a a' : ℝ}, a = 0 → a' = 0 → (1 - t) * a + t * a' = 0 := by
    intro a a' h h'
    rw [h, h']; ring
  have sol₁ := hD₁.solution
  have sol₂ := hD₂.solution
  refine ⟨b, ⟨hdata, ?_, ?_, ?_⟩, ?_, hxs, hxc, hys, hus, rfl⟩
  · intro el he
    have p₁ := hD₁.paths el he
    have p₂ := hD₂.paths el he
    have same : ∀ {a a' v : ℝ}, a = v → a' = v → (1 - t) * a + t * a' = v := by
      intro a a' v h h'
      rw [h, h']; ring
    refine ⟨?_, ?_, ?_, ?_, ?_⟩
    · intro r hr'
      have r₁ := p₁.reads r hr'
      have r₂ := p₂.reads r hr'
      refine ⟨same r₁.time r₂.time, same r₁.position r₂.position, ?_, ?_, ?_, ?_, ?_, ?_, ?_⟩
      · intro i s hi
        rw [hus el he i (List.getElem?_eq_some_iff.1 hi).1, hev, ← r₁.controls i s hi, ← r₂.controls i s hi]
        rfl
      · exact fun i s hi hs => same (r₁.parameters i s hi hs) (r₂.parameters i s hi hs)
      · intro i s hi; rw [hopt.1] at hi; simp at hi
      · exact fun i s hi hs => same (r₁.thetas i s hi hs) (r₂.thetas i s hi hs)
      · intro i s hi; rw [hopt.2] at hi; simp at hi
      · exact fun i s hi => same (r₁.starts i s hi) (r₂.starts i s hi)
      · intro i s hi
        have hi' := (List.getElem?_eq_some_iff.1 hi).1
        show (1 - t) * X₁ el r s + t * X₂ el r s = ((List.range o.eta.length).map fun i =>
          (1 - t) * b₁.eta.getD i 0 + t * b₂.eta.getD i 0).getD i 0
        rw [r₁.etas i s hi, r₂.etas i s hi, List.getD_eq_getElem?_getD (l := List.map _ _), List.getElem?_map,
          List.getElem?_range hi']
        rfl
    · intro i s hi
      rw [hxs el he.le i (List.getElem?_eq_some_iff.1 hi).1, ← p₁.start i s hi, ← p₂.start i s hi]
      rfl
    · intro r hr' s e hode
      have hm : e ∈ o.model.odeVec := (mem_odeVec _ _).2 ⟨s, ExactTraj.mem_ode hode⟩
      rw [haff e (by simp [hm]) el he r hr']
      exact ((p₁.ode r hr' s e hode).const_mul (1 - t)).add ((p₂.ode r hr' s e hode).const_mul t)
    · intro r hr' e hm
      rw [haff e (by simp [hm]) el he r hr']
      exact zero (p₁.alg r hr' e hm) (p₂.alg r hr' e hm)
    · exact hL el he b₁ b₂ _ _ p₁ p₂ t
  · refine ⟨?_, ?_, ?_, hD₁.bounds.pOpt, hD₁.bounds.thetaOpt⟩
    · have hg := fun {c : Blocks ℝ} (hc : ShootingShape (directDims o M) c) =>
        grid_within (K := ℝ) (lo := o.xMin ++ [if o.positiveObjective then XRat.fin 0 else ⊥])
          (hi := o.xMax ++ [⊤]) (n := o.model.x.length + 1) (by simp [hB.x.lower]) (List.nodup_singleton 0) hc.x rfl
      have w₁ := (hg hD₁.data).1 hD₁.bounds.x
      have w₂ := (hg hD₂.data).1 hD₂.bounds.x
      refine (hg hdata).2 ?_
      intro k hk tau ht i l u hl hu'
      have hk' : k ≤ M.elements := Nat.lt_succ_iff.1 hk
      have ht' : tau = 0 := by simpa using ht
      subst ht'
      rcases Nat.lt_or_ge i o.model.x.length with hi | hi
      · have hin : EntryWithin (o.xMin ++ [if o.positiveObjective then XRat.fin 0 else ⊥]) (o.xMax ++ [⊤])
            fun i => (1 - t) * (through [0] (b₁.x.getD k []) i).eval 0 + t * (through [0] (b₂.x.getD k []) i).eval 0 :=
          within_partWay h0 h1 (w₁ k hk 0 ht) (w₂ k hk 0 ht) fun _ _ => rfl
        have := hin i l u hl hu'
        simp only [single_entry] at this ⊢
        have e₁ := hxs k hk' i hi
        unfold shotState at e₁
        rw [e₁]
        exact this
      · have hl' := (List.getElem?_eq_some_iff.1 hl).1
        rw [List.length_append, hB.x.lower, List.length_singleton] at hl'
        obtain rfl : i = o.model.x.length := by omega
        rw [hpos] at hl
        rw [← hB.x.lower, List.getElem?_concat_length] at hl
        have hlu : o.xMax.length = o.model.x.length := hB.x.upper
        rw [← hlu, List.getElem?_concat_length] at hu'
        cases hl
        cases hu'
        exact ⟨bot_le, le_top⟩
    · have hg := fun {c : Blocks ℝ} (hc : ShootingShape (directDims o M) c) =>
        grid_within (K := ℝ) (lo := o.yMin) (hi := o.yMax) (n := o.model.y.length) hB.y.lower
          (List.nodup_singleton 0) hc.y rfl
      have w₁ := (hg hD₁.data).1 hD₁.bounds.y
      have w₂ := (hg hD₂.data).1 hD₂.bounds.y
      refine (hg hdata).2 ?_
      intro el he tau ht
      have ht' : tau = 0 := by simpa using ht
      subst ht'
      refine within_partWay h0 h1 (w₁ el he 0 ht) (w₂ el he 0 ht) fun i hi => ?_
      rw [hB.y.lower] at hi
      simp only [single_entry]
      exact hys el he i hi
    · have hg := fun {c : Blocks ℝ} (hc : ShootingShape (directDims o M) c) =>
        grid_within (K := ℝ) (lo := o.uMin) (hi := o.uMax) (n := o.model.u.length) hB.u.lower
          (inField_nodup hn) hc.u (by rw [hpts]; simp [inField])
      have w₁ := (hg hD₁.data).1 hD₁.bounds.u
      have w₂ := (hg hD₂.data).1 hD₂.bounds.u
      refine (hg hdata).2 ?_
      intro el he tau ht
      refine within_partWay h0 h1 (w₁ el he tau ht) (w₂ el he tau ht) fun i hi => ?_
      rw [hB.u.lower] at hi
      show (controlPoly M b el i).eval tau = _
      rw [hus el he i hi, hev]
      rfl
  · refine ⟨?_, ?_, ?_, ?_, ?_, ?_, ?_, ?_, ?_, ?_⟩
    · intro e he
      rw [haff e (by simp [he]) 0 hE 0 (by have := hstart 0; rw [hnode₀] at this ⊢; exact this)]
      exact zero (sol₁.initial e he) (sol₂.initial e he)
    · rw [hxc 0 (Nat.zero_le _)]
      unfold costAt
      split <;> simp
    · intro el he i s hi
      rw [hxs (el + 1) he i (List.getElem?_eq_some_iff.1 hi).1, sol₁.states el he i s hi, sol₂.states el he i s hi]
      rfl
    · intro el he
      rw [hxc (el + 1) he, hxc el he.le]
      unfold costAt
      split
      · rfl
      · rw [List.range_succ, List.map_append, List.sum_append]
        simp
    · intro el he i s hi
      rw [hys el he i (List.getElem?_eq_some_iff.1 hi).1, sol₁.algebraics el he i s hi, sol₂.algebraics el he i s hi]
      rfl
    · intro el he e hm
      refine (hcvx e (by simp [hm]) el he _ (hstop el)).trans ?_
      exact partWay_le h0 h1 (sol₁.inequalities el he e hm) (sol₂.inequalities el he e hm)
    · intro el he e hm
      rw [haff e (by simp [hm]) el he _ (hstop el)]
      exact zero (sol₁.equalities el he e hm) (sol₂.equalities el he e hm)
    · exact rates_between hM hn h0 h1 hD₁.data.toSharedShape hD₂.data.toSharedShape hdata.toSharedShape sol₁.rates
        sol₂.rates hus
    · intro e he
      have hs := hstop (M.elements - 1)
      rw [hend] at hs
      rw [haff e (by simp [he]) _ hlast _ (by rw [hend]; exact hs)]
      exact zero (sol₁.final e he) (sol₂.final e he)
    · intro e he
      have hs := hstop (M.elements - 1)
      rw [hend] at hs
      rw [haff e (by simp [he]) _ hlast _ (by rw [hend]; exact hs)]
      exact zero (sol₁.timeless e he) (sol₂.timeless e he)
  · have hpath : pathCost ops o M X ≤ (1 - t) * pathCost ops o M X₁ + t * pathCost ops o M X₂ := by
      have hR : ((List.range M.elements).map fun el => runningCost ops o M el (X el)).sum ≤
          (1 - t) * ((List.range M.elements).map fun el => runningCost ops o M el (X₁ el)).sum +
            t * ((List.range M.elements).map fun el => runningCost ops o M el (X₂ el)).sum := by
        rw [← List.sum_map_mul_left, ← List.sum_map_mul_left, ← List.sum_map_add]
        refine List.sum_le_sum fun el hel => ?_
        obtain ⟨B, -, hB'⟩ := running_between hM hlen hopt hx hL (List.mem_range.1 hel)
          (hD₁.paths el (List.mem_range.1 hel)) (hD₂.paths el (List.mem_range.1 hel))
        exact (hB' t h0 h1).1
      have hS : ((List.range M.elements).map fun el => o.S.eval ops (X el (nodeTime o M (el + 1)))).sum ≤
          (1 - t) * ((List.range M.elements).map fun el => o.S.eval ops (X₁ el (nodeTime o M (el + 1)))).sum +
            t * ((List.range M.elements).map fun el => o.S.eval ops (X₂ el (nodeTime o M (el + 1)))).sum := by
        rw [← List.sum_map_mul_left, ← List.sum_map_mul_left, ← List.sum_map_add]
        refine List.sum_le_sum fun el hel => ?_
        exact hcvx o.S (by simp) el (List.mem_range.1 hel) _ (hstop el)
      unfold pathCost
      linarith
    unfold shotCost
    split
    · exact hpath
    · unfold userCost
      have hs := hstop (M.elements - 1)
      rw [hend] at hs
      have hV := hcvx o.V (by simp) _ hlast (nodeTime o M M.elements) (by rw [hend]; exact hs)
      linarith

/-- Near a decision there are decisions on the way to any other one. -/
theorem closer_shots (hM : ControlMesh M) (hn : M.controlRoots.Nodup) (hu : 0 < o.model.u.length)
    (hB : BoundsFit o) (hpos : o.positiveObjective = false)
    (hopt : o.pOpt = [] ∧ o.thetaOpt = []) (hlen : o.t0 < o.tf) (hx : ConvexExprs ops o)
    (hL : SteadyCost ops o M x0 p theta) {lastU : Option (List ℝ)}
    {sum : Bool} {b₁ b₂ : Blocks ℝ} {X₁ X₂ : Nat → ℝ → Sym → ℝ}
    (hD₁ : ShotDecision ops o M x0 p theta lastU sum b₁ X₁)
    (hD₂ : ShotDecision ops o M x0 p theta lastU sum b₂ X₂) {eps : ℝ} (heps : 0 < eps) :
    ∃ t b X, 0 < t ∧ t ≤ 1 ∧ ShotDecision ops o M x0 p theta lastU sum b X ∧
      shotCost ops o M sum X ≤ (1 - t) * shotCost ops o M sum X₁ + t * shotCost ops o M sum X₂ ∧
      Near eps (Layout.stacked b) (Layout.stacked b₁) := by
  obtain ⟨G₁, hG₁, hb₁⟩ := table_bounded (M.elements + 1) o.model.x.length ([0] : List ℝ) fun k _ i =>
    |shotState b₂ k i - shotState b₁ k i|
  obtain ⟨G₂, hG₂, hb₂⟩ := table_bounded M.elements o.model.y.length ([0] : List ℝ) fun el _ i =>
    |shotAlgebraic b₂ el i - shotAlgebraic b₁ el i|
  obtain ⟨G₃, hG₃, hb₃⟩ := table_bounded M.elements o.model.u.length (inField M.controlRoots : List ℝ) fun el tau i =>
    |(controlPoly M b₂ el i).eval tau - (controlPoly M b₁ el i).eval tau|
  obtain ⟨G₄, hG₄, hb₄⟩ := table_bounded 1 o.eta.length ([0] : List ℝ) fun _ _ i =>
    |b₂.eta.getD i 0 - b₁.eta.getD i 0|
  have hrun : ∀ el, ∃ B, 0 ≤ B ∧ (el < M.elements → ∀ t, 0 ≤ t → t ≤ 1 →
      |runningCost ops o M el (fun r => partWay t (X₁ el r) (X₂ el r)) - runningCost ops o M el (X₁ el)| ≤ t * B) := by
    intro el
    by_cases hel : el < M.elements
    · obtain ⟨B, h0, hB'⟩ := running_between hM hlen hopt hx hL hel (hD₁.paths el hel) (hD₂.paths el hel)
      exact ⟨B, h0, fun _ t h0 h1 => (hB' t h0 h1).2⟩
    · exact ⟨0, le_rfl, fun h => absurd h hel⟩
  choose BL hBL₀ hBL using hrun
  let G₅ := ((List.range M.elements).map BL).sum
  have hG₅ : 0 ≤ G₅ := List.sum_nonneg fun v hv => by
    obtain ⟨el, -, rfl⟩ := List.mem_map.1 hv
    exact hBL₀ el
  let G := G₁ + G₂ + G₃ + G₄ + G₅
  have hGeq : G = G₁ + G₂ + G₃ + G₄ + G₅ := rfl
  have hG : 0 ≤ G := by rw [hGeq]; positivity
  let t := min 1 (eps / (G + 1))
  have hG1 : 0 < G + 1 := by linarith
  have ht0 : 0 < t := lt_min one_pos (div_pos heps hG1)
  have ht1 : t ≤ 1 := min_le_left _ _
  have htG : t * G ≤ eps := by
    have h₁ : t * (G + 1) ≤ eps := by
      refine (mul_le_mul_of_nonneg_right (min_le_right _ _) hG1.le).trans (le_of_eq ?_)
      exact div_mul_cancel₀ _ hG1.ne'
    nlinarith
  have hle : ∀ g, g ≤ G → t * g ≤ eps := fun g hg => (mul_le_mul_of_nonneg_left hg ht0.le).trans htG
  have hmix : ∀ {a a' c : ℝ}, |a' - a| ≤ c → |((1 - t) * a + t * a') - a| ≤ t * c := by
    intro a a' c hc
    rw [show ((1 - t) * a + t * a') - a = t * (a' - a) by ring, abs_mul, abs_of_pos ht0]
    exact mul_le_mul_of_nonneg_left hc ht0.le
  obtain ⟨b, hD, hcost, hX, hXc, hY, hU, heta⟩ :=
    mixed_shots hM hn hu hB hpos hopt hlen hx hL ht0.le ht1 hD₁ hD₂
  refine ⟨t, b, _, ht0, ht1, hD, hcost, ?_⟩
  have hev : ∀ (f g : ℝ[X]) (v : ℝ), (C (1 - t) * f + C t * g).eval v = (1 - t) * f.eval v + t * g.eval v := by
    intro f g v
    simp
  have hcs : ∀ k ≤ M.elements, |costAt ops o M sum (fun el r => partWay t (X₁ el r) (X₂ el r)) k -
      costAt ops o M sum X₁ k| ≤ t * ((List.range k).map BL).sum := by
    intro k
    induction k with
    | zero =>
      intro _
      unfold costAt
      split <;> simp
    | succ k ih =>
      intro hk
      have h₁ := ih (by omega)
      have h₂ := hBL k hk t ht0.le ht1
      have h₃ := hBL₀ k
      unfold costAt at h₁ ⊢
      simp only [List.range_succ, List.map_append, List.sum_append, mul_add, List.map_cons, List.map_nil,
        List.sum_cons, List.sum_nil, add_zero]
      split
      · rw [if_pos (by assumption), if_pos (by assumption)] at h₁
        have : 0 ≤ t * BL k := mul_nonneg ht0.le h₃
        linarith
      · rw [if_neg (by assumption), if_neg (by assumption)] at h₁
        refine le_trans (le_of_eq ?_) ((abs_add_le _ _).trans (add_le_add h₁ h₂))
        congr 1
        ring
  have hpart : ∀ k ≤ M.elements, ((List.range k).map BL).sum ≤ G₅ := by
    intro k hk
    obtain ⟨j, hj⟩ := Nat.exists_eq_add_of_le hk
    show _ ≤ ((List.range M.elements).map BL).sum
    rw [hj, List.range_add, List.map_append, List.sum_append]
    refine le_add_of_nonneg_right (List.sum_nonneg fun v hv => ?_)
    obtain ⟨el, -, rfl⟩ := List.mem_map.1 hv
    exact hBL₀ el
  have nx : Near eps b.x.flatten.flatten b₁.x.flatten.flatten := by
    refine grid_near (List.nodup_singleton (0 : ℝ)) hD.data.x hD₁.data.x rfl ?_
    intro k hk tau ht i hi
    have hk : k ≤ M.elements := Nat.lt_succ_iff.1 hk
    have hi : i < o.model.x.length + 1 := hi
    obtain rfl : tau = 0 := by simpa using ht
    simp only [single_entry]
    show |shotState b k i - shotState b₁ k i| ≤ eps
    rcases Nat.lt_or_ge i o.model.x.length with h | h
    · rw [hX k hk i h]
      exact (hmix (hb₁ k (by omega) 0 ht i h)).trans (hle _ (by linarith))
    · obtain rfl : i = o.model.x.length := by omega
      rw [hXc k hk, costAt_eq hD₁.solution k hk]
      refine (hcs k hk).trans (hle _ ?_)
      have := hpart k hk
      linarith
  have ny : Near eps b.y.flatten.flatten b₁.y.flatten.flatten := by
    refine grid_near (List.nodup_singleton (0 : ℝ)) hD.data.y hD₁.data.y rfl ?_
    intro el hel tau ht i hi
    obtain rfl : tau = 0 := by simpa using ht
    simp only [single_entry]
    show |shotAlgebraic b el i - shotAlgebraic b₁ el i| ≤ eps
    rw [hY el hel i hi]
    exact (hmix (hb₂ el hel 0 ht i hi)).trans (hle _ (by linarith))
  have nu : Near eps b.u.flatten.flatten b₁.u.flatten.flatten := by
    have g₁ := hD.data.u
    have g₂ := hD₁.data.u
    rw [points_eq o M hM.controls, if_neg (by omega)] at g₁ g₂
    refine grid_near (inField_nodup hn) g₁ g₂ (by simp [inField]) ?_
    intro el hel tau ht i hi
    show |(controlPoly M b el i).eval tau - (controlPoly M b₁ el i).eval tau| ≤ eps
    rw [hU el hel i hi, hev]
    exact (hmix (hb₃ el hel tau ht i hi)).trans (hle _ (by linarith))
  have ne : Near eps b.eta b₁.eta := by
    unfold Near
    rw [List.forall₂_iff_get]
    refine ⟨hD.data.eta.trans hD₁.data.eta.symm, fun i h₁ h₂ => ?_⟩
    have hi : i < o.eta.length := lt_of_lt_of_eq h₂ hD₁.data.eta
    have e₁ : b.eta.get ⟨i, h₁⟩ = (1 - t) * b₁.eta.getD i 0 + t * b₂.eta.getD i 0 := by
      have : b.eta[i]? = some ((1 - t) * b₁.eta.getD i 0 + t * b₂.eta.getD i 0) := by
        rw [heta, List.getElem?_map, List.getElem?_range hi]
        rfl
      rw [List.getElem?_eq_getElem h₁] at this
      exact Option.some.inj this
    have e₂ : b₁.eta.get ⟨i, h₂⟩ = b₁.eta.getD i 0 := by
      simp [List.getD_eq_getElem?_getD, h₂]
    rw [e₁, e₂]
    exact (hmix (hb₄ 0 Nat.one_pos 0 (by simp) i hi)).trans (hle _ (by linarith))
  have np : Near eps b.pOpt b₁.pOpt := by
    have l₁ := hD.data.pOpt
    have l₂ := hD₁.data.pOpt
    simp only [directDims, hopt.1, List.length_nil, List.length_eq_zero_iff] at l₁ l₂
    rw [l₁, l₂]
    exact .nil
  have nt : Near eps b.thetaOpt.flatten b₁.thetaOpt.flatten := by
    have l₁ := hD.data.thetaOpt
    have l₂ := hD₁.data.thetaOpt
    have hz : ∀ {l : List (List ℝ)}, Columns (directDims o M).elements (directDims o M).nThetaOpt l → l.flatten = [] := by
      intro l hl
      refine List.flatten_eq_nil_iff.2 fun c hc => ?_
      have := hl.2 c hc
      simpa [directDims, hopt.2] using this
    rw [hz l₁, hz l₂]
    exact .nil
  unfold Layout.stacked
  exact append_near (append_near (append_near (append_near (append_near nx ny) nu) ne) np) nt

/-- Local solutions of convex problems are solutions. -/
theorem local_best_shots (hM : ControlMesh M) (hn : M.controlRoots.Nodup) (hu : 0 < o.model.u.length)
    (hB : BoundsFit o) (hpos : o.positiveObjective = false)
    (hopt : o.pOpt = [] ∧ o.thetaOpt = []) (hlen : o.t0 < o.tf) (hx : ConvexExprs ops o)
    (hL : SteadyCost ops o M x0 p theta) {lastU : Option (List ℝ)} {sum : Bool} {b : Blocks ℝ}
    {X : Nat → ℝ → Sym → ℝ} (hb : LocallyBestShots ops o M x0 p theta lastU sum b X) :
    BestShots ops o M x0 p theta lastU sum b X := by
  refine ⟨hb.toShotDecision, fun b₂ X₂ hD₂ => ?_⟩
  obtain ⟨eps, heps, hloc⟩ := hb.local_best
  obtain ⟨t, b', X', ht0, ht1, hD, hcost, hnear⟩ :=
    closer_shots hM hn hu hB hpos hopt hlen hx hL hb.toShotDecision hD₂ heps
  have h₁ := hloc b' X' hD hnear
  have h₂ : t * shotCost ops o M sum X ≤ t * shotCost ops o M sum X₂ := by linarith
  exact le_of_mul_le_mul_left h₂ ht0

end Verif.ConvexShots
