import Verif.Spec.ConvexDirect
import Verif.Lemmas.RelaxTransfer
/-! # Between two decisions of a convex problem -/
namespace Verif.ConvexDirect
open Spec SolveDirect RelaxDirect PolyDecision Polynomial

variable {K : Type} [Field K] [LinearOrder K] [IsStrictOrderedRing K]

theorem partWay_le {t x y c : K} (h0 : 0 ≤ t) (h1 : t ≤ 1) (hx : x ≤ c) (hy : y ≤ c) :
    (1 - t) * x + t * y ≤ c := by
  have h₁ := mul_le_mul_of_nonneg_left hx (sub_nonneg.2 h1)
  have h₂ := mul_le_mul_of_nonneg_left hy h0
  linarith

theorem le_partWay {t x y c : K} (h0 : 0 ≤ t) (h1 : t ≤ 1) (hx : c ≤ x) (hy : c ≤ y) :
    c ≤ (1 - t) * x + t * y := by
  have h₁ := mul_le_mul_of_nonneg_left hx (sub_nonneg.2 h1)
  have h₂ := mul_le_mul_of_nonneg_left hy h0
  linarith

theorem finite_mono {a b : K} (h : a ≤ b) : (finite a : WithBot (WithTop K)) ≤ finite b :=
  WithBot.coe_le_coe.2 (WithTop.coe_le_coe.2 h)

/-- Bounds hold on the way from one value to another. -/
theorem within_partWay {lo hi : List XRat} {f g h : Nat → K} {t : K} (h0 : 0 ≤ t) (h1 : t ≤ 1)
    (hf : EntryWithin lo hi f) (hg : EntryWithin lo hi g)
    (hh : ∀ i < lo.length, h i = (1 - t) * f i + t * g i) : EntryWithin lo hi h := by
  intro i l u hl hu
  rw [hh i (List.getElem?_eq_some_iff.1 hl).1]
  obtain ⟨f₁, f₂⟩ := hf i l u hl hu
  obtain ⟨g₁, g₂⟩ := hg i l u hl hu
  constructor
  · rcases _root_.le_total (f i) (g i) with hc | hc
    · exact f₁.trans (finite_mono (le_partWay h0 h1 le_rfl hc))
    · exact g₁.trans (finite_mono (le_partWay h0 h1 hc le_rfl))
  · rcases _root_.le_total (f i) (g i) with hc | hc
    · exact le_trans (finite_mono (partWay_le h0 h1 hc le_rfl)) g₂
    · exact le_trans (finite_mono (partWay_le h0 h1 le_rfl hc)) f₂

/-- A polynomial in every element that does not rise at the collocation points. -/
theorem falls {M : Mesh} (hq : PositiveQuadrature K M) (D : Nat → K[X])
    (hd : ∀ el, (D el).natDegree ≤ M.roots.length) (h0 : (D 0).eval 0 = 0)
    (hcont : ∀ el, el + 1 < M.elements → (D el).eval 1 = (D (el + 1)).eval 0)
    (hder : ∀ el < M.elements, ∀ tau ∈ (inField M.roots : List K), (D el).derivative.eval tau ≤ 0) :
    ∀ el < M.elements, (D el).eval 1 ≤ 0 := by
  have step : ∀ el < M.elements, (D el).eval 1 ≤ (D el).eval 0 := by
    intro el he
    have := hq (-D el) (by rw [natDegree_neg]; exact hd el) fun tau ht => by
      rw [derivative_neg, eval_neg]
      have := hder el he tau ht
      linarith
    rw [eval_neg, eval_neg] at this
    linarith
  intro el
  induction el with
  | zero =>
    intro he
    exact (step 0 he).trans h0.le
  | succ n ih =>
    intro he
    refine (step _ he).trans ?_
    rw [← hcont n he]
    exact ih (by omega)

variable {o : Ocp} {M : Mesh} {x0 p : List K} {theta : List (List K)}

omit [LinearOrder K] [IsStrictOrderedRing K] in
theorem same_given (hopt : o.pOpt = [] ∧ o.thetaOpt = []) {b₁ b₂ : Blocks K} {el : Nat} {tau : K}
    {ρ₁ ρ₂ : Sym → K} (h₁ : Reads o M b₁ x0 p theta el tau ρ₁) (h₂ : Reads o M b₂ x0 p theta el tau ρ₂) :
    SameGiven o ρ₁ ρ₂ := by
  intro s hs
  simp only [List.mem_append, List.mem_cons, List.not_mem_nil, or_false] at hs
  rcases hs with (((rfl | rfl) | hs) | hs) | hs
  · rw [h₁.time, h₂.time]
  · rw [h₁.position, h₂.position]
  · obtain ⟨i, hi⟩ := List.getElem?_of_mem hs
    rw [h₁.parameters i s hi (by rw [hopt.1]; simp), h₂.parameters i s hi (by rw [hopt.1]; simp)]
  · obtain ⟨i, hi⟩ := List.getElem?_of_mem hs
    rw [h₁.thetas i s hi (by rw [hopt.2]; simp), h₂.thetas i s hi (by rw [hopt.2]; simp)]
  · obtain ⟨i, hi⟩ := List.getElem?_of_mem hs
    rw [h₁.starts i s hi, h₂.starts i s hi]

/-- The parts of a solution. -/
theorem solution_parts (ops : Expr.Ops K) (hM : GoodMesh M) {b : Blocks K} (hb : CollocationData (directDims o M) b)
    {lastU : Option (List K)} {ρ : Nat → K → Sym → K} (h : DirectSolution ops o M b lastU ρ) :
    Core ops o M b ρ ∧ CostState ops o M b ρ ∧
      ∀ el < M.elements, ∀ tau ∈ inField M.roots, ∀ e ∈ o.model.alg, e.eval ops (ρ el tau) = 0 := by
  have hcont := fun el he => (continuous_iff hM hb el he).1 (h.continuous el he)
  exact ⟨⟨h.initial, fun el he i hi => hcont el he i hi.le, h.dynamics, h.inequalities, h.equalities,
    h.final, h.timeless⟩, ⟨h.costStart, fun el he => hcont el he _ le_rfl, h.running⟩, h.algebraic⟩

/-- The changes of the controls between elements are within their limits. -/
def RatesWithin (o : Ocp) (M : Mesh) (b : Blocks K) (lastU : Option (List K)) : Prop :=
  ∀ el < M.elements, ∀ before now, controlBefore b lastU el = some before →
    (b.u.getD el []).head? = some now → ∀ (i : Nat) (a c : K) (lo hi : XRat), now[i]? = some a →
    before[i]? = some c → o.duMin[i]? = some lo → o.duMax[i]? = some hi →
    (Ocp.boundValue lo : WithBot (WithTop K)) ≤ ((a - c : K) : WithTop K) ∧
      (((a - c : K) : WithTop K) : WithBot (WithTop K)) ≤ Ocp.boundValue hi

/-- A solution from its parts. -/
theorem solution_of_parts (ops : Expr.Ops K) (hM : GoodMesh M) {b : Blocks K}
    (hb : CollocationData (directDims o M) b) {lastU : Option (List K)} {ρ : Nat → K → Sym → K}
    (h : Core ops o M b ρ) (h' : CostState ops o M b ρ)
    (ha : ∀ el < M.elements, ∀ tau ∈ inField M.roots, ∀ e ∈ o.model.alg, e.eval ops (ρ el tau) = 0)
    (hr : RatesWithin o M b lastU) : DirectSolution ops o M b lastU ρ := by
  refine ⟨h.initial, h'.start, fun el he => (continuous_iff hM hb el he).2 fun i hi => ?_, h.dynamics,
    h'.running, ha, h.inequalities, h.equalities, hr, h.final, h.timeless⟩
  rcases Nat.lt_or_ge i o.model.x.length with h₁ | h₁
  · exact h.continuous el he i h₁
  · obtain rfl : i = o.model.x.length := by omega
    exact h'.continuous el he

/-- The first control of an element is the value of its polynomial at the first point. -/
theorem first_control (hM : ControlMesh M) (hn : M.controlRoots.Nodup) (hu : 0 < o.model.u.length)
    {b : Blocks K} (hb : SharedShape (directDims o M) b) {el : Nat} (hel : el < M.elements) :
    ∃ now, (b.u.getD el []).head? = some now ∧ now.length = o.model.u.length ∧
      ∀ i, now.getD i 0 = (controlPoly M b el i).eval ((inField M.controlRoots : List K).getD 0 0) := by
  have hg := hb.u
  rw [points_eq o M hM.controls, if_neg (by omega)] at hg
  have h₁ : el < b.u.length := by rw [hg.1]; exact hel
  have hcols := hg.2 _ (List.getElem_mem h₁)
  have hget : b.u.getD el [] = b.u[el] := by rw [List.getD_eq_getElem?_getD, List.getElem?_eq_getElem h₁]; rfl
  have hc : 0 < (inField M.controlRoots : List K).length := by simpa [inField] using hM.controls
  have h₂ : 0 < b.u[el].length := by rw [hcols.1]; exact hM.controls
  refine ⟨b.u[el][0], ?_, hcols.2 _ (List.getElem_mem h₂), fun i => ?_⟩
  · rw [hget, List.head?_eq_getElem?, List.getElem?_eq_getElem h₂]
  · have := Lagrange.eval_interpolate_at_node (s := Finset.univ) (v := (inField M.controlRoots : List K).get)
      (fun j => ((b.u.getD el []).getD j []).getD i 0) (nodes_injOn (inField_nodup hn))
      (Finset.mem_univ (⟨0, hc⟩ : Fin (inField M.controlRoots : List K).length))
    have e₁ : (inField M.controlRoots : List K).getD 0 0 = (inField M.controlRoots : List K).get ⟨0, hc⟩ := by
      rw [List.getD_eq_getElem?_getD, List.getElem?_eq_getElem hc]; rfl
    have e₂ : (b.u.getD el []).getD 0 [] = b.u[el][0] := by
      rw [hget, List.getD_eq_getElem?_getD, List.getElem?_eq_getElem h₂]; rfl
    rw [e₁, ← e₂]
    exact this.symm

theorem bound_extended (v : XRat) : (Ocp.boundValue v : WithBot (WithTop K)) = extended v := by
  rcases v with _ | _ | q <;> rfl

/-- Limits of changes hold on the way from one decision to another. -/
theorem rates_between (hM : ControlMesh M) (hn : M.controlRoots.Nodup) {t : K}
    (h0 : 0 ≤ t) (h1 : t ≤ 1) {lastU : Option (List K)} {b₁ b₂ b : Blocks K}
    (hb₁ : SharedShape (directDims o M) b₁)
    (hb₂ : SharedShape (directDims o M) b₂) (hb : SharedShape (directDims o M) b)
    (hr₁ : RatesWithin o M b₁ lastU) (hr₂ : RatesWithin o M b₂ lastU)
    (hus : ∀ el < M.elements, ∀ i < o.model.u.length, controlPoly M b el i =
      C (1 - t) * controlPoly M b₁ el i + C t * controlPoly M b₂ el i) :
    RatesWithin o M b lastU := by
  intro el hel before now hbef hnow i a c lo hi ha hc hlo hhi
  have hu : 0 < o.model.u.length := by
    rcases Nat.eq_zero_or_pos o.model.u.length with hz | hz
    · exfalso
      have h₁ : el < b.u.length := by rw [hb.u.1]; exact hel
      have h₂ : now ∈ b.u[el] := by
        rw [List.getD_eq_getElem?_getD, List.getElem?_eq_getElem h₁] at hnow
        exact List.mem_of_head? hnow
      have h₃ : now.length = o.model.u.length := (hb.u.2 _ (List.getElem_mem h₁)).2 _ h₂
      have := (List.getElem?_eq_some_iff.1 ha).1
      omega
    · exact hz
  have hmix : ∀ el < M.elements, ∀ now, (b.u.getD el []).head? = some now → ∀ a, now[i]? = some a →
      ∃ now₁ now₂ a₁ a₂, (b₁.u.getD el []).head? = some now₁ ∧ (b₂.u.getD el []).head? = some now₂ ∧
        now₁[i]? = some a₁ ∧ now₂[i]? = some a₂ ∧ a = (1 - t) * a₁ + t * a₂ := by
    intro el hel now hnow a ha
    obtain ⟨n₀, k₁, k₂, k₃⟩ := first_control hM hn hu hb hel
    obtain ⟨n₁, l₁, l₂, l₃⟩ := first_control hM hn hu hb₁ hel
    obtain ⟨n₂, m₁, m₂, m₃⟩ := first_control hM hn hu hb₂ hel
    obtain rfl : n₀ = now := Option.some.inj (k₁.symm.trans hnow)
    have hi : i < o.model.u.length := k₂ ▸ (List.getElem?_eq_some_iff.1 ha).1
    have hv : ∀ {l : List K}, l.length = o.model.u.length → l[i]? = some (l.getD i 0) := by
      intro l hl
      rw [List.getD_eq_getElem?_getD, List.getElem?_eq_getElem (by omega)]
      rfl
    refine ⟨n₁, n₂, _, _, l₁, m₁, hv l₂, hv m₂, ?_⟩
    have : a = n₀.getD i 0 := Option.some.inj (ha.symm.trans (hv k₂))
    rw [this, k₃, l₃, m₃, hus el hel i hi]
    simp
  obtain ⟨n₁, n₂, a₁, a₂, p₁, p₂, q₁, q₂, rfl⟩ := hmix el hel now hnow a ha
  have hbefore : ∃ d₁ d₂ c₁ c₂, controlBefore b₁ lastU el = some d₁ ∧ controlBefore b₂ lastU el = some d₂ ∧
      d₁[i]? = some c₁ ∧ d₂[i]? = some c₂ ∧ c = (1 - t) * c₁ + t * c₂ := by
    cases el with
    | zero => exact ⟨before, before, c, c, hbef, hbef, hc, hc, by ring⟩
    | succ el => exact hmix el (by omega) before hbef c hc
  obtain ⟨d₁, d₂, c₁, c₂, r₁, r₂, s₁, s₂, rfl⟩ := hbefore
  have w₁ := hr₁ el hel d₁ n₁ r₁ p₁ i a₁ c₁ lo hi q₁ s₁ hlo hhi
  have w₂ := hr₂ el hel d₂ n₂ r₂ p₂ i a₂ c₂ lo hi q₂ s₂ hlo hhi
  rw [bound_extended, bound_extended] at w₁ w₂ ⊢
  have one : ∀ {v : K}, ((extended lo : WithBot (WithTop K)) ≤ ((v : K) : WithTop K) ∧
      (((v : K) : WithTop K) : WithBot (WithTop K)) ≤ extended hi) → EntryWithin [lo] [hi] fun _ => v := by
    intro v hv j l h hl hh
    match j, hl, hh with
    | 0, hl, hh =>
      cases hl
      cases hh
      exact hv
  exact within_partWay (h := fun _ => (1 - t) * a₁ + t * a₂ - ((1 - t) * c₁ + t * c₂)) h0 h1 (one w₁) (one w₂)
    (fun _ _ => by ring) 0 lo hi rfl rfl

/-- A decision at a part of the way from one decision to another. -/
theorem mixed_decision (ops : Expr.Ops K) (hM : GoodMesh M) (hn : M.controlRoots.Nodup) (hB : BoundsFit o)
    (hpos : o.positiveObjective = false) (hopt : o.pOpt = [] ∧ o.thetaOpt = [])
    (hq : PositiveQuadrature K M) (hlen : o.t0 < o.tf) (hx : ConvexExprs ops o) {t : K} (h0 : 0 ≤ t) (h1 : t ≤ 1)
    {lastU : Option (List K)} {b₁ b₂ : Blocks K} {ρ₁ ρ₂ : Nat → K → Sym → K}
    (hD₁ : Decision ops o M x0 p theta lastU b₁ ρ₁) (hD₂ : Decision ops o M x0 p theta lastU b₂ ρ₂) :
    ∃ b, Decision ops o M x0 p theta lastU b (fun el tau => partWay t (ρ₁ el tau) (ρ₂ el tau)) ∧
      directCost ops o M b (fun el tau => partWay t (ρ₁ el tau) (ρ₂ el tau)) ≤
        (1 - t) * directCost ops o M b₁ ρ₁ + t * directCost ops o M b₂ ρ₂ ∧
      (∀ el < M.elements, ∀ i < o.model.y.length, algebraicPoly M b el i =
        C (1 - t) * algebraicPoly M b₁ el i + C t * algebraicPoly M b₂ el i) ∧
      (∀ el < M.elements, ∀ i < o.model.u.length, controlPoly M b el i =
        C (1 - t) * controlPoly M b₁ el i + C t * controlPoly M b₂ el i) ∧
      (∀ el < M.elements, ∀ i < o.model.x.length, statePoly M b el i =
        C (1 - t) * statePoly M b₁ el i + C t * statePoly M b₂ el i) ∧
      b.eta = (List.range o.eta.length).map fun i => (1 - t) * b₁.eta.getD i 0 + t * b₂.eta.getD i 0 := by
  set ρ : Nat → K → Sym → K := fun el tau => partWay t (ρ₁ el tau) (ρ₂ el tau) with hρ
  have hE := hM.elements
  have hlast : M.elements - 1 < M.elements := by omega
  have hstep : (0 : K) < stepLength o M := by
    unfold stepLength
    exact div_pos (sub_pos.2 (by exact_mod_cast hlen)) (by exact_mod_cast hE)
  have hsame : ∀ el < M.elements, ∀ tau, SameGiven o (ρ₁ el tau) (ρ₂ el tau) := fun el he tau =>
    same_given hopt (hD₁.reads el he tau) (hD₂.reads el he tau)
  have haff : ∀ e ∈ o.model.odeVec ++ o.model.alg ++ o.gEq ++ o.hInitial ++ o.hFinal ++ o.h,
      ∀ el < M.elements, ∀ tau, e.eval ops (ρ el tau) =
        (1 - t) * e.eval ops (ρ₁ el tau) + t * e.eval ops (ρ₂ el tau) :=
    fun e he el hel tau => hx.affine e he t _ _ h0 h1 (hsame el hel tau)
  have hcvx : ∀ e ∈ o.gIneq ++ [o.L, o.S, o.V], ∀ el < M.elements, ∀ tau, e.eval ops (ρ el tau) ≤
        (1 - t) * e.eval ops (ρ₁ el tau) + t * e.eval ops (ρ₂ el tau) :=
    fun e he el hel tau => hx.convex e he t _ _ h0 h1 (hsame el hel tau)
  obtain ⟨c, hcd, hc0, hcc, hcr⟩ := exists_costState (K := K) hM
    fun el tau => stepLength o M * o.L.eval ops (ρ el tau)
  let X : Nat → Nat → K[X] := fun el i => if i < o.model.x.length then
    C (1 - t) * statePoly M b₁ el i + C t * statePoly M b₂ el i else c el
  let Y : Nat → Nat → K[X] := fun el i => C (1 - t) * algebraicPoly M b₁ el i + C t * algebraicPoly M b₂ el i
  let U : Nat → Nat → K[X] := fun el i => C (1 - t) * controlPoly M b₁ el i + C t * controlPoly M b₂ el i
  let b₀ : Blocks K := ⟨b₁.x, b₁.y, b₁.u, (List.range o.eta.length).map fun i =>
    (1 - t) * b₁.eta.getD i 0 + t * b₂.eta.getD i 0, b₁.pOpt, b₁.thetaOpt⟩
  have hdeg : ∀ {f g : K[X]} {n : Nat}, f.natDegree ≤ n → g.natDegree ≤ n →
      (C (1 - t) * f + C t * g).natDegree ≤ n := by
    intro f g n hf hg
    refine (natDegree_add_le _ _).trans (max_le ?_ ?_)
    · exact (natDegree_C_mul_le _ _).trans hf
    · exact (natDegree_C_mul_le _ _).trans hg
  have hdeg' : ∀ {f g : K[X]} {n : Nat}, f.natDegree < n → g.natDegree < n →
      (C (1 - t) * f + C t * g).natDegree < n := by
    intro f g n hf hg
    have := hdeg (n := n - 1) (f := f) (g := g) (by omega) (by omega)
    omega
  have hfit : Fits o M X Y U b₀ := by
    refine ⟨?_, ?_, ?_, by simp [b₀], hD₁.data.pOpt, hD₁.data.thetaOpt⟩
    · intro el i
      show (if i < o.model.x.length then C (1 - t) * statePoly M b₁ el i + C t * statePoly M b₂ el i
        else c el).natDegree ≤ _
      split
      · exact hdeg (state_degree hM b₁ el i) (state_degree hM b₂ el i)
      · exact hcd el
    · intro el i
      exact hdeg' (algebraic_degree hM b₁ el i) (algebraic_degree hM b₂ el i)
    · intro el _ i _
      exact hdeg' (control_degree hn hM.controls b₁ el i) (control_degree hn hM.controls b₂ el i)
  have hX : ∀ el < M.elements, ∀ i < o.model.x.length, statePoly M (polyBlocks o M X Y U b₀) el i =
      C (1 - t) * statePoly M b₁ el i + C t * statePoly M b₂ el i := by
    intro el he i hi
    rw [hfit.state hM el he i hi.le]
    exact if_pos hi
  have hXc : ∀ el < M.elements, statePoly M (polyBlocks o M X Y U b₀) el o.model.x.length = c el := by
    intro el he
    rw [hfit.state hM el he _ le_rfl]
    exact if_neg (by omega)
  have hY : ∀ el < M.elements, ∀ i < o.model.y.length, algebraicPoly M (polyBlocks o M X Y U b₀) el i =
      C (1 - t) * algebraicPoly M b₁ el i + C t * algebraicPoly M b₂ el i :=
    fun el he i hi => hfit.algebraic hM el he i hi
  have hU : ∀ el < M.elements, ∀ i < o.model.u.length, controlPoly M (polyBlocks o M X Y U b₀) el i =
      C (1 - t) * controlPoly M b₁ el i + C t * controlPoly M b₂ el i :=
    fun el he i hi => hfit.control hn el he i hi
  have hev : ∀ (f g : K[X]) (v : K), (C (1 - t) * f + C t * g).eval v = (1 - t) * f.eval v + t * g.eval v := by
    intro f g v
    simp
  have hdata := hfit.data hM.controls
  obtain ⟨core₁, cost₁, alg₁⟩ := solution_parts ops hM hD₁.data hD₁.solution
  obtain ⟨core₂, cost₂, alg₂⟩ := solution_parts ops hM hD₂.data hD₂.solution
  have hw₁ := (within_iff hM hn hD₁.data hB).1 hD₁.bounds
  have hw₂ := (within_iff hM hn hD₂.data hB).1 hD₂.bounds
  refine ⟨polyBlocks o M X Y U b₀, ⟨hdata, ?_, ?_, ?_⟩, ?_, hY, hU, hX, rfl⟩
  · intro el he tau
    have r₁ := hD₁.reads el he tau
    have r₂ := hD₂.reads el he tau
    have same : ∀ {a a' v : K}, a = v → a' = v → (1 - t) * a + t * a' = v := by
      intro a a' v h h'
      rw [h, h']; ring
    refine ⟨⟨same r₁.time r₂.time, same r₁.position r₂.position, ?_, ?_, ?_, ?_, ?_, ?_, ?_⟩, ?_, ?_⟩
    · intro i s hi
      rw [hU el he i (List.getElem?_eq_some_iff.1 hi).1, hev, ← r₁.controls i s hi, ← r₂.controls i s hi]
      rfl
    · exact fun i s hi hs => same (r₁.parameters i s hi hs) (r₂.parameters i s hi hs)
    · intro i s hi; rw [hopt.1] at hi; simp at hi
    · exact fun i s hi hs => same (r₁.thetas i s hi hs) (r₂.thetas i s hi hs)
    · intro i s hi; rw [hopt.2] at hi; simp at hi
    · exact fun i s hi => same (r₁.starts i s hi) (r₂.starts i s hi)
    · intro i s hi
      have hi' := (List.getElem?_eq_some_iff.1 hi).1
      show (1 - t) * ρ₁ el tau s + t * ρ₂ el tau s = ((List.range o.eta.length).map fun i =>
        (1 - t) * b₁.eta.getD i 0 + t * b₂.eta.getD i 0).getD i 0
      rw [r₁.etas i s hi, r₂.etas i s hi, List.getD_eq_getElem?_getD (l := List.map _ _), List.getElem?_map,
        List.getElem?_range hi']
      rfl
    · intro i s hi
      rw [hX el he i (List.getElem?_eq_some_iff.1 hi).1, hev, ← r₁.states i s hi, ← r₂.states i s hi]
      rfl
    · intro i s hi
      rw [hY el he i (List.getElem?_eq_some_iff.1 hi).1, hev, ← r₁.algebraics i s hi, ← r₂.algebraics i s hi]
      rfl
  · rw [within_iff hM hn hdata hB]
    refine ⟨?_, ?_, ?_, hw₁.pOpt, hw₁.thetaOpt⟩
    · intro el he tau ht i l u hl hu
      rcases Nat.lt_or_ge i o.model.x.length with hi | hi
      · have hin : EntryWithin (o.xMin ++ [if o.positiveObjective then XRat.fin 0 else ⊥]) (o.xMax ++ [⊤])
            fun i => (1 - t) * (statePoly M b₁ el i).eval tau + t * (statePoly M b₂ el i).eval tau :=
          within_partWay h0 h1 (hw₁.x el he tau ht) (hw₂.x el he tau ht) fun _ _ => rfl
        have := hin i l u hl hu
        simp only [hX el he i hi, hev]
        exact this
      · have hl' := (List.getElem?_eq_some_iff.1 hl).1
        rw [List.length_append, hB.x.lower, List.length_singleton] at hl'
        obtain rfl : i = o.model.x.length := by omega
        rw [hpos] at hl
        rw [← hB.x.lower, List.getElem?_concat_length] at hl
        have hlu : o.xMax.length = o.model.x.length := hB.x.upper
        rw [← hlu, List.getElem?_concat_length] at hu
        cases hl
        cases hu
        exact ⟨bot_le, le_top⟩
    · intro el he tau ht
      refine within_partWay h0 h1 (hw₁.y el he tau ht) (hw₂.y el he tau ht) fun i hi => ?_
      rw [hB.y.lower] at hi
      simp only [hY el he i hi, hev]
    · intro el he tau ht
      refine within_partWay h0 h1 (hw₁.u el he tau ht) (hw₂.u el he tau ht) fun i hi => ?_
      rw [hB.u.lower] at hi
      simp only [hU el he i hi, hev]
  · have zero : ∀ {a a' : K}, a = 0 → a' = 0 → (1 - t) * a + t * a' = 0 := by
      intro a a' h h'
      rw [h, h']; ring
    refine solution_of_parts ops hM hdata ⟨?_, ?_, ?_, ?_, ?_, ?_, ?_⟩ ⟨?_, ?_, ?_⟩ ?_
      (rates_between hM.toControlMesh hn h0 h1 hD₁.data.toSharedShape hD₂.data.toSharedShape hdata.toSharedShape
        hD₁.solution.rates hD₂.solution.rates hU)
    · intro e he
      rw [haff e (by simp [he]) 0 hE]
      exact zero (core₁.initial e he) (core₂.initial e he)
    · intro el he i hi
      rw [hX el (by omega) i hi, hX (el + 1) he i hi, hev, hev, core₁.continuous el he i hi,
        core₂.continuous el he i hi]
    · intro el he tau ht i s e hs hode
      have hm : e ∈ o.model.odeVec := (mem_odeVec _ _).2 ⟨s, ExactTraj.mem_ode hode⟩
      rw [hX el he i (List.getElem?_eq_some_iff.1 hs).1, haff e (by simp [hm]) el he]
      simp only [derivative_add, derivative_C_mul, eval_add, eval_mul, eval_C]
      rw [core₁.dynamics el he tau ht i s e hs hode, core₂.dynamics el he tau ht i s e hs hode]
      ring
    · intro el he i e tag hi htag taus htaus tau ht
      refine (hcvx e (by simp [List.mem_of_getElem? hi]) el he tau).trans ?_
      exact partWay_le h0 h1 (core₁.inequalities el he i e tag hi htag taus htaus tau ht)
        (core₂.inequalities el he i e tag hi htag taus htaus tau ht)
    · intro el he i e tag hi htag taus htaus tau ht
      rw [haff e (by simp [List.mem_of_getElem? hi]) el he]
      exact zero (core₁.equalities el he i e tag hi htag taus htaus tau ht)
        (core₂.equalities el he i e tag hi htag taus htaus tau ht)
    · intro e he
      rw [haff e (by simp [he]) _ hlast]
      exact zero (core₁.final e he) (core₂.final e he)
    · intro e he
      rw [haff e (by simp [he]) _ hlast]
      exact zero (core₁.timeless e he) (core₂.timeless e he)
    · rw [hXc 0 hE]; exact hc0
    · intro el he
      rw [hXc el (by omega), hXc (el + 1) he]
      exact hcc el
    · intro el he tau ht
      rw [hXc el he]
      exact hcr el tau ht
    · intro el he tau ht e hm
      rw [haff e (by simp [hm]) el he]
      exact zero (alg₁ el he tau ht e hm) (alg₂ el he tau ht e hm)
  · have hfall := falls hq (fun el => c el - (C (1 - t) * statePoly M b₁ el o.model.x.length +
      C t * statePoly M b₂ el o.model.x.length)) ?_ ?_ ?_ ?_ (M.elements - 1) hlast
    · rw [eval_sub, hev] at hfall
      unfold directCost
      rw [hXc _ hlast]
      have hV := hcvx o.V (by simp) _ hlast 1
      have hS : ((List.range M.elements).map fun el => o.S.eval ops (ρ el 1)).sum ≤
          (1 - t) * ((List.range M.elements).map fun el => o.S.eval ops (ρ₁ el 1)).sum +
            t * ((List.range M.elements).map fun el => o.S.eval ops (ρ₂ el 1)).sum := by
        rw [← List.sum_map_mul_left, ← List.sum_map_mul_left, ← List.sum_map_add]
        refine List.sum_le_sum fun el hel => ?_
        exact hcvx o.S (by simp) el (List.mem_range.1 hel) 1
      linarith
    · intro el
      refine (natDegree_sub_le _ _).trans (max_le (hcd el) ?_)
      exact hdeg (state_degree hM b₁ el _) (state_degree hM b₂ el _)
    · rw [eval_sub, hev, hc0, cost₁.start, cost₂.start]
      ring
    · intro el he
      rw [eval_sub, eval_sub, hev, hev, hcc el, cost₁.continuous el he, cost₂.continuous el he]
    · intro el he tau ht
      have hL := hcvx o.L (by simp) el he tau
      have g₁ := cost₁.running el he tau ht
      have g₂ := cost₂.running el he tau ht
      simp only [derivative_sub, derivative_add, derivative_C_mul, eval_sub, eval_add, eval_mul, eval_C]
      rw [hcr el tau ht, g₁, g₂]
      have := mul_le_mul_of_nonneg_left hL hstep.le
      linarith

end Verif.ConvexDirect
