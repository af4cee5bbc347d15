import Verif.Spec.DirectScheme
import Verif.Lemmas.RelaxTransfer
import Verif.Lemmas.Network
import Verif.Spec.NetJoint
/-! # Decisions of a discretised problem as values at the collocation points -/
namespace Verif.DirectScheme
open Spec SolveDirect PolyDecision Polynomial

variable {K : Type} [Field K] [LinearOrder K] [IsStrictOrderedRing K]
variable {M : Mesh}

/-! ## Points -/

omit [LinearOrder K] [IsStrictOrderedRing K] in
theorem mem_roots (tau : K) : tau ∈ (inField M.roots : List K) ↔ ∃ j, tau = M.root j := by
  unfold inField Mesh.root
  rw [List.mem_map]
  constructor
  · rintro ⟨a, ha, rfl⟩
    obtain ⟨j, hj, rfl⟩ := List.getElem_of_mem ha
    exact ⟨⟨j, hj⟩, rfl⟩
  · rintro ⟨j, rfl⟩
    exact ⟨_, List.get_mem _ _, rfl⟩

omit [LinearOrder K] [IsStrictOrderedRing K] in
theorem root_mem (j : Fin M.roots.length) : (M.root j : K) ∈ (inField M.roots : List K) :=
  (mem_roots _).2 ⟨j, rfl⟩

omit [LinearOrder K] [IsStrictOrderedRing K] in
theorem root_eq (j : Fin M.roots.length) :
    (M.root j : K) = (inField M.roots : List K)[j.val]'(by simp [inField]) := by
  simp [Mesh.root, inField]

theorem root_injective (hM : GoodMesh M) : Function.Injective (M.root (K := K)) := by
  intro i j h
  have hn := (List.nodup_cons.1 (ExactTraj.nodes_nodup (K := K) hM)).2
  rw [root_eq, root_eq] at h
  exact Fin.ext ((hn.getElem_inj_iff).1 h)

theorem root_last (hM : GoodMesh M) : (M.root (M.lastRoot hM) : K) = 1 := by
  have := ExactTraj.last_node (K := K) hM
  rw [List.getLast?_eq_getElem?] at this
  obtain ⟨h1, h2⟩ := List.getElem?_eq_some_iff.1 this
  rw [root_eq]
  simpa [inField, Mesh.lastRoot] using h2

theorem root_pos (hM : GoodMesh M) (j : Fin M.roots.length) : (M.root j : K) ≠ 0 := by
  intro h
  have := (List.nodup_cons.1 (ExactTraj.nodes_nodup (K := K) hM)).1
  rw [← h] at this
  exact this (root_mem j)

theorem point_surj (k : Fin M.size) : ∃ el j, k = M.point el j :=
  ⟨(finProdFinEquiv.symm k).1, (finProdFinEquiv.symm k).2, (finProdFinEquiv.apply_symm_apply k).symm⟩

theorem point_mod (el : Fin M.elements) (j : Fin M.roots.length) : (M.point el j).modNat = j := by
  have := congrArg Prod.snd (finProdFinEquiv.symm_apply_apply (el, j))
  exact this

theorem point_div (el : Fin M.elements) (j : Fin M.roots.length) : (M.point el j).divNat = el := by
  have := congrArg Prod.fst (finProdFinEquiv.symm_apply_apply (el, j))
  exact this

theorem point_sum {A : Type} [AddCommMonoid A] (f : Fin M.size → A) :
    ∑ k, f k = ∑ el, ∑ j, f (M.point el j) := by
  rw [← Fintype.sum_prod_type' (f := fun el j => f (M.point el j))]
  exact (Fintype.sum_equiv finProdFinEquiv _ _ fun x => rfl).symm

/-! ## Integrals -/

omit [LinearOrder K] [IsStrictOrderedRing K] in
theorem unitIntegral_eq (f : K[X]) (n : Nat) (h : f.natDegree < n) :
    unitIntegral f = ∑ i ∈ Finset.range n, f.coeff i / ((i : K) + 1) := by
  unfold unitIntegral
  refine Finset.sum_subset (Finset.range_subset_range.2 h) fun i _ hi => ?_
  rw [Polynomial.coeff_eq_zero_of_natDegree_lt (by simpa [Nat.lt_succ_iff] using hi), zero_div]

omit [LinearOrder K] [IsStrictOrderedRing K] in
theorem unitIntegral_sum {ι : Type} (s : Finset ι) (c : ι → K) (f : ι → K[X]) :
    unitIntegral (∑ j ∈ s, C (c j) * f j) = ∑ j ∈ s, c j * unitIntegral (f j) := by
  obtain ⟨n, hn⟩ : ∃ n, (∀ j ∈ s, (f j).natDegree < n) ∧ (∑ j ∈ s, C (c j) * f j).natDegree < n := by
    refine ⟨(∑ j ∈ s, C (c j) * f j).natDegree + s.sup (fun j => (f j).natDegree) + 1, fun j hj => ?_, by omega⟩
    have h : (f j).natDegree ≤ s.sup fun j => (f j).natDegree :=
      Finset.le_sup (f := fun j => (f j).natDegree) hj
    omega
  rw [unitIntegral_eq _ n hn.2]
  simp only [finsetSum_coeff, coeff_C_mul, Finset.sum_div]
  rw [Finset.sum_comm]
  refine Finset.sum_congr rfl fun j hj => ?_
  rw [unitIntegral_eq _ n (hn.1 j hj), Finset.mul_sum]
  exact Finset.sum_congr rfl fun i _ => by ring

omit [LinearOrder K] [IsStrictOrderedRing K] in
theorem unitIntegral_derivative [CharZero K] (f : K[X]) : unitIntegral f.derivative = f.eval 1 - f.eval 0 := by
  rw [unitIntegral_eq _ (f.natDegree + 1) (by
    have := natDegree_derivative_le f
    omega)]
  rw [Polynomial.eval_eq_sum_range' (n := f.natDegree + 2) (by omega) 1,
    ← Polynomial.coeff_zero_eq_eval_zero]
  simp only [one_pow, mul_one]
  rw [Finset.sum_range_succ' (f := fun i => f.coeff i), add_sub_cancel_right]
  refine Finset.sum_congr rfl fun i _ => ?_
  rw [coeff_derivative]
  have : ((i : K) + 1) ≠ 0 := by exact_mod_cast Nat.succ_ne_zero i
  field_simp

/-- The quadrature of collocation. -/
theorem quadrature_exact (hM : GoodMesh M) (f : K[X]) (hf : f.natDegree < M.roots.length) :
    unitIntegral f = ∑ j, quadratureWeight M j * f.eval (M.root j) := by
  have hd : f.degree < (Finset.univ : Finset (Fin M.roots.length)).card := by
    rw [Finset.card_univ, Fintype.card_fin]
    exact lt_of_le_of_lt degree_le_natDegree (by exact_mod_cast hf)
  have he := Lagrange.eq_interpolate (s := Finset.univ) (v := M.root (K := K)) (f := f)
    ((root_injective hM).injOn) hd
  rw [Lagrange.interpolate_apply] at he
  conv_lhs => rw [he]
  rw [unitIntegral_sum]
  exact Finset.sum_congr rfl fun j _ => mul_comm _ _

theorem quadrature_derivative (hM : GoodMesh M) (f : K[X]) (hf : f.natDegree ≤ M.roots.length) :
    f.eval 1 - f.eval 0 = ∑ j, quadratureWeight M j * f.derivative.eval (M.root j) := by
  rw [← unitIntegral_derivative, quadrature_exact hM]
  have h1 := natDegree_derivative_le f
  have h2 := hM.points
  omega

/-! ## Bounds -/

theorem within_extended (lo hi : XRat) (v : K) :
    Within lo hi v ↔ (extended lo : WithBot (WithTop K)) ≤ finite v ∧ finite v ≤ extended hi := by
  have hlo : (lo ≠ ⊤ ∧ ∀ q : Rat, lo = XRat.fin q → (q : K) ≤ v) ↔
      (extended lo : WithBot (WithTop K)) ≤ finite v := by
    match lo with
    | none => exact ⟨fun _ => bot_le, fun _ => ⟨by rintro ⟨⟩, by rintro q ⟨⟩⟩⟩
    | some none =>
      refine ⟨fun h => absurd rfl h.1, fun h => ?_⟩
      have h' : ((⊤ : WithTop K) : WithBot (WithTop K)) ≤ ((v : WithTop K) : WithBot (WithTop K)) := h
      rw [WithBot.coe_le_coe] at h'
      exact absurd h' (by simp)
    | some (some q) =>
      refine ⟨fun h => ?_, fun h => ⟨by rintro ⟨⟩, ?_⟩⟩
      · show (((q : K) : WithTop K) : WithBot (WithTop K)) ≤ ((v : WithTop K) : WithBot (WithTop K))
        rw [WithBot.coe_le_coe, WithTop.coe_le_coe]
        exact h.2 q rfl
      · rintro q' e
        cases e
        have h' : (((q : K) : WithTop K) : WithBot (WithTop K)) ≤ ((v : WithTop K) : WithBot (WithTop K)) := h
        rwa [WithBot.coe_le_coe, WithTop.coe_le_coe] at h'
  have hhi : (hi ≠ ⊥ ∧ ∀ q : Rat, hi = XRat.fin q → v ≤ (q : K)) ↔
      finite v ≤ (extended hi : WithBot (WithTop K)) := by
    match hi with
    | none =>
      refine ⟨fun h => absurd rfl h.1, fun h => ?_⟩
      have h' : ((v : WithTop K) : WithBot (WithTop K)) ≤ ⊥ := h
      simp at h'
    | some none => exact ⟨fun _ => le_top, fun _ => ⟨by rintro ⟨⟩, by rintro q ⟨⟩⟩⟩
    | some (some q) =>
      refine ⟨fun h => ?_, fun h => ⟨by rintro ⟨⟩, ?_⟩⟩
      · show ((v : WithTop K) : WithBot (WithTop K)) ≤ (((q : K) : WithTop K) : WithBot (WithTop K))
        rw [WithBot.coe_le_coe, WithTop.coe_le_coe]
        exact h.2 q rfl
      · rintro q' e
        cases e
        have h' : ((v : WithTop K) : WithBot (WithTop K)) ≤ (((q : K) : WithTop K) : WithBot (WithTop K)) := h
        rwa [WithBot.coe_le_coe, WithTop.coe_le_coe] at h'
  rw [← hlo, ← hhi]
  unfold Within
  tauto

theorem allWithin_entries {lo hi : List XRat} {vars : List Sym} {val : Sym → K} {f : Nat → K}
    (hl : lo.length = vars.length)
    (hv : ∀ (i : Nat) (s : Sym), vars[i]? = some s → val s = f i) :
    AllWithin lo hi vars val ↔ EntryWithin lo hi f := by
  unfold AllWithin EntryWithin
  constructor
  · intro h i l u hlo hhi
    have hi' : i < vars.length := by
      rw [← hl]; exact (List.getElem?_eq_some_iff.1 hlo).1
    have hs := List.getElem?_eq_getElem hi'
    rw [← hv i _ hs, ← within_extended]
    refine h (vars[i], l, u) ?_
    refine List.mem_iff_getElem?.2 ⟨i, ?_⟩
    rw [List.getElem?_zip_eq_some]
    refine ⟨hs, ?_⟩
    rw [List.getElem?_zip_eq_some]
    exact ⟨hlo, hhi⟩
  · rintro h ⟨s, l, u⟩ hm
    obtain ⟨i, hi'⟩ := List.mem_iff_getElem?.1 hm
    rw [List.getElem?_zip_eq_some] at hi'
    obtain ⟨h1, h2⟩ := hi'
    rw [List.getElem?_zip_eq_some] at h2
    show Within l u (val s)
    rw [hv i s h1, within_extended]
    exact h i l u h2.1 h2.2

/-! ## Values at the points -/

variable {ops : Expr.Ops K} {o : Ocp} {x0 p : List K} {theta : List (List K)} {par : List Sym}
variable {val tr : GridValues K M.size} {start : Sym → K} {b : Blocks K}

/-- The symbols of the expressions along the path have the values of the trajectory. -/
theorem env_eq (hg : GivenAt o M p theta par val) (hpp : PointProblem ops o) (hS : SampledFrom o M b tr)
    (el : Fin M.elements) (j : Fin M.roots.length) {ρ : Sym → K}
    (hr : Reads o M b x0 p theta el.val (M.root j) ρ) : ∀ s ∈ [o.model.t, o.model.tau] ++ o.model.x ++
      o.model.y ++ o.model.u ++ o.model.p ++ o.model.theta,
      withValues par val tr (M.point el j) s = ρ s := by
  intro s hs
  have free : s ∈ o.model.x ++ o.model.y ++ o.model.u → withValues par val tr (M.point el j) s =
      tr (M.point el j) s := fun h => if_neg (hg.free s h)
  have fixed : s ∈ par → withValues par val tr (M.point el j) s = val (M.point el j) s := fun h => if_pos h
  simp only [List.mem_append, List.mem_cons, List.not_mem_nil, or_false] at hs
  rcases hs with (((((rfl | rfl) | hs) | hs) | hs) | hs) | hs
  · rw [fixed hg.time.1, hg.time.2, hr.time]
  · rw [fixed hg.position.1, hg.position.2, hr.position]
  · obtain ⟨i, hi⟩ := List.getElem?_of_mem hs
    rw [free (by simp [hs]), hS.x el j i s hi, hr.states i s hi]
  · obtain ⟨i, hi⟩ := List.getElem?_of_mem hs
    rw [free (by simp [hs]), hS.y el j i s hi, hr.algebraics i s hi]
  · obtain ⟨i, hi⟩ := List.getElem?_of_mem hs
    rw [free (by simp [hs]), hS.u el j i s hi, hr.controls i s hi]
  · obtain ⟨i, hi⟩ := List.getElem?_of_mem hs
    obtain ⟨h1, h2⟩ := hg.parameters i s hi
    rw [fixed h1, h2, hr.parameters i s hi (by rw [hpp.pOpt]; exact List.not_mem_nil)]
  · obtain ⟨i, hi⟩ := List.getElem?_of_mem hs
    obtain ⟨h1, h2⟩ := hg.thetas i s hi
    rw [fixed h1, h2, hr.thetas i s hi (by rw [hpp.thetaOpt]; exact List.not_mem_nil)]

/-- The expressions that are evaluated at the collocation points. -/
def pointExprs (o : Ocp) : List Expr := alongPath o ++ o.hFinal ++ o.h ++ [o.V]

theorem eval_point (hsc : DirectScope o) (hg : GivenAt o M p theta par val) (hpp : PointProblem ops o)
    (hS : SampledFrom o M b tr) (el : Fin M.elements) (j : Fin M.roots.length) {ρ : Sym → K}
    (hr : Reads o M b x0 p theta el.val (M.root j) ρ) (e : Expr) (he : e ∈ pointExprs o) :
    e.eval ops (withValues par val tr (M.point el j)) = e.eval ops ρ := by
  refine Expr.eval_congr ops _ _ e fun s hs => env_eq hg hpp hS el j hr s ?_
  unfold pointExprs at he
  simp only [List.mem_append, List.mem_singleton] at he
  simp only [List.mem_append]
  rcases he with ((he | he) | he) | rfl
  · have := hsc.path e he s hs
    simp only [List.mem_append] at this
    tauto
  · have := hsc.final e he s hs
    rw [hpp.eta] at this
    simp only [List.mem_append, List.not_mem_nil, or_false] at this
    tauto
  · have := hsc.timeless e he s hs
    tauto
  · have := hsc.cost s hs
    simp only [List.mem_append] at this
    tauto

theorem imposed_roots {tag : String} (ht : tag = "start" ∨ tag = "end" ∨ tag = "default")
    (hs : tag ≠ "start") (hM : GoodMesh M) : ∃ taus : List K, pathPositions (inField M.roots) tag = some taus ∧
      ∀ tau ∈ taus, ∃ j, tau = M.root j := by
  rcases ht with rfl | rfl | rfl
  · exact absurd rfl hs
  · refine ⟨[1], rfl, fun tau ht => ⟨M.lastRoot hM, ?_⟩⟩
    rw [root_last hM]
    simpa using ht
  · exact ⟨inField M.roots, rfl, fun tau ht => (mem_roots tau).1 ht⟩

theorem entry_append {lo hi : List XRat} {a c : XRat} {f : Nat → K} (hl : lo.length = hi.length)
    (h : EntryWithin (lo ++ [a]) (hi ++ [c]) f) : EntryWithin lo hi f := by
  intro i l u h1 h2
  have e1 := (List.getElem?_eq_some_iff.1 h1).1
  refine h i l u ?_ ?_
  · rw [List.getElem?_append_left e1]; exact h1
  · rw [List.getElem?_append_left (by omega)]; exact h2

theorem entry_extend {lo hi : List XRat} {f : Nat → K} (hl : lo.length = hi.length)
    (h : EntryWithin lo hi f) : EntryWithin (lo ++ [⊥]) (hi ++ [⊤]) f := by
  intro i l u h1 h2
  rcases Nat.lt_trichotomy i lo.length with hi' | hi' | hi'
  · rw [List.getElem?_append_left hi'] at h1
    rw [List.getElem?_append_left (by omega)] at h2
    exact h i l u h1 h2
  · rw [List.getElem?_append_right (by omega), hi', Nat.sub_self] at h1
    rw [List.getElem?_append_right (by omega), hi', hl, Nat.sub_self] at h2
    cases h1
    cases h2
    exact ⟨bot_le, le_top⟩
  · rw [List.getElem?_eq_none (by simp; omega)] at h1
    cases h1

/-- A decision satisfies the constraints at the points. -/
theorem satisfies_of_decision (hM : GoodMesh M) (hn : M.controlRoots.Nodup) (hm : ControlsMatch M)
    (hP : DirectProblem o) (hsc : DirectScope o) (hB : BoundsFit o) (hpp : PointProblem ops o)
    (hg : GivenAt o M p theta par val) (hst : StartsAt o x0 start) {lastU : Option (List K)}
    {ρ : Nat → K → Sym → K} (hD : Decision ops o M x0 p theta lastU b ρ) (hS : SampledFrom o M b tr) :
    SatisfiesAll ops (directScheme ops M hM (stepLength o M) start) o (withValues par val tr) := by
  have hw := (within_iff hM hn hD.data hB).1 hD.bounds
  obtain ⟨hcore, -, halg⟩ := (RelaxDirect.solution_iff ops hM hD.data hpp.rates lastU ρ).1 hD.solution
  have hev := fun el j e he => eval_point hsc hg hpp hS el j (hD.reads el.val el.isLt (M.root j)) e he
  have hpath : ∀ e ∈ alongPath o, e ∈ pointExprs o := by
    intro e he
    unfold pointExprs
    simp [he]
  have hfree : ∀ s ∈ o.model.x ++ o.model.y ++ o.model.u, ∀ k,
      withValues par val tr k s = tr k s := fun s h k => if_neg (hg.free s h)
  have hsta : ∀ (i : Nat) (s : Sym), o.model.x[i]? = some s → (statePoly M b 0 i).eval 0 = start s := by
    intro i s hi
    have hr := hD.reads 0 hM.elements 0
    have hi' : i < o.model.x0.length := by
      rw [hP.starts]; exact (List.getElem?_eq_some_iff.1 hi).1
    have := hpp.pinned (ρ 0 0) hcore.initial i s _ hi (List.getElem?_eq_getElem hi')
    rw [hr.states i s hi, hr.starts i _ (List.getElem?_eq_getElem hi')] at this
    rw [this, hst.states i s hi]
  have hlast : ∀ e ∈ pointExprs o, e.eval ops (withValues par val tr (M.lastPoint hM)) =
      e.eval ops (ρ (M.elements - 1) 1) := by
    intro e he
    have := hev ⟨M.elements - 1, Nat.sub_lt hM.elements Nat.zero_lt_one⟩ (M.lastRoot hM) e he
    rw [root_last hM] at this
    exact this
  have htag : ∀ (g : List Expr) (tags : List String) (q : Expr × String), q ∈ g.zip tags →
      ∃ i : Nat, g[i]? = some q.1 ∧ tags[i]? = some q.2 := by
    intro g tags q hq
    obtain ⟨i, hi⟩ := List.mem_iff_getElem?.1 hq
    rw [show q = (q.1, q.2) from rfl, List.getElem?_zip_eq_some] at hi
    exact ⟨i, hi⟩
  refine ⟨?_, ?_, ?_, ?_, ?_, ?_, ?_, ?_, ?_, ?_⟩
  · intro k
    obtain ⟨el, j, rfl⟩ := point_surj k
    refine (allWithin_entries hB.x.lower (f := fun i => (statePoly M b el.val i).eval (M.root j)) ?_).2 ?_
    · intro i s hi
      rw [hfree s (by simp [List.mem_of_getElem? hi])]
      exact hS.x el j i s hi
    · exact entry_append (hB.x.lower.trans hB.x.upper.symm)
        (hw.x el.val el.isLt (M.root j) (List.mem_cons_of_mem _ (root_mem j)))
  · intro k
    obtain ⟨el, j, rfl⟩ := point_surj k
    refine (allWithin_entries hB.y.lower (f := fun i => (algebraicPoly M b el.val i).eval (M.root j)) ?_).2
      (hw.y el.val el.isLt (M.root j) (root_mem j))
    intro i s hi
    rw [hfree s (by simp [List.mem_of_getElem? hi])]
    exact hS.y el j i s hi
  · intro k
    obtain ⟨el, j, rfl⟩ := point_surj k
    refine (allWithin_entries hB.u.lower (f := fun i => (controlPoly M b el.val i).eval (M.root j)) ?_).2 ?_
    · intro i s hi
      rw [hfree s (by simp [List.mem_of_getElem? hi])]
      exact hS.u el j i s hi
    · intro i l u h1 h2
      exact (RelaxDirect.control_points hM hm (controlPoly M b el.val i)
        (RelaxDirect.control_degree hn hM.controls b el.val i)
        fun v => (extended l : WithBot (WithTop K)) ≤ finite v ∧ finite v ≤ extended u).2
        (fun tau ht => hw.u el.val el.isLt tau ht i l u h1 h2) _ (root_mem j)
  · intro v hv el
    obtain ⟨i, hi⟩ := List.getElem?_of_mem hv
    refine ⟨controlPoly M b el.val i, RelaxDirect.control_degree hn hM.controls b el.val i, fun j => ?_⟩
    exact ((hfree v (by simp [hv]) _).trans (hS.u el j i v hi)).symm
  · intro s hs
    cases hs
  · intro k e he
    obtain ⟨el, j, rfl⟩ := point_surj k
    rw [hev el j e (hpath e (by simp [alongPath, he]))]
    exact halg el.val el.isLt _ (root_mem j) e he
  · rintro q hq k ⟨taus, ht, hk⟩
    obtain ⟨el, j, rfl⟩ := point_surj k
    rw [point_mod] at hk
    obtain ⟨i, h1, h2⟩ := htag _ _ q hq
    rw [hev el j q.1 (hpath _ (by simp [alongPath, List.mem_of_getElem? h1]))]
    exact hcore.equalities el.val el.isLt i q.1 q.2 h1 h2 taus ht _ hk
  · rintro q hq k ⟨taus, ht, hk⟩
    obtain ⟨el, j, rfl⟩ := point_surj k
    rw [point_mod] at hk
    obtain ⟨i, h1, h2⟩ := htag _ _ q hq
    rw [hev el j q.1 (hpath _ (by simp [alongPath, List.mem_of_getElem? h1]))]
    exact hcore.inequalities el.val el.isLt i q.1 q.2 h1 h2 taus ht _ hk
  · rintro ⟨s, oe⟩ hq e rfl el
    have hkeys := hP.complete.1
    have hsx : s ∈ o.model.x := by
      rw [← hkeys]
      exact List.mem_map.2 ⟨_, hq, rfl⟩
    obtain ⟨i, hi⟩ := List.getElem?_of_mem hsx
    have hget : o.model.ode.get? s = some (some e) :=
      Net.get?_of_mem (by rw [hkeys]; exact hP.complete.2.1) hq
    refine ⟨statePoly M b el.val i, RelaxDirect.state_degree hM b el.val i, ?_, fun j => ⟨?_, ?_⟩⟩
    · unfold valueBefore
      split
      · rename_i h0
        rw [h0]
        exact hsta i s hi
      · rename_i h0
        rw [hfree s (by simp [hsx]), hS.x _ _ i s hi, root_last hM]
        have := hcore.continuous (el.val - 1) (by omega) i (List.getElem?_eq_some_iff.1 hi).1
        rw [show el.val - 1 + 1 = el.val by omega] at this
        exact this.symm
    · rw [hfree s (by simp [hsx]), hS.x el j i s hi]
    · rw [hev el j e (hpath e (by
        simp only [alongPath, List.mem_append]
        exact .inl (.inl (.inl (.inl ((mem_odeVec _ _).2 ⟨s, hq⟩))))))]
      exact hcore.dynamics el.val el.isLt _ (root_mem j) i s e hi hget
  · refine ⟨fun e he => ?_, fun e he => ?_⟩
    · rcases List.mem_append.1 he with he | he
      · rw [hlast e (by simp [pointExprs, he])]
        exact hcore.timeless e he
      · rw [hlast e (by simp [pointExprs, he])]
        exact hcore.final e he
    · rw [← hcore.initial e he]
      refine Expr.eval_congr ops _ _ e fun s hs => ?_
      have hr := hD.reads 0 hM.elements 0
      rcases List.mem_append.1 (hsc.initial e he s hs) with hs | hs
      · obtain ⟨i, hi⟩ := List.getElem?_of_mem hs
        rw [hr.states i s hi, hsta i s hi]
      · obtain ⟨i, hi⟩ := List.getElem?_of_mem hs
        rw [hr.starts i s hi, hst.symbols i s hi]

/-- A polynomial through given values at the points of an element. -/
theorem exists_through (hM : GoodMesh M) (f : Fin M.roots.length → K) :
    ∃ P : K[X], P.natDegree < M.roots.length ∧ ∀ j, P.eval (M.root j) = f j := by
  refine ⟨Lagrange.interpolate Finset.univ (M.root (K := K)) f, ?_, fun j =>
    Lagrange.eval_interpolate_at_node f ((root_injective hM).injOn) (Finset.mem_univ j)⟩
  have := Lagrange.degree_interpolate_lt (s := Finset.univ) (v := M.root (K := K)) f
    ((root_injective hM).injOn)
  rw [Finset.card_univ, Fintype.card_fin] at this
  by_cases h0 : Lagrange.interpolate Finset.univ (M.root (K := K)) f = 0
  · rw [h0, natDegree_zero]
    have := hM.points
    omega
  · exact (Polynomial.natDegree_lt_iff_degree_lt h0).2 this

/-- Values at the points that satisfy the constraints are those of a decision. -/
theorem decision_of_satisfies (hM : GoodMesh M) (hn : M.controlRoots.Nodup) (hm : ControlsMatch M)
    (hP : DirectProblem o) (hsc : DirectScope o) (hd : (problemSymbols o).Nodup) (hB : BoundsFit o)
    (hpp : PointProblem ops o) (hg : GivenAt o M p theta par val) (hst : StartsAt o x0 start)
    (lastU : Option (List K))
    (hf : SatisfiesAll ops (directScheme ops M hM (stepLength o M) start) o (withValues par val tr)) :
    ∃ b ρ, Decision ops o M x0 p theta lastU b ρ ∧ SampledFrom o M b tr := by
  classical
  have hfree : ∀ s ∈ o.model.x ++ o.model.y ++ o.model.u, ∀ k,
      withValues par val tr k s = tr k s := fun s h k => if_neg (hg.free s h)
  -- the polynomials of the states
  have hX : ∀ el i : Nat, ∃ P : K[X], P.natDegree ≤ M.roots.length ∧ ∀ (he : el < M.elements) (s : Sym),
      o.model.x[i]? = some s →
        P.eval 0 = valueBefore M hM start (withValues par val tr) s ⟨el, he⟩ ∧
        ∀ j, P.eval (M.root j) = tr (M.point ⟨el, he⟩ j) s ∧
          ∀ e, o.model.ode.get? s = some (some e) →
            P.derivative.eval (M.root j) =
              stepLength o M * e.eval ops (withValues par val tr (M.point ⟨el, he⟩ j)) := by
    intro el i
    by_cases he : el < M.elements
    · cases hi : o.model.x[i]? with
      | none => exact ⟨0, by simp, fun _ s h => by cases h⟩
      | some s =>
        have hs := List.mem_of_getElem? hi
        have hk : s ∈ o.model.ode.keys := by rw [hP.complete.1]; exact hs
        obtain ⟨⟨s', oe⟩, hq, hs'⟩ := List.mem_map.1 hk
        obtain rfl : s' = s := hs'
        obtain ⟨e, rfl⟩ := Option.isSome_iff_exists.1 (hP.complete.2.2 _ hq)
        obtain ⟨P, h1, h2, h3⟩ := hf.dynamics (s', some e) hq e rfl ⟨el, he⟩
        refine ⟨P, h1, fun _ t ht => ?_⟩
        cases ht
        refine ⟨h2, fun j => ⟨?_, fun e' he' => ?_⟩⟩
        · rw [(h3 j).1, hfree s' (by simp [hs])]
        · have hget := Net.get?_of_mem (by rw [hP.complete.1]; exact hP.complete.2.1) hq
          rw [hget] at he'
          cases he'
          exact (h3 j).2
    · exact ⟨0, by simp, fun h => absurd h he⟩
  choose X hXd hXv using hX
  -- the algebraic variables
  have hY : ∀ el i : Nat, ∃ P : K[X], P.natDegree < M.roots.length ∧ ∀ (he : el < M.elements) (s : Sym),
      o.model.y[i]? = some s → ∀ j, P.eval (M.root j) = tr (M.point ⟨el, he⟩ j) s := by
    intro el i
    by_cases he : el < M.elements
    · cases hi : o.model.y[i]? with
      | none =>
        refine ⟨0, ?_, fun _ s h => by cases h⟩
        have := hM.points
        rw [natDegree_zero]
        omega
      | some s =>
        obtain ⟨P, h1, h2⟩ := exists_through hM fun j => tr (M.point ⟨el, he⟩ j) s
        exact ⟨P, h1, fun _ t ht j => by cases ht; exact h2 j⟩
    · refine ⟨0, ?_, fun h => absurd h he⟩
      have := hM.points
      rw [natDegree_zero]
      omega
  choose Y hYd hYv using hY
  -- the controls
  have hU : ∀ el i : Nat, ∃ P : K[X], P.natDegree < M.controlRoots.length ∧
      ∀ (he : el < M.elements) (s : Sym), o.model.u[i]? = some s →
        ∀ j, P.eval (M.root j) = tr (M.point ⟨el, he⟩ j) s := by
    intro el i
    by_cases he : el < M.elements
    · cases hi : o.model.u[i]? with
      | none => exact ⟨0, by rw [natDegree_zero]; exact hM.controls, fun _ s h => by cases h⟩
      | some s =>
        have hs := List.mem_of_getElem? hi
        obtain ⟨P, h1, h2⟩ := hf.control s hs ⟨el, he⟩
        refine ⟨P, h1, fun _ t ht j => ?_⟩
        cases ht
        exact (h2 j).trans (hfree s (by simp [hs]) _)
    · exact ⟨0, by rw [natDegree_zero]; exact hM.controls, fun h => absurd h he⟩
  choose U hUd hUv using hU
  -- the cost state
  obtain ⟨C, hCd, hC0, hCc, hCr⟩ := RelaxDirect.exists_costState (K := K) hM fun el tau =>
    if h : el < M.elements ∧ ∃ j, tau = M.root j then
      stepLength o M * o.L.eval ops (withValues par val tr (M.point ⟨el, h.1⟩ h.2.choose)) else 0
  have hCr' : ∀ (el : Nat) (he : el < M.elements) (j : Fin M.roots.length),
      (C el).derivative.eval (M.root j) =
        stepLength o M * o.L.eval ops (withValues par val tr (M.point ⟨el, he⟩ j)) := by
    intro el he j
    rw [hCr el _ (root_mem j)]
    have hh : el < M.elements ∧ ∃ i, (M.root j : K) = M.root i := ⟨he, j, rfl⟩
    rw [dif_pos hh]
    have : hh.2.choose = j := (root_injective hM hh.2.choose_spec).symm
    rw [this]
  let X' : Nat → Nat → K[X] := fun el i => if i < o.model.x.length then X el i else C el
  let b₀ : Blocks K := ⟨[], [], [], [], [], List.replicate M.elements []⟩
  have hfit : Fits o M X' Y U b₀ := by
    refine ⟨?_, hYd, fun el _ i _ => hUd el i, ?_, ?_, ?_⟩
    · intro el i
      show (if i < o.model.x.length then X el i else C el).natDegree ≤ _
      split
      · exact hXd el i
      · exact hCd el
    · rw [hpp.eta]; rfl
    · rw [hpp.pOpt]; rfl
    · rw [hpp.thetaOpt]
      exact ⟨by simp [b₀], fun c hc => by rw [List.eq_of_mem_replicate hc]; rfl⟩
  have hx : ∀ el < M.elements, ∀ i < o.model.x.length,
      statePoly M (polyBlocks o M X' Y U b₀) el i = X el i := by
    intro el he i hi
    rw [hfit.state hM el he i hi.le]
    exact if_pos hi
  have hcost : ∀ el < M.elements, statePoly M (polyBlocks o M X' Y U b₀) el o.model.x.length = C el := by
    intro el he
    rw [hfit.state hM el he _ le_rfl]
    exact if_neg (by omega)
  have hlt : ∀ {l : List Sym} {i : Nat} {s : Sym}, l[i]? = some s → i < l.length := fun h =>
    (List.getElem?_eq_some_iff.1 h).1
  have hS : SampledFrom o M (polyBlocks o M X' Y U b₀) tr := by
    refine ⟨?_, ?_, ?_⟩
    · intro el j i s hi
      rw [hx el.val el.isLt i (hlt hi), ((hXv el.val i el.isLt s hi).2 j).1]
    · intro el j i s hi
      rw [hfit.algebraic hM el.val el.isLt i (hlt hi), hYv el.val i el.isLt s hi j]
    · intro el j i s hi
      rw [hfit.control hn el.val el.isLt i (hlt hi), hUv el.val i el.isLt s hi j]
  have hdata : CollocationData (directDims o M) (polyBlocks o M X' Y U b₀) := hfit.data hM.controls
  have hvals := fun el tau => C159_values o M (polyBlocks o M X' Y U b₀) x0 p theta hd
    ⟨hP.parameters.2.1, hP.parameters.2.2⟩ ⟨hP.thetas.2.1, hP.thetas.2.2⟩ el tau
  choose ρ hρ using hvals
  have hev := fun (el : Fin M.elements) j e he =>
    eval_point hsc hg hpp hS el j (hρ el.val (M.root j)) e he
  have hpath : ∀ e ∈ alongPath o, e ∈ pointExprs o := by
    intro e he
    unfold pointExprs
    simp [he]
  have hlast : ∀ e ∈ pointExprs o, e.eval ops (withValues par val tr (M.lastPoint hM)) =
      e.eval ops (ρ (M.elements - 1) 1) := by
    intro e he
    have := hev ⟨M.elements - 1, Nat.sub_lt hM.elements Nat.zero_lt_one⟩ (M.lastRoot hM) e he
    rw [root_last hM] at this
    exact this
  have hsta : ∀ (i : Nat) (s : Sym), o.model.x[i]? = some s → (X 0 i).eval 0 = start s := by
    intro i s hi
    rw [(hXv 0 i hM.elements s hi).1]
    exact if_pos rfl
  have hend : ∀ el, (he : el + 1 < M.elements) → ∀ (i : Nat) (s : Sym), o.model.x[i]? = some s →
      (X (el + 1) i).eval 0 = tr (M.point ⟨el, by omega⟩ (M.lastRoot hM)) s := by
    intro el he i s hi
    rw [(hXv (el + 1) i he s hi).1]
    refine (if_neg (Nat.succ_ne_zero el)).trans ?_
    exact hfree s (by simp [List.mem_of_getElem? hi]) _
  have hstart : ∀ e ∈ o.hInitial, e.eval ops (ρ 0 0) = e.eval ops start := by
    intro e he
    refine Expr.eval_congr ops _ _ e fun s hs => ?_
    rcases List.mem_append.1 (hsc.initial e he s hs) with hs | hs
    · obtain ⟨i, hi⟩ := List.getElem?_of_mem hs
      rw [(hρ 0 0).states i s hi, hx 0 hM.elements i (hlt hi), hsta i s hi]
    · obtain ⟨i, hi⟩ := List.getElem?_of_mem hs
      rw [(hρ 0 0).starts i s hi, hst.symbols i s hi]
  have htagged : ∀ (g : List Expr) (tags : List String) (i : Nat) (e : Expr) (tag : String),
      g[i]? = some e → tags[i]? = some tag → (e, tag) ∈ g.zip tags := by
    intro g tags i e tag h1 h2
    refine List.mem_iff_getElem?.2 ⟨i, ?_⟩
    rw [List.getElem?_zip_eq_some]
    exact ⟨h1, h2⟩
  have himposed : ∀ tag ∈ o.timeGIneq ++ o.timeGEq, ∀ taus : List K,
      pathPositions (inField M.roots) tag = some taus → ∀ tau ∈ taus, ∃ j, tau = M.root j := by
    intro tag ht taus htaus tau hm'
    obtain ⟨taus', h1, h2⟩ := imposed_roots (K := K) (hP.tags tag ht) (hpp.tags tag ht) hM
    rw [h1] at htaus
    cases htaus
    exact h2 tau hm'
  refine ⟨polyBlocks o M X' Y U b₀, ρ, ⟨hdata, fun el _ tau => hρ el tau, ?_, ?_⟩, hS⟩
  · rw [within_iff hM hn hdata hB]
    have hxat : ∀ (el : Fin M.elements) j, EntryWithin o.xMin o.xMax fun i =>
        (statePoly M (polyBlocks o M X' Y U b₀) el.val i).eval (M.root j) := by
      intro el j
      refine (allWithin_entries hB.x.lower ?_).1 (hf.x (M.point el j))
      intro i s hi
      rw [hfree s (by simp [List.mem_of_getElem? hi])]
      exact hS.x el j i s hi
    refine ⟨?_, ?_, ?_, ?_, ?_⟩
    · intro el he tau ht
      rw [hpp.positive]
      refine entry_extend (hB.x.lower.trans hB.x.upper.symm) ?_
      rcases List.mem_cons.1 ht with rfl | ht
      · cases el with
        | zero =>
          refine (allWithin_entries hB.x.lower ?_).1 hst.within
          intro i s hi
          rw [hx 0 he i (hlt hi), hsta i s hi]
        | succ el =>
          intro i l u h1 h2
          have hi : i < o.model.x.length := by
            rw [← hB.x.lower]; exact (List.getElem?_eq_some_iff.1 h1).1
          have := hxat ⟨el, by omega⟩ (M.lastRoot hM) i l u h1 h2
          have hsi := List.getElem?_eq_getElem hi
          simp only
          rw [hx (el + 1) he i hi, hend el he i _ hsi, hS.x ⟨el, by omega⟩ (M.lastRoot hM) i _ hsi]
          exact this
      · obtain ⟨j, rfl⟩ := (mem_roots tau).1 ht
        exact hxat ⟨el, he⟩ j
    · intro el he tau ht
      obtain ⟨j, rfl⟩ := (mem_roots tau).1 ht
      refine (allWithin_entries hB.y.lower ?_).1 (hf.y (M.point ⟨el, he⟩ j))
      intro i s hi
      rw [hfree s (by simp [List.mem_of_getElem? hi])]
      exact hS.y ⟨el, he⟩ j i s hi
    · intro el he tau ht i l u h1 h2
      refine (RelaxDirect.control_points hM hm (controlPoly M (polyBlocks o M X' Y U b₀) el i)
        (RelaxDirect.control_degree hn hM.controls _ el i)
        fun v => (extended l : WithBot (WithTop K)) ≤ finite v ∧ finite v ≤ extended u).1
        (fun tau ht => ?_) tau ht
      obtain ⟨j, rfl⟩ := (mem_roots tau).1 ht
      refine (allWithin_entries hB.u.lower (f := fun i =>
        (controlPoly M (polyBlocks o M X' Y U b₀) el i).eval (M.root j)) ?_).1
        (hf.u (M.point ⟨el, he⟩ j)) i l u h1 h2
      intro i s hi
      rw [hfree s (by simp [List.mem_of_getElem? hi])]
      exact hS.u ⟨el, he⟩ j i s hi
    · intro i a l u ha
      cases ha
    · intro col hcol i a l u ha
      have : col = [] := List.eq_of_mem_replicate hcol
      rw [this] at ha
      cases ha
  · rw [RelaxDirect.solution_iff ops hM hdata hpp.rates lastU ρ]
    refine ⟨⟨?_, ?_, ?_, ?_, ?_, ?_, ?_⟩, ⟨?_, ?_, ?_⟩, ?_⟩
    · intro e he
      rw [hstart e he]
      exact hf.boundary.2 e he
    · intro el he i hi
      have hsi := List.getElem?_eq_getElem hi
      rw [hx el (by omega) i hi, hx (el + 1) he i hi, hend el he i _ hsi, ← root_last hM,
        ((hXv el i (by omega) _ hsi).2 _).1]
    · intro el he tau ht i s e hs hode
      obtain ⟨j, rfl⟩ := (mem_roots tau).1 ht
      rw [hx el he i (hlt hs), ((hXv el i he s hs).2 j).2 e hode]
      rw [hev ⟨el, he⟩ j e (hpath e (by
        simp only [alongPath, List.mem_append]
        exact .inl (.inl (.inl (.inl ((mem_odeVec _ _).2 ⟨s, ExactTraj.mem_ode hode⟩))))))]
    · intro el he i e tag hi htag taus htaus tau ht
      obtain ⟨j, rfl⟩ := himposed tag (by simp [List.mem_of_getElem? htag]) taus htaus tau ht
      have := hf.ineq (e, tag) (htagged _ _ i e tag hi htag) (M.point ⟨el, he⟩ j)
        ⟨taus, htaus, by rw [point_mod]; exact ht⟩
      rw [hev ⟨el, he⟩ j e (hpath e (by simp [alongPath, List.mem_of_getElem? hi]))] at this
      exact this
    · intro el he i e tag hi htag taus htaus tau ht
      obtain ⟨j, rfl⟩ := himposed tag (by simp [List.mem_of_getElem? htag]) taus htaus tau ht
      have := hf.eq (e, tag) (htagged _ _ i e tag hi htag) (M.point ⟨el, he⟩ j)
        ⟨taus, htaus, by rw [point_mod]; exact ht⟩
      rw [hev ⟨el, he⟩ j e (hpath e (by simp [alongPath, List.mem_of_getElem? hi]))] at this
      exact this
    · intro e he
      rw [← hlast e (by simp [pointExprs, he])]
      exact hf.boundary.1 e (by simp [he])
    · intro e he
      rw [← hlast e (by simp [pointExprs, he])]
      exact hf.boundary.1 e (by simp [he])
    · rw [hcost 0 hM.elements]; exact hC0
    · intro el he
      rw [hcost el (by omega), hcost (el + 1) he]
      exact hCc el
    · intro el he tau ht
      obtain ⟨j, rfl⟩ := (mem_roots tau).1 ht
      rw [hcost el he, hCr' el he j, hev ⟨el, he⟩ j o.L (hpath _ (by simp [alongPath]))]
    · intro el he tau ht e hm'
      obtain ⟨j, rfl⟩ := (mem_roots tau).1 ht
      have := hf.alg (M.point ⟨el, he⟩ j) e hm'
      rw [hev ⟨el, he⟩ j e (hpath e (by simp [alongPath, hm']))] at this
      exact this

/-- The cost of a decision is that of its values at the points. -/
theorem cost_of_decision (hM : GoodMesh M) (hsc : DirectScope o) (hpp : PointProblem ops o)
    (hg : GivenAt o M p theta par val) {lastU : Option (List K)} {ρ : Nat → K → Sym → K}
    (hD : Decision ops o M x0 p theta lastU b ρ) (hS : SampledFrom o M b tr) :
    costOf ops (directScheme ops M hM (stepLength o M) start) o (withValues par val tr) =
      directCost ops o M b ρ := by
  obtain ⟨-, hcs, -⟩ := (RelaxDirect.solution_iff ops hM hD.data hpp.rates lastU ρ).1 hD.solution
  have hev := fun el j e he => eval_point hsc hg hpp hS el j (hD.reads el.val el.isLt (M.root j)) e he
  have hint : ∀ (el : Nat) (he : el < M.elements),
      (statePoly M b el o.model.x.length).eval 1 = ∑ i : Fin (el + 1),
        ∑ j, stepLength o M * quadratureWeight M j *
          o.L.eval ops (withValues par val tr (M.point (Fin.castLE he i) j)) := by
    intro el
    induction el with
    | zero =>
      intro he
      have := quadrature_derivative hM _ (RelaxDirect.state_degree hM b 0 o.model.x.length)
      rw [hcs.start, sub_zero] at this
      rw [this]
      rw [Fin.sum_univ_one]
      refine Finset.sum_congr rfl fun j _ => ?_
      rw [hcs.running 0 he _ (root_mem j), hev (Fin.castLE he 0) j o.L (by simp [pointExprs, alongPath])]
      rw [mul_comm (stepLength o M) (quadratureWeight M j), mul_assoc]
      rfl
    | succ el ih =>
      intro he
      have := quadrature_derivative hM _ (RelaxDirect.state_degree hM b (el + 1) o.model.x.length)
      rw [← hcs.continuous el he, sub_eq_iff_eq_add'] at this
      rw [this, ih (by omega), Fin.sum_univ_castSucc (n := el + 1)]
      congr 1
      refine Finset.sum_congr rfl fun j _ => ?_
      rw [hcs.running (el + 1) he _ (root_mem j),
        hev (Fin.castLE he (Fin.last (el + 1))) j o.L (by simp [pointExprs, alongPath])]
      rw [mul_comm (stepLength o M) (quadratureWeight M j), mul_assoc]
      rfl
  have hE : M.elements - 1 < M.elements := Nat.sub_lt hM.elements Nat.zero_lt_one
  have hlast := hev ⟨M.elements - 1, hE⟩ (M.lastRoot hM) o.V (by simp [pointExprs])
  rw [root_last hM] at hlast
  unfold costOf directCost
  have h1 : ∑ k, (directScheme ops M hM (stepLength o M) start).weight k *
      o.L.eval ops (withValues par val tr k) = (statePoly M b (M.elements - 1) o.model.x.length).eval 1 := by
    rw [hint _ hE, point_sum]
    simp only [directScheme, point_mod]
    have e : M.elements - 1 + 1 = M.elements := Nat.sub_add_cancel hM.elements
    exact (Fintype.sum_equiv (finCongr e) _ _ fun i => rfl).symm
  have h2 : ((directScheme ops M hM (stepLength o M) start).stages.map fun k =>
      o.S.eval ops (withValues par val tr k)) = (List.range M.elements).map fun el => o.S.eval ops (ρ el 1) := by
    show ((List.finRange M.elements).map fun el => M.point el (M.lastRoot hM)).map _ = _
    rw [List.map_map, ← List.map_coe_finRange_eq_range, List.map_map]
    refine List.map_congr_left fun el _ => ?_
    have := hev el (M.lastRoot hM) o.S (by simp [pointExprs, alongPath])
    rw [root_last hM] at this
    exact this
  rw [h1, h2]
  have h3 : o.V.eval ops (withValues par val tr (directScheme ops M hM (stepLength o M) start).last) =
      o.V.eval ops (ρ (M.elements - 1) 1) := hlast
  rw [h3]
  ring

/-- Every decision has values at the points. -/
theorem exists_sampled (hd : (problemSymbols o).Nodup) (b : Blocks K) :
    ∃ tr : GridValues K M.size, SampledFrom o M b tr := by
  have hnd : (o.model.x ++ (o.model.y ++ o.model.u)).Nodup := by
    refine hd.sublist ?_
    unfold problemSymbols
    simp only [List.append_assoc]
    refine List.Sublist.trans ?_ (List.sublist_append_right _ _)
    refine List.Sublist.append_left (List.Sublist.append_left ?_ _) _
    exact List.sublist_append_left _ _
  obtain ⟨h1, h2, h3⟩ := List.nodup_append.1 hnd
  obtain ⟨h4, h5, h6⟩ := List.nodup_append.1 h2
  have idx : ∀ {l : List Sym} {i : Nat} {s : Sym}, l.Nodup → l[i]? = some s → l.idxOf s = i := by
    intro l i s hl hs
    obtain ⟨hi, rfl⟩ := List.getElem?_eq_some_iff.mp hs
    exact hl.idxOf_getElem i hi
  refine ⟨fun k s => if s ∈ o.model.x then (statePoly M b k.divNat.val (o.model.x.idxOf s)).eval (M.root k.modNat)
    else if s ∈ o.model.y then (algebraicPoly M b k.divNat.val (o.model.y.idxOf s)).eval (M.root k.modNat)
    else (controlPoly M b k.divNat.val (o.model.u.idxOf s)).eval (M.root k.modNat), ?_, ?_, ?_⟩
  · intro el j i s hi
    have hs := List.mem_of_getElem? hi
    simp only [if_pos hs, idx h1 hi, point_mod, point_div]
  · intro el j i s hi
    have hs := List.mem_of_getElem? hi
    have hx : s ∉ o.model.x := fun hx => h3 s hx s (by simp [hs]) rfl
    simp only [if_neg hx, if_pos hs, idx h4 hi, point_mod, point_div]
  · intro el j i s hi
    have hs := List.mem_of_getElem? hi
    have hx : s ∉ o.model.x := fun hx => h3 s hx s (by simp [hs]) rfl
    have hy : s ∉ o.model.y := fun hy => h6 s hy s hs rfl
    simp only [if_neg hx, if_neg hy, idx h5 hi, point_mod, point_div]

omit [LinearOrder K] [IsStrictOrderedRing K] in
theorem table_entry {elements n : Nat} {positions : List K} {f : Nat → Nat → K[X]} {el j i : Nat}
    (he : el < elements) (hj : j < positions.length) (hi : i < n) :
    (((sampleTable elements n positions f).getD el []).getD j []).getD i 0 = (f el i).eval positions[j] := by
  unfold sampleTable
  rw [Transcription.range_map_getD_lt _ _ he]
  simp [hj, hi]

/-- What the result shows, at the points. -/
theorem sampled_of_reported (hM : GoodMesh M) (hn : M.controlRoots.Nodup) (hm : ControlsMatch M)
    {r : Report K} (hs : Shows o M b r) (hr : Reported o M r tr) : SampledFrom o M b tr := by
  have hlt : ∀ {l : List Sym} {i : Nat} {s : Sym}, l[i]? = some s → i < l.length := fun h =>
    (List.getElem?_eq_some_iff.1 h).1
  refine ⟨?_, ?_, ?_⟩
  · intro el j i s hi
    rw [hr.x el j i s hi, hs.xValues]
    have hlen : el.val < (sampleTable M.elements (o.model.x.length + 1) (0 :: inField M.roots)
        (statePoly M b)).length := by simp [sampleTable]
    rw [List.getD_eq_getElem?_getD (i := el.val), List.getElem?_append_left hlen,
      ← List.getD_eq_getElem?_getD,
      table_entry el.isLt (by simp [inField]) (Nat.lt_succ_of_lt (hlt hi))]
    rw [root_eq]
    rfl
  · intro el j i s hi
    rw [hr.y el j i s hi, hs.yValues, table_entry el.isLt (by simp [inField]) (hlt hi), root_eq]
  · intro el j i s hi
    rw [hr.u el j i s hi, hs.uValues]
    unfold reportedPositions
    by_cases h1 : M.controlRoots.length = 1
    · rw [if_pos h1, if_pos h1, table_entry el.isLt (by simp) (hlt hi)]
      have hdeg := RelaxDirect.control_degree hn hM.controls b el.val i
      rw [h1] at hdeg
      rw [Polynomial.eq_C_of_natDegree_eq_zero (show (controlPoly M b el.val i).natDegree = 0 by omega)]
      simp
    · have hc : M.controlRoots = M.roots := hm.resolve_right h1
      rw [if_neg h1, if_neg h1, table_entry el.isLt (by simp [inField, hc]) (hlt hi), root_eq]
      simp only [hc]

/-! ## The scheme -/

theorem weight_nonneg (hM : GoodMesh M) (hq : PositiveQuadrature K M) (j : Fin M.roots.length) :
    0 ≤ (quadratureWeight M j : K) := by
  have hdeg : (Lagrange.basis Finset.univ (M.root (K := K)) j).natDegree + 1 ≤ M.roots.length := by
    rw [Lagrange.natDegree_basis ((root_injective hM).injOn) (Finset.mem_univ j), Finset.card_univ,
      Fintype.card_fin]
    have := hM.points
    omega
  obtain ⟨F, h1, h2, h3⟩ := RelaxDirect.antiderivative (Lagrange.basis Finset.univ (M.root (K := K)) j)
  have := hq F (by omega) fun tau ht => ?_
  · unfold quadratureWeight
    rw [← h1, unitIntegral_derivative]
    linarith
  · obtain ⟨i, rfl⟩ := (mem_roots tau).1 ht
    rw [h1]
    by_cases e : i = j
    · subst e
      rw [Lagrange.eval_basis_self ((root_injective hM).injOn) (Finset.mem_univ i)]
      exact zero_le_one
    · rw [Lagrange.eval_basis_of_ne (Ne.symm e) (Finset.mem_univ i)]

omit [IsStrictOrderedRing K] in
theorem scheme_modular (ops : Expr.Ops K) (M : Mesh) (hM : GoodMesh M) (step : K) (start : Sym → K) :
    (directScheme ops M hM step start).Modular ops := by
  refine ⟨?_, ?_, ?_, ?_, ?_, ?_, ?_⟩
  · intro tr q hq
    cases hq
  · intro x x' f f' tr _ _
    simp only [directScheme, List.mem_append]
    exact ⟨fun h => ⟨fun q hq => h q (.inl hq), fun q hq => h q (.inr hq)⟩,
      fun h q hq => hq.elim (h.1 q) (h.2 q)⟩
  · intro x f g tr hg
    simp only [directScheme, List.mem_map]
    constructor
    · rintro h ⟨s, oe⟩ hq e rfl el
      have := h (s, some (g e)) ⟨_, hq, rfl⟩ (g e) rfl el
      simpa only [hg] using this
    · rintro h q ⟨⟨s, oe⟩, hq, rfl⟩ e he el
      cases oe with
      | none => cases he
      | some e' =>
        cases he
        have := h (s, some e') hq e' rfl el
        simpa only [hg] using this
  · intro tr
    exact ⟨fun e he => by simp at he, fun e he => by simp at he⟩
  · intro h h' hi hi' hf hf' x x' tr
    simp only [directScheme, List.mem_append]
    constructor
    · rintro ⟨h1, h2⟩
      exact ⟨⟨fun e he => h1 e (by tauto), fun e he => h2 e (by tauto)⟩,
        fun e he => h1 e (by tauto), fun e he => h2 e (by tauto)⟩
    · rintro ⟨⟨h1, h2⟩, h3, h4⟩
      refine ⟨fun e he => ?_, fun e he => he.elim (h2 e) (h4 e)⟩
      rcases he with (he | he) | (he | he)
      · exact h1 e (.inl he)
      · exact h3 e (.inl he)
      · exact h1 e (.inr he)
      · exact h3 e (.inr he)
  · intro tr q hq
    simp at hq
  · intro g g' t t' tr hl
    simp only [directScheme, List.zip_append hl, List.mem_append]
    exact ⟨fun h => ⟨fun q hq => h q (.inl hq), fun q hq => h q (.inr hq)⟩,
      fun h q hq => hq.elim (h.1 q) (h.2 q)⟩

end Verif.DirectScheme
