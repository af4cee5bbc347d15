import Verif.Model.SolveAugLag
import Verif.Lemmas.Relax
import Verif.Lemmas.Direct
import Verif.Lemmas.ExactTrajectory
/-! # The problem that the constructor of the augmented Lagrangian gives to a direct method -/
namespace Verif.RelaxDirect
open Spec
open Relax hiding newSyms

/-- The preparation of a direct method works on a problem with consistent sizes. -/
theorem prepares (roots : List Rat) (degree : Nat) (xc fresh base : Sym) (s : Direct.Method)
    (hs : Sized s.problem) (hx : xc ∉ s.problem.model.ode.keys) :
    (Direct.prepare roots degree xc fresh base s).1 = .ok () := by
  have h₁ : Direct.basePrepare s = (.ok (), s) := by
    unfold Direct.basePrepare Direct.onProblem Indirect.basePrepare
    split
    · rfl
    · have : s.problem.preSolveCheck = .ok () := by
        unfold Ocp.preSolveCheck Ocp.sizeChecks
        rw [if_neg]
        simp [hs.x0, hs.xMax, hs.xMin, hs.yMax, hs.yMin, hs.uMax, hs.uMin, hs.duMax, hs.duMin,
          hs.pOptMax, hs.pOptMin, hs.thetaOptMax, hs.thetaOptMin]
      simp only [this]
  have h₂ : ∃ s', Direct.createCostState xc fresh s = (.ok (), s') := by
    unfold Direct.createCostState
    split
    · exact ⟨_, rfl⟩
    · have hc : ∃ o', s.problem.createCostState xc fresh = (.ok (), o') := by
        refine ⟨_, Ocp.createCostState_ok_iff.2 ⟨_, Ocp.includeState_ok_iff.2 ⟨rfl, _, _, _, _, rfl, rfl, rfl,
          rfl, rfl, (SysModel.includeState_ok_iff _ _ _ _ _ _).2 ⟨by simp, by simp, ?_, ?_, rfl⟩, rfl, rfl⟩,
          rfl⟩⟩
        · intro v hv
          obtain rfl := List.mem_singleton.1 hv
          exact hx
        · intro e he
          cases he
          rfl
      obtain ⟨o', hc⟩ := hc
      exact ⟨_, Direct.addCostState_ok.2 ⟨o', hc, rfl⟩⟩
  obtain ⟨s', h₂⟩ := h₂
  unfold Direct.prepare
  rw [Py.bind_eq, Py.bind_ok h₁, Py.bind_eq, Py.bind_ok h₂, Direct.parametrizeControl_run]

/-- The problem after the relaxation of algebraic equations, with the multipliers as polynomials. -/
structure Constructed (roots : List Rat) (degree : Nat) (idx vidx : List Nat) (next : Sym) (o q : Ocp) :
    Prop where
  relaxed : AlgebraicRelaxed o q idx vidx
  untouched : Relax.Untouched o q
  p : q.model.p = o.model.p ++ newSyms (next + idx.length) idx.length
  theta : q.model.theta = o.model.theta ++ newSyms (next + idx.length + idx.length) (idx.length * degree)
  cost : ∀ (K : Type) [Field K] [CharZero K] (ops : Expr.Ops K) (ρ : Sym → K),
    q.L.eval ops ρ = o.L.eval ops ρ + augmentedTerms
      ((Direct.polynomials roots o.model.tau (next + idx.length + idx.length) idx.length degree).map
        (Expr.eval ops ρ))
      ((newSyms (next + idx.length) idx.length).map ρ)
      ((entriesAt o.model.alg idx).map (Expr.eval ops ρ))
  costSyms : ∀ s ∈ q.L.syms, s ∈ o.L.syms ∨ (∃ e ∈ entriesAt o.model.alg idx, s ∈ e.syms) ∨
    s = o.model.tau ∨ s ∈ newSyms (next + idx.length) idx.length ∨
      s ∈ newSyms (next + idx.length + idx.length) (idx.length * degree)

/-- What the constructor leaves of the object. -/
structure AfterConstruct (mu0 : Rat) (roots : List Rat) (degree : Nat) (idx vidx : List Nat) (next : Sym)
    (o : Ocp) (s' : Relax) : Prop where
  problem : Constructed roots degree idx vidx next o s'.problem
  sized : Sized s'.problem
  nRelax : s'.nRelax = idx.length
  mu : s'.mu = List.replicate idx.length mu0
  relaxedAlg : s'.relaxedAlg = entriesAt o.model.alg idx
  relaxedEq : s'.relaxedEq = []

/-- All expressions of the problem have symbols below `next`. -/
structure ExprsBelow (next : Sym) (o : Ocp) : Prop where
  path : ∀ e ∈ alongPath o, ∀ s ∈ e.syms, s < next
  ends : ∀ e ∈ o.hInitial ++ o.hFinal ++ o.h ++ [o.V], ∀ s ∈ e.syms, s < next

theorem exprsBelow {o : Ocp} {next : Sym} (hs : DirectScope o) (hn : ∀ s ∈ problemSymbols o, s < next) :
    ExprsBelow next o := by
  constructor
  · intro e he s h
    apply hn
    have := hs.path e he s h
    unfold problemSymbols
    simp only [List.mem_append] at this ⊢
    tauto
  · intro e he s h
    apply hn
    unfold problemSymbols
    simp only [List.mem_append, List.mem_singleton] at he
    rcases he with ((he | he) | he) | he
    · have := hs.initial e he s h
      simp only [List.mem_append] at this ⊢
      tauto
    · have := hs.final e he s h
      simp only [List.mem_append] at this ⊢
      tauto
    · have := hs.timeless e he s h
      simp only [List.mem_append]
      tauto
    · have := hs.cost s (he ▸ h)
      simp only [List.mem_append] at this ⊢
      tauto

theorem mem_newSyms {base s : Sym} {n : Nat} (h : s ∈ newSyms base n) : base ≤ s ∧ s < base + n := by
  obtain ⟨k, hk, rfl⟩ := List.mem_map.1 h
  exact ⟨Nat.le_add_right _ _, Nat.add_lt_add_left (List.mem_range.1 hk) _⟩

theorem subst_map_self {v : List Sym} {w : List Expr} {next : Sym} (hv : ∀ s ∈ v, next ≤ s) (l : List Expr)
    (hl : ∀ e ∈ l, ∀ s ∈ e.syms, s < next) : l.map (Expr.subst v w) = l := by
  conv_rhs => rw [← List.map_id l]
  refine List.map_congr_left fun e he => ?_
  exact Expr.subst_eq_self v w e fun s hs hm => absurd (hl e he s hm) (Nat.not_lt.2 (hv s hs))

theorem syms_dotExpr {a b : List Expr} {s : Sym} (h : s ∈ (dotExpr a b).syms) :
    (∃ e ∈ a, s ∈ e.syms) ∨ ∃ e ∈ b, s ∈ e.syms := by
  have key : ∀ (l : List Expr) (e : Expr), s ∈ (l.foldl Expr.add e).syms →
      s ∈ e.syms ∨ ∃ e' ∈ l, s ∈ e'.syms := by
    intro l
    induction l with
    | nil => exact fun e h => .inl h
    | cons c l ih =>
      intro e h
      rcases ih _ h with h | ⟨e', h₁, h₂⟩
      · rcases List.mem_append.1 (show s ∈ e.syms ++ c.syms from h) with h | h
        · exact .inl h
        · exact .inr ⟨c, by simp, h⟩
      · exact .inr ⟨e', by simp [h₁], h₂⟩
  rcases key _ _ h with h | ⟨e, he, h⟩
  · simp [Expr.syms] at h
  · rw [← List.map_uncurry_zip_eq_zipWith] at he
    obtain ⟨⟨x, y⟩, hm, rfl⟩ := List.mem_map.1 he
    have hm' := List.of_mem_zip hm
    rcases List.mem_append.1 (show s ∈ x.syms ++ y.syms from h) with h | h
    · exact .inl ⟨x, hm'.1, h⟩
    · exact .inr ⟨y, hm'.2, h⟩

theorem syms_penalty {nu mu : List Sym} {r : List Expr} {s : Sym} (h : s ∈ (penalty nu mu r).syms) :
    s ∈ nu ∨ s ∈ mu ∨ ∃ e ∈ r, s ∈ e.syms := by
  rcases List.mem_append.1 (show s ∈ (dotExpr _ _).syms ++ (dotExpr _ _).syms from h) with h | h
  · rcases syms_dotExpr h with ⟨e, he, h⟩ | h
    · obtain ⟨v, hv, rfl⟩ := List.mem_map.1 he
      simp only [Expr.syms, List.mem_singleton] at h
      exact .inl (h ▸ hv)
    · exact .inr (.inr h)
  · rcases syms_dotExpr h with ⟨e, he, h⟩ | h
    · rw [← List.map_uncurry_zip_eq_zipWith] at he
      obtain ⟨⟨x, m⟩, hm, rfl⟩ := List.mem_map.1 he
      have hm' := List.of_mem_zip hm
      simp only [Function.uncurry_apply_pair, Expr.syms, List.nil_append, List.mem_append,
        List.mem_singleton] at h
      rcases h with h | h
      · exact .inr (.inr ⟨x, hm'.1, h⟩)
      · exact .inr (.inl (h ▸ hm'.2))
    · exact .inr (.inr h)

/-- The constructor runs. -/
theorem construct_run (mu0 : Rat) (a : Args) (roots : List Rat) (degree : Nat) (o : Ocp) (next : Sym)
    (h : Relaxable o (a.alg o) (a.algVar o)) (ht : a.time = []) (hb : a.stateBounds = false)
    (hd : degree ≠ 1 → roots.length = degree) (he : ExprsBelow next o) (htau : o.model.tau < next) :
    ∃ s', construct mu0 a roots degree (start o next) = (.ok (), s') ∧
      AfterConstruct mu0 roots degree (a.alg o) (a.algVar o) next o s' := by
  obtain ⟨s₁, h₁, hA⟩ := relaxAlgebraic_run mu0 (a.alg o) (a.algVar o) (start o next) h
  have hrelax : relax mu0 a (start o next) = (.ok (), s₁) := by
    unfold relax
    simp only [Py.bind_eq, Py.get_bind]
    have e₁ : ifEquations (a.alg o) (relaxAlgebraic mu0 (a.alg o) (a.algVar o)) (start o next) =
        (.ok (), s₁) := by
      rw [ifEquations_run h.nonempty h.equations.2, h₁]
    have e₂ := Py.bind_ok (f := fun _ : Unit => (ifEquations a.time (relaxTimeEqualities mu0 a.time)).bind
      fun _ => if a.stateBounds = true then relaxStates mu0 else Py.pure ()) e₁
    refine Eq.trans e₂ ?_
    rw [ht, Py.bind_ok (ifEquations_nil _ _), hb]
    rfl
  have hR := hA.relaxed
  have hlen : (entriesAt o.model.alg (a.alg o)).length = (a.alg o).length :=
    entriesAt_length _ _ h.equations.2
  have eNu : s₁.nuSym = newSyms next (a.alg o).length := by
    rw [hA.nuSym]
    show [] ++ (List.range (entriesAt o.model.alg (a.alg o)).length).map (next + ·) = _
    rw [hlen]; rfl
  have eNext : s₁.next = next + (a.alg o).length + (a.alg o).length := by
    rw [hA.next]
    show next + (entriesAt o.model.alg (a.alg o)).length + (entriesAt o.model.alg (a.alg o)).length = _
    rw [hlen]
  have eN : s₁.nRelax = (a.alg o).length := by
    rw [hA.nRelax]
    show 0 + (entriesAt o.model.alg (a.alg o)).length = _
    rw [hlen, Nat.zero_add]
  have eTau : s₁.problem.model.tau = o.model.tau := hA.untouched.clock.2
  set pol := Direct.polynomials roots o.model.tau (next + (a.alg o).length + (a.alg o).length)
    (a.alg o).length degree with hpol
  have hpl : (newSyms next (a.alg o).length).length = pol.length := by
    rw [hpol, Direct.polynomials_length]; simp [newSyms]
  have hge : ∀ s ∈ newSyms next (a.alg o).length, next ≤ s := fun s hs => (mem_newSyms hs).1
  have hpos : (newSyms next (a.alg o).length).length > 0 := by
    simpa [newSyms] using List.length_pos_iff.2 h.nonempty
  let par := newSyms (next + (a.alg o).length + (a.alg o).length) ((a.alg o).length * degree)
  let q₁ := (Ocp.replaceVariable (newSyms next (a.alg o).length) pol s₁.problem).2
  let q : Ocp := { q₁ with model := { q₁.model with theta := q₁.model.theta ++ par } }
  refine ⟨{ s₁ with
    nuPar := s₁.nuPar ++ par
    next := s₁.next + (a.alg o).length * degree
    problem := q }, ?_, ?_⟩
  · unfold construct
    rw [Py.bind_eq, Py.bind_ok hrelax]
    unfold parametrizeNu
    simp only [Py.bind_eq, Py.get_bind]
    rw [eN, eNu, eTau, eNext]
    have hq₁ : Ocp.replaceVariable (newSyms next (a.alg o).length) pol s₁.problem = (.ok (), q₁) := by
      show _ = ((_ : Except Err Unit), (Ocp.replaceVariable _ pol s₁.problem).2)
      rw [Ocp.replaceVariable_run, if_neg (not_not.2 hpl)]
    have e₁ : Relax.newSyms ((a.alg o).length * degree) s₁ = (.ok par,
        { s₁ with next := s₁.next + (a.alg o).length * degree }) := by
      unfold Relax.newSyms
      rw [eNext]
      rfl
    rw [Py.bind_ok e₁, Py.modify_bind]
    refine (Py.bind_ok (f := fun _ => onProblem (Ocp.onModel (SysModel.includeTheta par)))
      (onProblem_run (s := { s₁ with
        nuPar := s₁.nuPar ++ par
        next := s₁.next + (a.alg o).length * degree }) (o := q₁) hq₁)).trans ?_
    show (Except.ok (), _) = (Except.ok (), _)
    rw [eN, eNu]
    simp only [eNext]
    rfl
  · have hq₁ : q₁ = _ := congrArg Prod.snd ((Ocp.replaceVariable_run _ pol s₁.problem).trans
      (if_neg (not_not.2 hpl)))
    have hm : (SysModel.replaceVariable (newSyms next (a.alg o).length) pol s₁.problem.model).2 = _ :=
      congrArg Prod.snd (if_neg (not_not.2 hpl))
    have path : ∀ e ∈ alongPath o, e.subst (newSyms next (a.alg o).length) pol = e := fun e hm =>
      Expr.subst_eq_self _ _ e fun s hs hs' => absurd (he.path e hm s hs') (Nat.not_lt.2 (hge s hs))
    have ends : ∀ e ∈ o.hInitial ++ o.hFinal ++ o.h ++ [o.V], e.subst (newSyms next (a.alg o).length) pol = e :=
      fun e hm => Expr.subst_eq_self _ _ e fun s hs hs' =>
        absurd (he.ends e hm s hs') (Nat.not_lt.2 (hge s hs))
    have same : ∀ l : List Expr, (∀ e ∈ l, e.subst (newSyms next (a.alg o).length) pol = e) →
        l.map (Expr.subst (newSyms next (a.alg o).length) pol) = l := by
      intro l hl
      conv_rhs => rw [← List.map_id l]
      exact List.map_congr_left hl
    have hode : (s₁.problem.model.ode.map fun kv => (kv.1, SysModel.substSlot
        (newSyms next (a.alg o).length) pol kv.2)) = s₁.problem.model.ode := by
      rw [hR.ode]
      show (o.model.ode.map _) = o.model.ode
      conv_rhs => rw [← List.map_id o.model.ode]
      refine List.map_congr_left fun kv hkv => ?_
      obtain ⟨k, e⟩ := kv
      cases e with
      | none => rfl
      | some e =>
        have : e ∈ o.model.odeVec := by
          unfold SysModel.odeVec Dict.values
          exact List.mem_filterMap.2 ⟨some e, List.mem_map.2 ⟨_, hkv, rfl⟩, rfl⟩
        show (k, some (e.subst _ _)) = (k, some e)
        rw [path e (by unfold alongPath; simp [this])]
    have hL : s₁.problem.L = .add o.L (penalty (newSyms next (a.alg o).length)
        (newSyms (next + (a.alg o).length) (a.alg o).length) (entriesAt o.model.alg (a.alg o))) := by
      rw [hA.L]
      show Expr.add o.L (penalty ((List.range (entriesAt o.model.alg (a.alg o)).length).map (next + ·))
        ((List.range (entriesAt o.model.alg (a.alg o)).length).map
          (next + (entriesAt o.model.alg (a.alg o)).length + ·)) _) = _
      rw [hlen]
      rfl
    have hV : s₁.problem.V.subst (newSyms next (a.alg o).length) pol = s₁.problem.V := by
      rw [hR.V]; exact ends _ (by simp [start])
    have hS : s₁.problem.S.subst (newSyms next (a.alg o).length) pol = s₁.problem.S := by
      rw [hR.S]; exact path _ (by simp [start, alongPath])
    have hI : s₁.problem.hInitial.map (Expr.subst (newSyms next (a.alg o).length) pol) =
        s₁.problem.hInitial := by
      rw [hR.hInitial]; exact same _ fun e he => ends e (by simp [show e ∈ o.hInitial from he])
    have hF : s₁.problem.hFinal.map (Expr.subst (newSyms next (a.alg o).length) pol) =
        s₁.problem.hFinal := by
      rw [hR.hFinal]; exact same _ fun e he => ends e (by simp [show e ∈ o.hFinal from he])
    have hH : s₁.problem.h.map (Expr.subst (newSyms next (a.alg o).length) pol) = s₁.problem.h := by
      rw [hR.h]; exact same _ fun e he => ends e (by simp [show e ∈ o.h from he])
    have hgi : s₁.problem.gIneq.map (Expr.subst (newSyms next (a.alg o).length) pol) =
        s₁.problem.gIneq := by
      rw [hR.gIneq]
      exact same _ fun e he => path e (by unfold alongPath; simp [show e ∈ o.gIneq from he])
    have hge' : s₁.problem.gEq.map (Expr.subst (newSyms next (a.alg o).length) pol) =
        s₁.problem.gEq := by
      rw [hR.gEq]
      exact same _ fun e he => path e (by unfold alongPath; simp [show e ∈ o.gEq from he])
    have halg : s₁.problem.model.alg.map (Expr.subst (newSyms next (a.alg o).length) pol) =
        s₁.problem.model.alg := by
      rw [hR.alg]
      refine same _ fun e he => path e ?_
      have : e ∈ o.model.alg := by
        unfold otherEntries at he
        obtain ⟨i, -, hi⟩ := List.mem_filterMap.1 he
        exact List.mem_of_getElem? hi
      unfold alongPath
      simp [this]
    have hq : q = { s₁.problem with
        L := s₁.problem.L.subst (newSyms next (a.alg o).length) pol
        model := { s₁.problem.model with
          uExpr := s₁.problem.model.uExpr.map (Expr.subst (newSyms next (a.alg o).length) pol)
          theta := s₁.problem.model.theta ++ par } } := by
      show ({ q₁ with model := { q₁.model with theta := q₁.model.theta ++ par } } : Ocp) = _
      rw [hq₁]
      simp only [hm, if_pos hpos, hode, hV, hS, hI, hF, hH, hgi, hge', halg]
    clear_value q
    subst hq
    have hsz := hA.sized
    have hun := hA.untouched
    refine ⟨⟨⟨hR.1, hR.2, hR.3, hR.4, hR.5, hR.6, hR.7, hR.8, hR.9, hR.10, hR.11, hR.12, hR.13, hR.14, hR.15, hR.16, hR.17, hR.18, hR.19, hR.20, hR.21, hR.22, hR.23⟩,
      ⟨hun.1, hun.2, hun.3, hun.4, hun.5, hun.6, hun.7, hun.8⟩, ?_, ?_, ?_, ?_⟩,
      ⟨hsz.1, hsz.2, hsz.3, hsz.4, hsz.5, hsz.6, hsz.7, hsz.8, hsz.9, hsz.10, hsz.11, hsz.12, hsz.13⟩, eN, ?_, ?_, ?_⟩
    · show s₁.problem.model.p = _
      rw [hA.p]
      show o.model.p ++ (List.range (entriesAt o.model.alg (a.alg o)).length).map
        (next + (entriesAt o.model.alg (a.alg o)).length + ·) = _
      rw [hlen]
      rfl
    · show s₁.problem.model.theta ++ par = _
      rw [hA.theta]
      rfl
    · intro K _ _ ops ρ
      show (s₁.problem.L.subst (newSyms next (a.alg o).length) pol).eval ops ρ = _
      rw [hL]
      let ρ' : Sym → K := fun s => if s ∈ newSyms next (a.alg o).length then
        (pol.getD (s - next) (.const 0)).eval ops ρ else ρ s
      have hin : ∀ i (h₁ : i < (newSyms next (a.alg o).length).length) (h₂ : i < pol.length),
          ρ' (newSyms next (a.alg o).length)[i] = (pol[i]).eval ops ρ := by
        intro i h₁ h₂
        have e : (newSyms next (a.alg o).length)[i] = next + i := by simp [newSyms]
        have hmem := List.getElem_mem h₁
        simp only [ρ', if_pos hmem]
        rw [e, Nat.add_sub_cancel_left, List.getD_eq_getElem?_getD, List.getElem?_eq_getElem h₂]
        rfl
      have hnd : (newSyms next (a.alg o).length).Nodup :=
        List.nodup_range.map fun a b h => Nat.add_left_cancel h
      rw [Expr.eval_subst ops ρ ρ' _ pol hnd hpl hin (fun s hs => if_neg hs)]
      show o.L.eval ops ρ' + (penalty _ _ _).eval ops ρ' = _
      have old : ∀ e ∈ alongPath o, e.eval ops ρ' = e.eval ops ρ := by
        intro e hm
        refine Expr.eval_congr ops _ _ e fun s hs => if_neg fun hs' => ?_
        exact absurd (he.path e hm s hs) (Nat.not_lt.2 (hge s hs'))
      rw [eval_penalty ops ρ' _ _ _ (by simp [newSyms, hlen]) (by simp [newSyms, hlen]),
        old o.L (by simp [alongPath])]
      have m₁ : (newSyms next (a.alg o).length).map ρ' = pol.map (Expr.eval ops ρ) := by
        refine List.ext_getElem (by simpa using hpl) fun i h₁ h₂ => ?_
        simp only [List.getElem_map]
        exact hin i (by simpa using h₁) (by simpa using h₂)
      rw [m₁]
      congr 2
      · refine List.map_congr_left fun s hs => if_neg fun hs' => ?_
        have h₁ := (mem_newSyms hs).1
        have h₂ := (mem_newSyms hs').2
        exact absurd (Nat.lt_of_le_of_lt h₁ h₂) (Nat.lt_irrefl _)
      · refine List.map_congr_left fun e hm => old e ?_
        obtain ⟨i, -, hi⟩ := mem_entriesAt.1 hm
        unfold alongPath
        simp [List.mem_of_getElem? hi]
    · intro s hs
      have hs : s ∈ (s₁.problem.L.subst (newSyms next (a.alg o).length) pol).syms := hs
      rcases Expr.mem_syms_subst _ _ hpl _ s hs with ⟨h₁, h₂⟩ | ⟨r, hr, h₁⟩
      · rw [hL] at h₁
        rcases List.mem_append.1 (show s ∈ o.L.syms ++ _ from h₁) with h₁ | h₁
        · exact .inl h₁
        · rcases syms_penalty h₁ with h₁ | h₁ | h₁
          · exact absurd h₁ h₂
          · exact .inr (.inr (.inr (.inl h₁)))
          · exact .inr (.inl h₁)
      · rcases Direct.syms_polynomials roots o.model.tau _ _ degree hd r hr s h₁ with h | h
        · exact .inr (.inr (.inl h))
        · exact .inr (.inr (.inr (.inr h)))
    · show s₁.mu = _
      rw [hA.mu]
      show [] ++ List.replicate (entriesAt o.model.alg (a.alg o)).length mu0 = _
      rw [hlen]; rfl
    · exact hA.relaxedAlg
    · exact hA.relaxedEq

end Verif.RelaxDirect
