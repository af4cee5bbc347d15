import Verif.Spec.Session
import Verif.Props.OcpSizes
import Verif.Lemmas.ProblemScope
import Verif.Lemmas.RelaxDirect
/-!
# What holds of a problem declared by a program
-/
namespace Verif
open Spec SysModel

theorem mem_newSyms {v n s : Nat} : s ∈ newSyms v n ↔ v ≤ s ∧ s < v + n := by
  unfold newSyms
  simp only [List.mem_map, List.mem_range]
  constructor
  · rintro ⟨i, hi, rfl⟩
    exact ⟨Nat.le_add_right .., Nat.add_lt_add_left hi v⟩
  · rintro ⟨h₁, h₂⟩
    exact ⟨s - v, by omega, by omega⟩

theorem nodup_newSyms (v n : Nat) : (newSyms v n).Nodup := by
  unfold newSyms
  exact List.nodup_range.map fun a b h => Nat.add_left_cancel h

theorem length_newSyms (v n : Nat) : (newSyms v n).length = n := by
  unfold newSyms
  simp

namespace Session

/-- What holds in every session. -/
structure Built (s : Session) : Prop where
  symbols : (problemSymbols s.problem).Nodup
  used : ∀ v ∈ problemSymbols s.problem, v < s.next
  sized : Sized s.problem
  keys : s.problem.model.ode.keys = s.problem.model.x
  starts : s.problem.model.x0.length = s.problem.model.x.length
  uPar : s.problem.model.uPar = s.problem.model.u
  good : Good s.problem.model
  pOpt : s.problem.pOpt.Nodup ∧ ∀ v ∈ s.problem.pOpt, v ∈ s.problem.model.p
  thetaOpt : s.problem.thetaOpt.Nodup ∧ ∀ v ∈ s.problem.thetaOpt, v ∈ s.problem.model.theta
  tags : ∀ tag ∈ s.problem.timeGIneq ++ s.problem.timeGEq, tag = "start" ∨ tag = "end" ∨ tag = "default"
  tagged : s.problem.timeGIneq.length = s.problem.gIneq.length ∧
    s.problem.timeGEq.length = s.problem.gEq.length
  path : Mention (s.problem.gIneq ++ s.problem.gEq ++ [s.problem.S, s.problem.L]) (pathSymbols s.problem)
  initial : Mention s.problem.hInitial (s.problem.model.x ++ s.problem.model.x0)
  final : Mention s.problem.hFinal (s.problem.model.x ++ s.problem.eta ++ s.problem.model.p)
  timeless : Mention s.problem.h s.problem.model.p
  cost : Mention [s.problem.V] (s.problem.model.x ++ s.problem.model.p)

theorem mention_mono {es : List Expr} {a b : List Sym} (h : Mention es a) (hab : ∀ s ∈ a, s ∈ b) :
    Mention es b := fun e he s hs => hab s (h e he s hs)

theorem mention_append {es fs : List Expr} {a : List Sym} (h : Mention es a) (h' : Mention fs a) :
    Mention (es ++ fs) a := fun e he => (List.mem_append.mp he).elim (h e) (h' e)

/-- Symbols that were added. -/
theorem add_symbols {l l' new : List Sym} {next n : Nat} (h : l.Nodup) (hu : ∀ v ∈ l, v < next)
    (hn : new.Nodup) (hm : ∀ v ∈ new, next ≤ v ∧ v < next + n) (hp : l'.Perm (l ++ new)) :
    l'.Nodup ∧ ∀ v ∈ l', v < next + n := by
  refine ⟨hp.nodup_iff.mpr (List.nodup_append.mpr ⟨h, hn, fun a ha b hb hab => ?_⟩), fun v hv => ?_⟩
  · subst hab
    exact absurd (hu a ha) (Nat.not_lt.mpr (hm a hb).1)
  · rcases List.mem_append.mp (hp.mem_iff.mp hv) with h' | h'
    · exact Nat.lt_of_lt_of_le (hu v h') (Nat.le_add_right ..)
    · exact (hm v h').2

/-- Equations are in scope when the controls are their own parameters. -/
theorem inScope_iff {o : Ocp} (h : o.model.uPar = o.model.u) (s : Sym) :
    Spec.InScope o.model s ↔ s ∈ pathSymbols o := by
  unfold Spec.InScope pathSymbols
  rw [h]
  simp only [List.mem_append, List.mem_cons, List.not_mem_nil, or_false]
  tauto

theorem built_start (t0 tf : Rat) : Built (start t0 tf) where
  symbols := show ([0, 1] : List Nat).Nodup by decide
  used := show ∀ v ∈ ([0, 1] : List Nat), v < 2 by decide
  sized := by constructor <;> rfl
  keys := rfl
  starts := rfl
  uPar := rfl
  good := ⟨fun e he => absurd he (by simp [Spec.equations, start, Ocp.new, SysModel.new, SysModel.odeVec, Dict.values]), rfl⟩
  pOpt := ⟨List.nodup_nil, fun _ h => absurd h List.not_mem_nil⟩
  thetaOpt := ⟨List.nodup_nil, fun _ h => absurd h List.not_mem_nil⟩
  tags := fun _ h => absurd h List.not_mem_nil
  tagged := ⟨rfl, rfl⟩
  path := fun e he s hs => by
    simp only [start, Ocp.new, List.nil_append, List.mem_cons, List.not_mem_nil, or_false, or_self] at he
    subst he
    exact absurd hs (by simp [Expr.syms])
  initial := fun _ h => absurd h List.not_mem_nil
  final := fun _ h => absurd h List.not_mem_nil
  timeless := fun _ h => absurd h List.not_mem_nil
  cost := fun e he s hs => by
    simp only [start, Ocp.new, List.mem_cons, List.not_mem_nil, or_false] at he
    subst he
    exact absurd hs (by simp [Expr.syms])

/-- The statement ran. -/
theorem run_ok {st : Statement} {s s' : Session} (h : st.run s = (.ok (), s')) :
    st.onProblem s.next s.problem = (.ok (), s'.problem) ∧ s'.next = s.next + st.uses := by
  unfold Statement.run at h
  rw [Prod.mk.injEq] at h
  obtain ⟨h₁, rfl⟩ := h
  exact ⟨Prod.ext h₁ rfl, rfl⟩

theorem mono_left {a b c : List Sym} (s : Sym) (h : s ∈ a ++ c) : s ∈ (a ++ b) ++ c := by
  simp only [List.mem_append] at h ⊢
  tauto

theorem built_createState {n ode x0 hi lo hI} {s s' : Session} (hb : Built s)
    (hr : (Statement.createState n ode x0 hi lo hI).run s = (.ok (), s'))
    (ha : SoundArguments s'.problem (.createState n ode x0 hi lo hI)) : Built s' := by
  obtain ⟨hr, hn⟩ := run_ok hr
  obtain ⟨o', next'⟩ := s'
  simp only [Statement.uses] at hn
  subst hn
  have hsz := Ocp.call_sized (.includeState (newSyms s.next n) ode x0 lo hi hI none false (s.next + n)) _ _
    hb.sized trivial hr
  obtain ⟨-, lo', hi', m', h, -, -, -, -, -, hm, hi₀, rfl⟩ := Ocp.includeState_ok_iff.mp hr
  have hgood : Good m' := good_includeState _ _ _ _ _ _ hb.good hm fun e he t ht => by
    have := ha.1 e he t ht
    have hu : m'.uPar = m'.u := by
      obtain ⟨-, -, -, -, rfl⟩ := (SysModel.includeState_ok_iff ..).mp hm
      exact hb.uPar
    exact (inScope_iff (o := { s.problem with model := m' }) hu t).mpr this
  obtain ⟨-, -, -, -, rfl⟩ := (SysModel.includeState_ok_iff ..).mp hm
  have hsyms := add_symbols (l' := problemSymbols { s.problem with model := { s.problem.model with
    x := s.problem.model.x ++ newSyms s.next n
    x0 := s.problem.model.x0 ++ newX0 (newSyms s.next n) none (s.next + n)
    ode := tableWith s.problem.model.ode (newSyms s.next n) ode } })
    (new := newSyms s.next n ++ newSyms (s.next + n) n) (n := n + n) hb.symbols hb.used
    (List.nodup_append.mpr ⟨nodup_newSyms _ _, nodup_newSyms _ _, fun a h₁ b h₂ hab => by
      have h₁ := mem_newSyms.mp h₁
      have h₂ := mem_newSyms.mp h₂
      subst hab
      exact absurd h₁.2 (Nat.not_lt.mpr h₂.1)⟩)
    (fun v hv => by
      rcases List.mem_append.mp hv with h' | h'
      · have := mem_newSyms.mp h'
        exact ⟨this.1, Nat.lt_of_lt_of_le this.2 (Nat.add_le_add_left (Nat.le_add_right ..) _)⟩
      · have := mem_newSyms.mp h'
        exact ⟨Nat.le_trans (Nat.le_add_right ..) this.1, (Nat.add_assoc s.next n n) ▸ this.2⟩)
    (by
      have : newX0 (newSyms s.next n) none (s.next + n) = newSyms (s.next + n) n := by
        unfold newX0
        simp only [length_newSyms]
        rfl
      rw [this]
      rw [List.perm_iff_count]
      intro c
      simp only [problemSymbols, List.count_append]
      omega)
  exact { hb with
    symbols := hsyms.1
    used := hsyms.2
    sized := hsz
    keys := by
      simp only [keys_tableWith, hb.keys]
    starts := by
      simp only [List.length_append, hb.starts, newX0, List.length_map, List.length_range]
    good := hgood
    path := mention_mono hb.path fun t ht => by
      simp only [pathSymbols, List.mem_append] at ht ⊢
      tauto
    initial := by
      refine mention_append (mention_mono hb.initial fun t ht => ?_) ?_
      · simp only [List.mem_append] at ht ⊢
        tauto
      · cases x0 with
        | none =>
          cases hi₀
          exact ha.2
        | some v =>
          intro e he t ht
          unfold Ocp.initialConstraint at hi₀
          simp only [Ocp.x0Symbols] at hi₀
          cases hv : vecSub (((List.range (newSyms s.next n).length).map (s.next + n + ·)).map .sym)
              ((newSyms s.next n).map .sym) with
          | error e' =>
            rw [hv] at hi₀
            cases hi₀
          | ok c =>
            rw [hv] at hi₀
            cases hi₀
            simp only [List.mem_append, newX0]
            rcases Ocp.vecSub_syms hv e he t ht with ⟨e', he', hs'⟩ | ⟨e', he', hs'⟩
            · obtain ⟨a, ha', rfl⟩ := List.mem_map.mp he'
              simp only [Expr.syms, List.mem_singleton] at hs'
              exact .inr (.inr (hs' ▸ ha'))
            · obtain ⟨a, ha', rfl⟩ := List.mem_map.mp he'
              simp only [Expr.syms, List.mem_singleton] at hs'
              exact .inl (.inr (hs' ▸ ha'))
    final := mention_mono hb.final fun t ht => by
      simp only [List.mem_append] at ht ⊢
      tauto
    cost := mention_mono hb.cost fun t ht => by
      simp only [List.mem_append] at ht ⊢
      tauto }

/-- One kind of new symbols. -/
theorem add_new {o o' : Ocp} {next n : Nat} (h : (problemSymbols o).Nodup)
    (hu : ∀ v ∈ problemSymbols o, v < next)
    (hp : (problemSymbols o').Perm (problemSymbols o ++ newSyms next n)) :
    (problemSymbols o').Nodup ∧ ∀ v ∈ problemSymbols o', v < next + n :=
  add_symbols h hu (nodup_newSyms _ _) (fun _ hv => mem_newSyms.mp hv) hp

theorem built_createAlgebraic {n alg hi lo g} {s s' : Session} (hb : Built s)
    (hr : (Statement.createAlgebraic n alg hi lo g).run s = (.ok (), s'))
    (ha : SoundArguments s'.problem (.createAlgebraic n alg hi lo g)) : Built s' := by
  obtain ⟨hr, hn⟩ := run_ok hr
  obtain ⟨o', next'⟩ := s'
  simp only [Statement.uses] at hn
  subst hn
  have hsz := Ocp.call_sized (.includeAlgebraic (newSyms s.next n) alg lo hi g) _ _ hb.sized trivial hr
  obtain ⟨-, -, rfl⟩ := Ocp.includeAlgebraic_ok_iff.mp hr
  have hgood := good_includeAlgebraic (newSyms s.next n) alg _ _ hb.good
    (SysModel.includeAlgebraic_run _ _ _) fun e he t ht =>
      (inScope_iff (o := { s.problem with model := { s.problem.model with
        y := s.problem.model.y ++ newSyms s.next n
        alg := s.problem.model.alg ++ alg.getD [] } }) hb.uPar t).mpr (ha e he t ht)
  have hsyms := add_new (o' := { s.problem with model := { s.problem.model with
        y := s.problem.model.y ++ newSyms s.next n
        alg := s.problem.model.alg ++ alg.getD [] } }) (n := n) hb.symbols hb.used (by
    rw [List.perm_iff_count]
    intro c
    simp only [problemSymbols, List.count_append]
    omega)
  exact { hb with
    symbols := hsyms.1
    used := hsyms.2
    sized := hsz
    good := hgood
    path := mention_mono hb.path fun t ht => by
      simp only [pathSymbols, List.mem_append] at ht ⊢
      tauto }

theorem built_createControl {n lo hi dlo dhi g} {s s' : Session} (hb : Built s)
    (hr : (Statement.createControl n lo hi dlo dhi g).run s = (.ok (), s')) : Built s' := by
  obtain ⟨hr, hn⟩ := run_ok hr
  obtain ⟨o', next'⟩ := s'
  simp only [Statement.uses] at hn
  subst hn
  have hsz := Ocp.call_sized (.includeControl (newSyms s.next n) lo hi dlo dhi g) _ _ hb.sized trivial hr
  obtain ⟨-, -, -, -, -, -, rfl⟩ := Ocp.includeControl_ok_iff.mp hr
  have hgood := good_includeControl (newSyms s.next n) _ hb.good
  have hsyms := add_new (o' := { s.problem with model := (SysModel.includeControl (newSyms s.next n)
      s.problem.model).2 }) (n := n) hb.symbols hb.used (by
    rw [List.perm_iff_count]
    intro c
    simp only [problemSymbols, List.count_append, SysModel.includeControl, Py.modify_apply]
    omega)
  exact { hb with
    symbols := hsyms.1
    used := hsyms.2
    sized := hsz
    good := hgood
    uPar := by simp only [hb.uPar]
    path := mention_mono hb.path fun t ht => by
      simp only [pathSymbols, List.mem_append] at ht ⊢
      tauto }

theorem built_parameter {n next : Nat} {o : Ocp} (hb : Built ⟨o, next⟩) :
    Built ⟨{ o with model := { o.model with p := o.model.p ++ newSyms next n } }, next + n⟩ := by
  have hsyms := add_new (o' := { o with model := { o.model with
      p := o.model.p ++ newSyms next n } }) (n := n) hb.symbols hb.used (by
    rw [List.perm_iff_count]
    intro c
    simp only [problemSymbols, List.count_append]
    omega)
  have hgood := good_includeParameter (newSyms next n) _ hb.good
  exact { hb with
    symbols := hsyms.1
    used := hsyms.2
    sized := { hb.sized with }
    good := hgood
    pOpt := ⟨hb.pOpt.1, fun v hv => List.mem_append_left _ (hb.pOpt.2 v hv)⟩
    path := mention_mono hb.path fun t ht => by
      simp only [pathSymbols, List.mem_append] at ht ⊢
      tauto
    final := mention_mono hb.final fun t ht => by
      simp only [List.mem_append] at ht ⊢
      tauto
    timeless := mention_mono hb.timeless fun t ht => List.mem_append_left _ ht
    cost := mention_mono hb.cost fun t ht => by
      simp only [List.mem_append] at ht ⊢
      tauto }

theorem built_theta {n next : Nat} {o : Ocp} (hb : Built ⟨o, next⟩) :
    Built ⟨{ o with model := { o.model with theta := o.model.theta ++ newSyms next n } }, next + n⟩ := by
  have hsyms := add_new (o' := { o with model := { o.model with
      theta := o.model.theta ++ newSyms next n } }) (n := n) hb.symbols hb.used (by
    rw [List.perm_iff_count]
    intro c
    simp only [problemSymbols, List.count_append]
    omega)
  have hgood := good_includeTheta (newSyms next n) _ hb.good
  exact { hb with
    symbols := hsyms.1
    used := hsyms.2
    sized := { hb.sized with }
    good := hgood
    thetaOpt := ⟨hb.thetaOpt.1, fun v hv => List.mem_append_left _ (hb.thetaOpt.2 v hv)⟩
    path := mention_mono hb.path fun t ht => by
      simp only [pathSymbols, List.mem_append] at ht ⊢
      tauto }

theorem built_setParameterOpt {next : Nat} {v lo hi} {o o' : Ocp} (hb : Built ⟨o, next⟩)
    (hr : Ocp.setParameterOpt v lo hi o = (.ok (), o'))
    (ha : o'.pOpt.Nodup ∧ ∀ v ∈ o'.pOpt, v ∈ o'.model.p) : Built ⟨o', next⟩ := by
  have hsz := Ocp.call_sized (.setParameterOpt v lo hi) _ _ hb.sized trivial hr
  obtain ⟨-, -, rfl⟩ := Ocp.setParameterOpt_ok_iff.mp hr
  exact { hb with
    sized := hsz
    pOpt := ha }

theorem built_setThetaOpt {next : Nat} {v lo hi} {o o' : Ocp} (hb : Built ⟨o, next⟩)
    (hr : Ocp.setThetaOpt v lo hi o = (.ok (), o'))
    (ha : o'.thetaOpt.Nodup ∧ ∀ v ∈ o'.thetaOpt, v ∈ o'.model.theta) : Built ⟨o', next⟩ := by
  have hsz := Ocp.call_sized (.setThetaOpt v lo hi) _ _ hb.sized trivial hr
  obtain ⟨-, -, rfl⟩ := Ocp.setThetaOpt_ok_iff.mp hr
  exact { hb with
    sized := hsz
    thetaOpt := ha }

theorem nodup_append_new {l new p : List Sym} {next : Nat} (hl : l.Nodup) (hp : ∀ v ∈ l, v ∈ p)
    (hu : ∀ v ∈ p, v < next) (hn : new.Nodup) (hnew : ∀ v ∈ new, next ≤ v) : (l ++ new).Nodup :=
  List.nodup_append.mpr ⟨hl, hn, fun a ha b hb hab => by
    subst hab
    exact absurd (hu a (hp a ha)) (Nat.not_lt.mpr (hnew a hb))⟩

theorem built_createParameterOpt {n lo hi} {s s' : Session} (hb : Built s)
    (hr : (Statement.createParameterOpt n lo hi).run s = (.ok (), s')) : Built s' := by
  obtain ⟨hr, hn⟩ := run_ok hr
  obtain ⟨o', next'⟩ := s'
  simp only [Statement.uses] at hn
  subst hn
  have hr : Ocp.setParameterOpt (newSyms s.next n) lo hi { s.problem with model := { s.problem.model with
    p := s.problem.model.p ++ newSyms s.next n } } = (.ok (), o') := hr
  refine built_setParameterOpt (built_parameter hb) hr ?_
  obtain ⟨-, -, rfl⟩ := Ocp.setParameterOpt_ok_iff.mp hr
  refine ⟨nodup_append_new hb.pOpt.1 hb.pOpt.2 (fun v hv => hb.used v ?_) (nodup_newSyms _ _)
    fun v hv => (mem_newSyms.mp hv).1, fun v hv => ?_⟩
  · simp only [problemSymbols, List.mem_append]
    tauto
  · rcases List.mem_append.mp hv with hv | hv
    · exact List.mem_append_left _ (hb.pOpt.2 v hv)
    · exact List.mem_append_right _ hv

theorem built_createThetaOpt {n lo hi} {s s' : Session} (hb : Built s)
    (hr : (Statement.createThetaOpt n lo hi).run s = (.ok (), s')) : Built s' := by
  obtain ⟨hr, hn⟩ := run_ok hr
  obtain ⟨o', next'⟩ := s'
  simp only [Statement.uses] at hn
  subst hn
  have hr : Ocp.setThetaOpt (newSyms s.next n) lo hi { s.problem with model := { s.problem.model with
    theta := s.problem.model.theta ++ newSyms s.next n } } = (.ok (), o') := hr
  refine built_setThetaOpt (built_theta hb) hr ?_
  obtain ⟨-, -, rfl⟩ := Ocp.setThetaOpt_ok_iff.mp hr
  refine ⟨nodup_append_new hb.thetaOpt.1 hb.thetaOpt.2 (fun v hv => hb.used v ?_) (nodup_newSyms _ _)
    fun v hv => (mem_newSyms.mp hv).1, fun v hv => ?_⟩
  · simp only [problemSymbols, List.mem_append]
    tauto
  · rcases List.mem_append.mp hv with hv | hv
    · exact List.mem_append_left _ (hb.thetaOpt.2 v hv)
    · exact List.mem_append_right _ hv

theorem built_systemEquations {ode alg} {s s' : Session} (hb : Built s)
    (hr : (Statement.systemEquations ode alg).run s = (.ok (), s'))
    (ha : SoundArguments s'.problem (.systemEquations ode alg)) : Built s' := by
  obtain ⟨hr, hn⟩ := run_ok hr
  obtain ⟨o', next'⟩ := s'
  simp only [Statement.uses] at hn
  subst hn
  have hsz := Ocp.call_sized (.includeSystemEquations ode alg) _ _ hb.sized trivial hr
  obtain ⟨m', hm, rfl⟩ := Ocp.onModel_ok.mp hr
  have he : m' = (includeEquations [] ode none alg s.problem.model).2 := by rw [hm]
  have hk : Keeps (fun _ => True) s.problem.model m' := he ▸
    keeps_includeEquations (fun _ _ => trivial) (fun _ _ => trivial) (fun _ _ => trivial)
      (fun _ _ => trivial) _ (keeps_self _ _ fun _ _ => trivial)
  have hu : m'.u = s.problem.model.u := by
    rw [he]
    exact (u_includeEquations (U := s.problem.model.u) (E := s.problem.model.uExpr)
      (P := s.problem.model.parametrized) (a := []) (o := ode) (x := none) (g := alg) _ ⟨rfl, rfl, rfl⟩).1
  have hx0 : m'.x0 = s.problem.model.x0 := by
    rw [he]
    exact includeEquations_x0 _ _ _ _ _ rfl
  have hkeys : m'.ode.keys = s.problem.model.ode.keys := by
    rw [he]
    exact (always_includeEquations (X := s.problem.model.x) (Kk := s.problem.model.ode.keys) _ ⟨rfl, rfl⟩).2
  have huPar : m'.uPar = m'.u := by rw [hk.uPar, hu, hb.uPar]
  have hsyms : problemSymbols { s.problem with model := m' } = problemSymbols s.problem := by
    simp only [problemSymbols, hk.t, hk.tau, hk.x, hk.y, hk.p, hk.theta, hu, hx0]
  have hpath : pathSymbols { s.problem with model := m' } = pathSymbols s.problem := by
    simp only [pathSymbols, hk.t, hk.tau, hk.x, hk.y, hk.p, hk.theta, hu]
  have hgood : Good m' := good_includeEquations _ _ _ _ _ _ hb.good hm fun e hem t ht => by
    refine (inScope_iff (o := { s.problem with model := m' }) huPar t).mpr (ha e ?_ t ht)
    simp only [Spec.argExprs, List.flatMap_nil, List.append_nil, List.mem_append] at hem ⊢
    tauto
  exact { hb with
    symbols := hsyms ▸ hb.symbols
    used := hsyms ▸ hb.used
    sized := hsz
    keys := by simp only [hkeys, hb.keys, hk.x]
    starts := by simp only [hx0, hb.starts, hk.x]
    uPar := huPar
    good := hgood
    pOpt := ⟨hb.pOpt.1, by simpa only [hk.p] using hb.pOpt.2⟩
    thetaOpt := ⟨hb.thetaOpt.1, by simpa only [hk.theta] using hb.thetaOpt.2⟩
    path := hpath ▸ hb.path
    initial := by simpa only [hk.x, hx0] using hb.initial
    final := by simpa only [hk.x, hk.p] using hb.final
    timeless := by simpa only [hk.p] using hb.timeless
    cost := by simpa only [hk.x, hk.p] using hb.cost }

theorem built_step {st : Statement} {s s' : Session} (hb : Built s) (hr : st.run s = (.ok (), s'))
    (ha : SoundArguments s'.problem st) : Built s' := by
  have hpath {a b : List Expr} {vars : List Sym} (h : Mention a vars) (h' : ∀ e ∈ b, e ∈ a) :
      Mention b vars := fun e he => h e (h' e he)
  cases st with
  | createState => exact built_createState hb hr ha
  | createAlgebraic => exact built_createAlgebraic hb hr ha
  | createControl => exact built_createControl hb hr
  | createParameter n =>
    cases hr
    exact built_parameter hb
  | createTheta n =>
    cases hr
    exact built_theta hb
  | createParameterOpt => exact built_createParameterOpt hb hr
  | createThetaOpt => exact built_createThetaOpt hb hr
  | setParameterOpt v lo hi =>
    obtain ⟨hr, hn⟩ := run_ok hr
    obtain ⟨o', next'⟩ := s'
    cases hn
    exact built_setParameterOpt hb hr ha
  | setThetaOpt v lo hi =>
    obtain ⟨hr, hn⟩ := run_ok hr
    obtain ⟨o', next'⟩ := s'
    cases hn
    exact built_setThetaOpt hb hr ha
  | initialEquality e =>
    cases hr
    exact { hb with
      sized := { hb.sized with }
      initial := mention_append hb.initial ha }
  | finalEquality e =>
    cases hr
    exact { hb with
      sized := { hb.sized with }
      final := mention_append hb.final ha }
  | timeInequality e w =>
    cases hr
    refine { hb with
      sized := { hb.sized with }
      tags := fun tag ht => ?_
      tagged := ⟨by
        show (s.problem.timeGIneq ++ List.replicate e.length w).length = (s.problem.gIneq ++ e).length
        simp only [List.length_append, List.length_replicate, hb.tagged.1], hb.tagged.2⟩
      path := hpath (mention_append hb.path ha.1) fun e' he => ?_ }
    · rcases List.mem_append.mp ht with ht | ht
      · rcases List.mem_append.mp ht with ht | ht
        · exact hb.tags tag (List.mem_append_left _ ht)
        · rw [List.eq_of_mem_replicate ht]
          have := ha.2
          simpa using this
      · exact hb.tags tag (List.mem_append_right _ ht)
    · replace he : e' ∈ (s.problem.gIneq ++ e) ++ s.problem.gEq ++ [s.problem.S, s.problem.L] := he
      simp only [List.mem_append] at he ⊢
      tauto
  | timeEquality e w =>
    cases hr
    refine { hb with
      sized := { hb.sized with }
      tags := fun tag ht => ?_
      tagged := ⟨hb.tagged.1, by
        show (s.problem.timeGEq ++ List.replicate e.length w).length = (s.problem.gEq ++ e).length
        simp only [List.length_append, List.length_replicate, hb.tagged.2]⟩
      path := hpath (mention_append hb.path ha.1) fun e' he => ?_ }
    · rcases List.mem_append.mp ht with ht | ht
      · exact hb.tags tag (List.mem_append_left _ ht)
      · rcases List.mem_append.mp ht with ht | ht
        · exact hb.tags tag (List.mem_append_right _ ht)
        · rw [List.eq_of_mem_replicate ht]
          have := ha.2
          simpa using this
    · replace he : e' ∈ s.problem.gIneq ++ (s.problem.gEq ++ e) ++ [s.problem.S, s.problem.L] := he
      simp only [List.mem_append] at he ⊢
      tauto
  | equality e =>
    cases hr
    exact { hb with
      sized := { hb.sized with }
      timeless := mention_append hb.timeless ha }
  | systemEquations => exact built_systemEquations hb hr ha
  | setL e =>
    cases hr
    exact { hb with
      sized := { hb.sized with }
      path := hpath (mention_append hb.path ha) fun e he => by
        simp only [List.mem_append, List.mem_cons, List.not_mem_nil, or_false] at he ⊢
        tauto }
  | setV e =>
    cases hr
    exact { hb with
      sized := { hb.sized with }
      cost := ha }
  | setS e =>
    cases hr
    exact { hb with
      sized := { hb.sized with }
      path := hpath (mention_append hb.path ha) fun e he => by
        simp only [List.mem_append, List.mem_cons, List.not_mem_nil, or_false] at he ⊢
        tauto }
  | setLastU u =>
    cases hr
    exact { hb with sized := { hb.sized with } }

theorem built {sts : List Statement} {s s' : Session} (hb : Built s) (h : Declares sts s s') : Built s' := by
  induction sts generalizing s with
  | nil =>
    cases h
    exact hb
  | cons st sts ih =>
    obtain ⟨s₁, hr, ha, h⟩ := h
    exact ih (built_step hb hr ha) h

/-- A program from the empty problem. -/
theorem built_program {t0 tf : Rat} {sts : List Statement} {s : Session}
    (h : Declares sts (start t0 tf) s) : Built s := built (built_start t0 tf) h

theorem complete {s : Session} (hb : Built s) (hf : Finished s.problem) : Complete s.problem.model := by
  have hn : s.problem.model.x.Nodup := hb.symbols.sublist (by
    simp only [problemSymbols, List.append_assoc]
    exact (List.sublist_append_left _ _).trans (List.sublist_append_right _ _))
  refine ⟨hb.keys, hn, fun kv hkv => ?_⟩
  obtain ⟨k, v⟩ := kv
  have hm : k ∈ s.problem.model.x := hb.keys ▸ List.mem_map.mpr ⟨_, hkv, rfl⟩
  obtain ⟨e, he⟩ := hf.equations k hm
  obtain ⟨i, hi⟩ := List.mem_iff_getElem?.mp hkv
  have := Dict.get?_of_getElem _ (hb.keys ▸ hn) i k v hi
  rw [he] at this
  cases this
  rfl

theorem directProblem {s : Session} (hb : Built s) (hf : Finished s.problem) : DirectProblem s.problem where
  horizon := hf.horizon
  complete := complete hb hf
  starts := hb.starts
  controls := hb.symbols.sublist (by
    simp only [problemSymbols, List.append_assoc]
    exact (((List.sublist_append_left _ _).trans (List.sublist_append_right _ _)).trans
      (List.sublist_append_right _ _)).trans (List.sublist_append_right _ _))
  apart := by
    have hp : (problemSymbols s.problem).Perm (s.problem.model.u ++ ([s.problem.model.t, s.problem.model.tau] ++
        s.problem.model.x ++ s.problem.model.y ++ s.problem.model.p ++ s.problem.model.theta ++
        s.problem.model.x0 ++ s.problem.eta)) := by
      rw [List.perm_iff_count]
      intro c
      simp only [problemSymbols, List.count_append]
      omega
    intro v hv hv'
    exact (List.nodup_append.mp (hp.nodup_iff.mp hb.symbols)).2.2 v hv v hv' rfl
  parameters := ⟨hb.symbols.sublist (by
    simp only [problemSymbols, List.append_assoc]
    exact ((((List.sublist_append_left _ _).trans (List.sublist_append_right _ _)).trans
      (List.sublist_append_right _ _)).trans (List.sublist_append_right _ _)).trans
      (List.sublist_append_right _ _)), hb.pOpt⟩
  thetas := ⟨hb.symbols.sublist (by
    simp only [problemSymbols, List.append_assoc]
    exact (((((List.sublist_append_left _ _).trans (List.sublist_append_right _ _)).trans
      (List.sublist_append_right _ _)).trans (List.sublist_append_right _ _)).trans
      (List.sublist_append_right _ _)).trans (List.sublist_append_right _ _)), hb.thetaOpt⟩
  tags := hb.tags
  tagged := hb.tagged
  equations := hf.algebraic

theorem directScope {s : Session} (hb : Built s) : DirectScope s.problem where
  path := fun e he v hv => by
    have hm : e ∈ Spec.equations s.problem.model ∨
        e ∈ s.problem.gIneq ++ s.problem.gEq ++ [s.problem.S, s.problem.L] := by
      simp only [alongPath, Spec.equations, List.mem_append] at he ⊢
      tauto
    rcases hm with hm | hm
    · exact (inScope_iff hb.uPar v).mp (hb.good.1 e hm v hv)
    · exact hb.path e hm v hv
  initial := hb.initial
  final := hb.final
  timeless := hb.timeless
  cost := fun v hv => hb.cost _ (List.mem_singleton_self _) v hv

theorem boundsFit {s : Session} (hb : Built s) (hf : Finished s.problem) : BoundsFit s.problem :=
  ⟨⟨hb.sized.xMin, hb.sized.xMax, hf.x⟩, ⟨hb.sized.yMin, hb.sized.yMax, hf.y⟩,
    ⟨hb.sized.uMin, hb.sized.uMax, hf.u⟩, ⟨hb.sized.pOptMin, hb.sized.pOptMax, hf.pOpt⟩,
    ⟨hb.sized.thetaOptMin, hb.sized.thetaOptMax, hf.thetaOpt⟩⟩

theorem newSymbols {s : Session} (hb : Built s) {xc fresh base : Sym} (hc : s.next ≤ xc)
    (hi : s.next ≤ fresh) (hd : xc ≠ fresh) (hp : xc < base ∧ fresh < base) :
    NewSymbols s.problem xc fresh base where
  costState := fun h => Nat.not_lt.mpr hc (hb.used _ h)
  initial := fun h => Nat.not_lt.mpr hi (hb.used _ h)
  different := hd
  points := fun v hv => by
    rcases List.mem_cons.mp hv with rfl | hv
    · exact hp.1
    · rcases List.mem_cons.mp hv with rfl | hv
      · exact hp.2
      · exact Nat.lt_trans (Nat.lt_of_lt_of_le (hb.used v hv) hc) hp.1

section
variable {K : Type} [Field K] [LinearOrder K]

omit [LinearOrder K] in
theorem limitsFit {s : Session} (hb : Built s) (hf : Finished s.problem) :
    LimitsFit s.problem (lastOf (K := K) s.problem) :=
  ⟨hb.sized.duMin, hb.sized.duMax, hf.du, fun u hu => by
    unfold lastOf at hu
    obtain ⟨w, hw, rfl⟩ := Option.map_eq_some_iff.mp hu
    simp only [inField, List.length_map]
    exact hf.last w hw⟩

theorem declared {s : Session} {opts : SolveDirect.Options} {names : SolveDirect.NewNames} (hb : Built s)
    (hf : Finished s.problem) (ho : GoodOptions opts) (hn : UnusedNames s names)
    (hv : NewVariables (directDims s.problem (Spec.mesh opts)) names.var) :
    Declared K opts names s.problem where
  mesh := ho.mesh
  controlRoots := ho.controlRoots
  problem := directProblem hb hf
  scope := directScope hb
  symbols := hb.symbols
  controls := List.length_pos_iff.mpr hf.controls
  bounds := boundsFit hb hf
  limits := limitsFit hb hf
  new := newSymbols hb hn.costState hn.initial hn.different hn.points
  newVars := hv
  initial := ho.initial

end

/-- The problem can be prepared for a direct method. -/
theorem prepares {s : Session} (hb : Built s) (opts : SolveDirect.Options) (names : SolveDirect.NewNames)
    (hc : s.next ≤ names.xc) :
    (Direct.prepare opts.controlRoots opts.controlRoots.length names.xc names.fresh names.base
      { problem := s.problem }).1 = .ok () :=
  RelaxDirect.prepares _ _ _ _ _ _ hb.sized fun h => by
    rw [hb.keys] at h
    refine Nat.not_lt.mpr hc (hb.used _ ?_)
    simp only [problemSymbols, List.mem_append]
    tauto

end Session
end Verif
