import Verif.Spec.NetProblem
import Verif.Props.DistPrepare
import Verif.Lemmas.RelaxOptimal
import Mathlib.Algebra.BigOperators.Fin
/-!
# Lemmas on the discretised problem of a network
-/
namespace Verif.NetProblem
open Verif Spec Net DistPrepare DistAL

section
variable {K : Type} [Field K] [LinearOrder K] {n : Nat}

theorem allWithin_lookup {lo hi : List XRat} {vars : List Sym} (hn : vars.Nodup)
    (hlo : lo.length = vars.length) (hhi : hi.length = vars.length) (val : Sym → K) :
    AllWithin lo hi vars val ↔ ∀ v ∈ vars, ∀ a b, (bounds vars lo).lookup v = some a →
      (bounds vars hi).lookup v = some b → Within a b (val v) := by
  unfold AllWithin bounds
  induction vars generalizing lo hi with
  | nil => simp
  | cons x vars ih =>
    cases lo with
    | nil => simp at hlo
    | cons l lo =>
      cases hi with
      | nil => simp at hhi
      | cons h hi =>
        obtain ⟨h₁, h₂⟩ := List.nodup_cons.1 hn
        have ih := ih (lo := lo) (hi := hi) h₂ (by simpa using hlo) (by simpa using hhi)
        simp only [List.zip_cons_cons, List.mem_cons, forall_eq_or_imp, ih, List.lookup_cons,
          beq_self_eq_true, Option.some.injEq]
        refine and_congr ⟨fun h a b e₁ e₂ => e₁ ▸ e₂ ▸ h, fun h => h _ _ rfl rfl⟩ (forall₂_congr fun v hv => ?_)
        have : (v == x) = false := by
          have : v ≠ x := fun e => h₁ (e ▸ hv)
          simpa using this
        simp only [this]

theorem within_free (v : K) : Within ⊥ ⊤ v :=
  ⟨by simp, by simp, (by intro q hq; cases hq), (by intro q hq; cases hq)⟩

theorem lookup_bounds_isSome {α : Type} {vars : List Sym} {b : List α} (hl : b.length = vars.length)
    {v : Sym} (hv : v ∈ vars) : ∃ a, (bounds vars b).lookup v = some a := by
  cases h : (bounds vars b).lookup v with
  | some a => exact ⟨a, rfl⟩
  | none =>
    rw [List.lookup_eq_none_iff] at h
    obtain ⟨i, hi, rfl⟩ := List.getElem_of_mem hv
    have hb : i < b.length := by omega
    have := h (vars[i], b[i]) (by
      unfold bounds
      rw [List.mem_iff_getElem]
      exact ⟨i, by simp; omega, by simp⟩)
    simp at this

/-- The trajectories a node with its couplings admits are those it admits without them, when its inputs have
no limits on their rates. -/
theorem decoupled_admits {o : Opts} {next : Sym} {ins outs : List Sym} {p : Ocp} {r : Relax}
    (h : Decoupled o next ins outs p r) (hp : Sized p) (hu : p.model.u.Nodup) (hi : ins.Nodup)
    (hin : ∀ v ∈ ins, v ∈ p.model.u)
    (hr : ∀ v ∈ ins, (bounds p.model.u p.duMax).lookup v = some ⊤ ∧
      (bounds p.model.u p.duMin).lookup v = some ⊥)
    (ops : Expr.Ops K) (sch : Scheme K n) (tr : GridValues K n) :
    SatisfiesAll ops sch r.problem tr ↔ SatisfiesAll ops sch p tr := by
  have hmem : ∀ v, v ∈ r.problem.model.u ↔ v ∈ p.model.u := by
    intro v
    rw [h.u]
    simp only [List.mem_append, List.mem_filter, decide_eq_true_eq]
    constructor
    · rintro (h' | h')
      · exact h'.1
      · exact hin v h'
    · intro h'
      by_cases hv : v ∈ ins
      · exact .inr hv
      · exact .inl ⟨h', hv⟩
  have hn : r.problem.model.u.Nodup := by
    rw [h.u, List.nodup_append]
    refine ⟨hu.filter _, hi, ?_⟩
    rintro a ha b hb rfl
    simp only [List.mem_filter, decide_eq_true_eq] at ha
    exact ha.2 hb
  obtain ⟨s₁, s₂, s₃, s₄⟩ := h.sizes
  have eu : ∀ val : Sym → K, AllWithin r.problem.uMin r.problem.uMax r.problem.model.u val ↔
      AllWithin p.uMin p.uMax p.model.u val := by
    intro val
    rw [allWithin_lookup hn s₂ s₁, allWithin_lookup hu hp.uMin hp.uMax]
    refine forall_congr' fun v => ?_
    rw [hmem v]
    refine forall_congr' fun hv => ?_
    rw [h.uMin v hv, h.uMax v hv]
  have ed : ∀ val : Sym → K, AllWithin r.problem.duMin r.problem.duMax r.problem.model.u val ↔
      AllWithin p.duMin p.duMax p.model.u val := by
    intro val
    rw [allWithin_lookup hn s₄ s₃, allWithin_lookup hu hp.duMin hp.duMax]
    refine forall_congr' fun v => ?_
    rw [hmem v]
    refine forall_congr' fun hv => ?_
    rw [h.duMin v hv, h.duMax v hv]
    by_cases hvi : v ∈ ins
    · rw [if_pos hvi, if_pos hvi, (hr v hvi).1, (hr v hvi).2]
    · rw [if_neg hvi, if_neg hvi]
  constructor
  · intro f
    refine ⟨?_, ?_, fun k => (eu _).1 (f.u k), ?_, fun s hs => (ed _).1 (f.du s hs), ?_, ?_, ?_, ?_, ?_⟩
    · have := f.x; rwa [h.xBounds.1, h.xBounds.2, h.x] at this
    · have := f.y; rwa [h.yBounds.1, h.yBounds.2, h.y] at this
    · exact fun v hv => f.control v ((hmem v).2 hv)
    · have := f.alg; rwa [h.alg] at this
    · have := f.eq; rwa [h.gEq, h.timeGEq] at this
    · have := f.ineq; rwa [h.inequalities.1, h.inequalities.2] at this
    · have := f.dynamics; rwa [h.x, h.ode] at this
    · have := f.boundary; rwa [h.boundary.1, h.boundary.2.1, h.boundary.2.2.1, h.boundary.2.2.2, h.x] at this
  · intro f
    refine ⟨?_, ?_, fun k => (eu _).2 (f.u k), ?_, fun s hs => (ed _).2 (f.du s hs), ?_, ?_, ?_, ?_, ?_⟩
    · rw [h.xBounds.1, h.xBounds.2, h.x]; exact f.x
    · rw [h.yBounds.1, h.yBounds.2, h.y]; exact f.y
    · exact fun v hv => f.control v ((hmem v).1 hv)
    · rw [h.alg]; exact f.alg
    · rw [h.gEq, h.timeGEq]; exact f.eq
    · rw [h.inequalities.1, h.inequalities.2]; exact f.ineq
    · rw [h.x, h.ode]; exact f.dynamics
    · rw [h.boundary.1, h.boundary.2.1, h.boundary.2.2.1, h.boundary.2.2.2, h.x]; exact f.boundary

omit [LinearOrder K] in
theorem augmentedTerms_map {α : Type} (l : List α) (a b c : α → K) :
    augmentedTerms (l.map a) (l.map b) (l.map c) =
      (l.map fun x => a x * c x + b x / 2 * c x ^ 2).sum := by
  unfold augmentedTerms
  induction l with
  | nil => rfl
  | cons x l ih => simp only [List.map_cons, List.zip_cons_cons, List.sum_cons, ih]

omit [LinearOrder K] in
theorem sum_swap {α : Type} (l : List α) (w : Fin n → K) (f : Fin n → α → K) :
    ∑ k, w k * (l.map (f k)).sum = (l.map fun a => ∑ k, w k * f k a).sum := by
  induction l with
  | nil => simp
  | cons a l ih => simp only [List.map_cons, List.sum_cons, mul_add, Finset.sum_add_distrib, ih]

omit [LinearOrder K] in
theorem sum_filter_or {α : Type} (l : List α) (p q : α → Bool) (h : ∀ a ∈ l, ¬(p a = true ∧ q a = true))
    (f : α → K) : ((l.filter fun a => p a || q a).map f).sum =
      ((l.filter q).map f).sum + ((l.filter p).map f).sum := by
  induction l with
  | nil => simp
  | cons a l ih =>
    have ih := ih fun b hb => h b (by simp [hb])
    have ha := h a (by simp)
    cases hp : p a <;> cases hq : q a <;> simp_all <;> ring

end

section
variable {N K : Type} [DecidableEq N] [Field K] [LinearOrder K] {n : Nat}

omit [Field K] [LinearOrder K] in
theorem inputs_eq (net : ProblemNetwork N K n) (m : N) :
    inputsOf ((net.into m).map (·.edge)) = (net.incoming m).map (·.2.u) := by
  unfold inputsOf ProblemNetwork.incoming
  rw [List.flatMap_map, List.map_flatMap]
  simp only [Cable.edge, List.map_map, Function.comp_def]

omit [Field K] [LinearOrder K] in
theorem outputs_eq (net : ProblemNetwork N K n) (m : N) :
    outputsOf ((net.outOf m).map (·.edge)) = (net.outgoing m).map (·.2.y) := by
  unfold outputsOf ProblemNetwork.outgoing
  rw [List.flatMap_map, List.map_flatMap]
  simp only [Cable.edge, List.map_map, Function.comp_def]

/-- The problem of a node with its couplings. -/
theorem node_decoupled {net : ProblemNetwork N K n} {o : Opts} {sch : Scheme K n} {m : N}
    (hs : o.skip = false) (h : net.Node o sch m) (mu0 : Rat) :
    ∃ r, prepare o mu0 ((net.into m).map (·.edge)) ((net.outOf m).map (·.edge)) (net.problem m)
        (net.next m) = .ok r ∧
      Decoupled o (net.next m) ((net.incoming m).map (·.2.u)) ((net.outgoing m).map (·.2.y))
        (net.problem m) r := by
  have := C144_decoupled_partial o hs mu0 (net.problem m) (net.next m) _ _ h.fits h.guesses h.square
    (by rw [inputs_eq]; exact h.equations) h.tags (by
      rw [outputs_eq]
      intro hne
      have := h.left (by rintro e; rw [e] at hne; exact hne rfl)
      simpa using this)
  rwa [inputs_eq, outputs_eq] at this

theorem mem_allParams {degree : Nat} {next : Sym} {c k : Nat} (hk : k < c) {s : Sym}
    (hs : s ∈ couplingParams degree next k) : s ∈ allParams degree next c :=
  List.mem_flatMap.2 ⟨k, by simpa using hk, hs⟩

theorem allParams_ge {degree : Nat} {next : Sym} {c : Nat} {s : Sym} (hs : s ∈ allParams degree next c) :
    next ≤ s := by
  obtain ⟨k, -, hk⟩ := List.mem_flatMap.1 hs
  exact (Nat.le_add_right _ _).trans (List.mem_range'_1.1 hk).1

/-- Symbols of the problem have the values of the trajectory or the given ones. -/
theorem env_below {net : ProblemNetwork N K n} {o : Opts} {ops : Expr.Ops K} {m : N}
    {r : Relax} (h : Decoupled o (net.next m) ((net.incoming m).map (·.2.u))
      ((net.outgoing m).map (·.2.y)) (net.problem m) r)
    {z : N → GridValues K n} {val : GridValues K n} (hi : net.Informed o ops r m z val)
    (tr : GridValues K n) (k : Fin n) (s : Sym) (hs : s < net.next m) :
    withValues (net.exchanged o r m) val tr k s = withValues (net.fixed m) (net.given m) tr k s := by
  unfold withValues ProblemNetwork.exchanged
  by_cases hf : s ∈ net.fixed m
  · rw [if_pos (by simp [hf]), if_pos hf, hi.fixed s hf]
  · rw [if_neg hf, if_neg]
    simp only [List.mem_append, hf, false_or, not_or]
    refine ⟨⟨fun hm => ?_, fun hm => ?_⟩, fun hm => absurd (allParams_ge hm) (not_le.2 hs)⟩
    · have := h.fresh s (by simp [hm])
      exact absurd ((Nat.le_add_right _ _).trans this) (not_le.2 hs)
    · have := h.fresh s (by simp [hm])
      exact absurd ((Nat.le_add_right _ _).trans this) (not_le.2 hs)

/-- The terms of the couplings of a node. -/
def linkTerm (sch : Scheme K n) (w : Wire K n) (u y : Fin n → K) : K :=
  ∑ k, sch.weight k * (w.nu k * (u k - y k) + w.mu / 2 * (u k - y k) ^ 2)

/-- What a node minimises: its own cost and the terms of its connections, with the values of the other
nodes. -/
theorem cost_eq [CharZero K] {net : ProblemNetwork N K n} {o : Opts} {ops : Expr.Ops K}
    {sch : Scheme K n} {m : N} (hN : net.Node o sch m)
    {r : Relax} (h : Decoupled o (net.next m) ((net.incoming m).map (·.2.u))
      ((net.outgoing m).map (·.2.y)) (net.problem m) r)
    {z : N → GridValues K n} {val : GridValues K n} (hi : net.Informed o ops r m z val)
    (tr : GridValues K n) :
    costOf ops sch r.problem (withValues (net.exchanged o r m) val tr) = net.ownCost ops sch m tr +
      (((net.incoming m).map fun p => linkTerm sch p.2 (fun k => tr k p.2.u) (fun k => z p.1 k p.2.y)).sum +
       ((net.outgoing m).map fun p => linkTerm sch p.2 (fun k => z p.1 k p.2.u) (fun k => tr k p.2.y)).sum) := by
  set env := withValues (net.exchanged o r m) val tr with henv
  have hown : net.ownCost ops sch m tr = costOf ops sch (net.problem m) env :=
    (cost_congr hN.below ops sch fun k s hs => env_below h hi tr k s hs).symm
  have happ : ∀ j < (net.incoming m).length + (net.outgoing m).length, ∀ k,
      (o.approx (couplingParams o.degree (net.next m) j)).eval ops (env k) =
      (o.approx (couplingParams o.degree (net.next m) j)).eval ops (val k) := by
    intro j hj k
    apply Expr.eval_congr
    intro s hs
    have : s ∈ net.exchanged o r m := by
      unfold ProblemNetwork.exchanged
      rcases hN.approx j s hs with h' | h'
      · have := mem_allParams hj h'
        simp [this]
      · simp [h']
    rw [henv]
    simp only [withValues, if_pos this]
  have hsym : ∀ s, s < net.next m → s ∉ net.fixed m → ∀ k, env k s = tr k s := by
    intro s h₁ h₂ k
    rw [henv, env_below h hi tr k s h₁]
    simp only [withValues, if_neg h₂]
  have hin : ∀ p ∈ net.incoming m, ∀ k, env k p.2.u = tr k p.2.u := by
    intro p hp k
    have hu : p.2.u ∈ (net.problem m).model.u := (hN.fits.inputs p.2.u (by
      rw [inputs_eq]; exact List.mem_map.2 ⟨p, hp, rfl⟩)).1
    exact hsym _ (hN.below.2 _ (by simp [hu])) (hN.free _ hu) k
  have hout : ∀ p ∈ net.outgoing m, ∀ k, env k p.2.y = tr k p.2.y := fun p hp k =>
    hsym _ (hN.outputs p hp).1 (hN.outputs p hp).2 k
  have r₁ : ∀ k, (inputEquations o (net.next m) ((net.incoming m).map (·.2.u))).map (Expr.eval ops (env k)) =
      (net.incoming m).map fun p => tr k p.2.u - z p.1 k p.2.y := by
    intro k
    apply List.ext_getElem
    · simp [inputEquations]
    · intro i h₁ h₂
      have hl : i < (net.incoming m).length := by simpa using h₂
      simp only [inputEquations, List.getElem_map, List.getElem_zipIdx, Expr.eval, Nat.zero_add]
      rw [hin _ (List.getElem_mem hl) k, happ i (by omega) k,
        hi.inputs i _ (List.getElem?_eq_getElem hl) k]
  have r₂ : ∀ k, (outputEquations o (net.next m) ((net.incoming m).map (·.2.u)).length
      ((net.outgoing m).map (·.2.y))).map (Expr.eval ops (env k)) =
      (net.outgoing m).map fun p => z p.1 k p.2.u - tr k p.2.y := by
    intro k
    apply List.ext_getElem
    · simp [outputEquations]
    · intro i h₁ h₂
      have hl : i < (net.outgoing m).length := by simpa using h₂
      simp only [outputEquations, List.getElem_map, List.getElem_zipIdx, Expr.eval, Nat.zero_add,
        List.length_map]
      rw [hout _ (List.getElem_mem hl) k, happ _ (by omega) k,
        hi.outputs i _ (List.getElem?_eq_getElem hl) k]
  have hpar : ∀ l : List Sym, (∀ s ∈ l, s ∈ net.exchanged o r m) → ∀ k, l.map (env k) = l.map (val k) :=
    fun l hl k => map_withValues hl val tr k
  have hL : ∀ k, r.problem.L.eval ops (env k) = (net.problem m).L.eval ops (env k) +
      (((net.incoming m).map fun p => p.2.nu k * (tr k p.2.u - z p.1 k p.2.y) +
          p.2.mu / 2 * (tr k p.2.u - z p.1 k p.2.y) ^ 2).sum +
       ((net.outgoing m).map fun p => p.2.nu k * (z p.1 k p.2.u - tr k p.2.y) +
          p.2.mu / 2 * (z p.1 k p.2.u - tr k p.2.y) ^ 2).sum) := by
    intro k
    rw [h.cost.2.2 K ops (env k), List.map_append, r₁ k, r₂ k,
      hpar _ (fun s hs => by simp [ProblemNetwork.exchanged, hs]) k,
      hpar _ (fun s hs => by simp [ProblemNetwork.exchanged, hs]) k, hi.nu k, hi.mu k, List.map_append,
      List.map_append, augmentedTerms_append _ _ _ _ _ _ (by simp) (by simp), augmentedTerms_map,
      augmentedTerms_map]
  rw [hown]
  unfold costOf linkTerm
  rw [h.otherCosts.1, h.otherCosts.2]
  simp only [hL, mul_add, Finset.sum_add_distrib, sum_swap]
  ring

/-- The coupling conditions of the points of a connection. -/
def conditionsOf (sch : Scheme K n) (c : Cable N K n) : List (CouplingCondition N (GridValues K n) K) :=
  c.wires.flatMap fun w => (List.finRange n).map fun k =>
    { source := c.source
      target := c.target
      output := ⟨⟨fun tr => tr k w.y, fun _ _ => rfl⟩, fun _ _ => rfl⟩
      input := ⟨⟨fun tr => tr k w.u, fun _ _ => rfl⟩, fun _ _ => rfl⟩
      nu := sch.weight k * w.nu k
      mu := sch.weight k * w.mu }

/-- The network as costs with coupling conditions. -/
def costs (net : ProblemNetwork N K n) (ops : Expr.Ops K) (sch : Scheme K n) :
    CoupledCosts N (GridValues K n) K where
  own := net.ownCost ops sch
  conditions := net.cables.flatMap (conditionsOf sch)

omit [DecidableEq N] [LinearOrder K] in
theorem cable_sum (sch : Scheme K n) (c : Cable N K n) (x : N → GridValues K n) :
    ((conditionsOf sch c).map fun q => q.nu * (q.input (x q.target) - q.output (x q.source)) +
        q.mu / 2 * ((q.input (x q.target) - q.output (x q.source)) *
          (q.input (x q.target) - q.output (x q.source)))).sum =
      (c.wires.map fun w => linkTerm sch w (fun k => x c.target k w.u) (fun k => x c.source k w.y)).sum := by
  unfold conditionsOf
  induction c.wires with
  | nil => rfl
  | cons w ws ih =>
    rw [List.flatMap_cons, List.map_append, List.sum_append, ih, List.map_cons, List.sum_cons, List.map_map]
    congr 1
    unfold linkTerm
    rw [Fin.sum_univ_def]
    congr 1
    apply List.map_congr_left
    intro k _
    simp only [Function.comp, LinearMap.coe_mk, AddHom.coe_mk]
    ring

omit [DecidableEq N] [LinearOrder K] in
theorem conditions_ends {sch : Scheme K n} {c : Cable N K n} {q : CouplingCondition N (GridValues K n) K}
    (h : q ∈ conditionsOf sch c) : q.source = c.source ∧ q.target = c.target := by
  unfold conditionsOf at h
  obtain ⟨w, -, hq⟩ := List.mem_flatMap.1 h
  obtain ⟨k, -, rfl⟩ := List.mem_map.1 hq
  exact ⟨rfl, rfl⟩

omit [LinearOrder K] in
theorem lagrangian_filter (sch : Scheme K n) (cs : List (Cable N K n)) (m : N) (x : N → GridValues K n) :
    (((cs.flatMap (conditionsOf sch)).filter fun q => decide (q.source = m ∨ q.target = m)).map fun q =>
        q.nu * (q.input (x q.target) - q.output (x q.source)) +
        q.mu / 2 * ((q.input (x q.target) - q.output (x q.source)) *
          (q.input (x q.target) - q.output (x q.source)))).sum =
      ((cs.filter fun c => decide (c.source = m ∨ c.target = m)).map fun c =>
        (c.wires.map fun w => linkTerm sch w (fun k => x c.target k w.u)
          (fun k => x c.source k w.y)).sum).sum := by
  induction cs with
  | nil => rfl
  | cons c cs ih =>
    rw [List.flatMap_cons, List.filter_append, List.map_append, List.sum_append, ih, List.filter_cons]
    by_cases hc : c.source = m ∨ c.target = m
    · rw [List.filter_eq_self.2, cable_sum, if_pos (by simpa using hc), List.map_cons, List.sum_cons]
      intro q hq
      obtain ⟨e₁, e₂⟩ := conditions_ends hq
      rw [e₁, e₂]
      simpa using hc
    · rw [List.filter_eq_nil_iff.2, if_neg (by simpa using hc)]
      · simp
      · intro q hq
        obtain ⟨e₁, e₂⟩ := conditions_ends hq
        rw [e₁, e₂]
        simpa using hc

omit [DecidableEq N] [LinearOrder K] in
theorem lagrangian_sum (sch : Scheme K n) (cs : List (Cable N K n)) (x : N → GridValues K n) :
    ((cs.flatMap (conditionsOf sch)).map fun q =>
        q.nu * (q.input (x q.target) - q.output (x q.source)) +
        q.mu / 2 * ((q.input (x q.target) - q.output (x q.source)) *
          (q.input (x q.target) - q.output (x q.source)))).sum =
      (cs.map fun c => (c.wires.map fun w => linkTerm sch w (fun k => x c.target k w.u)
          (fun k => x c.source k w.y)).sum).sum := by
  induction cs with
  | nil => rfl
  | cons c cs ih =>
    rw [List.flatMap_cons, List.map_append, List.sum_append, ih, cable_sum, List.map_cons, List.sum_cons]

theorem value_eq (net : ProblemNetwork N K n) (ops : Expr.Ops K) (sch : Scheme K n)
    (z : N → GridValues K n) :
    (costs net ops sch).lagrangian.value net.nodes z = net.augmented ops sch z := by
  unfold NetCost.value ProblemNetwork.augmented CoupledCosts.lagrangian
  simp only [costs, List.map_map, Function.comp_def]
  rw [lagrangian_sum]
  rfl

theorem flatMap_sum {α β : Type} (l : List α) (f : α → List β) (g : β → K) :
    ((l.flatMap f).map g).sum = (l.map fun a => ((f a).map g).sum).sum := by
  induction l with
  | nil => rfl
  | cons a l ih => simp [List.flatMap_cons, ih]

/-- What a node minimises is its share of the augmented Lagrangian. -/
theorem nodeCost_eq {net : ProblemNetwork N K n} (hl : net.NoLoops) (ops : Expr.Ops K) (sch : Scheme K n)
    (z : N → GridValues K n) (m : N) (tr : GridValues K n) :
    (costs net ops sch).lagrangian.nodeCost z m tr = net.ownCost ops sch m tr +
      (((net.incoming m).map fun p => linkTerm sch p.2 (fun k => tr k p.2.u) (fun k => z p.1 k p.2.y)).sum +
       ((net.outgoing m).map fun p => linkTerm sch p.2 (fun k => z p.1 k p.2.u)
         (fun k => tr k p.2.y)).sum) := by
  have e := lagrangian_filter sch net.cables m (withResult z m tr)
  unfold NetCost.nodeCost CoupledCosts.lagrangian
  simp only [costs, List.filter_map, List.map_map, Function.comp_def]
  rw [e]
  congr 1
  have ef : (fun c : Cable N K n => decide (c.source = m ∨ c.target = m)) =
      fun c => decide (c.source = m) || decide (c.target = m) := by
    funext c
    simp [Bool.decide_or]
  rw [ef, sum_filter_or]
  · unfold ProblemNetwork.incoming ProblemNetwork.outgoing
    rw [flatMap_sum, flatMap_sum]
    unfold ProblemNetwork.into ProblemNetwork.outOf
    congr 2
    · apply List.map_congr_left
      intro c hc
      obtain ⟨hc₁, hc₂⟩ := List.mem_filter.1 hc
      have ht : c.target = m := by simpa using hc₂
      have hs : c.source ≠ m := fun h => hl c hc₁ (h.trans ht.symm)
      rw [List.map_map]
      simp only [Function.comp_def, withResult, if_pos ht, if_neg hs]
    · apply List.map_congr_left
      intro c hc
      obtain ⟨hc₁, hc₂⟩ := List.mem_filter.1 hc
      have hs : c.source = m := by simpa using hc₂
      have ht : c.target ≠ m := fun h => hl c hc₁ (hs.trans h.symm)
      rw [List.map_map]
      simp only [Function.comp_def, withResult, if_pos hs, if_neg ht]
  · intro c hc ⟨h₁, h₂⟩
    exact hl c hc ((by simpa using h₁ : c.source = m).trans (by simpa using h₂ : c.target = m).symm)

/-- A node with its couplings admits what it admits without them. -/
theorem decoupled_env {net : ProblemNetwork N K n} {o : Opts} {ops : Expr.Ops K} {sch : Scheme K n} {m : N}
    (hn : net.Node o sch m) {r : Relax} (hd : Decoupled o (net.next m) ((net.incoming m).map (·.2.u))
      ((net.outgoing m).map (·.2.y)) (net.problem m) r)
    {z : N → GridValues K n} {val : GridValues K n} (hi : net.Informed o ops r m z val)
    (t : GridValues K n) : SatisfiesAll ops sch r.problem (withValues (net.exchanged o r m) val t) ↔
      net.Admits ops sch m t := by
  rw [decoupled_admits hd hn.fits.sized hn.fits.controls
    (by have := hn.fits.distinct; rw [inputs_eq] at this; exact (List.nodup_append.1 this).2.1)
    (fun v hv => (hn.fits.inputs v (by rw [inputs_eq]; exact hv)).1)
    (fun v hv => by
      obtain ⟨p, hp, rfl⟩ := List.mem_map.1 hv
      exact hn.rates p hp)]
  unfold ProblemNetwork.Admits
  exact ⟨satisfies_congr hn.below ops hn.blind fun k s hs => env_below hd hi t k s hs,
    satisfies_congr hn.below ops hn.blind fun k s hs => (env_below hd hi t k s hs).symm⟩

/-- Solvers of the nodes with their couplings minimise the augmented Lagrangian node by node. -/
theorem solves_exact [CharZero K] {net : ProblemNetwork N K n} {o : Opts} {mu0 : Rat} {ops : Expr.Ops K}
    {sch : Scheme K n} (hs : o.skip = false) (hN : ∀ m ∈ net.nodes, net.Node o sch m) (hl : net.NoLoops)
    {solver : NodeSolver N (GridValues K n)} (h : net.Solves o mu0 ops sch solver) :
    ExactSolver (costs net ops sch).lagrangian net.nodes (net.Admits ops sch) solver := by
  intro m hm last z hz tr htr
  obtain ⟨r, val, hr, hi, hf, hmin⟩ := h m hm last z hz tr htr
  obtain ⟨r', hr', hd⟩ := node_decoupled hs (hN m hm) mu0
  rw [hr] at hr'
  cases hr'
  have hn := hN m hm
  have hadm := decoupled_env hn hd hi
  refine ⟨(hadm tr).1 hf, fun t ht => ?_⟩
  have := hmin t ((hadm t).2 ht)
  rw [cost_eq hn hd hi, cost_eq hn hd hi] at this
  rw [nodeCost_eq hl, nodeCost_eq hl]
  exact this

theorem convex_costs [IsStrictOrderedRing K] {net : ProblemNetwork N K n} {ops : Expr.Ops K}
    {sch : Scheme K n} (h : net.IsConvex ops sch) :
    (costs net ops sch).Convex net.nodes (net.Admits ops sch) where
  sets := h.sets
  costs := h.costs
  penalties := by
    intro q hq
    obtain ⟨c, hc, hq⟩ := List.mem_flatMap.1 hq
    obtain ⟨w, hw, hq⟩ := List.mem_flatMap.1 hq
    obtain ⟨k, -, rfl⟩ := List.mem_map.1 hq
    exact mul_nonneg (h.weights k) (h.penalties c hc w hw)
  within := by
    intro q hq
    obtain ⟨c, hc, hq⟩ := List.mem_flatMap.1 hq
    obtain ⟨e₁, e₂⟩ := conditions_ends hq
    rw [e₁, e₂]
    exact h.within c hc

theorem agree_iff (net : ProblemNetwork N K n) (ops : Expr.Ops K) (sch : Scheme K n)
    (z : N → GridValues K n) :
    net.Agree z ↔ ∀ q ∈ (costs net ops sch).conditions, q.error z = 0 := by
  constructor
  · intro h q hq
    obtain ⟨c, hc, hq⟩ := List.mem_flatMap.1 hq
    obtain ⟨w, hw, hq⟩ := List.mem_flatMap.1 hq
    obtain ⟨k, -, rfl⟩ := List.mem_map.1 hq
    exact sub_eq_zero.2 (h c hc w hw k)
  · intro h c hc w hw k
    have := h _ (List.mem_flatMap.2 ⟨c, hc, List.mem_flatMap.2 ⟨w, hw, List.mem_map.2
      ⟨k, List.mem_finRange k, rfl⟩⟩⟩)
    exact sub_eq_zero.1 this

end
end Verif.NetProblem
