import Verif.Lemmas.NetProblem
import Verif.Props.NetOptimum
import Verif.Props.RelaxOptimal
/-!
# C177: the nodes of a network solve the problem of the network
-/
namespace Verif
open Spec Net DistPrepare DistAL NetProblem

variable {N S K : Type} [DecidableEq N] [Field K] [LinearOrder K] [IsStrictOrderedRing K] {n : Nat}

/-- C177: the problem that the method makes of a node minimises the augmented Lagrangian of the whole
network over the trajectories the node admits, the other nodes staying as they are. -/
theorem C177_node_partial (net : ProblemNetwork N K n) (o : Opts) (mu0 : Rat) (ops : Expr.Ops K)
    (sch : Scheme K n) (hs : o.skip = false) (hn : net.nodes.Nodup) (hl : net.NoLoops) (m : N)
    (hm : m ∈ net.nodes) (hN : net.Node o sch m) :
    ∃ r, prepare o mu0 ((net.into m).map (·.edge)) ((net.outOf m).map (·.edge)) (net.problem m)
        (net.next m) = .ok r ∧
      ∀ z val, net.Informed o ops r m z val → ∀ tr,
        SolutionFor ops sch r.problem (net.exchanged o r m) val tr ↔
          net.Admits ops sch m tr ∧ ∀ tr', net.Admits ops sch m tr' →
            net.augmented ops sch (withResult z m tr) ≤ net.augmented ops sch (withResult z m tr') := by
  obtain ⟨r, hr, hd⟩ := node_decoupled hs hN mu0
  refine ⟨r, hr, fun z val hi tr => ?_⟩
  have hadm := decoupled_env hN hd hi
  have hval : ∀ t t', costOf ops sch r.problem (withValues (net.exchanged o r m) val t) ≤
        costOf ops sch r.problem (withValues (net.exchanged o r m) val t') ↔
      net.augmented ops sch (withResult z m t) ≤ net.augmented ops sch (withResult z m t') := by
    intro t t'
    rw [cost_eq hN hd hi, cost_eq hN hd hi, ← nodeCost_eq hl, ← nodeCost_eq hl, ← value_eq, ← value_eq]
    have h₁ := value_change (costs net ops sch).lagrangian _ hn z m hm t
    have h₂ := value_change (costs net ops sch).lagrangian _ hn z m hm t'
    constructor <;> intro h <;> linarith
  unfold SolutionFor
  rw [hadm tr]
  exact and_congr Iff.rfl (forall_congr' fun t => by rw [hadm t, hval])

/-- C177: an inner iteration of the distributed method without processes does not increase the augmented
Lagrangian of the network, whatever nodes are chosen. -/
theorem C177_descent_partial (net : ProblemNetwork N K n) (o : Opts) (mu0 : Rat) (ops : Expr.Ops K)
    (sch : Scheme K n) (hs : o.skip = false) (hl : net.NoLoops)
    (hN : ∀ m ∈ net.nodes, net.Node o sch m) (c : Setup N (GridValues K n) S K)
    (hc : c.nodes = net.nodes) (hd : c.distributed = false) (hn : c.nodes.Nodup)
    (hb : BlocksWithin c.nodes c.blocks) (hch : ∀ k, BlocksWithin c.nodes (c.choices k))
    (hsm : ∀ k, BlocksWithin c.nodes (c.sample k)) (k : Nat) (l l' : Loop N (GridValues K n) S K)
    (he : net.Solves o mu0 ops sch (c.solver l.methods)) (h : c.innerStep k l = .ok l')
    (z : N → GridValues K n) (hz : AllSolved c.nodes l.last z)
    (hf : ∀ m ∈ c.nodes, net.Admits ops sch m (z m)) :
    ∃ z', AllSolved c.nodes l'.last z' ∧ (∀ m ∈ c.nodes, net.Admits ops sch m (z' m)) ∧
      net.augmented ops sch z' ≤ net.augmented ops sch z := by
  have := C172_iteration c (costs net ops sch).lagrangian (net.Admits ops sch) hd hn hb hch hsm k l l'
    (by rw [hc]; exact solves_exact hs hN hl he) h z hz hf
  rw [hc] at this ⊢
  simpa only [value_eq] using this

/-- C177: when an inner iteration over all nodes changes no result and the results agree along the
connections, they are an optimal solution of the network. -/
theorem C177_optimal_partial (net : ProblemNetwork N K n) (o : Opts) (mu0 : Rat) (ops : Expr.Ops K)
    (sch : Scheme K n) (hs : o.skip = false) (hl : net.NoLoops)
    (hN : ∀ m ∈ net.nodes, net.Node o sch m) (hconv : net.IsConvex ops sch)
    (c : Setup N (GridValues K n) S K) (hc : c.nodes = net.nodes) (hn : c.nodes.Nodup)
    (hm : c.method = "cyclic") (hb : BlocksWithin c.nodes c.blocks) (hnd : c.blocks.flatten.Nodup)
    (hall : ∀ m ∈ c.nodes, m ∈ c.blocks.flatten) (k : Nat) (l l' : Loop N (GridValues K n) S K)
    (z : N → GridValues K n) (he : net.Solves o mu0 ops sch (c.solver l.methods))
    (hsome : ∀ m ∈ c.nodes, ∀ last, AllSolved c.nodes last z → (c.solver l.methods m last).isSome)
    (h : c.innerStep k l = .ok l') (hz : AllSolved c.nodes l.last z) (hz' : AllSolved c.nodes l'.last z)
    (hag : net.Agree z) : net.Optimum ops sch z := by
  obtain ⟨h₁, h₂⟩ := C173_optimal c (costs net ops sch) (net.Admits ops sch) hn
    (by rw [hc]; exact convex_costs hconv) hm hb hnd hall k l l' z
    (by rw [hc]; exact solves_exact hs hN hl he) hsome h hz hz' ((agree_iff net ops sch z).1 hag)
  have hadm : ∀ w, (costs net ops sch).Admissible c.nodes (net.Admits ops sch) w ↔
      net.Consistent ops sch w := by
    intro w
    rw [hc]
    exact ⟨fun h => ⟨h.nodes, (agree_iff net ops sch w).2 h.agree⟩,
      fun h => ⟨h.1, (agree_iff net ops sch w).1 h.2⟩⟩
  refine ⟨(hadm z).1 h₁, fun w hw => ?_⟩
  have := h₂ w ((hadm w).2 hw)
  rw [hc] at this
  exact this

namespace Example

/-- A producer: it has an algebraic equation for its output. -/
def producer : Ocp :=
  { Ocp.new { SysModel.new 0 1 with
      y := [10], u := [11], uExpr := [.sym 11], uPar := [11]
      alg := [.sub (.sym 10) (.sym 11)] } none 0 1 with
    L := .mul (.sym 11) (.sym 11) }

/-- A consumer: it wants its input to be one. -/
def consumer : Ocp :=
  { Ocp.new { SysModel.new 0 1 with u := [20], uExpr := [.sym 20], uPar := [20] } none 0 1 with
    L := .mul (.sub (.sym 20) (.const 1)) (.sub (.sym 20) (.const 1)) }

/-- The two of them, with multiplier and penalty one. -/
def market : ProblemNetwork Nat Rat 1 where
  nodes := [0, 1]
  problem m := if m = 0 then producer else consumer
  cables := [{ source := 0, target := 1, wires := [{ y := 10, u := 20, nu := fun _ => 1, mu := 1 }] }]
  fixed _ := [0, 1, 2, 3]
  given _ _ _ := 0
  next _ := 100

/-- One point. -/
def marketScheme : Scheme Rat 1 where
  weight _ := 1
  last := 0
  holds _ _ := True
  dynamics _ _ _ := True
  boundary _ _ _ _ _ := True
  inequalities _ _ _ := True

/-- Approximations with one parameter. -/
def marketOpts : Opts := { degree := 1, approx := fun l => .sym (l.headD 0) }

theorem market_node (m : Nat) (hm : m ∈ [0, 1]) : market.Node marketOpts marketScheme m := by
  simp only [List.mem_cons, List.not_mem_nil, or_false] at hm
  rcases hm with rfl | rfl <;> exact
  { fits :=
      { sized := by constructor <;> decide +kernel
        controls := by decide +kernel
        expressions := by decide +kernel
        sizes := by decide +kernel
        sizesOut := by decide +kernel
        inputs := by decide +kernel
        distinct := by decide +kernel }
    guesses := .inl ⟨rfl, rfl⟩
    square := by decide +kernel
    equations := by decide +kernel
    tags := by decide +kernel
    left := by decide +kernel
    below := by unfold Below; decide +kernel
    blind := fun _ _ _ => ⟨id, id, id⟩
    fixedBelow := by decide +kernel
    free := by decide +kernel
    outputs := by decide +kernel
    approx := fun k s hs => by
      left
      simpa [marketOpts, Expr.syms, couplingParams] using hs
    rates := by decide +kernel }

theorem producer_admits (tr : GridValues Rat 1) :
    market.Admits noOps marketScheme 0 tr ↔ tr 0 10 = tr 0 11 := by
  constructor
  · intro h
    have := h.alg 0 (.sub (.sym 10) (.sym 11)) (by decide +kernel)
    simp only [Expr.eval, withValues, market] at this
    simpa using sub_eq_zero.1 this
  · intro h
    refine ⟨fun k p hp => ?_, fun k => allWithin_free (a := 1) (b := 1),
      fun k => allWithin_free (a := 1) (b := 1), fun _ _ => trivial,
      fun _ _ => allWithin_free (a := 1) (b := 1), ?_, ?_, trivial, trivial, trivial⟩
    · exact absurd hp (by simp [market, producer, Ocp.new, SysModel.new])
    · intro k e he
      simp only [market, producer, Ocp.new, if_true, List.mem_singleton] at he
      subst he
      simp [Expr.eval, withValues, market, Fin.fin_one_eq_zero, h]
    · intro p hp
      simp [market, producer, Ocp.new] at hp

theorem consumer_admits (tr : GridValues Rat 1) : market.Admits noOps marketScheme 1 tr := by
  refine ⟨fun k p hp => ?_, fun k p hp => ?_, fun k => allWithin_free (a := 1) (b := 1),
    fun _ _ => trivial, fun _ _ => allWithin_free (a := 1) (b := 1), ?_, ?_, trivial, trivial, trivial⟩
  · exact absurd hp (by simp [market, consumer, Ocp.new, SysModel.new])
  · exact absurd hp (by simp [market, consumer, Ocp.new, SysModel.new])
  · intro k e he
    simp [market, consumer, Ocp.new, SysModel.new] at he
  · intro p hp
    simp [market, consumer, Ocp.new] at hp

theorem producer_cost (tr : GridValues Rat 1) :
    market.ownCost noOps marketScheme 0 tr = tr 0 11 * tr 0 11 := by
  simp [ProblemNetwork.ownCost, costOf, market, producer, Ocp.new, Expr.eval, withValues, marketScheme]

theorem consumer_cost (tr : GridValues Rat 1) :
    market.ownCost noOps marketScheme 1 tr = (tr 0 20 - 1) * (tr 0 20 - 1) := by
  simp [ProblemNetwork.ownCost, costOf, market, consumer, Ocp.new, Expr.eval, withValues, marketScheme]

theorem market_augmented (z : Nat → GridValues Rat 1) : market.augmented noOps marketScheme z =
    z 0 0 11 * z 0 0 11 + (z 1 0 20 - 1) * (z 1 0 20 - 1) +
      ((z 1 0 20 - z 0 0 10) + 1 / 2 * (z 1 0 20 - z 0 0 10) ^ 2) := by
  unfold ProblemNetwork.augmented
  simp [producer_cost, consumer_cost, show market.nodes = [0, 1] from rfl]
  simp [market, marketScheme]

/-- The value of the variable of the other node. -/
def heard (m : Nat) (z : Nat → GridValues Rat 1) : Rat := if m = 0 then z 1 0 20 else z 0 0 10

/-- The solver of the nodes. -/
def marketSolver : NodeSolver Nat (GridValues Rat 1) := fun m last =>
  match last 0, last 1 with
  | some a, some b => some fun _ _ => (1 + heard m (fun i => if i = 0 then a else b)) / 3
  | _, _ => none

theorem market_solves : market.Solves marketOpts 1 noOps marketScheme marketSolver := by
  intro m hm last z hz tr htr
  have h0 := hz 0 (by decide)
  have h1 := hz 1 (by decide)
  obtain ⟨r, hr, hiff⟩ := C177_node_partial market marketOpts 1 noOps marketScheme rfl (by decide)
    (by unfold ProblemNetwork.NoLoops; decide +kernel) m hm (market_node m hm)
  have hsyms : ((prepare marketOpts 1 ((market.into m).map (·.edge)) ((market.outOf m).map (·.edge))
      (market.problem m) (market.next m)).toOption.map fun r => (r.nuSym, r.muSym)) =
      some ([101], [102]) := by
    have hm' : m ∈ [0, 1] := hm
    simp only [List.mem_cons, List.not_mem_nil, or_false] at hm'
    rcases hm' with rfl | rfl <;> decide +kernel
  rw [hr] at hsyms
  simp only [Except.toOption, Option.map_some, Option.some.injEq, Prod.mk.injEq] at hsyms
  obtain ⟨e₁, e₂⟩ := hsyms
  have hi : market.Informed marketOpts noOps r m z
      (fun _ s => if s = 100 then heard m z else if s ≤ 3 then 0 else 1) := by
    have hm' : m ∈ [0, 1] := hm
    simp only [List.mem_cons, List.not_mem_nil, or_false] at hm'
    rcases hm' with rfl | rfl <;> constructor
    · intro s hs k
      have hs' : s = 0 ∨ s = 1 ∨ s = 2 ∨ s = 3 := by simpa [market] using hs
      rcases hs' with rfl | rfl | rfl | rfl <;> simp [market]
    · intro j p hp
      simp [market, ProblemNetwork.incoming, ProblemNetwork.into] at hp
    · intro j p hp k
      have hj : j = 0 := by
        have h' := (List.getElem?_eq_some_iff.1 hp).1
        have : (market.outgoing 0).length = 1 := rfl
        omega
      subst hj
      have : p = (1, { y := 10, u := 20, nu := fun _ => 1, mu := 1 }) := (Option.some.inj hp).symm
      subst this
      rw [Fin.fin_one_eq_zero k]
      rfl
    · intro k; rw [e₁]; rfl
    · intro k; rw [e₂]; rfl
    · intro s hs k
      have hs' : s = 0 ∨ s = 1 ∨ s = 2 ∨ s = 3 := by simpa [market] using hs
      rcases hs' with rfl | rfl | rfl | rfl <;> simp [market]
    · intro j p hp k
      have hj : j = 0 := by
        have h' := (List.getElem?_eq_some_iff.1 hp).1
        have : (market.incoming 1).length = 1 := rfl
        omega
      subst hj
      have : p = (0, { y := 10, u := 20, nu := fun _ => 1, mu := 1 }) := (Option.some.inj hp).symm
      subst this
      rw [Fin.fin_one_eq_zero k]
      rfl
    · intro j p hp
      simp [market, ProblemNetwork.outgoing, ProblemNetwork.outOf] at hp
    · intro k; rw [e₁]; rfl
    · intro k; rw [e₂]; rfl
  refine ⟨r, _, hr, hi, (hiff z _ hi tr).2 ?_⟩
  have hm' : m ∈ [0, 1] := hm
  simp only [List.mem_cons, List.not_mem_nil, or_false] at hm'
  rcases hm' with rfl | rfl
  · simp only [marketSolver, h0, h1, Option.some.injEq, heard, if_true] at htr
    subst htr
    refine ⟨(producer_admits _).2 rfl, fun tr' h' => ?_⟩
    have h' := (producer_admits tr').1 h'
    simp only [market_augmented, withResult, if_true, if_neg (by decide : ¬ (1 : Nat) = 0), h']
    nlinarith [sq_nonneg (3 * tr' 0 11 - 1 - z 1 0 20)]
  · simp only [marketSolver, h0, h1, Option.some.injEq, heard, if_neg (by decide : ¬ (1 : Nat) = 0),
      if_true] at htr
    subst htr
    refine ⟨consumer_admits _, fun tr' _ => ?_⟩
    simp only [market_augmented, withResult, if_true, if_neg (by decide : ¬ (0 : Nat) = 1)]
    nlinarith [sq_nonneg (3 * tr' 0 20 - 1 - z 0 0 10)]

theorem market_convex : market.IsConvex noOps marketScheme where
  sets := by
    intro m hm x y hx hy t _ _
    have hm' : m ∈ [0, 1] := hm
    simp only [List.mem_cons, List.not_mem_nil, or_false] at hm'
    rcases hm' with rfl | rfl
    · rw [producer_admits] at hx hy ⊢
      simp [hx, hy]
    · exact consumer_admits _
  costs := by
    intro m hm x y hx hy t ht ht'
    have hm' : m ∈ [0, 1] := hm
    simp only [List.mem_cons, List.not_mem_nil, or_false] at hm'
    rcases hm' with rfl | rfl
    · simp only [producer_cost, Pi.add_apply, Pi.smul_apply, Pi.sub_apply, smul_eq_mul]
      nlinarith [mul_nonneg (mul_nonneg ht (sub_nonneg.2 ht')) (sq_nonneg (y 0 11 - x 0 11))]
    · simp only [consumer_cost, Pi.add_apply, Pi.smul_apply, Pi.sub_apply, smul_eq_mul]
      nlinarith [mul_nonneg (mul_nonneg ht (sub_nonneg.2 ht')) (sq_nonneg (y 0 20 - x 0 20))]
  weights := fun _ => zero_le_one
  penalties := by decide +kernel
  within := by decide +kernel

/-- The method for this network. -/
def marketSetup : Setup Nat (GridValues Rat 1) Unit Rat where
  nodes := [0, 1]
  blocks := [[0], [1]]
  method := "cyclic"
  choices _ := []
  sample _ := []
  distributed := false
  solver _ := marketSolver
  objective tr := tr 0 11
  update _ _ := .ok ([], ())
  maxOuter := 1
  maxInner := 10
  maxInnerFirst := none
  innerTol := 0
  absTol := 0

/-- Both nodes have the value one half. -/
def marketLoop : Loop Nat (GridValues Rat 1) Unit Rat :=
  { methods := (), last := fun _ => some fun _ _ => 1 / 2 }

theorem market_some (m : Nat) (last : Nat → Option (GridValues Rat 1)) (z : Nat → GridValues Rat 1)
    (hz : AllSolved marketSetup.nodes last z) : (marketSetup.solver () m last).isSome := by
  have h0 := hz 0 (by decide)
  have h1 := hz 1 (by decide)
  show (marketSolver m last).isSome = true
  simp [marketSolver, h0, h1]

theorem market_stays : AllSolved marketSetup.nodes
    (solveSerial marketSolver [[0], [1]] marketLoop.last) fun _ _ _ => 1 / 2 := by
  intro m hm
  have hm' : m ∈ [0, 1] := hm
  simp only [List.mem_cons, List.not_mem_nil, or_false] at hm'
  rcases hm' with rfl | rfl <;>
    norm_num [solveSerial, store, marketSetup, marketLoop, marketSolver, heard] <;> rfl

/-- The hypotheses hold for the market, and one half is what both nodes want. -/
example : market.Optimum noOps marketScheme fun _ _ _ => 1 / 2 :=
  C177_optimal_partial market marketOpts 1 noOps marketScheme rfl
    (by unfold ProblemNetwork.NoLoops; decide +kernel) market_node market_convex marketSetup rfl (by decide)
    rfl (by unfold BlocksWithin; decide) (by decide) (by decide) 0 marketLoop _ _ market_solves
    (fun m _ last hz => market_some m last _ hz) rfl (fun _ _ => rfl) market_stays
    (fun _ _ _ _ _ => rfl)

/-- From other results an inner iteration decreases the augmented Lagrangian of the market. -/
example : ∃ z' : Nat → GridValues Rat 1,
    AllSolved [0, 1] (solveSerial marketSolver [[0], [1]] fun _ => some fun _ _ => 2) z' ∧
      market.augmented noOps marketScheme z' < market.augmented noOps marketScheme fun _ _ _ => 2 := by
  refine ⟨fun m _ _ => if m = 0 then 1 else 2 / 3, ?_, ?_⟩
  · intro m hm
    simp only [List.mem_cons, List.not_mem_nil, or_false] at hm
    rcases hm with rfl | rfl <;>
      norm_num [solveSerial, store, marketSolver, heard] <;> rfl
  · norm_num [market_augmented]

end Example
end Verif
