import Verif.Lemmas.NetJoint
import Verif.Props.NetProblem
/-!
# C178: the problem of a network and its optimal solutions
-/
namespace Verif
open Spec Net DistPrepare DistAL NetProblem NetJoint

variable {S K : Type} [Field K] [LinearOrder K] {n : Nat}

namespace NetJoint

theorem returned {net : ProblemNetwork Nat K n} {s : Network} {t tau : Sym} (h : net.Joint s t tau) :
    ∃ o, getProblem s t tau = .ok o ∧
      Parts o net.problems (SysModel.new t tau) (s.graph.edges.map (·.2.2)) := by
  have hk : net.nodes.map (fun r => (s.heap r).problem) = net.problems.map some := by
    unfold ProblemNetwork.problems
    rw [List.map_map]
    exact List.map_congr_left fun m hm => h.describes.problems m hm
  obtain ⟨o, ho, hmod, hs⟩ := C106_returned s h.reached t tau net.nodes h.describes.order net.problems
    (by simpa [ProblemNetwork.problems] using h.nodes) h.name hk h.sizes h.guesses h.horizon h.controls
    h.models h.connections
  have hin : ∀ v ∈ inputsOf (s.graph.edges.map (·.2.2)), v ∈ net.problems.flatMap (·.model.u) := by
    intro v hv
    have := (h.connections.inputs v hv).1
    simpa [merged, SysModel.new, List.flatMap_map] using this
  have e : inputsOf (s.graph.edges.map (·.2.2)) = s.graph.edges.flatMap fun e => e.2.2.u := by
    unfold inputsOf
    rw [List.flatMap_map]
  obtain ⟨-, hc, hg, hx, hu, hy, hy'⟩ := C106_problem_partial s h.reached t tau net.nodes h.describes.order
    net.problems hk h.sizes h.controls
    (fun a b e' he v hv => hin v (by
      rw [e]
      exact List.mem_flatMap.2 ⟨(a, b, e'), (mem_edges (ids_reached h.reached).graph a b e').2 he, hv⟩))
    (by rw [← e]; exact h.connections.once) o ho
  exact ⟨o, ho, ⟨hs, hmod, hc, hg, hx, by rw [e]; exact hu, by rw [e]; exact hy, by rw [e]; exact hy'⟩⟩

theorem pairs_iff {net : ProblemNetwork Nat K n} {s : Network} (h : net.Describes s) (P : Sym → Sym → Prop) :
    (∀ e ∈ s.graph.edges.map (·.2.2), ∀ p ∈ e.u.zip e.y, P p.1 p.2) ↔
      ∀ c ∈ net.cables, ∀ w ∈ c.wires, P w.u w.y := by
  have hp : (net.cables.map (·.edge)).Perm (s.graph.edges.map (·.2.2)) := by
    have := h.cables.map (·.2.2)
    rw [List.map_map] at this
    exact this
  have : (∀ e ∈ s.graph.edges.map (·.2.2), ∀ p ∈ e.u.zip e.y, P p.1 p.2) ↔
      ∀ e ∈ net.cables.map (·.edge), ∀ p ∈ e.u.zip e.y, P p.1 p.2 :=
    forall_congr' fun e => by rw [hp.mem_iff]
  rw [this]
  simp only [List.mem_map, forall_exists_index, and_imp, forall_apply_eq_imp_iff₂, Cable.edge]
  refine forall₂_congr fun c _ => ?_
  rw [List.zip_map']
  simp

theorem satisfies_on {o : Ocp} {own : Sym → Prop} {sch : Scheme K n} (hd : DependsOn sch own o)
    (ops : Expr.Ops K) {tr tr' : GridValues K n} (he : ∀ k s, own s → tr k s = tr' k s)
    (hf : SatisfiesAll ops sch o tr) : SatisfiesAll ops sch o tr' := by
  obtain ⟨h1, h2, h3⟩ := hd.scheme tr tr' he
  have hv : ∀ v ∈ o.model.x ++ o.model.y ++ o.model.u, ∀ k, tr k v = tr' k v :=
    fun v hv k => he k v (hd.vars v hv)
  have ev : ∀ e ∈ o.L :: o.V :: o.S :: (o.model.alg ++ o.gEq), ∀ k,
      e.eval ops (tr' k) = e.eval ops (tr k) := fun e hm k =>
    Expr.eval_congr ops _ _ _ fun s hs => (he k s (hd.expressions e hm s hs)).symm
  refine ⟨fun k => allWithin_congr (fun v hm => hv v (by simp [hm]) k) (hf.x k),
    fun k => allWithin_congr (fun v hm => hv v (by simp [hm]) k) (hf.y k),
    fun k => allWithin_congr (fun v hm => hv v (by simp [hm]) k) (hf.u k), ?_, ?_, ?_, ?_,
    h1 hf.ineq, h2 hf.dynamics, h3 hf.boundary⟩
  · intro v hm
    have := hf.control v hm
    rwa [show (fun k => tr k v) = fun k => tr' k v from funext fun k => hv v (by simp [hm]) k] at this
  · intro s hs
    refine allWithin_congr (fun v hm => ?_) (hf.du s hs)
    rw [hv v (by simp [hm]), hv v (by simp [hm])]
  · intro k e hm
    rw [ev e (by simp [hm])]
    exact hf.alg k e hm
  · intro p hm k hk
    rw [ev p.1 (by simp [(List.of_mem_zip hm).1])]
    exact hf.eq p hm k hk

omit [LinearOrder K] in
theorem cost_on {o : Ocp} {own : Sym → Prop} {sch : Scheme K n} (hd : DependsOn sch own o)
    (ops : Expr.Ops K) {tr tr' : GridValues K n} (he : ∀ k s, own s → tr k s = tr' k s) :
    costOf ops sch o tr = costOf ops sch o tr' := by
  have ev : ∀ e ∈ o.L :: o.V :: o.S :: (o.model.alg ++ o.gEq), ∀ k,
      e.eval ops (tr k) = e.eval ops (tr' k) := fun e hm k =>
    Expr.eval_congr ops _ _ _ fun s hs => he k s (hd.expressions e hm s hs)
  unfold costOf
  rw [ev o.V (by simp)]
  have e1 : (fun k => o.S.eval ops (tr k)) = fun k => o.S.eval ops (tr' k) :=
    funext fun k => ev o.S (by simp) k
  have e2 : ∀ k, o.L.eval ops (tr k) = o.L.eval ops (tr' k) := fun k => ev o.L (by simp) k
  rw [e1]
  simp only [e2]

/-- The trajectory of the network is admitted by its problem when the parts are consistent. -/
theorem consistent_iff {net : ProblemNetwork Nat K n} {s : Network} {t tau : Sym} (h : net.Joint s t tau)
    {sch : Scheme K n} {ops : Expr.Ops K} (hm : sch.Modular ops) (hf : FreeControls sch)
    {own : Nat → Sym → Prop} {fixed : List Sym} {given : GridValues K n}
    (hs : net.Separate sch t tau own fixed given) {o : Ocp}
    (hp : Parts o net.problems (SysModel.new t tau) (s.graph.edges.map (·.2.2)))
    {z : Nat → GridValues K n} {w : GridValues K n} (hj : Joins net.nodes own fixed z w) :
    (SatisfiesAll ops sch o (withValues fixed given w) ↔ net.Consistent ops sch z) ∧
      costOf ops sch o (withValues fixed given w) =
        (net.nodes.map fun m => net.ownCost ops sch m (z m)).sum := by
  have he : ∀ m ∈ net.nodes, ∀ k s, own m s →
      withValues fixed given w k s = withValues (net.fixed m) (net.given m) (z m) k s := by
    intro m hm k s ho
    rw [(hs.values m hm).1, (hs.values m hm).2]
    unfold withValues
    split
    · rfl
    · next hn => exact hj m hm k s ho hn
  constructor
  · rw [satisfies_iff hp h.sizes h.tags h.controls
      (fun k hk => (h.models.complete k.model (List.mem_map.2 ⟨k, hk, rfl⟩)).1) ?_ hm hf _ ?_]
    · unfold ProblemNetwork.Consistent
      refine and_congr ?_ ?_
      · unfold ProblemNetwork.problems ProblemNetwork.Admits
        simp only [List.mem_map, forall_exists_index, and_imp, forall_apply_eq_imp_iff₂]
        exact forall₂_congr fun m hm => ⟨satisfies_on (hs.depends m hm) ops (he m hm),
          satisfies_on (hs.depends m hm) ops fun k s ho => (he m hm k s ho).symm⟩
      · have : ∀ k, _ := fun k => pairs_iff h.describes
          fun a b => withValues fixed given w k a = withValues fixed given w k b
        simp only [this]
        unfold ProblemNetwork.Agree
        have key : ∀ c ∈ net.cables, ∀ e ∈ c.wires, ∀ k, withValues fixed given w k e.u = z c.target k e.u ∧
            withValues fixed given w k e.y = z c.source k e.y := by
          intro c hc e hew k
          obtain ⟨h1, h2, h3⟩ := hs.ends c hc
          obtain ⟨⟨a1, a2⟩, a3, a4⟩ := h3 e hew
          exact ⟨by rw [withValues, if_neg a4, hj _ h2 k _ a3 a4],
            by rw [withValues, if_neg a2, hj _ h1 k _ a1 a2]⟩
        constructor
        · intro H c hc e hew k
          have := H k c hc e hew
          rwa [(key c hc e hew k).1, (key c hc e hew k).2] at this
        · intro H k c hc e hew
          rw [(key c hc e hew k).1, (key c hc e hew k).2]
          exact H c hc e hew k
    · intro v hv k hk hvk
      have hp : (net.cables.map (·.edge)).Perm (s.graph.edges.map (·.2.2)) := by
        have := h.describes.cables.map (·.2.2)
        rw [List.map_map] at this
        exact this
      obtain ⟨e, he', hve⟩ := List.mem_flatMap.1 hv
      obtain ⟨c, hc, rfl⟩ := List.mem_map.1 (hp.mem_iff.2 he')
      obtain ⟨q, hq, rfl⟩ := List.mem_map.1 hve
      exact h.rates c hc q hq k hk hvk
    · intro k hk i
      have ht := hs.times k hk
      simp only [List.mem_cons, List.not_mem_nil, or_false, forall_eq_or_imp, forall_eq] at ht
      unfold withValues
      rw [if_pos ht.1, if_pos ht.2.1, if_pos ht.2.2.1, if_pos ht.2.2.2]
      exact hs.clock k hk i
  · rw [cost_sum hp, ProblemNetwork.problems, List.map_map]
    congr 1
    exact List.map_congr_left fun m hm => cost_on (hs.depends m hm) ops (he m hm)

omit [Field K] [LinearOrder K] in
/-- Trajectories of the nodes can be joined. -/
theorem exists_joins (nodes : List Nat) (own : Nat → Sym → Prop) (fixed : List Sym)
    (hs : ∀ l ∈ nodes, ∀ m ∈ nodes, l ≠ m → ∀ s, own l s → own m s → s ∈ fixed)
    (z : Nat → GridValues K n) : ∃ w, Joins nodes own fixed z w := by
  classical
  refine ⟨fun k s => if h : ∃ m ∈ nodes, own m s then z h.choose k s else z 0 k s, ?_⟩
  intro m hm k s ho hf
  have hex : ∃ m ∈ nodes, own m s := ⟨m, hm, ho⟩
  show (if h : ∃ m ∈ nodes, own m s then z h.choose k s else z 0 k s) = _
  rw [dif_pos hex]
  have hc := hex.choose_spec
  by_cases e : hex.choose = m
  · rw [e]
  · exact absurd (hs _ hc.1 m hm e s hc.2 ho) hf

end NetJoint

/-- C178: `get_problem` returns a problem whose solutions are the optimal solutions of the network. -/
theorem C178_solution_partial (net : ProblemNetwork Nat K n) (s : Network) (t tau : Sym)
    (h : net.Joint s t tau) (ops : Expr.Ops K) (sch : Scheme K n) (hm : sch.Modular ops)
    (hf : FreeControls sch) (own : Nat → Sym → Prop) (fixed : List Sym) (given : GridValues K n)
    (hs : net.Separate sch t tau own fixed given) :
    ∃ o, getProblem s t tau = .ok o ∧ ∀ z w, Joins net.nodes own fixed z w →
      (SolutionFor ops sch o fixed given w ↔ net.Optimum ops sch z) := by
  obtain ⟨o, ho, hp⟩ := returned h
  refine ⟨o, ho, fun z w hj => ?_⟩
  obtain ⟨h₁, h₂⟩ := consistent_iff h hm hf hs hp hj
  unfold SolutionFor ProblemNetwork.Optimum
  rw [h₁, h₂]
  refine and_congr_right fun _ => ⟨fun H z' hz' => ?_, fun H w' hw' => ?_⟩
  · obtain ⟨w', hj'⟩ := exists_joins net.nodes own fixed hs.shared z'
    obtain ⟨h₁', h₂'⟩ := consistent_iff h hm hf hs hp hj'
    rw [← h₂']
    exact H w' (h₁'.2 hz')
  · have hj' : Joins net.nodes own fixed (fun _ => w') w' := fun _ _ _ _ _ _ => rfl
    obtain ⟨h₁', h₂'⟩ := consistent_iff h hm hf hs hp hj'
    rw [h₂']
    exact H _ (h₁'.1 hw')

/-- C178: results of the distributed method that an inner iteration over all nodes does not change and that
agree along the connections are parts of a solution of the problem that `get_problem` returns. -/
theorem C178_distributed_partial [IsStrictOrderedRing K] (net : ProblemNetwork Nat K n) (s : Network)
    (t tau : Sym) (h : net.Joint s t tau) (ops : Expr.Ops K) (sch : Scheme K n) (hm : sch.Modular ops)
    (hf : FreeControls sch) (own : Nat → Sym → Prop) (fixed : List Sym) (given : GridValues K n)
    (hs : net.Separate sch t tau own fixed given) (o : Opts) (mu0 : Rat) (hskip : o.skip = false)
    (hl : net.NoLoops) (hN : ∀ m ∈ net.nodes, net.Node o sch m) (hconv : net.IsConvex ops sch)
    (c : Setup Nat (GridValues K n) S K) (hc : c.nodes = net.nodes) (hn : c.nodes.Nodup)
    (hcy : c.method = "cyclic") (hb : BlocksWithin c.nodes c.blocks) (hnd : c.blocks.flatten.Nodup)
    (hall : ∀ m ∈ c.nodes, m ∈ c.blocks.flatten) (k : Nat) (l l' : Loop Nat (GridValues K n) S K)
    (z : Nat → GridValues K n) (he : net.Solves o mu0 ops sch (c.solver l.methods))
    (hsome : ∀ m ∈ c.nodes, ∀ last, AllSolved c.nodes last z → (c.solver l.methods m last).isSome)
    (hstep : c.innerStep k l = .ok l') (hz : AllSolved c.nodes l.last z)
    (hz' : AllSolved c.nodes l'.last z) (hag : net.Agree z) :
    ∃ p w, getProblem s t tau = .ok p ∧ Joins net.nodes own fixed z w ∧
      SolutionFor ops sch p fixed given w := by
  obtain ⟨p, hp, H⟩ := C178_solution_partial net s t tau h ops sch hm hf own fixed given hs
  obtain ⟨w, hj⟩ := exists_joins net.nodes own fixed hs.shared z
  exact ⟨p, w, hp, hj, (H z w hj).2 (C177_optimal_partial net o mu0 ops sch hskip hl hN hconv c hc hn hcy hb
    hnd hall k l l' z he hsome hstep hz hz' hag)⟩

omit [LinearOrder K] in
theorem NetJoint.sum_single (f g : Nat → K) (m : Nat) (l : List Nat) (hn : l.Nodup) (hm : m ∈ l)
    (h : ∀ i ∈ l, i ≠ m → f i = g i) : (l.map f).sum - (l.map g).sum = f m - g m := by
  induction l with
  | nil => simp at hm
  | cons a l ih =>
    obtain ⟨ha, hl⟩ := List.nodup_cons.1 hn
    simp only [List.map_cons, List.sum_cons]
    by_cases e : a = m
    · subst e
      have : l.map f = l.map g := List.map_congr_left fun i hi =>
        h i (by simp [hi]) fun e => ha (e ▸ hi)
      rw [this]
      ring
    · have := ih hl ((List.mem_cons.1 hm).resolve_left fun e' => e e'.symm) fun i hi => h i (by simp [hi])
      rw [h a (by simp) e]
      linear_combination this

/-- C178 fails for costs that depend on the time: the running cost of the problem of the network still
depends on the time symbol of the node as the cost of the node does, and this symbol is no variable and no
parameter of the problem. -/
theorem C178_time_fails (net : ProblemNetwork Nat K n) (s : Network) (t tau : Sym)
    (h : net.Joint s t tau) (m : Nat) (hm : m ∈ net.nodes)
    (ho : ∀ i ∈ net.nodes, i ≠ m → (net.problem m).model.t ∉ (net.problem i).L.syms)
    (hv : ∀ k ∈ net.problems, (net.problem m).model.t ∉
      k.model.x ++ k.model.y ++ k.model.u ++ k.model.p ++ k.model.theta) :
    ∃ o, getProblem s t tau = .ok o ∧
      (∀ (ops : Expr.Ops K) (ρ ρ' : Sym → K), (∀ a, a ≠ (net.problem m).model.t → ρ a = ρ' a) →
        o.L.eval ops ρ - o.L.eval ops ρ' = (net.problem m).L.eval ops ρ - (net.problem m).L.eval ops ρ') ∧
      (net.problem m).model.t ∉ o.model.t :: o.model.tau ::
        (o.model.x ++ o.model.y ++ o.model.u ++ o.model.p ++ o.model.theta) := by
  obtain ⟨o, hr, hp⟩ := returned h
  have hnd : net.nodes.Nodup :=
    h.describes.order.perm.nodup_iff.2 (ids_reached h.reached).graph.nodes
  refine ⟨o, hr, fun ops ρ ρ' he => ?_, ?_⟩
  · rw [(hp.costs ops ρ).1, (hp.costs ops ρ').1, ProblemNetwork.problems, List.map_map, List.map_map]
    exact sum_single _ _ m net.nodes hnd hm fun i hi hne => Expr.eval_congr ops _ _ _ fun a ha =>
      he a fun e => ho i hi hne (e ▸ ha)
  · have hk : net.problem m ∈ net.problems := List.mem_map.2 ⟨m, hm, rfl⟩
    have ht := h.models.times _ (List.mem_map.2 ⟨_, hk, rfl⟩)
    have hin : ∀ v ∈ inputsOf (s.graph.edges.map (·.2.2)), v ∈ net.problems.flatMap (·.model.u) := by
      intro v hv
      have := (h.connections.inputs v hv).1
      simpa [merged, SysModel.new, List.flatMap_map] using this
    rw [hp.model]
    simp only [joined, merged, SysModel.new, List.mem_cons, List.mem_append, List.nil_append,
      List.mem_filter, List.flatMap_map]
    simp only [List.mem_append, not_or] at hv
    have hu : (net.problem m).model.t ∉ net.problems.flatMap (·.model.u) := fun hmem => by
      obtain ⟨j, hj, hmem⟩ := List.mem_flatMap.1 hmem
      exact (hv j hj).1.1.2 hmem
    rintro (e | e | (((((e | e | e) | e) | e) | e)))
    · exact ht.1 e
    · exact ht.2.1 e
    · obtain ⟨j, hj, hmem⟩ := List.mem_flatMap.1 e
      exact (hv j hj).1.1.1.1 hmem
    · obtain ⟨j, hj, hmem⟩ := List.mem_flatMap.1 e
      exact (hv j hj).1.1.1.2 hmem
    · exact hu (hin _ e)
    · exact hu e.1
    · obtain ⟨j, hj, hmem⟩ := List.mem_flatMap.1 e
      exact (hv j hj).1.2 hmem
    · obtain ⟨j, hj, hmem⟩ := List.mem_flatMap.1 e
      exact (hv j hj).2 hmem

namespace Example

/-- The producer and the consumer of C177 as a network. -/
def marketCalls : List NetCall :=
  [.createNode ⟨none, some "producer", some producer.model, some producer⟩,
    .createNode ⟨none, some "consumer", some consumer.model, some consumer⟩,
    .connect [10] [20] 0 1 100]

def marketNetwork : Network := netAfter marketCalls (emptyNetwork (some "market") false)

theorem marketNetwork_reached : Reached marketNetwork :=
  ⟨_, _, marketCalls, ⟨rfl, rfl, ⟨by decide +kernel, by decide +kernel⟩, trivial⟩, rfl⟩

theorem marketNetwork_edges : marketNetwork.graph.edges = [(0, 1, ⟨[10], [20]⟩)] := by decide +kernel

theorem market_problems : market.problems = [producer, consumer] := rfl

theorem market_describes : market.Describes marketNetwork where
  order := ⟨by rw [show marketNetwork.graph.nodes = [0, 1] by decide +kernel]; rfl, by
    simp only [show market.nodes = [0, 1] from rfl, List.pairwise_cons, List.mem_cons, List.not_mem_nil,
      or_false, forall_eq, IsEmpty.forall_iff, implies_true, List.Pairwise.nil, and_true]
    exact ⟨0, 1, by decide +kernel, by decide +kernel, by decide⟩⟩
  problems := by
    have : [0, 1].map (fun r => (marketNetwork.heap r).problem) = [some producer, some consumer] := by
      decide +kernel
    simp only [List.map_cons, List.map_nil, List.cons.injEq, and_true] at this
    intro m hm
    have hm' : m ∈ [0, 1] := hm
    simp only [List.mem_cons, List.not_mem_nil, or_false] at hm'
    rcases hm' with rfl | rfl
    · exact this.1
    · exact this.2
  cables := by rw [marketNetwork_edges]; exact .refl _

theorem market_joint : market.Joint marketNetwork 2 3 where
  reached := marketNetwork_reached
  name := by decide +kernel
  nodes := by decide
  describes := market_describes
  sizes := by
    rw [market_problems]
    simp only [List.mem_cons, List.not_mem_nil, or_false, forall_eq_or_imp, forall_eq]
    constructor <;> constructor <;> decide +kernel
  tags := by rw [market_problems]; decide +kernel
  guesses := by
    rw [market_problems]
    simp [GuessSized, producer, consumer, Ocp.new]
  horizon := by rw [market_problems]; decide +kernel
  controls := by rw [market_problems]; decide +kernel
  models := by
    rw [market_problems]
    refine ⟨?_, ?_, ?_, ?_, ?_, ?_⟩ <;>
      simp [SysModel.new, producer, consumer, Ocp.new, Complete, Brings, equations,
        SysModel.odeVec, Dict.values, Dict.keys, Expr.syms]
  connections := by
    rw [marketNetwork_edges, market_problems]
    refine ⟨?_, ?_, ?_⟩ <;> simp [inputsOf, merged, SysModel.new, producer, consumer, Ocp.new]
  rates := by rw [market_problems]; decide +kernel

/-- The symbols of the two nodes. -/
def marketOwn (m : Nat) (s : Sym) : Prop := s ∈ if m = 0 then [0, 1, 10, 11] else [0, 1, 20]

theorem marketScheme_modular : marketScheme.Modular (noOps : Expr.Ops Rat) := by
  constructor <;> simp [marketScheme]

theorem market_separate : market.Separate marketScheme 2 3 marketOwn [0, 1, 2, 3] (fun _ _ => 0) where
  depends := by
    intro m hm
    have hm' : m ∈ [0, 1] := hm
    simp only [List.mem_cons, List.not_mem_nil, or_false] at hm'
    rcases hm' with rfl | rfl
    · exact ⟨by unfold marketOwn; decide +kernel, by unfold marketOwn; decide +kernel,
        fun _ _ _ => ⟨id, id, id⟩⟩
    · exact ⟨by unfold marketOwn; decide +kernel, by unfold marketOwn; decide +kernel,
        fun _ _ _ => ⟨id, id, id⟩⟩
  shared := by
    have : ∀ l ∈ [0, 1], ∀ m ∈ [0, 1], l ≠ m → ∀ s ∈ (if l = 0 then [0, 1, 10, 11] else [0, 1, 20]),
        s ∈ (if m = 0 then [0, 1, 10, 11] else [0, 1, 20]) → s ∈ [0, 1, 2, 3] := by decide +kernel
    exact fun l hl m hm hne s h₁ h₂ => this l hl m hm hne s h₁ h₂
  values := fun _ _ => ⟨rfl, rfl⟩
  ends := by unfold marketOwn; decide +kernel
  times := by rw [market_problems]; decide +kernel
  clock := fun _ _ _ => ⟨rfl, rfl⟩

/-- The solutions of the problem of the network are those of the producer and the consumer. -/
example : ∃ o, getProblem marketNetwork 2 3 = .ok o ∧ ∀ z w, Joins [0, 1] marketOwn [0, 1, 2, 3] z w →
    (SolutionFor noOps marketScheme o [0, 1, 2, 3] (fun _ _ => 0) w ↔
      market.Optimum noOps marketScheme z) :=
  C178_solution_partial market marketNetwork 2 3 market_joint noOps marketScheme marketScheme_modular
    (fun _ => trivial) marketOwn [0, 1, 2, 3] (fun _ _ => 0) market_separate

/-- The results one half of the distributed method are parts of a solution of the problem of the network. -/
example : ∃ p w, getProblem marketNetwork 2 3 = .ok p ∧
    Joins [0, 1] marketOwn [0, 1, 2, 3] (fun _ _ _ => 1 / 2) w ∧
    SolutionFor noOps marketScheme p [0, 1, 2, 3] (fun _ _ => 0) w :=
  C178_distributed_partial market marketNetwork 2 3 market_joint noOps marketScheme marketScheme_modular
    (fun _ => trivial) marketOwn [0, 1, 2, 3] (fun _ _ => 0) market_separate marketOpts 1 rfl
    (by unfold ProblemNetwork.NoLoops; decide +kernel) market_node market_convex marketSetup rfl (by decide)
    rfl (by unfold BlocksWithin; decide) (by decide) (by decide) 0 marketLoop _ _ market_solves
    (fun m _ last hz => market_some m last _ hz) rfl (fun _ _ => rfl) market_stays (fun _ _ _ _ _ => rfl)

/-- The consumer with a price that is the time. -/
def timedConsumer : Ocp := { consumer with L := .mul (.sym 0) (.sym 20) }

/-- The market with this consumer. -/
def timedMarket : ProblemNetwork Nat Rat 1 :=
  { market with problem := fun m => if m = 0 then producer else timedConsumer }

/-- The calls that make it. -/
def timedCalls : List NetCall :=
  [.createNode ⟨none, some "producer", some producer.model, some producer⟩,
    .createNode ⟨none, some "consumer", some timedConsumer.model, some timedConsumer⟩,
    .connect [10] [20] 0 1 100]

def timedNetwork : Network := netAfter timedCalls (emptyNetwork (some "market") false)

theorem timedNetwork_reached : Reached timedNetwork :=
  ⟨_, _, timedCalls, ⟨rfl, rfl, ⟨by decide +kernel, by decide +kernel⟩, trivial⟩, rfl⟩

theorem timedNetwork_edges : timedNetwork.graph.edges = [(0, 1, ⟨[10], [20]⟩)] := by decide +kernel

theorem timed_problems : timedMarket.problems = [producer, timedConsumer] := rfl

theorem timed_describes : timedMarket.Describes timedNetwork where
  order := ⟨by rw [show timedNetwork.graph.nodes = [0, 1] by decide +kernel]; rfl, by
    simp only [show timedMarket.nodes = [0, 1] from rfl, List.pairwise_cons, List.mem_cons, List.not_mem_nil,
      or_false, forall_eq, IsEmpty.forall_iff, implies_true, List.Pairwise.nil, and_true]
    exact ⟨0, 1, by decide +kernel, by decide +kernel, by decide⟩⟩
  problems := by
    have : [0, 1].map (fun r => (timedNetwork.heap r).problem) = [some producer, some timedConsumer] := by
      decide +kernel
    simp only [List.map_cons, List.map_nil, List.cons.injEq, and_true] at this
    intro m hm
    have hm' : m ∈ [0, 1] := hm
    simp only [List.mem_cons, List.not_mem_nil, or_false] at hm'
    rcases hm' with rfl | rfl
    · exact this.1
    · exact this.2
  cables := by rw [timedNetwork_edges]; exact .refl _

theorem timed_joint : timedMarket.Joint timedNetwork 2 3 where
  reached := timedNetwork_reached
  name := by decide +kernel
  nodes := by decide
  describes := timed_describes
  sizes := by
    rw [timed_problems]
    simp only [List.mem_cons, List.not_mem_nil, or_false, forall_eq_or_imp, forall_eq]
    constructor <;> constructor <;> decide +kernel
  tags := by rw [timed_problems]; decide +kernel
  guesses := by
    rw [timed_problems]
    simp [GuessSized, producer, timedConsumer, consumer, Ocp.new]
  horizon := by rw [timed_problems]; decide +kernel
  controls := by rw [timed_problems]; decide +kernel
  models := by
    rw [timed_problems]
    refine ⟨?_, ?_, ?_, ?_, ?_, ?_⟩ <;>
      simp [SysModel.new, producer, timedConsumer, consumer, Ocp.new, Complete, Brings, equations,
        SysModel.odeVec, Dict.values, Dict.keys, Expr.syms]
  connections := by
    rw [timedNetwork_edges, timed_problems]
    refine ⟨?_, ?_, ?_⟩ <;> simp [inputsOf, merged, SysModel.new, producer, timedConsumer, consumer, Ocp.new]
  rates := by rw [timed_problems]; decide +kernel

/-- The cost of its problem depends on the symbol 0, which the problem does not have. -/
example : ∃ o, getProblem timedNetwork 2 3 = .ok o ∧
    (∀ ρ ρ' : Sym → Rat, (∀ a, a ≠ 0 → ρ a = ρ' a) →
      o.L.eval noOps ρ - o.L.eval noOps ρ' = ρ 0 * ρ 20 - ρ' 0 * ρ' 20) ∧
    0 ∉ o.model.t :: o.model.tau ::
      (o.model.x ++ o.model.y ++ o.model.u ++ o.model.p ++ o.model.theta) := by
  obtain ⟨o, h₁, h₂, h₃⟩ := C178_time_fails timedMarket timedNetwork 2 3 timed_joint 1 (by decide)
    (by decide +kernel) (by rw [timed_problems]; decide +kernel)
  exact ⟨o, h₁, h₂ noOps, h₃⟩

/-- Schemes with differentiation matrices treat the equations one by one. -/
example (ops : Expr.Ops Rat) (holds : String → Fin 3 → Prop) (d : Fin 3 → Fin 3 → Rat) :
    (matrixScheme ops (fun _ => 1) holds d (· ≠ 0) 0 2).Modular ops :=
  matrixScheme_modular ..

end Example
end Verif
