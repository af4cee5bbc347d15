import Verif.Spec.NetEnds
import Verif.Props.AugLag
import Verif.Lemmas.AugLagResult
/-!
# The two ends of a connection
-/
namespace Verif
open AugLag Spec

variable {K : Type} [Field K] [LinearOrder K]

namespace AugLag

/-- What solving without updates changes. -/
structure Used (s s' : St K) : Prop where
  nu : s'.nu = nextMultipliers s
  tilde : s'.nuTilde = s.nuTilde
  mu : s'.mu = s.mu
  last : s'.lastError = s.lastError

theorem Used.next {s s' : St K} (h : Used s s') : nextMultipliers s' = nextMultipliers s := by
  unfold nextMultipliers
  rw [h.tilde, h.nu]
  unfold nextMultipliers
  cases s.nuTilde <;> rfl

theorem Used.trans {s s' s'' : St K} (h : Used s s') (h' : Used s' s'') : Used s s'' :=
  ⟨h'.nu.trans h.next, h'.tilde.trans h.tilde, h'.mu.trans h.mu, h'.last.trans h.last⟩

theorem used_atSolve (s : St K) : Used s (atSolve s) := ⟨rfl, rfl, rfl, rfl⟩

theorem iteration_used (o : Opts K) (f : Solver K) (k : Nat) (s : St K) :
    (iteration o true f k s).2 = atSolve s := by
  rw [iteration_eq]
  cases f (s.nuTilde.getD s.nu) s.mu k <;> rfl

theorem iterations_used (o : Opts K) (f : Solver K) (n : Nat) : ∀ k last s,
    Used s (iterations o true f (n + 1) k last s).2 := by
  induction n with
  | zero =>
    intro k last s
    have h := iteration_used o f k s
    unfold iterations
    rcases hu : iteration o true f k s with ⟨e | r, s'⟩
    · rw [Py.bind_error hu]
      rw [hu] at h
      simp only at h
      rw [h]
      exact used_atSolve s
    · rw [Py.bind_ok hu]
      rw [hu] at h
      simp only at h
      subst h
      split
      · exact used_atSolve s
      · exact used_atSolve s
  | succ n ih =>
    intro k last s
    have h := iteration_used o f k s
    rw [iterations]
    rcases hu : iteration o true f k s with ⟨e | r, s'⟩
    · rw [Py.bind_error hu]
      rw [hu] at h
      simp only at h
      rw [h]
      exact used_atSolve s
    · rw [Py.bind_ok hu]
      rw [hu] at h
      simp only at h
      subst h
      split
      · exact used_atSolve s
      · exact (used_atSolve s).trans (ih _ _ _)

theorem callSolver_used (o : Opts K) (f : Solver K) (h : 0 < o.maxIter) (s : St K) :
    Used s (callSolver o true f s).2 := by
  obtain ⟨n, hn⟩ : ∃ n, o.maxIter = n + 1 := ⟨o.maxIter - 1, by omega⟩
  have hu := iterations_used o f n 0 none s
  unfold callSolver
  rw [hn]
  rcases hi : iterations o true f (n + 1) 0 none s with ⟨e | r, s'⟩
  · rw [Py.bind_error hi]
    rw [hi] at hu
    exact hu
  · rw [Py.bind_ok hi]
    rw [hi] at hu
    cases r <;> exact hu

theorem afterSolves_used (o : Opts K) (h : 0 < o.maxIter) (fs : List (Solver K)) (hf : fs ≠ []) :
    ∀ s : St K, Used s (afterSolves o s fs) := by
  induction fs with
  | nil => exact absurd rfl hf
  | cons f fs ih =>
    intro s
    by_cases hfs : fs = []
    · subst hfs
      exact callSolver_used o f h s
    · exact (callSolver_used o f h s).trans (ih hfs _)

/-- What an update of all multipliers does. -/
theorem update_plain (o : Opts K) (hp : PlainUpdates o) (viol : List (List (List K))) (s : St K) :
    nextMultipliers (updateParameters o viol s).2 = newNu o s.mu s.nu viol := by
  unfold nextMultipliers
  rw [updateParameters_nuTilde o viol s _ _ (computeNu_plain o viol s hp.compute hp.store hp.all)]
  rfl

/-- The new penalty of a constraint. -/
def nextPenalty (o : Opts K) (m e : K) (last : Option K) : K :=
  if o.skipUpdateMu then m
  else if o.rule = "constant" then m
  else if o.rule = "primal" then (last.map (primalEntry o m e)).getD m
  else if o.rule = "primal-dual" then m
  else min o.muMax (m * o.beta)

theorem update_rest (o : Opts K) (hp : PlainUpdates o) (viol : List (List (List K))) (s : St K) (i : Nat)
    (hi : i < o.nRelax) (hm : s.mu.length = o.nRelax)
    (hl : ∀ l, s.lastError = some l → l.length = o.nRelax) :
    (updateParameters o viol s).2.lastError = some (rowErrors o viol) ∧
      (updateParameters o viol s).2.mu[i]? = s.mu[i]?.map fun m =>
        nextPenalty o m (maxAbs (rowOf o viol i)) (s.lastError.bind (·[i]?)) := by
  have he := rowErrors_getElem o viol i hi
  have h := computeNu_plain o viol s hp.compute hp.store hp.all
  obtain ⟨m, hm'⟩ : ∃ m, s.mu[i]? = some m := ⟨_, List.getElem?_eq_getElem (by omega)⟩
  unfold updateParameters
  simp only [Py.bind_eq]
  rw [Py.bind_ok h]
  simp only [Py.get_bind]
  unfold updateMu nextPenalty
  rw [hm']
  by_cases h0 : o.skipUpdateMu = true
  · simp [h0, hm']
  · simp only [h0]
    by_cases h1 : o.rule = "constant"
    · simp [h1, hm']
    · by_cases h2 : o.rule = "primal"
      · cases hle : s.lastError with
        | none => simp [h2, Py.whenSome, hm']
        | some l =>
          obtain ⟨y, hy⟩ : ∃ y, l[i]? = some y := ⟨_, List.getElem?_eq_getElem (by rw [hl l hle]; exact hi)⟩
          simp [h2, Py.whenSome, hy, primalMu_getElem o s.mu _ l i m _ y hm' he hy]
      · by_cases h3 : o.rule = "primal-dual"
        · simp [h3, hm']
        · have h4 := ((hp.rule.resolve_left h1).resolve_left h2).resolve_left h3
          simp [h4, hm']

theorem rowOf_same {o o' : Opts K} (h : SameOptions o o') (i i' : Nat) (v v' : List (List (List K)))
    (hv : SameViolations o i i' v v') : rowOf o' v' i' = rowOf o v i := by
  unfold rowOf
  rw [h.elements, h.degree]
  apply List.flatMap_congr
  intro el hel
  apply List.map_congr_left
  intro j hj
  have := hv el (List.mem_range.mp hel) j (List.mem_range.mp hj)
  rw [violation_eq, violation_eq] at this
  rw [this]

theorem nextPenalty_same {o o' : Opts K} (h : SameOptions o o') (m e : K) (last : Option K) :
    nextPenalty o' m e last = nextPenalty o m e last := by
  have hp : primalEntry o' m e = primalEntry o m e := by
    funext l
    unfold primalEntry
    rw [h.minDecrease, h.muMax, h.beta]
  unfold nextPenalty
  rw [h.skipUpdateMu, h.rule, h.muMax, h.beta, hp]

/-- The sizes of a local method. -/
structure SizedParts (o : Opts K) (s : St K) : Prop where
  mu : s.mu.length = o.nRelax
  last : ∀ l, s.lastError = some l → l.length = o.nRelax

/-- The ends agree in everything that an update reads. -/
structure Alike (o o' : Opts K) (i i' : Nat) (s s' : St K) : Prop where
  ends : SameEnds o o' i i' s s'
  last : s.lastError.bind (·[i]?) = s'.lastError.bind (·[i']?)
  sized : SizedParts o s
  sized' : SizedParts o' s'

/-- What the update of a node does. -/
structure Updated (o : Opts K) (viol : List (List (List K))) (i : Nat) (s t : St K) : Prop where
  next : nextMultipliers t = newNu o s.mu s.nu viol
  last : t.lastError = if o.rule = "primal-dual" then s.lastError else some (rowErrors o viol)
  mu : t.mu[i]? = s.mu[i]?.map fun m =>
    nextPenalty o m (maxAbs (rowOf o viol i)) (s.lastError.bind (·[i]?))
  length : t.mu.length = s.mu.length

theorem update_length (o : Opts K) (hp : PlainUpdates o) (viol : List (List (List K))) (s : St K) :
    (updateParameters o viol s).2.mu.length = s.mu.length := by
  have key : ∀ n, Py.Always (fun t : St K => t.mu.length = n) (updateParameters o viol) := by
    intro n
    unfold updateParameters
    refine Py.Always.bind ?_ fun e => ?_
    · intro t ht
      rw [computeNu_plain o viol t hp.compute hp.store hp.all]
      exact ht
    · refine Py.Always.bind Py.Always.get fun t => ?_
      refine Py.Always.bind ?_ fun _ => ?_
      · unfold updateMu
        split
        · exact Py.Always.pure _
        split
        · exact Py.Always.pure _
        split
        · exact Py.Always.whenSome _ _ fun v _ => Py.Always.modify _ fun s hs => by
            simp [primalMu_length, hs]
        split
        · exact Py.Always.pure _
        split
        · exact Py.Always.modify _ fun s hs => by simp [hs]
        · exact Py.Always.throw _
      · exact Py.Always.bind (Py.Always.modify _ fun _ h => h) fun _ => Py.Always.pure _
  exact key _ s rfl

theorem nodeUpdate_updated (o : Opts K) (hp : PlainUpdates o) (viol : List (List (List K))) (s : St K)
    (i : Nat) (hi : i < o.nRelax) (h : SizedParts o s) :
    Updated o viol i s (nodeUpdate o viol s).2 := by
  unfold nodeUpdate
  by_cases hr : o.rule = "primal-dual"
  · rw [if_pos hr, computeNu_plain o viol s hp.compute hp.store hp.all]
    refine ⟨rfl, by rw [if_pos hr], ?_, rfl⟩
    have : (fun m => nextPenalty o m (maxAbs (rowOf o viol i)) (s.lastError.bind (·[i]?))) = id := by
      funext m
      simp [nextPenalty, hr]
    rw [this]
    simp
  · rw [if_neg hr]
    have hu := update_rest o hp viol s i hi h.mu h.last
    exact ⟨update_plain o hp viol s, by rw [if_neg hr]; exact hu.1, hu.2, update_length o hp viol s⟩

theorem withCommon_some (s : St K) (m : K) :
    withCommon s (some m) = { s with mu := s.mu.map fun _ => m } := by
  unfold withCommon setMu
  simp only [Py.bind_eq, Py.get_bind]
  split
  · next h =>
    obtain ⟨a, ha⟩ := List.length_eq_one_iff.mp h.symm
    simp [ha]
  · rfl

theorem withCommon_next (s : St K) (m : Option K) : nextMultipliers (withCommon s m) = nextMultipliers s := by
  cases m
  · rfl
  · rw [withCommon_some]; rfl

theorem withCommon_last (s : St K) (m : Option K) : (withCommon s m).lastError = s.lastError := by
  cases m
  · rfl
  · rw [withCommon_some]

theorem withCommon_mu (s : St K) (m : Option K) (i : Nat) :
    (withCommon s m).mu[i]? = s.mu[i]?.map fun x => m.getD x := by
  cases m
  · simp [withCommon]
  · rw [withCommon_some]; simp only [List.getElem?_map, Option.getD_some]

theorem withCommon_length (s : St K) (m : Option K) : (withCommon s m).mu.length = s.mu.length := by
  cases m
  · rfl
  · rw [withCommon_some]; simp

omit [Field K] [LinearOrder K] in
theorem Used.sized {o : Opts K} {s s' : St K} (h : Used s s') (hs : SizedParts o s) : SizedParts o s' :=
  ⟨by rw [h.mu]; exact hs.mu, by rw [h.last]; exact hs.last⟩

theorem afterRound_sized (o : Opts K) (hp : PlainUpdates o) (s : St K) (i : Nat) (hi : i < o.nRelax)
    (r : NodeRound K) (h : SizedParts o (afterSolves o s r.solves)) :
    SizedParts o (afterRound o s r) := by
  have hu := nodeUpdate_updated o hp r.viol _ i hi h
  refine ⟨?_, fun l hl => ?_⟩
  · unfold afterRound
    rw [withCommon_length, hu.length]
    exact h.mu
  · unfold afterRound at hl
    rw [withCommon_last, hu.last] at hl
    split at hl
    · exact h.last l hl
    · cases hl
      simp [rowErrors]

theorem afterRound_alike (o o' : Opts K) (ho : SameOptions o o') (hd : Discretised o)
    (hd' : Discretised o') (hp : PlainUpdates o) (hp' : PlainUpdates o') (hmax : 0 < o.maxIter)
    (hmax' : 0 < o'.maxIter) (i i' : Nat) (hi : i < o.nRelax) (hi' : i' < o'.nRelax) (s s' : St K)
    (h : Alike o o' i i' s s') (r r' : NodeRound K) (hr : SolvedAlike o o' i i' r r') :
    Alike o o' i i' (afterRound o s r) (afterRound o' s' r') := by
  have hu := afterSolves_used o hmax r.solves hr.solved s
  have hu' := afterSolves_used o' hmax' r'.solves hr.solved' s'
  have hs := hu.sized h.sized
  have hs' := hu'.sized h.sized'
  have hmu : (afterSolves o s r.solves).mu[i]? = (afterSolves o' s' r'.solves).mu[i']? := by
    rw [hu.mu, hu'.mu]
    exact h.ends.penalty
  have hr₁ := nodeUpdate_updated o hp r.viol _ i hi hs
  have hr₂ := nodeUpdate_updated o' hp' r'.viol _ i' hi' hs'
  have hrow := rowOf_same ho i i' r.viol r'.viol hr.same
  refine ⟨⟨fun el he j hj => ?_, ?_⟩, ?_, afterRound_sized o hp s i hi r hs,
    afterRound_sized o' hp' s' i' hi' r' hs'⟩
  · unfold afterRound
    rw [withCommon_next, withCommon_next, hr₁.next, hr₂.next]
    obtain ⟨v, m, x, h1, h2, h3, h4⟩ := firstOrderStep o hd (afterSolves o s r.solves).nu
      (afterSolves o s r.solves).mu r.viol hs.mu hr.sized el he j hj i hi
    obtain ⟨v', m', x', h1', h2', h3', h4'⟩ := firstOrderStep o' hd' (afterSolves o' s' r'.solves).nu
      (afterSolves o' s' r'.solves).mu r'.viol hs'.mu hr.sized' el
      (by rw [ho.elements]; exact he) j (by rw [ho.degree]; exact hj) i' hi'
    rw [h4, h4']
    have e1 : v = v' := by
      rw [hu.nu] at h1
      rw [hu'.nu] at h1'
      have := h.ends.multipliers el he j hj
      rw [h1, h1'] at this
      exact Option.some.inj this
    have e2 : m = m' := by
      rw [h2, h2'] at hmu
      exact Option.some.inj hmu
    have e3 : x = x' := by
      have := hr.same el he j hj
      rw [h3, h3'] at this
      exact Option.some.inj this
    rw [e1, e2, e3]
  · unfold afterRound
    rw [withCommon_mu, withCommon_mu, hr₁.mu, hr₂.mu, hmu, hu.last, hu'.last, h.last, hrow, hr.common]
    congr 2
    funext m
    exact (nextPenalty_same ho m _ _).symm
  · unfold afterRound
    rw [withCommon_last, withCommon_last, hr₁.last, hr₂.last, ho.rule]
    split
    · rw [hu.last, hu'.last]
      exact h.last
    · simp only [Option.bind_some, rowErrors_getElem o r.viol i hi, rowErrors_getElem o' r'.viol i' hi', hrow]

theorem start_zero (p : Opts K) (hdp : Discretised p) (mu0 : K) (el j k : Nat) (hk : k < p.nRelax)
    (hel : el < p.elements) (hj : j < p.degree) :
    multiplier p (nextMultipliers (AugLag.start p mu0)) el (pointTime p el j) k = some 0 := by
  unfold multiplier pointTime
  rw [nuAt_timeNu p hdp _ el j hj]
  have hlt : j * p.nRelax + k < p.nRelax * p.nuDegree := by
    rw [hdp.same]
    calc j * p.nRelax + k < j * p.nRelax + p.nRelax := by omega
      _ = (j + 1) * p.nRelax := by ring
      _ ≤ p.degree * p.nRelax := Nat.mul_le_mul_right _ hj
      _ = p.nRelax * p.degree := Nat.mul_comm _ _
  have h0 : (nextMultipliers (AugLag.start p mu0))[el]?.getD [] =
      List.replicate (p.nRelax * p.nuDegree) (0 : K) := by
    simp [nextMultipliers, AugLag.start, hel]
  rw [h0]
  simp [AugLag.entryOf, hk, hlt]

theorem start_sized (o : Opts K) (mu0 : K) : SizedParts o (AugLag.start o mu0) :=
  ⟨by simp [AugLag.start], fun l hl => by cases hl⟩

theorem start_alike (o o' : Opts K) (ho : SameOptions o o') (hd : Discretised o) (hd' : Discretised o')
    (i i' : Nat) (hi : i < o.nRelax) (hi' : i' < o'.nRelax) (mu0 : K) :
    Alike o o' i i' (AugLag.start o mu0) (AugLag.start o' mu0) := by
  refine ⟨⟨fun el he j hj => ?_, ?_⟩, rfl, start_sized o mu0, start_sized o' mu0⟩
  · rw [start_zero o hd mu0 el j i hi he hj, start_zero o' hd' mu0 el j i' hi'
      (by rw [ho.elements]; exact he) (by rw [ho.degree]; exact hj)]
  · simp [AugLag.start, hi, hi']

/-- The multipliers after an outer iteration. -/
theorem afterRound_multiplier (o : Opts K) (hd : Discretised o) (hp : PlainUpdates o) (s : St K)
    (r : NodeRound K) (h : SizedParts o (afterSolves o s r.solves)) (hv : Violations o r.viol) (i : Nat)
    (hi : i < o.nRelax) (el j : Nat) (he : el < o.elements) (hj : j < o.degree) :
    ∃ v m x, multiplier o (afterSolves o s r.solves).nu el (pointTime o el j) i = some v ∧
      (afterSolves o s r.solves).mu[i]? = some m ∧ violation r.viol el j i = some x ∧
      multiplier o (nextMultipliers (afterRound o s r)) el (pointTime o el j) i = some (v + m * x) := by
  have hr := nodeUpdate_updated o hp r.viol _ i hi h
  unfold afterRound
  rw [withCommon_next, hr.next]
  exact firstOrderStep o hd _ _ r.viol h.mu hv el he j hj i hi

end AugLag

/-- C174: in every outer iteration the two ends of a connection use the same multipliers and the same
penalty for their coupling, for all rules and all histories in which both nodes are solved in every outer
iteration and see the same coupling errors. -/
theorem C174_same (o o' : Opts K) (ho : SameOptions o o') (hd : Discretised o) (hd' : Discretised o')
    (hp : PlainUpdates o) (hp' : PlainUpdates o') (hmax : 0 < o.maxIter) (hmax' : 0 < o'.maxIter)
    (i i' : Nat) (hi : i < o.nRelax) (hi' : i' < o'.nRelax) (mu0 : K)
    (rounds : List (NodeRound K × NodeRound K)) (hr : ∀ r ∈ rounds, SolvedAlike o o' i i' r.1 r.2) :
    SameEnds o o' i i' ((rounds.map Prod.fst).foldl (afterRound o) (AugLag.start o mu0))
      ((rounds.map Prod.snd).foldl (afterRound o') (AugLag.start o' mu0)) := by
  have key : ∀ (rounds : List (NodeRound K × NodeRound K)) (s s' : St K), Alike o o' i i' s s' →
      (∀ r ∈ rounds, SolvedAlike o o' i i' r.1 r.2) →
      Alike o o' i i' ((rounds.map Prod.fst).foldl (afterRound o) s)
        ((rounds.map Prod.snd).foldl (afterRound o') s') := by
    intro rounds
    induction rounds with
    | nil => exact fun s s' h _ => h
    | cons r rounds ih =>
      intro s s' h hr
      exact ih _ _ (afterRound_alike o o' ho hd hd' hp hp' hmax hmax' i i' hi hi' s s' h r.1 r.2
        (hr r (by simp))) fun q hq => hr q (by simp [hq])
  exact (key rounds _ _ (start_alike o o' ho hd hd' i i' hi hi' mu0) hr).ends

namespace Example

/-- A node with two relaxed constraints, the second of which is the coupling with `endOpts'`. -/
def endOpts : Opts Rat := { alOpts with rule := "primal" }

/-- A node with one relaxed constraint. -/
def endOpts' : Opts Rat := { alOpts with rule := "primal", nRelax := 1 }

def endViol' : List (List (List Rat)) := List.replicate 2 (List.replicate 3 [1 / 2])

def endSolver : Solver Rat := fun _ _ _ => .ok alViol

def endRound : NodeRound Rat := { solves := [endSolver, endSolver], viol := alViol }

def endRound' : NodeRound Rat := { solves := [endSolver], viol := endViol' }

theorem end_discretised : Discretised endOpts where
  same := rfl
  points := by decide
  distinct := by decide +kernel
  positive := by decide
  length := by decide +kernel

theorem end_discretised' : Discretised endOpts' where
  same := rfl
  points := by decide
  distinct := by decide +kernel
  positive := by decide
  length := by decide +kernel

theorem end_options : SameOptions endOpts endOpts' := ⟨rfl, rfl, rfl, rfl, rfl, rfl, rfl, rfl, rfl, rfl, rfl⟩

theorem end_viol : Violations endOpts alViol := by
  intro el he j hj
  simp only [endOpts, alOpts] at he hj
  exact ⟨List.replicate 3 [1, 1 / 2], [1, 1 / 2], List.getElem?_replicate_of_lt he,
    List.getElem?_replicate_of_lt hj, rfl⟩

theorem end_viol' : Violations endOpts' endViol' := by
  intro el he j hj
  simp only [endOpts', alOpts] at he hj
  exact ⟨List.replicate 3 [1 / 2], [1 / 2], List.getElem?_replicate_of_lt he,
    List.getElem?_replicate_of_lt hj, rfl⟩

theorem end_same : SameViolations endOpts 1 0 alViol endViol' := by
  intro el he j hj
  simp only [endOpts, alOpts] at he hj
  unfold violation alViol endViol'
  rw [List.getElem?_replicate_of_lt he, List.getElem?_replicate_of_lt he]
  simp only [Option.bind_some]
  rw [List.getElem?_replicate_of_lt hj, List.getElem?_replicate_of_lt hj]
  rfl

theorem end_alike : SolvedAlike endOpts endOpts' 1 0 endRound endRound' :=
  ⟨by simp [endRound], by simp [endRound'], end_viol, end_viol', end_same, rfl⟩

/-- Three outer iterations: all hypotheses of `C174_same` hold, and the multiplier is not zero. -/
example : SameEnds endOpts endOpts' 1 0
    ([endRound, endRound, endRound].foldl (afterRound endOpts) (AugLag.start endOpts 1))
    ([endRound', endRound', endRound'].foldl (afterRound endOpts') (AugLag.start endOpts' 1)) :=
  C174_same endOpts endOpts' end_options end_discretised end_discretised'
    ⟨rfl, rfl, rfl, .inr (.inl rfl)⟩ ⟨rfl, rfl, rfl, .inr (.inl rfl)⟩ (by decide) (by decide) 1 0 (by decide)
    (by decide) 1 [(endRound, endRound'), (endRound, endRound'), (endRound, endRound')]
    (by intro r hr; simp only [List.mem_cons, List.not_mem_nil, or_false, or_self] at hr; subst hr; exact end_alike)

/-- The second node is not solved in the second outer iteration. -/
example : ¬ SameEnds endOpts endOpts' 1 0
    (afterRound endOpts (afterRound endOpts (AugLag.start endOpts 1) endRound) endRound)
    (afterRound endOpts' (afterRound endOpts' (AugLag.start endOpts' 1) endRound')
      { endRound' with solves := [] }) := by
  intro h
  have := h.multipliers 0 (by decide) 0 (by decide)
  revert this
  decide +kernel

end Example

/-- C174: false when one of the nodes is not solved in an outer iteration, as can happen with the blocks
chosen at random: its update starts from the multipliers of its last solve and drops the step before. -/
theorem C174_unsolved_fails (o o' : Opts K) (ho : SameOptions o o') (hd : Discretised o)
    (hd' : Discretised o') (hp : PlainUpdates o) (hp' : PlainUpdates o') (hmax : 0 < o.maxIter)
    (hmax' : 0 < o'.maxIter) (i i' : Nat) (hi : i < o.nRelax) (hi' : i' < o'.nRelax) (mu0 : K)
    (r r' q q' : NodeRound K) (hr : SolvedAlike o o' i i' r r') (hq : q.solves ≠ [])
    (hq' : q'.solves = []) (hv : Violations o q.viol) (hv' : Violations o' q'.viol)
    (hsame : SameViolations o i i' q.viol q'.viol) (el j : Nat) (he : el < o.elements)
    (hj : j < o.degree) (x : K) (hx : violation r.viol el j i = some x) (hne : mu0 * x ≠ 0) :
    ¬ SameEnds o o' i i' (afterRound o (afterRound o (AugLag.start o mu0) r) q)
      (afterRound o' (afterRound o' (AugLag.start o' mu0) r') q') := by
  intro hends
  have he' : el < o'.elements := by rw [ho.elements]; exact he
  have hj' : j < o'.degree := by rw [ho.degree]; exact hj
  have hal := afterRound_alike o o' ho hd hd' hp hp' hmax hmax' i i' hi hi' _ _
    (start_alike o o' ho hd hd' i i' hi hi' mu0) r r' hr
  have hu := afterSolves_used o hmax r.solves hr.solved (AugLag.start o mu0)
  have hu' := afterSolves_used o' hmax' r'.solves hr.solved' (AugLag.start o' mu0)
  obtain ⟨v, m, y, h1, h2, h3, h4⟩ := afterRound_multiplier o hd hp (AugLag.start o mu0) r
    (hu.sized (start_sized o mu0)) hr.sized i hi el j he hj
  have hv0 : v = 0 := by
    rw [hu.nu, start_zero o hd mu0 el j i hi he hj] at h1
    exact (Option.some.inj h1).symm
  have hm0 : m = mu0 := by
    rw [hu.mu] at h2
    simp [AugLag.start, hi] at h2
    exact h2.symm
  have hy : y = x := by
    rw [h3] at hx
    exact Option.some.inj hx
  subst hv0 hm0 hy
  have hq₁ := afterSolves_used o hmax q.solves hq (afterRound o (AugLag.start o m) r)
  obtain ⟨v₂, m₂, x₂, k1, k2, k3, k4⟩ := afterRound_multiplier o hd hp (afterRound o (AugLag.start o m) r) q
    (hq₁.sized hal.sized) hv i hi el j he hj
  have hkeep : afterSolves o' (afterRound o' (AugLag.start o' m) r') q'.solves =
      afterRound o' (AugLag.start o' m) r' := by rw [hq']; rfl
  obtain ⟨v₃, m₃, x₃, l1, l2, l3, l4⟩ := afterRound_multiplier o' hd' hp' (afterRound o' (AugLag.start o' m) r')
    q' (by rw [hkeep]; exact hal.sized') hv' i' hi' el j he' hj'
  rw [hkeep] at l1 l2
  have hv₂ : v₂ = m * y := by
    rw [hq₁.nu, h4, zero_add] at k1
    exact (Option.some.inj k1).symm
  have hm : m₂ = m₃ := by
    rw [hq₁.mu, hal.ends.penalty, l2] at k2
    exact (Option.some.inj k2).symm
  have hxx : x₂ = x₃ := by
    have := hsame el he j hj
    rw [k3, l3] at this
    exact Option.some.inj this
  have hv₃ : v₃ = 0 := by
    have hn : (afterRound o' (AugLag.start o' m) r').nu = (afterSolves o' (AugLag.start o' m) r'.solves).nu := by
      unfold afterRound nodeUpdate
      have hc := computeNu_plain o' r'.viol (afterSolves o' (AugLag.start o' m) r'.solves) hp'.compute
        hp'.store hp'.all
      have hk : ∀ t : St K, (withCommon t r'.common).nu = t.nu := by
        intro t
        cases r'.common
        · rfl
        · rw [withCommon_some]
      rw [hk]
      split
      · rw [hc]
      · exact (updateParameters_keeps o' r'.viol _).1
    rw [hn, hu'.nu, start_zero o' hd' m el j i' hi' he' hj'] at l1
    exact (Option.some.inj l1).symm
  have := hends.multipliers el he j hj
  rw [k4, l4, hv₂, hv₃, hm, hxx, zero_add, Option.some.injEq] at this
  exact hne (by simpa using this)

/-- C174: false when one of the nodes is not updated, because none of its solves succeeded: it is not among
the results, while its neighbour makes a step. -/
theorem C174_unupdated_fails (o o' : Opts K) (ho : SameOptions o o') (hd : Discretised o)
    (hd' : Discretised o') (hp : PlainUpdates o) (hmax : 0 < o.maxIter) (hmax' : 0 < o'.maxIter)
    (i i' : Nat) (hi : i < o.nRelax) (hi' : i' < o'.nRelax) (mu0 : K) (r : NodeRound K)
    (hr : r.solves ≠ []) (hv : Violations o r.viol) (solves : List (Solver K)) (hs : solves ≠ [])
    (el j : Nat) (he : el < o.elements) (hj : j < o.degree) (x : K)
    (hx : violation r.viol el j i = some x) (hne : mu0 * x ≠ 0) :
    ¬ SameEnds o o' i i' (afterRound o (AugLag.start o mu0) r)
      (afterSolves o' (AugLag.start o' mu0) solves) := by
  intro hends
  have hu := afterSolves_used o hmax r.solves hr (AugLag.start o mu0)
  have hu' := afterSolves_used o' hmax' solves hs (AugLag.start o' mu0)
  obtain ⟨v, m, y, h1, h2, h3, h4⟩ := afterRound_multiplier o hd hp (AugLag.start o mu0) r
    (hu.sized (start_sized o mu0)) hv i hi el j he hj
  have hv0 : v = 0 := by
    rw [hu.nu, start_zero o hd mu0 el j i hi he hj] at h1
    exact (Option.some.inj h1).symm
  have hm0 : m = mu0 := by
    rw [hu.mu] at h2
    simp [AugLag.start, hi] at h2
    exact h2.symm
  have hy : y = x := by
    rw [h3] at hx
    exact Option.some.inj hx
  have := hends.multipliers el he j hj
  rw [h4, hu'.next, start_zero o' hd' mu0 el j i' hi' (by rw [ho.elements]; exact he)
    (by rw [ho.degree]; exact hj), Option.some.injEq, hv0, hm0, hy, zero_add] at this
  exact hne this

end Verif
