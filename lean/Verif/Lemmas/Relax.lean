import Verif.Spec.Relax
import Verif.Lemmas.Ocp
import Verif.Lemmas.Expr
import Mathlib.Data.List.Nodup
import Mathlib.Tactic.Ring
import Mathlib.Tactic.FieldSimp
/-! Lemmas about the relaxations. -/
namespace Verif

open Spec

theorem gather_positions {α : Type} (l : List α) (ind : List Nat) (h : ∀ i ∈ ind, i < l.length) :
    gather l ind = .ok (entriesAt l ind) := by
  unfold gather entriesAt
  rw [if_pos]
  rw [List.all_eq_true]
  exact fun i hi => decide_eq_true (h i hi)

theorem entriesAt_length {α : Type} (l : List α) (ind : List Nat) (h : ∀ i ∈ ind, i < l.length) :
    (entriesAt l ind).length = ind.length := by
  unfold entriesAt
  induction ind with
  | nil => rfl
  | cons i is ih =>
    have hi := h i (by simp)
    simp only [List.filterMap_cons, List.getElem?_eq_getElem hi, List.length_cons]
    rw [ih fun j hj => h j (by simp [hj])]

theorem mem_entriesAt {α : Type} {l : List α} {ind : List Nat} {a : α} :
    a ∈ entriesAt l ind ↔ ∃ i ∈ ind, l[i]? = some a := by
  simp [entriesAt]

theorem otherEntries_eq {α : Type} (l : List α) (ind : List Nat) :
    otherEntries l ind = keepUnlisted (ind.map Int.ofNat) l := by
  rw [keepUnlisted_eq_range]
  unfold otherEntries
  congr 1
  apply List.filter_congr
  intro i _
  simp

theorem filter_range_get {α : Type} (l : List α) (p : α → Bool) (q : Nat → Bool)
    (h : ∀ (i : Nat) (a : α), l[i]? = some a → p a = q i) :
    l.filter p = ((List.range l.length).filter q).filterMap fun i => l[i]? := by
  rw [List.filterMap_filter]
  have e := zipIdx_filterMap_eq_range (fun a i => if q i then some a else none) l
  have e2 : ((List.range l.length).filterMap fun i => (l[i]?).bind fun a =>
      if q i then some a else none) =
      (List.range l.length).filterMap fun i => if q i = true then l[i]? else none := by
    apply List.filterMap_congr
    intro i _
    cases l[i]? <;> simp
  rw [← e2, ← e]
  have : l.filter p = (l.zipIdx.filterMap fun pi => if p pi.1 then some pi.1 else none) := by
    have hz : l = l.zipIdx.map Prod.fst := by simp
    conv_lhs => rw [hz]
    rw [List.filter_map, ← List.filterMap_eq_map, List.filterMap_filter]
    rfl
  rw [this]
  apply List.filterMap_congr
  rintro ⟨a, i⟩ hm
  rw [h i a (List.mem_zipIdx_iff_getElem?.1 hm)]

theorem nodup_get_inj {α : Type} {l : List α} (h : l.Nodup) {i j : Nat} {a : α}
    (hi : l[i]? = some a) (hj : l[j]? = some a) : i = j := by
  obtain ⟨hi', hi⟩ := List.getElem?_eq_some_iff.1 hi
  obtain ⟨hj', hj⟩ := List.getElem?_eq_some_iff.1 hj
  exact (List.Nodup.getElem_inj_iff h).1 (hi.trans hj.symm)

theorem filter_entriesAt {α : Type} [DecidableEq α] (l : List α) (ind : List Nat) (h : l.Nodup) :
    (l.filter fun a => decide (a ∉ entriesAt l ind)) = otherEntries l ind := by
  apply filter_range_get
  intro i a ha
  congr 1
  rw [mem_entriesAt, eq_iff_iff, not_iff_not]
  constructor
  · rintro ⟨j, hj, hja⟩
    exact nodup_get_inj h ha hja ▸ hj
  · exact fun hi => ⟨i, hi, ha⟩

theorem kept_entriesAt {α : Type} (vars : List Sym) (b : List α) (ind : List Nat) (h : vars.Nodup)
    (hb : b.length = vars.length) :
    Ocp.kept (entriesAt vars ind) vars b = otherEntries b ind := by
  unfold Ocp.kept
  rw [filter_range_get _ _ (fun i => decide (i ∉ ind))]
  · unfold otherEntries
    rw [List.map_filterMap, List.length_zip, hb, Nat.min_self]
    apply List.filterMap_congr
    intro i hi
    have hi : i < vars.length := by simp at hi; exact hi.1
    have hi' : i < b.length := by omega
    simp [hi, hi']
  · rintro i ⟨a, c⟩ hz
    have ha : vars[i]? = some a := by
      rw [List.getElem?_zip_eq_some] at hz
      exact hz.1
    congr 1
    rw [mem_entriesAt, eq_iff_iff, not_iff_not]
    constructor
    · rintro ⟨j, hj, hja⟩
      exact nodup_get_inj h ha hja ▸ hj
    · exact fun hi => ⟨i, hi, ha⟩

theorem otherEntries_length {α : Type} (l : List α) (ind : List Nat) (h : Positions l ind) :
    (otherEntries l ind).length = l.length - ind.length := by
  unfold otherEntries
  have : ∀ is : List Nat, (∀ i ∈ is, i < l.length) → (is.filterMap fun i => l[i]?).length = is.length :=
    fun is hi => entriesAt_length l is hi
  rw [this _ (by intro i hi; simp at hi; exact hi.1)]
  have h₁ := List.length_eq_length_filter_add (l := List.range l.length) (fun i => decide (i ∉ ind))
  have h₂ : ((List.range l.length).filter fun i => !decide (i ∉ ind)).length = ind.length := by
    apply List.Perm.length_eq
    rw [List.perm_ext_iff_of_nodup (List.Nodup.filter _ List.nodup_range) h.1]
    intro i
    simp only [List.mem_filter, List.mem_range, decide_not, Bool.not_not, decide_eq_true_eq]
    exact ⟨fun hi => hi.2, fun hi => ⟨h.2 i hi, hi⟩⟩
  rw [List.length_range] at h₁
  omega

theorem otherEntries_congr {α : Type} (l : List α) (a b : List Nat) (h : ∀ i, i ∈ a ↔ i ∈ b) :
    otherEntries l a = otherEntries l b := by
  unfold otherEntries
  congr 1
  apply List.filter_congr
  intro i _
  simp [h i]

theorem keepFrom {α : Type} (l : List α) (n : Nat) (js : List Int) (h : ∀ j ∈ js, j < (n : Int)) :
    ((l.zipIdx n).filterMap fun p => if js.contains (p.2 : Int) then none else some p.1) = l := by
  induction l generalizing n with
  | nil => rfl
  | cons a l ih =>
    have : (n : Int) ∉ js := fun hn => absurd (h _ hn) (by omega)
    simp only [List.zipIdx_cons, List.filterMap_cons, List.contains_iff_mem, this, if_false]
    have e := ih (n + 1) (fun j hj => by have := h j hj; omega)
    simp only [List.contains_iff_mem] at e
    rw [e]

theorem keepUnlisted_eraseIdx {α : Type} (l : List α) (d : Nat) (js : List Int)
    (hd : d < l.length) (h : ∀ j ∈ js, j < (d : Int)) :
    keepUnlisted ((d : Int) :: js) l = keepUnlisted js (l.eraseIdx d) := by
  have hl : l = l.take d ++ l[d] :: l.drop (d + 1) := by simp
  have ht : (l.take d).length = d := by simp; omega
  rw [List.eraseIdx_eq_take_drop_succ]
  conv_lhs => rw [hl]
  unfold keepUnlisted
  simp only [List.zipIdx_append, List.filterMap_append, ht, List.zipIdx_cons, List.filterMap_cons,
    Nat.zero_add]
  simp only [List.contains_cons, beq_self_eq_true, Bool.true_or, if_true]
  congr 1
  · apply List.filterMap_congr
    rintro ⟨a, i⟩ hm
    have hi : i < d := by
      have := (List.mem_zipIdx hm).2.1
      simp at this; omega
    have : ((i : Int) == (d : Int)) = false := by simp; omega
    rw [this, Bool.false_or]
  · rw [keepFrom _ d js h]
    have := keepFrom (l.drop (d + 1)) (d + 1) ((d : Int) :: js) (by
      intro j hj
      rcases List.mem_cons.1 hj with rfl | hj
      · omega
      · have := h j hj; omega)
    simp only [List.contains_cons] at this
    exact this

/-! ### The cost -/

section
variable {K : Type} [Field K] (ops : Expr.Ops K) (ρ : Sym → K)

theorem eval_foldl_add (l : List Expr) (e : Expr) :
    (l.foldl Expr.add e).eval ops ρ = e.eval ops ρ + (l.map (Expr.eval ops ρ)).sum := by
  induction l generalizing e with
  | nil => simp
  | cons a l ih => simp [ih, Expr.eval, add_assoc]

theorem eval_dotExpr (a b : List Expr) : (Relax.dotExpr a b).eval ops ρ =
    ((a.zip b).map fun p => p.1.eval ops ρ * p.2.eval ops ρ).sum := by
  unfold Relax.dotExpr
  rw [eval_foldl_add, List.map_zipWith, ← List.map_uncurry_zip_eq_zipWith]
  simp [Expr.eval, Function.uncurry_def]

theorem eval_penalty [CharZero K] (nu mu : List Sym) (r : List Expr) (hn : nu.length = r.length)
    (hm : mu.length = r.length) : (Relax.penalty nu mu r).eval ops ρ =
      augmentedTerms (nu.map ρ) (mu.map ρ) (r.map (Expr.eval ops ρ)) := by
  unfold Relax.penalty augmentedTerms
  simp only [Expr.eval, eval_dotExpr]
  induction r generalizing nu mu with
  | nil =>
    obtain rfl := List.length_eq_zero_iff.1 hn
    obtain rfl := List.length_eq_zero_iff.1 hm
    simp
  | cons e r ih =>
    cases nu with
    | nil => simp at hn
    | cons n nu =>
      cases mu with
      | nil => simp at hm
      | cons m mu =>
        have := ih nu mu (by simpa using hn) (by simpa using hm)
        simp only [List.map_cons, List.zip_cons_cons, List.zipWith_cons_cons, List.sum_cons,
          Expr.eval] at this ⊢
        rw [← this]
        push_cast
        ring

theorem augmentedTerms_append (nu mu r nu' mu' r' : List K) (hn : nu.length = r.length)
    (hm : mu.length = r.length) : augmentedTerms (nu ++ nu') (mu ++ mu') (r ++ r') =
      augmentedTerms nu mu r + augmentedTerms nu' mu' r' := by
  unfold augmentedTerms
  rw [List.zip_append hm, List.zip_append (by rw [List.length_zip]; omega)]
  simp

end

namespace Relax

theorem onProblem_run {α : Type} {c : Py Ocp α} {s : Relax} {a : α} {o : Ocp}
    (h : c s.problem = (.ok a, o)) : onProblem c s = (.ok a, { s with problem := o }) := by
  unfold onProblem; rw [h]

theorem onProblem_error {α : Type} {c : Py Ocp α} {s : Relax} {e : Err} {o : Ocp}
    (h : c s.problem = (.error e, o)) : onProblem c s = (.error e, { s with problem := o }) := by
  unfold onProblem; rw [h]

/-- The state after the terms of some constraints have been included. -/
def included (mu0 : Rat) (r : List Expr) (s : Relax) : Relax :=
  { s with
    nRelax := s.nRelax + r.length
    nuSym := s.nuSym ++ (List.range r.length).map (s.next + ·)
    muSym := s.muSym ++ (List.range r.length).map (s.next + r.length + ·)
    mu := s.mu ++ List.replicate r.length mu0
    next := s.next + r.length + r.length
    problem := { s.problem with
      L := .add s.problem.L (penalty ((List.range r.length).map (s.next + ·))
        ((List.range r.length).map (s.next + r.length + ·)) r)
      model := { s.problem.model with
        p := s.problem.model.p ++ (List.range r.length).map (s.next + r.length + ·) } } }

theorem includeInObjective_run (mu0 : Rat) (r : List Expr) (s : Relax) :
    includeInObjective mu0 r s = (.ok (), included mu0 r s) := rfl

/-- What is not touched by the relaxation of algebraic equations. -/
structure Untouched (o o' : Ocp) : Prop where
  horizon : o'.t0 = o.t0 ∧ o'.tf = o.tf
  clock : o'.model.t = o.model.t ∧ o'.model.tau = o.model.tau
  starts : o'.model.x0 = o.model.x0
  eta : o'.eta = o.eta
  pOpt : o'.pOpt = o.pOpt ∧ o'.pOptMin = o.pOptMin ∧ o'.pOptMax = o.pOptMax
  thetaOpt : o'.thetaOpt = o.thetaOpt ∧ o'.thetaOptMin = o.thetaOptMin ∧ o'.thetaOptMax = o.thetaOptMax
  lastU : o'.lastU = o.lastU
  positive : o'.positiveObjective = o.positiveObjective

/-- What the relaxation of algebraic equations leaves of the object. -/
structure AfterAlgebraic (mu0 : Rat) (idx vidx : List Nat) (s s' : Relax) : Prop where
  relaxed : AlgebraicRelaxed s.problem s'.problem idx vidx
  nuSym : s'.nuSym = (included mu0 (entriesAt s.problem.model.alg idx) s).nuSym
  muSym : s'.muSym = (included mu0 (entriesAt s.problem.model.alg idx) s).muSym
  mu : s'.mu = (included mu0 (entriesAt s.problem.model.alg idx) s).mu
  nRelax : s'.nRelax = (included mu0 (entriesAt s.problem.model.alg idx) s).nRelax
  next : s'.next = (included mu0 (entriesAt s.problem.model.alg idx) s).next
  p : s'.problem.model.p = (included mu0 (entriesAt s.problem.model.alg idx) s).problem.model.p
  L : s'.problem.L = (included mu0 (entriesAt s.problem.model.alg idx) s).problem.L
  relaxedAlg : s'.relaxedAlg = s.relaxedAlg ++ entriesAt s.problem.model.alg idx
  relaxedEq : s'.relaxedEq = s.relaxedEq
  sized : Sized s'.problem
  uGuess : s'.problem.uGuess = Ocp.controlGuess s.problem.model.u.length s.problem.uGuess
    (s.problem.yGuess.map fun g => entriesAt g idx)
  yGuess : s'.problem.yGuess = s.problem.yGuess.map fun g => otherEntries g vidx
  nuPar : s'.nuPar = s.nuPar
  theta : s'.problem.model.theta = s.problem.model.theta
  untouched : Untouched s.problem s'.problem

theorem modelRemove_run (m : SysModel) (idx vidx : List Nat) (hy : m.y.Nodup) (ha : m.alg.Nodup)
    (hi : idx ≠ []) (hil : ∀ i ∈ idx, i < m.alg.length) (hv : vidx ≠ [])
    (hvl : ∀ i ∈ vidx, i < m.y.length) :
    SysModel.removeAlgebraic (entriesAt m.y vidx) (some (entriesAt m.alg idx)) m =
      (.ok (), { m with y := otherEntries m.y vidx, alg := otherEntries m.alg idx }) := by
  have ex : ∀ {α : Type} (l : List α) (ind : List Nat), ind ≠ [] → (∀ i ∈ ind, i < l.length) →
      ∃ v ∈ entriesAt l ind, v ∈ l := by
    intro α l ind h hl
    obtain ⟨i, is, rfl⟩ := List.exists_cons_of_ne_nil h
    have hi := hl i (by simp)
    exact ⟨l[i], mem_entriesAt.2 ⟨i, by simp, List.getElem?_eq_getElem hi⟩, List.getElem_mem hi⟩
  unfold SysModel.removeAlgebraic
  simp only [Py.bind_eq, Py.get_bind, removeVars_eq, if_pos (ex _ _ hv hvl),
    if_pos (ex _ _ hi hil), Py.lift_ok_bind, Py.modify_bind, Py.modify_apply,
    filter_entriesAt _ _ hy, filter_entriesAt _ _ ha]

theorem modelRemove_run' (Y : List Sym) (A : List Expr) (m : SysModel) (idx vidx : List Nat)
    (eY : m.y = Y) (eA : m.alg = A) (hy : Y.Nodup) (ha : A.Nodup)
    (hi : idx ≠ []) (hil : ∀ i ∈ idx, i < A.length) (hv : vidx ≠ [])
    (hvl : ∀ i ∈ vidx, i < Y.length) :
    SysModel.removeAlgebraic (entriesAt Y vidx) (some (entriesAt A idx)) m =
      (.ok (), { m with y := otherEntries Y vidx, alg := otherEntries A idx }) := by
  subst eY; subst eA
  exact modelRemove_run m idx vidx hy ha hi hil hv hvl

theorem relaxAlgebraic_run (mu0 : Rat) (idx vidx : List Nat) (s : Relax)
    (h : Relaxable s.problem idx vidx) : ∃ s', relaxAlgebraic mu0 idx vidx s = (.ok (), s') ∧
      AfterAlgebraic mu0 idx vidx s s' := by
  have hvl : ∀ i ∈ vidx, i < s.problem.yMax.length := by
    intro i hi; rw [h.sized.yMax]; exact h.chosen.2 i hi
  have hvl' : ∀ i ∈ vidx, i < s.problem.yMin.length := by
    intro i hi; rw [h.sized.yMin]; exact h.chosen.2 i hi
  have hlen : ∀ {α : Type} (l : List α), (∀ i ∈ vidx, i < l.length) →
      (entriesAt l vidx).length = (entriesAt s.problem.model.y vidx).length := by
    intro α l hl
    rw [entriesAt_length _ _ hl, entriesAt_length _ _ h.chosen.2]
  have hcb : ∀ (d : XRat) (l : List XRat) , (∀ i ∈ vidx, i < l.length) →
      Ocp.controlBound d (entriesAt s.problem.model.y vidx).length (some (entriesAt l vidx)) =
        entriesAt l vidx := by
    intro d l hl
    unfold Ocp.controlBound
    have := hlen l hl
    rw [← this]
    simp only [Option.getD_some]
    unfold Ocp.broadcast
    split
    · rename_i e; rw [e]; simp
    · rfl
  have hcd : ∀ (d : XRat) (n : Nat), Ocp.controlBound d n none = List.replicate n d := by
    intro d n
    unfold Ocp.controlBound Ocp.broadcast
    simp only [Option.getD_none]
    split
    · rename_i a e
      have h₁ : n = 1 := by
        have := congrArg List.length e
        simpa using this
      subst h₁
      simpa using e.symm
    · rfl
  have hv : vidx ≠ [] := by
    intro e
    have := h.same
    rw [e, List.length_nil, List.length_eq_zero_iff] at this
    exact h.nonempty this
  -- the guess
  have hg : relaxedGuess idx s.problem.yGuess = .ok (s.problem.yGuess.map fun g => entriesAt g idx) := by
    unfold relaxedGuess
    cases hy : s.problem.yGuess with
    | none => rfl
    | some g =>
      have := h.guessSize g hy
      simp only [Option.map_some]
      rw [gather_positions]
      · rfl
      · intro i hi
        rw [this, ← h.square]; exact h.equations.2 i hi
  unfold relaxAlgebraic
  simp only [Py.bind_eq, Py.get_bind, gather_positions _ _ h.equations.2, Py.lift_ok_bind,
    Py.modify_bind]
  rw [Py.bind_ok (includeInObjective_run ..)]
  simp only [hg, gather_positions _ _ h.chosen.2, gather_positions _ _ hvl,
    gather_positions _ _ hvl', Py.lift_ok_bind]
  -- the new controls
  have hc := (Ocp.includeControl_ok_iff (var := entriesAt s.problem.model.y vidx)
    (lo := some (entriesAt s.problem.yMin vidx)) (hi := some (entriesAt s.problem.yMax vidx))
    (dlo := none) (dhi := none) (g := s.problem.yGuess.map fun g => entriesAt g idx)
    (o := (included mu0 (entriesAt s.problem.model.alg idx)
      { s with relaxedAlg := s.relaxedAlg ++ entriesAt s.problem.model.alg idx }).problem)
    (o' := _)).mpr ⟨?_, ?_, ?_, ?_, ?_, ?_, rfl⟩
  rotate_left
  · have := h.guesses
    simp only [included]
    cases hu : s.problem.uGuess <;> cases hy : s.problem.yGuess <;> simp_all
  · rw [hcb _ _ hvl', hlen _ hvl']
  · rw [hcb _ _ hvl, hlen _ hvl]
  · rw [hcd]; simp
  · rw [hcd]; simp
  · cases hy : s.problem.yGuess with
    | none => rfl
    | some g =>
      have hgs := h.guessSize g hy
      simp only [Option.map_some, Option.any_some, decide_eq_false_iff_not, not_not, ne_eq]
      rw [entriesAt_length _ _ h.chosen.2, entriesAt_length _ _ (by
        intro i hi; rw [hgs, ← h.square]; exact h.equations.2 i hi), h.same]
  rw [Py.bind_ok (onProblem_run hc)]
  -- the removal
  have hrg : Ocp.removeGuess (((findIndices (entriesAt s.problem.model.y vidx)
      s.problem.model.y).map Int.ofNat).reverse) s.problem.yGuess =
      .ok (s.problem.yGuess.map fun g => otherEntries g vidx) := by
    cases hy : s.problem.yGuess with
    | none => rfl
    | some g =>
      have hgs := h.guessSize g hy
      simp only [Ocp.removeGuess, removeByIndices_reverse, removeByIndices_find _ _ _ hgs,
        Option.map_some]
      have := kept_entriesAt s.problem.model.y g vidx h.distinctVariables hgs
      unfold Ocp.kept at this
      rw [this]
      rfl
  refine ⟨_, onProblem_run ((Ocp.removeAlgebraic_ok_iff ?_ ?_).mpr ⟨_, _, hrg,
    modelRemove_run' _ _ _ idx vidx rfl rfl h.distinctVariables h.distinctEquations h.nonempty h.equations.2 hv
      h.chosen.2, rfl⟩), ?_⟩
  · exact h.sized.yMax
  · exact h.sized.yMin
  have k₁ := kept_entriesAt s.problem.model.y s.problem.yMax vidx h.distinctVariables h.sized.yMax
  have k₂ := kept_entriesAt s.problem.model.y s.problem.yMin vidx h.distinctVariables h.sized.yMin
  have p₁ : Positions s.problem.yMax vidx := ⟨h.chosen.1, hvl⟩
  have p₂ : Positions s.problem.yMin vidx := ⟨h.chosen.1, hvl'⟩
  simp only [hcb _ _ hvl, hcb _ _ hvl', hcd]
  refine ⟨⟨rfl, rfl, rfl, rfl, k₂, k₁, rfl, rfl, rfl, rfl, rfl, rfl, rfl, rfl, rfl, rfl, rfl, rfl, rfl,
    rfl, rfl, rfl, rfl⟩, rfl, rfl, rfl, rfl, rfl,
    rfl, rfl, rfl, rfl, ?_, rfl, rfl, rfl, rfl, ⟨⟨rfl, rfl⟩, ⟨rfl, rfl⟩, rfl, rfl, ⟨rfl, rfl, rfl⟩,
      ⟨rfl, rfl, rfl⟩, rfl, rfl⟩⟩
  refine ⟨h.sized.x0, h.sized.xMax, h.sized.xMin, ?_, ?_, ?_, ?_, ?_, ?_, h.sized.pOptMax,
    h.sized.pOptMin, h.sized.thetaOptMax, h.sized.thetaOptMin⟩
  · simp only [included]
    rw [k₁, otherEntries_length _ _ p₁, otherEntries_length _ _ h.chosen, h.sized.yMax]
  · simp only [included]
    rw [k₂, otherEntries_length _ _ p₂, otherEntries_length _ _ h.chosen, h.sized.yMin]
  · simp [included, h.sized.uMax, hlen _ hvl]
  · simp [included, h.sized.uMin, hlen _ hvl']
  · simp [included, h.sized.duMax]
  · simp [included, h.sized.duMin]

theorem relaxAlgebraic_guess (mu0 : Rat) (idx vidx : List Nat) (s : Relax) (g : List Rat)
    (hs : Sized s.problem) (hp : ∀ i ∈ idx, i < s.problem.model.alg.length)
    (hv : ∀ i ∈ vidx, i < s.problem.model.y.length) (hu : s.problem.uGuess = some g)
    (hy : s.problem.yGuess = none) : relaxAlgebraic mu0 idx vidx s =
      (.error .valueError, included mu0 (entriesAt s.problem.model.alg idx)
        { s with relaxedAlg := s.relaxedAlg ++ entriesAt s.problem.model.alg idx }) := by
  have hvl : ∀ i ∈ vidx, i < s.problem.yMax.length := by
    intro i hi; rw [hs.yMax]; exact hv i hi
  have hvl' : ∀ i ∈ vidx, i < s.problem.yMin.length := by
    intro i hi; rw [hs.yMin]; exact hv i hi
  unfold relaxAlgebraic
  simp only [Py.bind_eq, Py.get_bind, gather_positions _ _ hp, Py.lift_ok_bind, Py.modify_bind]
  rw [Py.bind_ok (includeInObjective_run ..)]
  simp only [hy, relaxedGuess, gather_positions _ _ hv, gather_positions _ _ hvl,
    gather_positions _ _ hvl', Py.lift_ok_bind]
  apply Py.bind_error
  generalize hs₁ : included mu0 (entriesAt s.problem.model.alg idx)
    { s with relaxedAlg := s.relaxedAlg ++ entriesAt s.problem.model.alg idx } = s₁
  have hu₁ : s₁.problem.uGuess = some g := by rw [← hs₁]; exact hu
  refine (onProblem_error (e := .valueError) (o := s₁.problem) ?_).trans rfl
  unfold Ocp.includeControl
  simp only [Py.bind_eq, Py.get_bind, hu₁]
  rfl

theorem popTags_run (ds : List Nat) (s : Relax) (hd : ds.Pairwise (· > ·))
    (hl : ∀ d ∈ ds, d < s.problem.timeGEq.length) : Py.forEach ds popTag s =
      (.ok (), { s with problem := { s.problem with
        timeGEq := otherEntries s.problem.timeGEq ds } }) := by
  induction ds generalizing s with
  | nil =>
    simp only [Py.forEach, Py.pure_apply, Prod.mk.injEq, true_and]
    rw [otherEntries_eq, show keepUnlisted (List.map Int.ofNat []) s.problem.timeGEq =
      s.problem.timeGEq from keepFrom _ 0 [] (by simp)]
  | cons d ds ih =>
    rw [List.pairwise_cons] at hd
    have hd' := hl d (by simp)
    have h₁ : popTag d s = (.ok (), { s with problem := { s.problem with
        timeGEq := s.problem.timeGEq.eraseIdx d } }) := by
      unfold popTag; rw [if_pos hd']
    unfold Py.forEach
    rw [Py.bind_ok h₁, ih _ hd.2]
    · simp only [otherEntries_eq, List.map_cons]
      rw [← keepUnlisted_eraseIdx _ d _ hd']
      · rfl
      · intro j hj
        obtain ⟨i, hi, rfl⟩ := List.mem_map.1 hj
        have := hd.1 i hi
        simp only [Int.ofNat_eq_natCast]; omega
    · intro i hi
      have := hd.1 i hi
      simp only [List.length_eraseIdx, if_pos hd']
      omega

/-- The state after the relaxation of path equalities. -/
def afterTime (mu0 : Rat) (idx : List Nat) (s : Relax) : Relax :=
  let s₁ := included mu0 (entriesAt s.problem.gEq idx)
    { s with relaxedEq := s.relaxedEq ++ entriesAt s.problem.gEq idx }
  { s₁ with problem := { s₁.problem with
      gEq := otherEntries s.problem.gEq idx
      timeGEq := otherEntries s.problem.timeGEq idx } }

theorem relaxTime_run (mu0 : Rat) (idx : List Nat) (s : Relax) (h : Positions s.problem.gEq idx)
    (ht : s.problem.timeGEq.length = s.problem.gEq.length) :
    relaxTimeEqualities mu0 idx s = (.ok (), afterTime mu0 idx s) := by
  have hr : removeByIndices (idx.map Int.ofNat) s.problem.gEq =
      .ok (otherEntries s.problem.gEq idx) := by
    rw [removeByIndices_eq, if_neg, otherEntries_eq]
    rintro ⟨j, hj, h'⟩
    obtain ⟨i, hi, rfl⟩ := List.mem_map.1 hj
    have := h.2 i hi
    simp only [Int.ofNat_eq_natCast] at h'; omega
  have hp : (idx.mergeSort fun a b => decide (b ≤ a)).Perm idx := List.mergeSort_perm _ _
  have hs : (idx.mergeSort fun a b => decide (b ≤ a)).Pairwise (· > ·) := by
    have h₁ := List.pairwise_mergeSort (le := fun a b : Nat => decide (b ≤ a))
      (by intro a b c; simp; omega) (by intro a b; simp; omega) idx
    have h₂ : (idx.mergeSort fun a b => decide (b ≤ a)).Nodup := hp.nodup_iff.2 h.1
    rw [List.nodup_iff_pairwise_ne] at h₂
    refine (h₁.and h₂).imp ?_
    intro a b hab
    simp only [decide_eq_true_eq] at hab
    omega
  unfold relaxTimeEqualities
  simp only [Py.bind_eq, Py.get_bind, gather_positions _ _ h.2, Py.lift_ok_bind, Py.modify_bind]
  rw [Py.bind_ok (includeInObjective_run ..), hr, Py.lift_ok_bind,
    Py.bind_ok (onProblem_run (Py.modify_apply ..)), popTags_run _ _ hs]
  · simp only [afterTime]
    congr 2
    simp only [included]
    rw [otherEntries_congr _ _ idx fun i => hp.mem_iff]
  · intro d hd
    have := h.2 d (hp.mem_iff.1 hd)
    simp only [included]; omega

theorem added_refl (mu0 : Rat) (s : Relax) : ConstraintsAdded mu0 s s [] :=
  ⟨[], [], by simp, by simp, by simp, by simp, by simp, rfl, rfl, by
    intro K _ _ ops ρ; simp [augmentedTerms]⟩

theorem added_trans {mu0 : Rat} {s₁ s₂ s₃ : Relax} {r r' : List Expr}
    (h : ConstraintsAdded mu0 s₁ s₂ r) (h' : ConstraintsAdded mu0 s₂ s₃ r') :
    ConstraintsAdded mu0 s₁ s₃ (r ++ r') := by
  obtain ⟨nu, mu, e₁, e₂, e₃, e₄, e₅, l₁, l₂, c⟩ := h
  obtain ⟨nu', mu', e₁', e₂', e₃', e₄', e₅', l₁', l₂', c'⟩ := h'
  refine ⟨nu ++ nu', mu ++ mu', ?_, ?_, ?_, ?_, ?_, ?_, ?_, ?_⟩
  · rw [e₁', e₁, List.append_assoc]
  · rw [e₂', e₂, List.append_assoc]
  · rw [e₃', e₃, List.append_assoc]
  · rw [e₄', e₄, List.length_append, List.replicate_add, List.append_assoc]
  · rw [e₅', e₅, List.length_append, Nat.add_assoc]
  · simp [l₁, l₁']
  · simp [l₂, l₂']
  · intro K _ _ ops ρ
    rw [c' K ops ρ, c K ops ρ]
    simp only [List.map_append]
    rw [augmentedTerms_append _ _ _ _ _ _ (by simp [l₁]) (by simp [l₂]), add_assoc]

theorem added_included (mu0 : Rat) (r : List Expr) (s s' : Relax)
    (h₁ : s'.nuSym = (included mu0 r s).nuSym) (h₂ : s'.muSym = (included mu0 r s).muSym)
    (h₃ : s'.problem.model.p = (included mu0 r s).problem.model.p)
    (h₄ : s'.mu = (included mu0 r s).mu) (h₅ : s'.nRelax = (included mu0 r s).nRelax)
    (h₆ : s'.problem.L = (included mu0 r s).problem.L) : ConstraintsAdded mu0 s s' r := by
  refine ⟨_, _, h₁, h₂, h₃, h₄, h₅, by simp, by simp, ?_⟩
  intro K _ _ ops ρ
  rw [h₆]
  simp only [included, Expr.eval]
  rw [eval_penalty _ _ _ _ _ (by simp) (by simp)]

/-! ### Bounds of states -/

/-- The state after the relaxation of the bounds of one state. -/
def afterState (mu0 : Rat) (i : Nat) (x : Sym) (lo hi : XRat) (s : Relax) : Relax :=
  { s with
    nRelax := s.nRelax + 1
    nuSym := s.nuSym ++ [s.next + 1]
    muSym := s.muSym ++ [s.next + 2]
    mu := s.mu ++ [mu0]
    next := s.next + 3
    relaxedAlg := s.relaxedAlg ++ [.sub (.sym s.next) (.sym x)]
    problem := { s.problem with
      L := .add s.problem.L (.add (dotExpr [.sym (s.next + 1)] [.sub (.sym s.next) (.sym x)])
        (dotExpr [.div (.sym (s.next + 2)) (.const 2)]
          [dotExpr [.sub (.sym s.next) (.sym x)] [.sub (.sym s.next) (.sym x)]]))
      uMin := s.problem.uMin ++ [lo]
      uMax := s.problem.uMax ++ [hi]
      duMin := s.problem.duMin ++ [⊥]
      duMax := s.problem.duMax ++ [⊤]
      xMax := s.problem.xMax.set i ⊤
      xMin := s.problem.xMin.set i ⊥
      model := { s.problem.model with
        p := s.problem.model.p ++ [s.next + 2]
        u := s.problem.model.u ++ [s.next]
        uExpr := s.problem.model.uExpr ++ [.sym s.next]
        uPar := s.problem.model.uPar ++ [s.next] } } }

theorem relaxState_run (mu0 : Rat) (i : Nat) (x : Sym) (lo hi : XRat) (s : Relax)
    (hg : s.problem.uGuess = none) :
    relaxState mu0 i x lo hi s = (.ok (), afterState mu0 i x lo hi s) := by
  obtain ⟨o, nr, nus, mus, mu, ra, re, np, nx⟩ := s
  obtain ⟨m, t0, tf, x0, xc, eta, pO, thO, xMax, yMax, uMax, duMax, pM, tM, xMin, yMin, uMin, duMin,
    pm, tm, h, hI, hF, ge, gi, tge, tgi, L, V, S, lU, yG, uG, pos⟩ := o
  simp only at hg
  subst hg
  rfl

theorem relaxState_guess (mu0 : Rat) (i : Nat) (x : Sym) (lo hi : XRat) (s : Relax) (g : List Rat)
    (hg : s.problem.uGuess = some g) :
    (relaxState mu0 i x lo hi s).1 = .error .valueError := by
  obtain ⟨o, nr, nus, mus, mu, ra, re, np, nx⟩ := s
  obtain ⟨m, t0, tf, x0, xc, eta, pO, thO, xMax, yMax, uMax, duMax, pM, tM, xMin, yMin, uMin, duMin,
    pm, tm, h, hI, hF, ge, gi, tge, tgi, L, V, S, lU, yG, uG, pos⟩ := o
  simp only at hg
  subst hg
  rfl

/-- What the loop over the states `is` does. -/
structure AfterStates (mu0 : Rat) (is : List Nat) (s s' : Relax) : Prop where
  added : ∃ copies : List Sym, copies.length = (is.filter (BoundedState s.problem)).length ∧
    (∀ c ∈ copies, s.next ≤ c) ∧ copies.Nodup ∧ (∀ c ∈ copies, c < s'.next) ∧
    s'.problem.model.u = s.problem.model.u ++ copies ∧
    s'.relaxedAlg = s.relaxedAlg ++
      copyEquations s.problem copies (is.filter (BoundedState s.problem)) ∧
    ConstraintsAdded mu0 s s' (copyEquations s.problem copies (is.filter (BoundedState s.problem)))
  next : s.next ≤ s'.next
  uMin : s'.problem.uMin = s.problem.uMin ++
    entriesAt s.problem.xMin (is.filter (BoundedState s.problem))
  uMax : s'.problem.uMax = s.problem.uMax ++
    entriesAt s.problem.xMax (is.filter (BoundedState s.problem))
  xMin : ∀ i : Nat, s'.problem.xMin[i]? = if i ∈ is then some ⊥ else s.problem.xMin[i]?
  xMax : ∀ i : Nat, s'.problem.xMax[i]? = if i ∈ is then some ⊤ else s.problem.xMax[i]?
  relaxedEq : s'.relaxedEq = s.relaxedEq
  x : s'.problem.model.x = s.problem.model.x
  y : s'.problem.model.y = s.problem.model.y
  alg : s'.problem.model.alg = s.problem.model.alg
  ode : s'.problem.model.ode = s.problem.model.ode
  gEq : s'.problem.gEq = s.problem.gEq
  timeGEq : s'.problem.timeGEq = s.problem.timeGEq
  uGuess : s'.problem.uGuess = none
  lengthMin : s'.problem.xMin.length = s.problem.xMin.length
  lengthMax : s'.problem.xMax.length = s.problem.xMax.length

theorem added_state (mu0 : Rat) (i : Nat) (x : Sym) (lo hi : XRat) (s : Relax) :
    ConstraintsAdded mu0 s (afterState mu0 i x lo hi s) [.sub (.sym s.next) (.sym x)] := by
  refine ⟨[s.next + 1], [s.next + 2], rfl, rfl, rfl, rfl, rfl, rfl, rfl, ?_⟩
  intro K _ _ ops ρ
  simp only [afterState, Expr.eval, eval_dotExpr, augmentedTerms]
  simp only [List.zip_cons_cons, List.zip_nil_right, List.map_cons, List.map_nil, List.sum_cons,
    List.sum_nil, Expr.eval, eval_dotExpr]
  push_cast
  ring

theorem filter_bounded_congr {is : List Nat} {o o' : Ocp} (i : Nat) (hi : i ∉ is)
    (h₁ : ∀ j : Nat, j ≠ i → o'.xMax[j]? = o.xMax[j]?)
    (h₂ : ∀ j : Nat, j ≠ i → o'.xMin[j]? = o.xMin[j]?) :
    is.filter (BoundedState o') = is.filter (BoundedState o) := by
  apply List.filter_congr
  intro j hj
  have : j ≠ i := fun e => hi (e ▸ hj)
  unfold BoundedState
  rw [h₁ j this, h₂ j this]

theorem entriesAt_congr {α : Type} {l l' : List α} {is : List Nat}
    (h : ∀ i ∈ is, l[i]? = l'[i]?) : entriesAt l is = entriesAt l' is :=
  List.filterMap_congr h

theorem relaxStates_loop (mu0 : Rat) (is : List Nat) (s : Relax) (hn : is.Nodup)
    (hg : s.problem.uGuess = none) (hx : ∀ i ∈ is, i < s.problem.model.x.length)
    (hmin : s.problem.xMin.length = s.problem.model.x.length)
    (hmax : s.problem.xMax.length = s.problem.model.x.length) :
    ∃ s', Py.forEach is (relaxStateAt mu0) s = (.ok (), s') ∧ AfterStates mu0 is s s' := by
  induction is generalizing s with
  | nil =>
    exact ⟨s, rfl, ⟨[], rfl, by simp, by simp, by simp, by simp, by simp [copyEquations],
      added_refl mu0 s⟩, le_refl _, by simp [entriesAt], by simp [entriesAt], by simp, by simp, rfl,
      rfl, rfl, rfl, rfl, rfl, rfl, hg, rfl, rfl⟩
  | cons i is ih =>
    rw [List.nodup_cons] at hn
    have hi := hx i (by simp)
    have hi₁ : i < s.problem.xMin.length := by omega
    have hi₂ : i < s.problem.xMax.length := by omega
    have e₁ : entry s.problem.xMax i = .ok s.problem.xMax[i] := by
      unfold entry; rw [List.getElem?_eq_getElem hi₂]
    have e₂ : entry s.problem.xMin i = .ok s.problem.xMin[i] := by
      unfold entry; rw [List.getElem?_eq_getElem hi₁]
    have e₃ : entry s.problem.model.x i = .ok s.problem.model.x[i] := by
      unfold entry; rw [List.getElem?_eq_getElem hi]
    have hstep : relaxStateAt mu0 i s = if BoundedState s.problem i then
        (.ok (), afterState mu0 i s.problem.model.x[i] s.problem.xMin[i] s.problem.xMax[i] s)
        else (.ok (), s) := by
      unfold relaxStateAt
      simp only [Py.bind_eq, Py.get_bind, e₁, e₂, e₃, Py.lift_ok_bind]
      unfold BoundedState
      simp only [List.getElem?_eq_getElem hi₂, List.getElem?_eq_getElem hi₁, ne_eq,
        Option.some.injEq, Bool.or_eq_true, decide_eq_true_eq]
      split
      · exact relaxState_run _ _ _ _ _ _ hg
      · rfl
    unfold Py.forEach
    by_cases hb : BoundedState s.problem i = true
    · rw [if_pos hb] at hstep
      rw [Py.bind_ok hstep]
      generalize hs₁ : afterState mu0 i s.problem.model.x[i] s.problem.xMin[i] s.problem.xMax[i] s
        = s₁
      have hs₁' := hs₁.symm
      obtain ⟨s', hr, ha⟩ := ih s₁ hn.2 (by rw [hs₁']; exact hg)
        (by rw [hs₁']; exact fun j hj => hx j (by simp [hj]))
        (by rw [hs₁']; simp only [afterState, List.length_set]; exact hmin)
        (by rw [hs₁']; simp only [afterState, List.length_set]; exact hmax)
      refine ⟨s', hr, ?_⟩
      have hm₁ : ∀ j : Nat, j ≠ i → s₁.problem.xMax[j]? = s.problem.xMax[j]? := by
        intro j hj; rw [hs₁']; simp only [afterState]; rw [List.getElem?_set_ne (Ne.symm hj)]
      have hm₂ : ∀ j : Nat, j ≠ i → s₁.problem.xMin[j]? = s.problem.xMin[j]? := by
        intro j hj; rw [hs₁']; simp only [afterState]; rw [List.getElem?_set_ne (Ne.symm hj)]
      have hf := filter_bounded_congr i hn.1 hm₁ hm₂
      have hx₁ : s₁.problem.model.x = s.problem.model.x := by rw [hs₁']; rfl
      have hadd : ConstraintsAdded mu0 s s₁ [.sub (.sym s.next) (.sym s.problem.model.x[i])] := by
        rw [hs₁']; exact added_state ..
      have hlt : s.next < s₁.next := by
        rw [hs₁']; exact Nat.lt_add_of_pos_right (by decide)
      have hne : ∀ j ∈ is.filter (BoundedState s.problem), j ≠ i := by
        rintro j hj rfl
        exact hn.1 (List.mem_filter.1 hj).1
      obtain ⟨copies, c₁, c₂, c₃, c₄, c₅, c₆, c₇⟩ := ha.added
      have hce : copyEquations s₁.problem copies (is.filter (BoundedState s₁.problem)) =
          copyEquations s.problem copies (is.filter (BoundedState s.problem)) := by
        unfold copyEquations; rw [hf, hx₁]
      have hce' : [Expr.sub (.sym s.next) (.sym s.problem.model.x[i])] ++
          copyEquations s.problem copies (is.filter (BoundedState s.problem)) =
          copyEquations s.problem (s.next :: copies)
            (i :: is.filter (BoundedState s.problem)) := by
        unfold copyEquations entriesAt
        simp [List.getElem?_eq_getElem hi]
      rw [hce] at c₆ c₇
      rw [hf] at c₁
      have hfc : (i :: is).filter (BoundedState s.problem) =
          i :: is.filter (BoundedState s.problem) := List.filter_cons_of_pos hb
      constructor
      · rw [hfc]
        refine ⟨s.next :: copies, by simp [c₁], ?_, ?_, ?_, ?_, ?_, ?_⟩
        · intro c hc
          rcases List.mem_cons.1 hc with rfl | hc
          · exact le_refl _
          · exact le_trans hlt.le (c₂ c hc)
        · rw [List.nodup_cons]
          exact ⟨fun hc => absurd (c₂ _ hc) (not_le.2 hlt), c₃⟩
        · intro c hc
          rcases List.mem_cons.1 hc with rfl | hc
          · exact lt_of_lt_of_le hlt ha.next
          · exact c₄ c hc
        · rw [c₅, hs₁']; simp [afterState]
        · rw [c₆, hs₁', ← hce']; simp [afterState]
        · rw [← hce']; exact added_trans hadd c₇
      · exact le_trans hlt.le ha.next
      · rw [ha.uMin, hf, hfc, hs₁']
        simp only [afterState, List.append_assoc, List.singleton_append]
        congr 1
        rw [show entriesAt s.problem.xMin (i :: is.filter (BoundedState s.problem)) =
          s.problem.xMin[i] :: entriesAt s.problem.xMin (is.filter (BoundedState s.problem)) by
          unfold entriesAt; simp [List.getElem?_eq_getElem hi₁]]
        congr 1
        exact entriesAt_congr fun j hj => List.getElem?_set_ne (Ne.symm (hne j hj))
      · rw [ha.uMax, hf, hfc, hs₁']
        simp only [afterState, List.append_assoc, List.singleton_append]
        congr 1
        rw [show entriesAt s.problem.xMax (i :: is.filter (BoundedState s.problem)) =
          s.problem.xMax[i] :: entriesAt s.problem.xMax (is.filter (BoundedState s.problem)) by
          unfold entriesAt; simp [List.getElem?_eq_getElem hi₂]]
        congr 1
        exact entriesAt_congr fun j hj => List.getElem?_set_ne (Ne.symm (hne j hj))
      · intro j
        rw [ha.xMin j]
        by_cases hj : j = i
        · subst hj
          rw [if_neg hn.1, hs₁']
          simp [afterState, hi₁]
        · rw [hm₂ j hj]
          simp [hj]
      · intro j
        rw [ha.xMax j]
        by_cases hj : j = i
        · subst hj
          rw [if_neg hn.1, hs₁']
          simp [afterState, hi₂]
        · rw [hm₁ j hj]
          simp [hj]
      · rw [ha.relaxedEq, hs₁']; rfl
      · rw [ha.x, hx₁]
      · rw [ha.y, hs₁']; rfl
      · rw [ha.alg, hs₁']; rfl
      · rw [ha.ode, hs₁']; rfl
      · rw [ha.gEq, hs₁']; rfl
      · rw [ha.timeGEq, hs₁']; rfl
      · exact ha.uGuess
      · rw [ha.lengthMin, hs₁']; simp [afterState]
      · rw [ha.lengthMax, hs₁']; simp [afterState]
    · rw [if_neg hb] at hstep
      rw [Py.bind_ok hstep]
      obtain ⟨s', hr, ha⟩ := ih s hn.2 hg (fun j hj => hx j (by simp [hj])) hmin hmax
      have hfc : (i :: is).filter (BoundedState s.problem) =
          is.filter (BoundedState s.problem) := List.filter_cons_of_neg hb
      have hb' : s.problem.xMax[i]? = some ⊤ ∧ s.problem.xMin[i]? = some ⊥ := by
        unfold BoundedState at hb
        simpa using hb
      refine ⟨s', hr, ?_⟩
      obtain ⟨a₁, a₂, a₃, a₄, a₅, a₆, a₇, a₈, a₉, a₁₀, a₁₁, a₁₂, a₁₃, a₁₄, a₁₅, a₁₆⟩ := ha
      rw [← hfc] at a₁ a₃ a₄
      refine ⟨a₁, a₂, a₃, a₄, ?_, ?_, a₇, a₈, a₉, a₁₀, a₁₁, a₁₂, a₁₃, a₁₄, a₁₅, a₁₆⟩
      · intro j
        rw [a₅ j]
        by_cases hj : j = i
        · subst hj; simp [hn.1, hb'.2]
        · simp [hj]
      · intro j
        rw [a₆ j]
        by_cases hj : j = i
        · subst hj; simp [hn.1, hb'.1]
        · simp [hj]

/-! ### Every run that returns -/

/-- The cost and the parameters are the given ones. -/
def Same (L : Expr) (p : List Sym) (o : Ocp) : Prop := o.L = L ∧ o.model.p = p

theorem same_onModel {α : Type} {c : Py SysModel α} {L p}
    (h : Py.Always (fun m => m.p = p) c) : Py.Always (Same L p) (Ocp.onModel c) := by
  intro o ho
  exact ⟨ho.1, h _ ho.2⟩

theorem same_removeAlgebraic {L p v e} : Py.Always (Same L p) (Ocp.removeAlgebraic v e) := by
  have h : Py.Always (fun m : SysModel => m.p = p) (SysModel.removeAlgebraic v e) := by
    unfold SysModel.removeAlgebraic
    py_always []
  unfold Ocp.removeAlgebraic
  py_always [same_onModel h]

theorem same_includeControl {L p v a b c d g} :
    Py.Always (Same L p) (Ocp.includeControl v a b c d g) := by
  have h : Py.Always (fun m : SysModel => m.p = p) (SysModel.includeControl v) := by
    unfold SysModel.includeControl
    py_always []
  unfold Ocp.includeControl
  py_always [same_onModel h]

/-- The relaxed constraints `r` in the order of their multipliers, `ra` and `re` in the order in
which they are stored. -/
structure Grows (mu0 : Rat) (s s' : Relax) (r ra re : List Expr) : Prop where
  added : ConstraintsAdded mu0 s s' r
  alg : s'.relaxedAlg = s.relaxedAlg ++ ra
  eq : s'.relaxedEq = s.relaxedEq ++ re

theorem Grows.refl (mu0 : Rat) (s : Relax) : Grows mu0 s s [] [] [] :=
  ⟨added_refl mu0 s, by simp, by simp⟩

theorem Grows.trans {mu0 : Rat} {s₁ s₂ s₃ : Relax} {r ra re r' ra' re' : List Expr}
    (h : Grows mu0 s₁ s₂ r ra re) (h' : Grows mu0 s₂ s₃ r' ra' re') :
    Grows mu0 s₁ s₃ (r ++ r') (ra ++ ra') (re ++ re') :=
  ⟨added_trans h.added h'.added, by rw [h'.alg, h.alg, List.append_assoc],
    by rw [h'.eq, h.eq, List.append_assoc]⟩

theorem same_refl (o : Ocp) : Same o.L o.model.p o := ⟨rfl, rfl⟩

/-- A call on the problem that leaves cost and parameters. -/
theorem Grows.onProblem {mu0 : Rat} {s s' s'' : Relax} {r ra re : List Expr} {α : Type}
    {c : Py Ocp α} {a : α} (h : Grows mu0 s s' r ra re)
    (hc : ∀ L p, Py.Always (Same L p) c) (hr : Relax.onProblem c s' = (.ok a, s'')) :
    Grows mu0 s s'' r ra re := by
  have h₁ := hc _ _ s'.problem (same_refl _)
  unfold Relax.onProblem at hr
  simp only [Prod.mk.injEq] at hr
  obtain ⟨-, rfl⟩ := hr
  obtain ⟨⟨nu, mu, e₁, e₂, e₃, e₄, e₅, l₁, l₂, e₆⟩, h₂, h₃⟩ := h
  refine ⟨⟨nu, mu, e₁, e₂, by rw [← e₃]; exact h₁.2, e₄, e₅, l₁, l₂, ?_⟩, h₂, h₃⟩
  intro K _ _ ops ρ
  rw [← e₆ K ops ρ, ← h₁.1]

theorem grows_algebraic {mu0 : Rat} {idx vidx : List Nat} {s s' : Relax}
    (h : relaxAlgebraic mu0 idx vidx s = (.ok (), s')) :
    ∃ r, Grows mu0 s s' r r [] := by
  unfold relaxAlgebraic at h
  simp only [Py.bind_eq, Py.get_bind, Py.lift_bind_ok, Py.modify_bind] at h
  obtain ⟨r, -, h⟩ := h
  rw [Py.bind_ok (includeInObjective_run ..)] at h
  simp only [Py.lift_bind_ok] at h
  obtain ⟨g, -, var, -, hi, -, lo, -, h⟩ := h
  obtain ⟨_, s₁, h₁, h₂⟩ := Py.bind_eq_ok.mp h
  have g₀ : Grows mu0 s (included mu0 r { s with relaxedAlg := s.relaxedAlg ++ r }) r r [] :=
    ⟨added_included mu0 r s _ rfl rfl rfl rfl rfl rfl, rfl, by simp [included]⟩
  exact ⟨r, (g₀.onProblem (fun _ _ => same_includeControl) h₁).onProblem
    (fun _ _ => same_removeAlgebraic) h₂⟩

theorem grows_pop {mu0 : Rat} (ds : List Nat) {s s' s'' : Relax} {r ra re : List Expr}
    (h : Grows mu0 s s' r ra re) (hr : Py.forEach ds popTag s' = (.ok (), s'')) :
    Grows mu0 s s'' r ra re := by
  induction ds generalizing s' with
  | nil =>
    simp only [Py.forEach, Py.pure_apply, Prod.mk.injEq, true_and] at hr
    exact hr ▸ h
  | cons d ds ih =>
    unfold Py.forEach at hr
    obtain ⟨_, s₁, h₁, h₂⟩ := Py.bind_eq_ok.mp hr
    refine ih ?_ h₂
    unfold popTag at h₁
    split at h₁
    · simp only [Prod.mk.injEq, true_and] at h₁
      subst h₁
      exact ⟨h.added, h.alg, h.eq⟩
    · simp at h₁

theorem grows_time {mu0 : Rat} {idx : List Nat} {s s' : Relax}
    (h : relaxTimeEqualities mu0 idx s = (.ok (), s')) : ∃ r, Grows mu0 s s' r [] r := by
  unfold relaxTimeEqualities at h
  simp only [Py.bind_eq, Py.get_bind, Py.lift_bind_ok, Py.modify_bind] at h
  obtain ⟨r, -, h⟩ := h
  rw [Py.bind_ok (includeInObjective_run ..)] at h
  simp only [Py.lift_bind_ok] at h
  obtain ⟨g, -, h⟩ := h
  obtain ⟨_, s₁, h₁, h₂⟩ := Py.bind_eq_ok.mp h
  have g₀ : Grows mu0 s (included mu0 r { s with relaxedEq := s.relaxedEq ++ r }) r [] r :=
    ⟨added_included mu0 r s _ rfl rfl rfl rfl rfl rfl, by simp [included], rfl⟩
  exact ⟨r, grows_pop _ (g₀.onProblem (fun _ _ o ho => ho) h₁) h₂⟩

theorem grows_stateAt {mu0 : Rat} {i : Nat} {s s' : Relax}
    (h : relaxStateAt mu0 i s = (.ok (), s')) : ∃ r, Grows mu0 s s' r r [] := by
  unfold relaxStateAt at h
  simp only [Py.bind_eq, Py.get_bind, Py.lift_bind_ok] at h
  obtain ⟨hi, -, lo, -, x, -, h⟩ := h
  split at h
  · cases hg : s.problem.uGuess with
    | none =>
      rw [relaxState_run _ _ _ _ _ _ hg] at h
      simp only [Prod.mk.injEq, true_and] at h
      subst h
      exact ⟨_, added_state .., rfl, by simp [afterState]⟩
    | some g =>
      have := relaxState_guess mu0 i x lo hi s g hg
      rw [h] at this
      simp at this
  · simp only [Py.pure_apply, Prod.mk.injEq, true_and] at h
    subst h
    exact ⟨[], Grows.refl ..⟩

theorem grows_states {mu0 : Rat} (is : List Nat) {s s' : Relax}
    (h : Py.forEach is (relaxStateAt mu0) s = (.ok (), s')) : ∃ r, Grows mu0 s s' r r [] := by
  induction is generalizing s with
  | nil =>
    simp only [Py.forEach, Py.pure_apply, Prod.mk.injEq, true_and] at h
    exact h ▸ ⟨[], Grows.refl ..⟩
  | cons i is ih =>
    unfold Py.forEach at h
    obtain ⟨_, s₁, h₁, h₂⟩ := Py.bind_eq_ok.mp h
    obtain ⟨r, hr⟩ := grows_stateAt h₁
    obtain ⟨r', hr'⟩ := ih h₂
    exact ⟨r ++ r', hr.trans hr'⟩

theorem ifEquations_ok {idx : List Nat} {c : Py Relax Unit} {s s' : Relax}
    (h : ifEquations idx c s = (.ok (), s')) : c s = (.ok (), s') ∨ s' = s := by
  unfold ifEquations at h
  simp only [Py.bind_eq, Py.get_bind, Py.lift_bind_ok] at h
  obtain ⟨r, -, h⟩ := h
  split at h
  · exact .inl h
  · simp only [Py.pure_apply, Prod.mk.injEq, true_and] at h
    exact .inr h.symm

theorem ifEquations_nil (c : Py Relax Unit) (s : Relax) : ifEquations [] c s = (.ok (), s) := rfl

theorem ifEquations_run {idx : List Nat} {c : Py Relax Unit} {s : Relax}
    (hn : idx ≠ []) (h : ∀ i ∈ idx, i < s.problem.model.alg.length) :
    ifEquations idx c s = c s := by
  unfold ifEquations
  simp only [Py.bind_eq, Py.get_bind, gather_positions _ _ h, Py.lift_ok_bind]
  rw [if_pos]
  rw [entriesAt_length _ _ h]
  exact List.length_pos_iff.2 hn

theorem ifEquations_error {idx : List Nat} {c : Py Relax Unit} {s : Relax} {i : Nat} (hi : i ∈ idx)
    (h : s.problem.model.alg.length ≤ i) : ifEquations idx c s = (.error .runtimeError, s) := by
  unfold ifEquations gather
  simp only [Py.bind_eq, Py.get_bind]
  rw [if_neg]
  · rfl
  · rw [List.all_eq_true]
    intro h'
    have := h' i hi
    simp only [decide_eq_true_eq] at this
    omega

theorem grows_relax {mu0 : Rat} {a : Args} {s s' : Relax} (h : relax mu0 a s = (.ok (), s')) :
    ∃ r₁ r₂ r₃, Grows mu0 s s' (r₁ ++ r₂ ++ r₃) (r₁ ++ r₃) r₂ ∧ (a.time = [] → r₂ = []) ∧
      (a.stateBounds = false → r₃ = []) := by
  unfold relax at h
  simp only [Py.bind_eq, Py.get_bind] at h
  obtain ⟨_, s₁, h₁, h⟩ := Py.bind_eq_ok.mp h
  obtain ⟨_, s₂, h₂, h⟩ := Py.bind_eq_ok.mp h
  have g₁ : ∃ r, Grows mu0 s s₁ r r [] := by
    rcases ifEquations_ok h₁ with h₁ | rfl
    · exact grows_algebraic h₁
    · exact ⟨[], Grows.refl ..⟩
  have g₂ : ∃ r, Grows mu0 s₁ s₂ r [] r ∧ (a.time = [] → r = []) := by
    by_cases ht : a.time = []
    · rw [ht, ifEquations_nil] at h₂
      simp only [Prod.mk.injEq, true_and] at h₂
      exact h₂ ▸ ⟨[], Grows.refl .., fun _ => rfl⟩
    · rcases ifEquations_ok h₂ with h₂ | rfl
      · obtain ⟨r, hr⟩ := grows_time h₂
        exact ⟨r, hr, fun e => absurd e ht⟩
      · exact ⟨[], Grows.refl .., fun _ => rfl⟩
  have g₃ : ∃ r, Grows mu0 s₂ s' r r [] ∧ (a.stateBounds = false → r = []) := by
    split at h
    · rename_i hb
      unfold relaxStates at h
      simp only [Py.bind_eq, Py.get_bind] at h
      obtain ⟨r, hr⟩ := grows_states _ h
      exact ⟨r, hr, fun e => by simp [e] at hb⟩
    · simp only [Py.pure_apply, Prod.mk.injEq, true_and] at h
      exact h ▸ ⟨[], Grows.refl .., fun _ => rfl⟩
  obtain ⟨r₁, g₁⟩ := g₁
  obtain ⟨r₂, g₂, e₂⟩ := g₂
  obtain ⟨r₃, g₃, e₃⟩ := g₃
  refine ⟨r₁, r₂, r₃, ?_, e₂, e₃⟩
  have := (g₁.trans g₂).trans g₃
  simpa using this

end Relax
end Verif
