import Verif.Spec.AugLagResult
import Verif.Props.AugLag
namespace Verif.AugLag
open Verif Verif.Spec

set_option linter.unusedSectionVars false

variable {K : Type} [Field K] [LinearOrder K]

/-! ### Points -/

/-- The columns of a vector of the right size. -/
theorem unvec_ok (n degree : Nat) (hd : 0 < degree) (v : List K) (hv : v.length = n * degree) :
    unvec degree v = .ok ((List.range degree).map fun d => (v.drop (d * n)).take n) := by
  have : v.length / degree = n := by rw [hv]; exact Nat.mul_div_cancel _ hd
  unfold unvec
  rw [this, if_pos hv.symm]

theorem mapM_range_ok {α : Type} (n : Nat) (f : Nat → Except Err α) (g : Nat → α)
    (h : ∀ k < n, f k = .ok (g k)) : (List.range n).mapM f = .ok ((List.range n).map g) := by
  have key : ∀ l : List Nat, (∀ k ∈ l, f k = .ok (g k)) → l.mapM f = .ok (l.map g) := by
    intro l hl
    induction l with
    | nil => rfl
    | cons a l ih =>
      simp [List.mapM_cons, hl a (by simp), ih fun k hk => hl k (by simp [hk]), bind, Except.bind,
        pure, Except.pure]
  exact key _ fun k hk => h k (List.mem_range.1 hk)

/-- Values of all elements, point by point. -/
theorem perPoint_ok (o : Opts K) (hd : 0 < o.degree) (n : Nat) (values : List (List K))
    (hl : values.length = o.elements) (hv : ∀ v ∈ values, v.length = n * o.degree) :
    perPoint o values = .ok ((List.range o.elements).map fun el => (List.range o.degree).map fun d =>
      (((values[el]?).getD []).drop (d * n)).take n) := by
  refine mapM_range_ok _ _ _ fun el hel => ?_
  have h : values[el]? = some values[el] := List.getElem?_eq_getElem (by omega)
  simp only [atElement, h, Except.bind, Option.getD_some]
  exact unvec_ok n o.degree hd _ (hv _ (List.getElem_mem _))

theorem perPoint_row (o : Opts K) (hd : 0 < o.degree) (n : Nat) (values : List (List K))
    (hl : values.length = o.elements) (hv : ∀ v ∈ values, v.length = n * o.degree)
    (r : List (List (List K))) (h : perPoint o values = .ok r) (el : Nat) (hel : el < o.elements)
    (j : Nat) (hj : j < o.degree) :
    r[el]?.bind (·[j]?) = some (((values[el]?.getD []).drop (j * n)).take n) := by
  rw [perPoint_ok o hd n values hl hv] at h
  cases h
  simp [hel, hj]

theorem row_length (o : Opts K) (n : Nat) (values : List (List K))
    (hl : values.length = o.elements) (hv : ∀ v ∈ values, v.length = n * o.degree)
    (el : Nat) (hel : el < o.elements) (j : Nat) (hj : j < o.degree) :
    (((values[el]?.getD []).drop (j * n)).take n).length = n := by
  have h : values[el]? = some values[el] := List.getElem?_eq_getElem (by omega)
  have := hv values[el] (List.getElem_mem _)
  rw [h, Option.getD_some, List.length_take, List.length_drop, this]
  have h1 : (j + 1) * n ≤ o.degree * n := Nat.mul_le_mul_right n hj
  rw [Nat.add_mul] at h1
  rw [Nat.mul_comm n]
  omega

theorem row_entry (n j i : Nat) (v : List K) (hi : i < n) :
    ((v.drop (j * n)).take n)[i]? = v[j * n + i]? := by
  rw [List.getElem?_take, if_pos hi, List.getElem?_drop]

theorem violationRows_row (o : Opts K) (n : Nat) (rows : List K → List K)
    (viol : List (List (List K)))
    (hr : ∀ el < o.elements, ∀ j < o.degree, (rows (violAt viol el j)).length = n) (el : Nat)
    (hel : el < o.elements) (j : Nat) (hj : j < o.degree) (i : Nat) (hi : i < n) :
    ((violationRows o rows viol)[el]?.getD [])[j * n + i]? = (rows (violAt viol el j))[i]? := by
  unfold violationRows
  simp only [List.getElem?_map, List.getElem?_range hel, Option.map_some, Option.getD_some]
  exact getElem?_flatMap_blocks n o.degree _ (hr el hel) i j hi hj

theorem length_flatMap_blocks {α : Type} (n m : Nat) (B : Nat → List α)
    (hB : ∀ j < m, (B j).length = n) : ((List.range m).flatMap B).length = n * m := by
  rw [List.length_flatMap, List.map_congr_left (g := fun _ => n)
    (fun j hj => hB j (List.mem_range.1 hj))]
  simp [Nat.mul_comm]

theorem violationRows_sized (o : Opts K) (n : Nat) (rows : List K → List K)
    (viol : List (List (List K)))
    (hr : ∀ el < o.elements, ∀ j < o.degree, (rows (violAt viol el j)).length = n) :
    (violationRows o rows viol).length = o.elements ∧
      ∀ v ∈ violationRows o rows viol, v.length = n * o.degree := by
  refine ⟨by simp [violationRows], fun v hv => ?_⟩
  obtain ⟨el, hel, rfl⟩ := List.mem_map.1 hv
  exact length_flatMap_blocks n o.degree _ (hr el (List.mem_range.1 hel))

/-! ### Sizes during the loop -/

theorem newNu_rows (o : Opts K) (mu : List K) (nu : List (List K)) (viol : List (List (List K)))
    (hm : mu.length = o.nRelax) (hv : Violations o viol) : Rows o (newNu o mu nu viol) := by
  refine ⟨by simp [newNu], fun v h => ?_⟩
  obtain ⟨el, hel, rfl⟩ := List.mem_map.1 h
  exact length_flatMap_blocks _ _ _ fun j hj => newNuAt_length o _ _ _ _ _ hm
    (violAt_length o viol hv el j (List.mem_range.1 hel) hj)

theorem copy_rows (o : Opts K) (own tilde : List (List K)) (ind : Nat) (h1 : Rows o own)
    (h2 : Rows o tilde) :
    Rows o (List.zipWith (fun a b => a.set ind (b[ind]?.getD 0)) own tilde) := by
  refine ⟨by simp [h1.1, h2.1], fun v hv => ?_⟩
  rw [List.mem_iff_getElem?] at hv
  obtain ⟨k, hk⟩ := hv
  rw [List.getElem?_zipWith] at hk
  rcases ha : own[k]? with _ | a
  · rw [ha] at hk; simp at hk
  · rcases hb : tilde[k]? with _ | b
    · rw [ha, hb] at hk; simp at hk
    · rw [ha, hb] at hk
      simp only [Option.some.injEq] at hk
      subst hk
      rw [List.length_set]
      exact h1.2 a (List.mem_of_getElem? ha)

theorem storeNu_sized (o : Opts K) (errors : List K) (tilde : List (List K)) (h : Rows o tilde) :
    Py.Always (SizedState o) (storeNu o errors tilde) := by
  unfold storeNu
  refine Py.Always.bind Py.Always.get fun t => ?_
  split
  · refine Py.Always.forEach _ _ fun e _ => ?_
    unfold improveEntry
    split
    · refine Py.Always.bind (Py.Always.modify _ fun _ h => ⟨h.nu, h.tilde, h.mu⟩) fun _ => ?_
      intro s hs
      unfold copyEntry
      rw [Py.bind_eq, Py.get_bind]
      rcases ht : s.nuTilde with _ | own
      · exact hs
      · refine ⟨hs.nu, fun t ht' => ?_, hs.mu⟩
        simp only [Py.modify_apply, Option.some.injEq] at ht'
        subst ht'
        exact copy_rows o own tilde e.2 (hs.tilde own ht) h
    · exact Py.Always.pure _
  · refine Py.Always.modify _ fun s hs => ⟨hs.nu, fun t ht => ?_, hs.mu⟩
    simp only [Option.some.injEq] at ht
    subst ht
    exact h

theorem computeNu_sized (o : Opts K) (viol : List (List (List K))) (hv : Violations o viol) :
    Py.Always (SizedState o) (computeNu o viol) := by
  unfold computeNu
  split
  · exact Py.Always.pure _
  · intro s hs
    rw [Py.bind_eq, Py.get_bind]
    split
    · exact hs
    · exact Py.Always.bind (storeNu_sized o _ _ (newNu_rows o _ _ _ hs.mu hv))
        (fun _ => Py.Always.pure _) s hs

theorem primalMu_length (o : Opts K) (mu err last : List K) :
    (primalMu o mu err last).length = mu.length := by
  fun_induction primalMu o mu err last <;> simp_all

theorem updateMu_sized (o : Opts K) (error : List K) (last : Option (List K)) :
    Py.Always (SizedState o) (updateMu o error last) := by
  unfold updateMu
  split
  · exact Py.Always.pure _
  split
  · exact Py.Always.pure _
  split
  · exact Py.Always.whenSome _ _ fun v _ => Py.Always.modify _ fun s hs =>
      ⟨hs.nu, hs.tilde, by simp [primalMu_length, hs.mu]⟩
  split
  · exact Py.Always.pure _
  split
  · exact Py.Always.modify _ fun s hs => ⟨hs.nu, hs.tilde, by simp [hs.mu]⟩
  · exact Py.Always.throw _

theorem updateParameters_sized (o : Opts K) (viol : List (List (List K))) (hv : Violations o viol) :
    Py.Always (SizedState o) (updateParameters o viol) := by
  unfold updateParameters
  refine Py.Always.bind (computeNu_sized o viol hv) fun e => ?_
  refine Py.Always.bind Py.Always.get fun s => ?_
  refine Py.Always.bind (updateMu_sized o e s.lastError) fun _ => ?_
  exact Py.Always.bind (Py.Always.modify _ fun _ h => ⟨h.nu, h.tilde, h.mu⟩) fun _ => Py.Always.pure _

theorem atSolve_sized (o : Opts K) (s : St K) (h : SizedState o s) : SizedState o (atSolve s) := by
  refine ⟨?_, h.tilde, h.mu⟩
  show Rows o (s.nuTilde.getD s.nu)
  rcases ht : s.nuTilde with _ | t
  · exact h.nu
  · exact h.tilde t ht

/-- The error an update returns is stored. -/
theorem updateParameters_last (o : Opts K) (viol : List (List (List K))) (s s' : St K) (e : List K)
    (h : updateParameters o viol s = (.ok e, s')) : s'.lastError = some e := by
  unfold updateParameters at h
  obtain ⟨e', s₁, h₁, h₂⟩ := Py.bind_eq_ok.mp h
  rw [Py.bind_eq, Py.get_bind] at h₂
  obtain ⟨_, s₂, h₃, h₄⟩ := Py.bind_eq_ok.mp h₂
  cases h₄
  rfl

/-- What is known about the object after a solve with violations `viol`. -/
structure Solved (o : Opts K) (solve : Solver K) (viol : List (List (List K))) (s : St K) : Prop where
  sized : SizedState o s
  violations : Violations o viol
  last : ∃ mu k, s.solves.getLast? = some (s.nu, mu) ∧ solve s.nu mu k = .ok viol
  error : ∃ t e, (updateParameters o viol t).1 = .ok e ∧ s.lastError = some e

theorem iteration_solved (o : Opts K) (solve : Solver K)
    (hsolve : ∀ nu mu k v, solve nu mu k = .ok v → Violations o v) (k : Nat) (s s' : St K)
    (viol : List (List (List K))) (b : Bool) (hs : SizedState o s)
    (h : iteration o false solve k s = (.ok (viol, b), s')) : Solved o solve viol s' := by
  obtain ⟨h1, e, h2, h3, -⟩ := iteration_ok o solve k s s' viol b h
  have hv := hsolve _ _ _ _ h1
  obtain ⟨k1, k2, -⟩ := updateParameters_keeps o viol (atSolve s)
  have hsz := updateParameters_sized o viol hv (atSolve s) (atSolve_sized o s hs)
  rcases hu : updateParameters o viol (atSolve s) with ⟨r, s₁⟩
  rw [hu] at h2 h3 k1 k2 hsz
  simp only at h2 h3 k1 k2 hsz
  subst h2 h3
  refine ⟨⟨hsz.nu, hsz.tilde, hsz.mu⟩, hv, ⟨s.mu, k, ?_, ?_⟩, atSolve s, e, by rw [hu], ?_⟩
  · show s₁.solves.getLast? = some (s₁.nu, s.mu)
    rw [k2, k1]
    simp [atSolve]
  · show solve s₁.nu s.mu k = .ok viol
    rw [k1]
    exact h1
  · exact updateParameters_last o viol _ s₁ _ hu

theorem iterations_solved (o : Opts K) (solve : Solver K)
    (hsolve : ∀ nu mu k v, solve nu mu k = .ok v → Violations o v) (n k : Nat)
    (last : Option (List (List (List K)))) (s s' : St K) (viol : List (List (List K)))
    (hs : SizedState o s) (hl : ∀ v, last = some v → Solved o solve v s)
    (h : iterations o false solve n k last s = (.ok (some viol), s')) : Solved o solve viol s' := by
  induction n generalizing k last s with
  | zero =>
    simp only [iterations, Py.pure_apply, Prod.mk.injEq, Except.ok.injEq] at h
    obtain ⟨rfl, rfl⟩ := h
    exact hl viol rfl
  | succ n ih =>
    unfold iterations at h
    obtain ⟨⟨v, b⟩, s₁, h₁, h₂⟩ := Py.bind_eq_ok.mp h
    have hsol := iteration_solved o solve hsolve k s s₁ v b hs h₁
    simp only at h₂
    split at h₂
    · simp only [Py.pure_apply, Prod.mk.injEq, Except.ok.injEq, Option.some.injEq] at h₂
      obtain ⟨rfl, rfl⟩ := h₂
      exact hsol
    · exact ih _ _ _ hsol.sized (fun v' hv' => by cases hv'; exact hsol) h₂

theorem callSolver_solved (o : Opts K) (solve : Solver K)
    (hsolve : ∀ nu mu k v, solve nu mu k = .ok v → Violations o v) (s s' : St K)
    (viol : List (List (List K))) (hs : SizedState o s)
    (h : callSolver o false solve s = (.ok viol, s')) : Solved o solve viol s' := by
  unfold callSolver at h
  obtain ⟨q, s₁, h₁, h₂⟩ := Py.bind_eq_ok.mp h
  cases q with
  | none => cases h₂
  | some q =>
    cases h₂
    exact iterations_solved o solve hsolve _ _ _ _ _ _ hs (by simp) h₁

/-! ### The parts of the result -/

theorem violAt_take (o : Opts K) (viol : List (List (List K))) (hv : Violations o viol) (nAlg : Nat)
    (hn : nAlg ≤ o.nRelax) (el : Nat) (hel : el < o.elements) (j : Nat) (hj : j < o.degree) :
    ((violAt viol el j).take nAlg).length = nAlg ∧
      ((violAt viol el j).drop nAlg).length = o.nRelax - nAlg := by
  have := violAt_length o viol hv el j hel hj
  rw [List.length_take, List.length_drop, this]
  omega

/-- The result exists and consists of these parts. -/
theorem result_ok (o : Opts K) (h : Discretised o) (nAlg : Nat) (hn : nAlg ≤ o.nRelax)
    (hc : o.skipCompute = false) (before : Stored K) (viol : List (List (List K))) (s : St K)
    (hs : SizedState o s) (hv : Violations o viol) :
    ∃ r, result o (storedAfter o nAlg false before viol) s = .ok r ∧
      perPoint o s.nu = .ok r.nu ∧
      perPoint o (violationRows o (·.take nAlg) viol) = .ok r.alg ∧
      perPoint o (violationRows o (·.drop nAlg) viol) = .ok r.eq ∧
      r.time = (List.range o.elements).map (fun el => (List.range o.degree).map (o.timeNu el)) ∧
      r.error = s.lastError := by
  have h1 := perPoint_ok o h.positive o.nRelax s.nu hs.nu.1 hs.nu.2
  obtain ⟨l2, v2⟩ := violationRows_sized o nAlg (·.take nAlg) viol
    fun el hel j hj => (violAt_take o viol hv nAlg hn el hel j hj).1
  have h2 := perPoint_ok o h.positive nAlg _ l2 v2
  obtain ⟨l3, v3⟩ := violationRows_sized o (o.nRelax - nAlg) (·.drop nAlg) viol
    fun el hel j hj => (violAt_take o viol hv nAlg hn el hel j hj).2
  have h3 := perPoint_ok o h.positive (o.nRelax - nAlg) _ l3 v3
  refine ⟨⟨_, _, _, _, s.lastError⟩, ?_, h1, h2, h3, rfl, rfl⟩
  simp only [result, storedAfter, hc, Bool.or_self, Bool.false_eq_true, if_false, h1, h2, h3, bind,
    Except.bind]

end Verif.AugLag
