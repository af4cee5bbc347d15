import Verif.Spec.ClosedLoop
import Verif.Lemmas.DirectScheme
import Verif.Lemmas.Plant
import Verif.Lemmas.Merge
/-! Lemmas about a controller and its plant. -/
namespace Verif
namespace ClosedLoop
open Spec DirectScheme Polynomial

variable {K : Type} [Field K] [LinearOrder K] [IsStrictOrderedRing K]
variable {ops : Expr.Ops K} {o : Ocp} {M : Mesh} {par : List Sym} {val tr : GridValues K M.size}
  {start : Sym → K} {step : K}

/-! ## Elements -/

theorem lastPoint_eq (hM : GoodMesh M) : M.lastPoint hM = M.point (M.lastElement hM) (M.lastRoot hM) := rfl

theorem imposed_point (tag : String) (el : Fin M.elements) (j : Fin M.roots.length) :
    ImposedAt K M tag (M.point el j) ↔ ImposedIn K M tag j := by
  unfold ImposedAt ImposedIn
  rw [point_mod]

/-- A trajectory is allowed exactly when each element is, from the end of the one before. -/
theorem satisfies_iff (hM : GoodMesh M) (w : GridValues K M.size) :
    SatisfiesAll ops (directScheme ops M hM step start) o w ↔
      (∀ el, ElementAllowed ops o M step (fun s => valueBefore M hM start w s el) (elementOf M w el)) ∧
      FinalHolds ops o (w (M.lastPoint hM)) ∧ ∀ e ∈ o.hInitial, e.eval ops start = 0 := by
  constructor
  · intro h
    refine ⟨fun el => ⟨⟨fun j => h.alg _, fun r hr e he => ?_⟩, fun j => h.x _, fun j => h.y _,
      fun j => h.u _, fun v hv => h.control v hv el, ?_, ?_⟩, h.boundary.1, h.boundary.2⟩
    · exact h.dynamics r hr e he el
    · exact fun r hr j hi => h.eq r hr _ ((imposed_point _ el j).2 hi)
    · exact fun r hr j hi => h.ineq r hr _ ((imposed_point _ el j).2 hi)
  · rintro ⟨h, hf, hi⟩
    refine ⟨?_, ?_, ?_, fun v hv el => (h el).control v hv, fun s hs => (by cases hs), ?_, ?_, ?_,
      fun r hr e he el => (h el).dynamics r hr e he, hf, hi⟩
    · intro k
      obtain ⟨el, j, rfl⟩ := point_surj k
      exact (h el).x j
    · intro k
      obtain ⟨el, j, rfl⟩ := point_surj k
      exact (h el).y j
    · intro k
      obtain ⟨el, j, rfl⟩ := point_surj k
      exact (h el).u j
    · intro k
      obtain ⟨el, j, rfl⟩ := point_surj k
      exact (h el).alg j
    · intro r hr k hk
      obtain ⟨el, j, rfl⟩ := point_surj k
      exact (h el).eq r hr j ((imposed_point _ el j).1 hk)
    · intro r hr k hk
      obtain ⟨el, j, rfl⟩ := point_surj k
      exact (h el).ineq r hr j ((imposed_point _ el j).1 hk)

/-- The cost is the sum of the costs of the elements and the final cost. -/
theorem cost_elements (hM : GoodMesh M) (w : GridValues K M.size) :
    costOf ops (directScheme ops M hM step start) o w =
      ∑ el, Spec.elementCost ops o M hM step (elementOf M w el) + o.V.eval ops (w (M.lastPoint hM)) := by
  unfold costOf
  have h1 : ∑ k, (directScheme ops M hM step start).weight k * o.L.eval ops (w k) =
      ∑ el, step * ∑ j, quadratureWeight M j * o.L.eval ops (elementOf M w el j) := by
    rw [point_sum]
    refine Finset.sum_congr rfl fun el _ => ?_
    rw [Finset.mul_sum]
    refine Finset.sum_congr rfl fun j _ => ?_
    show step * quadratureWeight M (M.point el j).modNat * _ = _
    rw [point_mod, mul_assoc]
    rfl
  have h2 : ((directScheme ops M hM step start).stages.map fun k => o.S.eval ops (w k)).sum =
      ∑ el, o.S.eval ops (elementOf M w el (M.lastRoot hM)) := by
    show (((List.finRange M.elements).map fun el => M.point el (M.lastRoot hM)).map _).sum = _
    rw [List.map_map, ← List.ofFn_eq_map, List.sum_ofFn]
    rfl
  rw [h1, h2]
  show _ + o.V.eval ops (w (M.lastPoint hM)) + _ = _
  unfold Spec.elementCost
  rw [Finset.sum_add_distrib]
  ring

/-- The symbols of the time do not matter. -/
theorem allowed_congr (ht : ∀ e ∈ alongPath o, o.model.t ∉ e.syms) (hv : ∀ s ∈ o.model.x ++ o.model.y ++ o.model.u,
      s ≠ o.model.t) (hk : ∀ r ∈ o.model.ode, r.1 ∈ o.model.x) {start start' : Sym → K}
    {q q' : ElementValues K M} (hq : ∀ j s, s ≠ o.model.t → q' j s = q j s)
    (hs : ∀ s ∈ o.model.x, start' s = start s) (h : ElementAllowed ops o M step start q) :
    ElementAllowed ops o M step start' q' := by
  have hev : ∀ j, ∀ e ∈ alongPath o, e.eval ops (q' j) = e.eval ops (q j) := fun j e he =>
    Expr.eval_congr ops _ _ e fun s hs => hq j s fun heq => ht e he (heq ▸ hs)
  have hx : ∀ j, ∀ s ∈ o.model.x, q' j s = q j s := fun j s hs => hq j s (hv s (by simp [hs]))
  have hy : ∀ j, ∀ s ∈ o.model.y, q' j s = q j s := fun j s hs => hq j s (hv s (by simp [hs]))
  have hu : ∀ j, ∀ s ∈ o.model.u, q' j s = q j s := fun j s hs => hq j s (hv s (by simp [hs]))
  have hw : ∀ (lo hi : List XRat) (vars : List Sym) (j : Fin M.roots.length),
      (∀ s ∈ vars, q' j s = q j s) → AllWithin lo hi vars (q j) → AllWithin lo hi vars (q' j) := by
    intro lo hi vars j he h r hr
    rw [he r.1 (List.of_mem_zip hr).1]
    exact h r hr
  refine ⟨⟨fun j e he => ?_, fun r hr e he => ?_⟩, fun j => hw _ _ _ j (hx j) (h.x j),
    fun j => hw _ _ _ j (hy j) (h.y j), fun j => hw _ _ _ j (hu j) (h.u j), fun v hv' => ?_,
    fun r hr j hi => ?_, fun r hr j hi => ?_⟩
  · rw [hev j e (by simp [alongPath, he])]
    exact h.alg j e he
  · obtain ⟨P, h1, h2, h3⟩ := h.dynamics r hr e he
    have hrx := hk r hr
    refine ⟨P, h1, by rw [hs _ hrx]; exact h2, fun j => ⟨by rw [hx j _ hrx]; exact (h3 j).1, ?_⟩⟩
    rw [hev j e]
    · exact (h3 j).2
    · have : e ∈ o.model.odeVec := (mem_odeVec _ _).2 ⟨r.1, by rw [← he]; exact hr⟩
      simp [alongPath, this]
  · obtain ⟨P, h1, h2⟩ := h.control v hv'
    exact ⟨P, h1, fun j => by rw [hu j v hv']; exact h2 j⟩
  · rw [hev j r.1 (by simp [alongPath, (List.of_mem_zip hr).1])]
    exact h.eq r hr j hi
  · rw [hev j r.1 (by simp [alongPath, (List.of_mem_zip hr).1])]
    exact h.ineq r hr j hi

omit [LinearOrder K] [IsStrictOrderedRing K] in
theorem elementCost_congr (hM : GoodMesh M) (ht : ∀ e ∈ alongPath o, o.model.t ∉ e.syms)
    {q q' : ElementValues K M} (hq : ∀ j s, s ≠ o.model.t → q' j s = q j s) :
    Spec.elementCost ops o M hM step q' = Spec.elementCost ops o M hM step q := by
  have hev : ∀ j, ∀ e ∈ alongPath o, e.eval ops (q' j) = e.eval ops (q j) := fun j e he =>
    Expr.eval_congr ops _ _ e fun s hs => hq j s fun heq => ht e he (heq ▸ hs)
  unfold Spec.elementCost
  rw [hev _ o.S (by simp [alongPath])]
  simp only [hev _ o.L (by simp [alongPath])]

/-! ## Going on -/

omit [Field K] [LinearOrder K] [IsStrictOrderedRing K] in
theorem continued_before (tr : GridValues K M.size) (q : ElementValues K M) (el : Fin M.elements)
    (h : el.val + 1 < M.elements) (j : Fin M.roots.length) :
    continued M tr q (M.point el j) = tr (M.point ⟨el.val + 1, h⟩ j) := by
  unfold continued
  simp only [point_div, point_mod]
  rw [dif_pos h]

omit [Field K] [LinearOrder K] [IsStrictOrderedRing K] in
theorem continued_last (tr : GridValues K M.size) (q : ElementValues K M) (el : Fin M.elements)
    (h : ¬ el.val + 1 < M.elements) (j : Fin M.roots.length) :
    continued M tr q (M.point el j) = q j := by
  unfold continued
  simp only [point_div, point_mod]
  rw [dif_neg h]

omit [LinearOrder K] [IsStrictOrderedRing K] in
/-- Off the time the elements of the continued trajectory are the following ones. -/
theorem element_before (ha : Autonomous ops o M par val) (q : ElementValues K M) (el : Fin M.elements)
    (h : el.val + 1 < M.elements) (j : Fin M.roots.length) (s : Sym) (hs : s ≠ o.model.t) :
    elementOf M (withValues par val (continued M tr q)) el j s =
      elementOf M (withValues par val tr) ⟨el.val + 1, h⟩ j s := by
  simp only [elementOf, withValues, continued_before tr q el h]
  split
  · rename_i hp
    exact ha.steady s hp hs _ _ j
  · rfl

omit [Field K] [LinearOrder K] [IsStrictOrderedRing K] in
theorem element_last (hM : GoodMesh M) (q : ElementValues K M)
    (hq : ∀ j, ∀ s ∈ par, q j s = val (M.point (M.lastElement hM) j) s) (el : Fin M.elements)
    (h : ¬ el.val + 1 < M.elements) :
    elementOf M (withValues par val (continued M tr q)) el = q := by
  have hel : el = M.lastElement hM := Fin.ext (by
    have := el.isLt
    show el.val = M.elements - 1
    omega)
  funext j s
  simp only [elementOf, withValues, continued_last tr q el h]
  split
  · rename_i hp
    rw [hq j s hp, hel]
  · rfl

omit [Field K] [LinearOrder K] [IsStrictOrderedRing K] in
/-- The states before the elements of the continued trajectory. -/
theorem before_continued (hM : GoodMesh M) (hfree : ∀ s ∈ o.model.x, s ∉ par) {start' : Sym → K}
    (q : ElementValues K M)
    (hs : ∀ s ∈ o.model.x, start' s = tr (M.point (M.firstElement hM) (M.lastRoot hM)) s)
    (el : Fin M.elements) (s : Sym) (hx : s ∈ o.model.x) :
    valueBefore M hM start' (withValues par val (continued M tr q)) s el =
      withValues par val tr (M.point el (M.lastRoot hM)) s := by
  have hw : ∀ (w : GridValues K M.size) k, withValues par val w k s = w k s := fun w k =>
    if_neg (hfree s hx)
  rw [hw]
  unfold valueBefore
  split
  · rename_i h0
    rw [hs s hx, show el = M.firstElement hM from Fin.ext h0]
  · rename_i h0
    rw [hw, continued_before tr q ⟨el.val - 1, _⟩ (show el.val - 1 + 1 < _ by have := el.isLt; omega)]
    have he : (⟨el.val - 1 + 1, by have := el.isLt; omega⟩ : Fin M.elements) = el := Fin.ext (by
      show el.val - 1 + 1 = el.val
      omega)
    exact congrArg (fun e => tr (M.point e (M.lastRoot hM)) s) he

/-- The continued trajectory is allowed. -/
theorem continued_allowed (hM : GoodMesh M) (ha : Autonomous ops o M par val) (htp : o.model.t ∈ par)
    (hfree : ∀ s ∈ o.model.x ++ o.model.y ++ o.model.u, s ∉ par) (hk : ∀ r ∈ o.model.ode, r.1 ∈ o.model.x)
    {start start' : Sym → K} {x0' : List K} (hst : StartsAt o x0' start')
    (hs : ∀ s ∈ o.model.x, start' s = tr (M.point (M.firstElement hM) (M.lastRoot hM)) s)
    (h : SatisfiesAll ops (directScheme ops M hM step start) o (withValues par val tr))
    {q : ElementValues K M} (hq : ∀ j, ∀ s ∈ par, q j s = val (M.point (M.lastElement hM) j) s)
    (hqa : ElementAllowed ops o M step (withValues par val tr (M.lastPoint hM)) q)
    (hqf : FinalHolds ops o (q (M.lastRoot hM))) :
    SatisfiesAll ops (directScheme ops M hM step start') o (withValues par val (continued M tr q)) := by
  have hv : ∀ s ∈ o.model.x ++ o.model.y ++ o.model.u, s ≠ o.model.t := fun s h he =>
    hfree s h (he ▸ htp)
  have hfx : ∀ s ∈ o.model.x, s ∉ par := fun s h => hfree s (by simp [h])
  have hend : ¬ (M.lastElement hM).val + 1 < M.elements := by
    show ¬ M.elements - 1 + 1 < M.elements
    omega
  obtain ⟨h1, h2, h3⟩ := (satisfies_iff hM _).1 h
  refine (satisfies_iff hM _).2 ⟨fun el => ?_, ?_, ?_⟩
  · by_cases hel : el.val + 1 < M.elements
    · refine allowed_congr ha.timeless hv hk (fun j s hs' => element_before ha q el hel j s hs')
        (fun s hsx => ?_) (h1 ⟨el.val + 1, hel⟩)
      rw [before_continued hM hfx q hs el s hsx]
      unfold valueBefore
      rw [if_neg (by simp)]
      rfl
    · rw [element_last hM q hq el hel]
      have he : el = M.lastElement hM := Fin.ext (by
        have := el.isLt
        show el.val = M.elements - 1
        omega)
      refine allowed_congr ha.timeless hv hk (fun j s _ => rfl) (fun s hsx => ?_) hqa
      rw [before_continued hM hfx q hs el s hsx, he]
      rfl
  · have := congrFun (element_last (tr := tr) (val := val) hM q hq _ hend) (M.lastRoot hM)
    rw [lastPoint_eq, show withValues par val (continued M tr q)
      (M.point (M.lastElement hM) (M.lastRoot hM)) = q (M.lastRoot hM) from this]
    exact hqf
  · refine ha.initial start' fun i s s' hi hi' => ?_
    rw [hst.states i s hi, hst.symbols i s' hi']

/-- Its cost. -/
theorem continued_cost (hM : GoodMesh M) (ha : Autonomous ops o M par val) {start start' : Sym → K}
    {q : ElementValues K M} (hq : ∀ j, ∀ s ∈ par, q j s = val (M.point (M.lastElement hM) j) s) :
    costOf ops (directScheme ops M hM step start') o (withValues par val (continued M tr q)) +
        Spec.elementCost ops o M hM step (elementOf M (withValues par val tr) (M.firstElement hM)) +
        o.V.eval ops (withValues par val tr (M.lastPoint hM)) =
      costOf ops (directScheme ops M hM step start) o (withValues par val tr) +
        (Spec.elementCost ops o M hM step q + o.V.eval ops (q (M.lastRoot hM))) := by
  rw [cost_elements, cost_elements]
  have hend : ¬ (M.lastElement hM).val + 1 < M.elements := by
    show ¬ M.elements - 1 + 1 < M.elements
    omega
  have hl : withValues par val (continued M tr q) (M.lastPoint hM) = q (M.lastRoot hM) :=
    congrFun (element_last (tr := tr) (val := val) hM q hq _ hend) (M.lastRoot hM)
  rw [hl]
  obtain ⟨n, hn⟩ : ∃ n, M.elements = n + 1 := ⟨M.elements - 1, by have := hM.elements; omega⟩
  have key : ∀ (f g : Fin M.elements → K) (c : K),
      (∀ el (h : el.val + 1 < M.elements), f el = g ⟨el.val + 1, h⟩) → f (M.lastElement hM) = c →
      ∑ el, f el + g (M.firstElement hM) = ∑ el, g el + c := by
    intro f g c hfg hc
    have e1 : ∑ el, f el = ∑ i : Fin (n + 1), f (Fin.cast hn.symm i) :=
      (Fintype.sum_equiv (finCongr hn.symm) _ _ fun _ => rfl).symm
    have e2 : ∑ el, g el = ∑ i : Fin (n + 1), g (Fin.cast hn.symm i) :=
      (Fintype.sum_equiv (finCongr hn.symm) _ _ fun _ => rfl).symm
    rw [e1, e2, Fin.sum_univ_castSucc, Fin.sum_univ_succ (f := fun i => g (Fin.cast hn.symm i))]
    have e3 : f (Fin.cast hn.symm (Fin.last n)) = c := by
      rw [← hc]
      congr 1
      refine Fin.ext ?_
      show n = M.elements - 1
      omega
    have e4 : g (Fin.cast hn.symm 0) = g (M.firstElement hM) := rfl
    have e5 : ∀ i : Fin n, f (Fin.cast hn.symm i.castSucc) = g (Fin.cast hn.symm i.succ) := fun i =>
      hfg _ (by
        show i.val + 1 < M.elements
        have := i.isLt
        omega)
    rw [e3, e4, Finset.sum_congr rfl fun i _ => e5 i]
    ring
  have := key (fun el => Spec.elementCost ops o M hM step
      (elementOf M (withValues par val (continued M tr q)) el))
    (fun el => Spec.elementCost ops o M hM step (elementOf M (withValues par val tr) el))
    (Spec.elementCost ops o M hM step q)
    (fun el h => elementCost_congr hM ha.timeless fun j s hs => element_before ha q el h j s hs)
    (by simp only [element_last (tr := tr) (val := val) hM q hq _ hend])
  linear_combination this

/-! ## The start of the horizon -/

/-- States within their bounds are the start of a horizon. -/
theorem exists_start (hd : (problemSymbols o).Nodup) (a : Sym → K)
    (h : AllWithin o.xMin o.xMax o.model.x a) : ∃ start, StartsAt o (o.model.x.map a) start ∧
      ∀ s ∈ o.model.x, start s = a s := by
  classical
  have hsub : (o.model.x ++ o.model.x0).Nodup := by
    refine hd.sublist ?_
    unfold problemSymbols
    simp only [List.append_assoc]
    refine List.Sublist.trans ?_ (List.sublist_append_right _ _)
    refine List.Sublist.append_left ?_ _
    iterate 4 refine List.Sublist.trans ?_ (List.sublist_append_right _ _)
    exact List.sublist_append_left _ _
  obtain ⟨hx, hx0, hne⟩ := List.nodup_append.1 hsub
  have hentry : ∀ (i : Nat) (s : Sym), o.model.x[i]? = some s → (o.model.x.map a).getD i 0 = a s := by
    intro i s hi
    simp [hi]
  have hst : ∀ s ∈ o.model.x, (if s ∈ o.model.x then a s
      else (o.model.x.map a).getD (o.model.x0.idxOf s) 0) = a s := fun s hs => if_pos hs
  refine ⟨fun s => if s ∈ o.model.x then a s else (o.model.x.map a).getD (o.model.x0.idxOf s) 0,
    ⟨fun i s hi => ?_, fun i s hi => ?_, fun r hr => ?_⟩, hst⟩
  · simp only [hst s (List.mem_of_getElem? hi), hentry i s hi]
  · have hm := List.mem_of_getElem? hi
    simp only [if_neg fun hs => hne s hs s hm rfl]
    congr 1
    obtain ⟨hl, rfl⟩ := List.getElem?_eq_some_iff.1 hi
    exact hx0.idxOf_getElem i hl
  · simp only [hst r.1 (List.of_mem_zip hr).1]
    exact h r hr

/-! ## The plant -/

theorem record_ok {name : String} {v : List Rat} {s s' : Plant.State} {a : Unit}
    (h : Plant.record name v s = (.ok a, s')) : ∃ d, s' = { s with data := d } := by
  simp only [Plant.record, Py.bind_eq, Py.get_bind, Plant.onData] at h
  exact ⟨_, (congrArg Prod.snd h).symm⟩

theorem saveData_ok {x y u : List Rat} {s s' : Plant.State} {a : Unit}
    (h : Plant.saveData x y u s = (.ok a, s')) : ∃ d, s' = { s with data := d } := by
  simp only [Plant.saveData, Py.bind_eq, Py.bind_eq_ok] at h
  obtain ⟨_, s₁, h₁, _, s₂, h₂, h₃⟩ := h
  obtain ⟨d₁, rfl⟩ := record_ok h₁
  obtain ⟨d₂, rfl⟩ := record_ok h₂
  obtain ⟨d₃, rfl⟩ := record_ok h₃
  exact ⟨d₃, rfl⟩

theorem saveMeasurement_ok {m : List Rat × List Rat} {s s' : Plant.State} {a : Unit}
    (h : Plant.saveMeasurement m s = (.ok a, s')) : ∃ d, s' = { s with data := d } := by
  simp only [Plant.saveMeasurement, Py.bind_eq, Py.bind_eq_ok] at h
  obtain ⟨_, s₁, h₁, h₂⟩ := h
  obtain ⟨d₁, rfl⟩ := record_ok h₁
  obtain ⟨d₂, rfl⟩ := record_ok h₂
  exact ⟨d₂, rfl⟩

/-- What a plain plant does with a control function: it uses its value at the start of the interval. -/
theorem function_goes {env : Plant.Env} (hp : env.points = [1]) (hc : env.cRows = Plant.eyeRows env.cCols)
    (hn : env.hasNoise = false) {f : Rat → List Rat} {s s' : Plant.State}
    (h : Plant.setControlFunction env f s = (.ok (), s')) :
    ∃ r, env.simulate s.x s.t (s.t + env.tS) (f s.t) = .ok r ∧ s'.x = r.1 ∧ s'.t = s.t + env.tS ∧
      s'.measurement = r.1 ++ r.2.1 := by
  simp only [Plant.setControlFunction, Plant.advance, Plant.advanceLoop, Plant.advanceTo, Plant.simulateTo,
    Plant.refreshControl, Plant.addNoise, Plant.measure, hp, hn, Py.bind_eq, Py.bind_eq_ok, Py.modify,
    Py.get, Bool.false_eq_true, if_false, Py.pure_apply, Prod.mk.injEq, Except.ok.injEq, Plant.bound,
    Py.lift, one_mul] at h
  obtain ⟨_, _, ⟨-, rfl⟩, _, _, ⟨rfl, rfl⟩, _, s₃, ⟨_, s₄, ⟨_, s₅, ⟨-, rfl⟩, r, s₆, ⟨_, _, ⟨rfl, rfl⟩, hsim, rfl⟩,
    x, s₇, ⟨rfl, rfl⟩, _, s₈, ⟨-, rfl⟩, _, s₉, hsave, rfl, rfl⟩, rfl, rfl⟩, xy, s₁₀, hb, rest⟩ := h
  obtain ⟨d, rfl⟩ := saveData_ok hsave
  cases hb
  clear hsave
  obtain ⟨m, s₁₁, ⟨c, s₁₂, ⟨hm, rfl⟩, _, _, ⟨rfl, rfl⟩, rfl, rfl⟩, _, s₁₃, hsm, -, rfl⟩ := rest
  obtain ⟨d', rfl⟩ := saveMeasurement_ok hsm
  refine ⟨r, hsim, rfl, rfl, ?_⟩
  show c = r.1 ++ r.2.1
  unfold Plant.mulVec at hm
  split at hm
  · rename_i hl
    rw [← Except.ok.inj hm, hc]
    exact Plant.eye_mul _ _ hl.symm
  · cases hm

end ClosedLoop
end Verif
