import Verif.Spec.Mpc
import Verif.Lemmas.LayoutGuess
import Verif.Lemmas.Plant
/-! Lemmas about the controller. -/
namespace Verif
namespace Mpc

variable {W : Type}

/-! ## The loops -/

theorem times_succ {σ : Type} (n : Nat) (m : Py σ Unit) :
    Spec.times (n + 1) m = Py.bind m fun _ => Spec.times n m := rfl

theorem countLoop_eq {σ : Type} (body : Py σ Unit) (n : Int) (k : Nat) :
    countLoop body n k = Spec.times (max 1 (n - k).toNat) body := by
  induction h : (n - k).toNat generalizing k with
  | zero =>
    rw [countLoop, if_pos (by omega)]
    rfl
  | succ j ih =>
    rw [countLoop]
    by_cases hk : (k : Int) ≥ n - 1
    · rw [if_pos hk]
      have : j = 0 := by omega
      subst this; rfl
    · rw [if_neg hk, ih (k + 1) (by push_cast; omega)]
      have : max 1 (j + 1) = max 1 j + 1 := by omega
      rw [this, times_succ]

theorem forEach_range {σ : Type} (m : Py σ Unit) (l : List Nat) :
    Py.forEach l (fun _ => m) = Spec.times l.length m := by
  induction l with
  | nil => rfl
  | cons a l ih => simp only [Py.forEach, List.length_cons, Spec.times, ih]

/-! ## Warm start -/

theorem except_ok_bind {α β : Type} (a : α) (f : α → Except Err β) : (Except.ok a >>= f) = f a := rfl

theorem lastOf_eq {α : Type} {l : List α} {a : α} (h : l.getLast? = some a) : lastOf l = .ok a := by
  simp [lastOf, h]

theorem shiftOne_cons {α : Type} (b : α) {l : List α} {a : α} (h : l.getLast? = some a) :
    shiftOne (b :: l) = .ok (l ++ [a]) := by
  simp only [shiftOne, popFirst, except_ok_bind, lastOf_eq h]
  rfl

theorem shiftOne_run {α : Type} (l : List α) (h : 2 ≤ l.length) :
    ∃ l', shiftOne l = .ok l' ∧ l'.length = l.length ∧
      ∀ k, k < l.length → l'[k]? = l[Spec.nextElement l.length k]? := by
  cases l with
  | nil => simp at h
  | cons a l =>
    have hne : l ≠ [] := by rintro rfl; simp at h
    have hlast : l.getLast? = some (l.getLast hne) := List.getLast?_eq_getLast_of_ne_nil hne
    refine ⟨l ++ [l.getLast hne], ?_, by simp, ?_⟩
    · exact shiftOne_cons a hlast
    · intro k hk
      simp only [List.length_cons] at hk h
      simp only [Spec.nextElement, List.length_cons]
      rcases Nat.lt_or_ge k l.length with h1 | h1
      · rw [List.getElem?_append_left h1]
        rw [show min (k + 1) (l.length + 1 - 1) = k + 1 by omega, List.getElem?_cons_succ]
      · have hk' : k = l.length := by omega
        subst hk'
        rw [show min (l.length + 1) (l.length + 1 - 1) = (l.length - 1) + 1 by omega,
          List.getElem?_cons_succ, List.getElem?_append_right (Nat.le_refl _), Nat.sub_self,
          List.getElem?_cons_zero, ← hlast, List.getLast?_eq_getElem?]

theorem shiftOne_mem {α : Type} {l l' : List α} (h : shiftOne l = .ok l') : ∀ a ∈ l', a ∈ l := by
  cases l with
  | nil => cases h
  | cons b l =>
    cases hl : l.getLast? with
    | none =>
      simp only [shiftOne, popFirst, except_ok_bind, lastOf, hl] at h
      cases h
    | some c =>
      rw [shiftOne_cons b hl] at h
      cases h
      intro a ha
      simp only [List.mem_append, List.mem_singleton] at ha
      rcases ha with ha | rfl
      · exact List.mem_cons_of_mem _ ha
      · exact List.mem_cons_of_mem _ (List.mem_of_getLast? hl)

theorem shiftStates_run {α : Type} (xs : List (List α)) (last : α) (h : 2 ≤ xs.length)
    (hlast : xs.getLast?.bind List.getLast? = some last) :
    ∃ xs', shiftOne xs = .ok xs' ∧
      shiftStates (xs ++ [[last]]) = .ok (xs' ++ [[last]]) ∧
      xs'.getLast?.bind List.getLast? = some last := by
  cases xs with
  | nil => simp at h
  | cons a l =>
    have hne : l ≠ [] := by rintro rfl; simp at h
    have hl : l.getLast? = some (l.getLast hne) := List.getLast?_eq_getLast_of_ne_nil hne
    have hl' : (l.getLast hne).getLast? = some last := by
      rw [List.getLast?_cons, hl] at hlast
      simpa using hlast
    refine ⟨l ++ [l.getLast hne], ?_, ?_, by simp [hl']⟩
    · exact shiftOne_cons a hl
    · have hpop : popLast (l ++ [[last]]) = .ok l := by
        cases l with
        | nil => exact absurd rfl hne
        | cons b l =>
          show Except.ok ((b :: l) ++ [[last]]).dropLast = _
          rw [List.dropLast_concat]
      simp only [shiftStates, popFirst, List.cons_append, except_ok_bind, hpop, lastOf_eq hl,
        lastOf_eq hl']
      rfl

theorem grid_shiftOne {α : Type} {e k n : Nat} {g g' : List (List (List α))} (h : Spec.Grid e k n g)
    (hs : shiftOne g = .ok g') (hl : g'.length = g.length) : Spec.Grid e k n g' :=
  ⟨hl.trans h.1, fun l hl' => h.2 l (shiftOne_mem hs l hl')⟩

theorem repack_map {α β : Type} (f : α → β) (b : Blocks α) :
    Layout.repack (Spec.mapBlocks f b) = (Layout.repack b).map f := by
  simp [Layout.repack_eq, Spec.mapBlocks, List.map_flatten, ← List.map_dropLast]

theorem shape_map {α β : Type} (f : α → β) (d : Dims) (b : Blocks α)
    (h : Spec.CollocationShape d b) : Spec.CollocationShape d (Spec.mapBlocks f b) := by
  have hgrid : ∀ {e k n : Nat} {g : List (List (List α))}, Spec.Grid e k n g →
      Spec.Grid e k n (g.map (List.map (List.map f))) := by
    intro e k n g hg
    refine ⟨by simp [hg.1], ?_⟩
    intro l hl
    simp only [List.mem_map] at hl
    obtain ⟨l, hl, rfl⟩ := hl
    refine ⟨by simp [(hg.2 l hl).1], ?_⟩
    intro c hc
    simp only [List.mem_map] at hc
    obtain ⟨c, hc, rfl⟩ := hc
    simp [(hg.2 l hl).2 c hc]
  obtain ⟨before, front, last, hx, hg⟩ := h.x
  refine ⟨⟨hgrid h.u, by simp [Spec.mapBlocks, h.eta], by simp [Spec.mapBlocks, h.pOpt], ?_⟩, ?_,
    hgrid h.y⟩
  · refine ⟨by simp [Spec.mapBlocks, h.thetaOpt.1], ?_⟩
    intro c hc
    simp only [Spec.mapBlocks, List.mem_map] at hc
    obtain ⟨c, hc, rfl⟩ := hc
    simp [h.thetaOpt.2 c hc]
  · refine ⟨before.map (List.map (List.map f)), front.map (List.map f), last.map f, ?_, ?_⟩
    · simp [Spec.mapBlocks, hx]
    · have := hgrid hg
      simpa using this

/-- The warm start, for at least two elements and a vector of the right size. -/
theorem step_run (d : Dims) (v : List Rat) (hd : 2 ≤ d.elements)
    (hv : v.length = Spec.collocationSize d) :
    ∃ b xs xs' last y u, Layout.collocationBlocks d v = .ok b ∧ b.x = xs ++ [[last]] ∧
      xs.length = d.elements ∧ b.y.length = d.elements ∧ b.u.length = d.elements ∧
      shiftOne xs = .ok xs' ∧ shiftOne b.y = .ok y ∧ shiftOne b.u = .ok u ∧
      Spec.CollocationShape d { b with x := xs' ++ [[last]], y := y, u := u } ∧
      step d v = .ok (Layout.repack (Spec.mapBlocks (fun a => a * (11 / 10))
        { b with x := xs' ++ [[last]], y := y, u := u })) ∧
      (Layout.repack (Spec.mapBlocks (fun a => a * (11 / 10))
        { b with x := xs' ++ [[last]], y := y, u := u })).length = v.length := by
  obtain ⟨b, hb, hvb, hs⟩ : ∃ b, Layout.collocationBlocks d v = .ok b ∧ Layout.repack b = v ∧
      Spec.CollocationShape d b := by
    obtain ⟨h1, -, -⟩ := Layout.parses_collocation d (by omega) v 0 (Nat.zero_le _)
    rw [Nat.zero_add] at h1
    obtain ⟨b, hb, -⟩ := h1 hv.symm
    have hb' : Layout.collocationBlocks d v = .ok b := hb
    exact ⟨b, hb', (Layout.collocationBlocks_ok hb')⟩
  obtain ⟨before, front, last, hx, hg⟩ := hs.x
  have hxl : (before ++ [front ++ [last]]).length = d.elements := hg.1
  have hlast : (before ++ [front ++ [last]]).getLast?.bind List.getLast? = some last := by simp
  obtain ⟨xs', h1, h2, h3⟩ := shiftStates_run (before ++ [front ++ [last]]) last (by omega) hlast
  obtain ⟨xs'', h1', hxl', -⟩ := shiftOne_run (before ++ [front ++ [last]]) (by omega)
  obtain rfl : xs'' = xs' := by rw [h1] at h1'; cases h1'; rfl
  obtain ⟨y, hy, hyl, -⟩ := shiftOne_run b.y (by rw [hs.y.1]; omega)
  obtain ⟨u, hu, hul, -⟩ := shiftOne_run b.u (by rw [hs.u.1]; omega)
  have hgx := grid_shiftOne hg h1 hxl'
  have hshape : Spec.CollocationShape d { b with x := xs'' ++ [[last]], y := y, u := u } := by
    refine ⟨⟨grid_shiftOne hs.u hu hul, hs.eta, hs.pOpt, hs.thetaOpt⟩, ?_,
      grid_shiftOne hs.y hy hyl⟩
    cases hlx : xs''.getLast? with
    | none => rw [hlx] at h3; simp at h3
    | some el =>
      rw [hlx] at h3
      have h3' : el.getLast? = some last := h3
      obtain ⟨before', hbef⟩ := List.getLast?_eq_some_iff.mp hlx
      obtain ⟨front', hfr⟩ := List.getLast?_eq_some_iff.mp h3'
      refine ⟨before', front', last, by rw [hbef, hfr], ?_⟩
      rw [← hfr, ← hbef]; exact hgx
  have hsize : (Layout.repack { b with x := xs'' ++ [[last]], y := y, u := u }).length = v.length := by
    have := Layout.collocationBlocks_repack hshape
    obtain ⟨h1, h2, h3⟩ := Layout.parses_collocation d (by omega)
      (Layout.repack { b with x := xs'' ++ [[last]], y := y, u := u }) 0 (Nat.zero_le _)
    rw [Nat.zero_add] at h2 h3
    rcases Nat.lt_trichotomy (Layout.repack { b with x := xs'' ++ [[last]], y := y, u := u }).length
      (Spec.collocationSize d) with h | h | h
    · have h' := h2 h
      simp only [Layout.collocationBlocks, h'] at this
      cases this
    · rw [h, hv]
    · have h' := h3 h
      simp only [Layout.collocationBlocks, h'] at this
      cases this
  refine ⟨b, _, xs'', last, y, u, hb, hx, hxl, hs.y.1, hs.u.1, h1, hy, hu, hshape, ?_, ?_⟩
  · simp only [step, hb, except_ok_bind, hx, h2, hy, hu]
    rw [if_pos hsize.symm, repack_map]
    rfl
  · rw [repack_map, List.length_map, hsize]

theorem step_single (d : Dims) (v : List Rat) (hd : d.elements = 1)
    (hv : v.length = Spec.collocationSize d) : step d v = .error .indexError := by
  obtain ⟨h1, -, -⟩ := Layout.parses_collocation d (by omega) v 0 (Nat.zero_le _)
  rw [Nat.zero_add] at h1
  obtain ⟨b, hb, -⟩ := h1 hv.symm
  have hb' : Layout.collocationBlocks d v = .ok b := hb
  obtain ⟨-, hs⟩ := Layout.collocationBlocks_ok hb'
  obtain ⟨before, front, last, hx, hg⟩ := hs.x
  have : before = [] := by
    have := hg.1
    rw [List.length_append, List.length_singleton, hd] at this
    exact List.length_eq_zero_iff.mp (by omega)
  subst this
  have : shiftStates b.x = .error .indexError := by
    rw [hx]; rfl
  simp only [step, hb', except_ok_bind, this]
  rfl

/-! ## The parameter vector -/

theorem find?_append_reverse (l : List (Nat × Rat)) (a : Nat × Rat) (i : Nat) :
    (l ++ [a]).reverse.find? (fun ia => decide (ia.1 = i)) =
      if a.1 = i then some a else l.reverse.find? fun ia => decide (ia.1 = i) := by
  rw [List.reverse_append]
  simp only [List.reverse_singleton, List.singleton_append, List.find?_cons]
  by_cases h : a.1 = i <;> simp [h]

theorem assigned_concat (p0 : List Rat) (l : List (Nat × Rat)) (a : Nat × Rat) (i : Nat) :
    Spec.assigned p0 (l ++ [a]) i = if a.1 = i then some a.2 else Spec.assigned p0 l i := by
  unfold Spec.assigned
  rw [find?_append_reverse]
  by_cases h : a.1 = i <;> simp [h]

/-- The parameter vector with a list of assignments done. -/
def Assigned (p0 : List Rat) (l : List (Nat × Rat)) (p : List Rat) : Prop :=
  p.length = p0.length ∧ ∀ i, i < p0.length → p[i]? = Spec.assigned p0 l i

theorem writeParameters_run (v : List Rat) (indices : List (Nat × Nat)) (p0 : List Rat) :
    ∀ (l : List (Nat × Rat)) (p : List Rat) (s : State W), s.p = some p → Assigned p0 l p →
      (∀ ij ∈ indices, ij.1 < v.length ∧ ij.2 < p0.length) →
      ∃ p', writeParameters v indices s = (.ok (), { s with p := some p' }) ∧
        Assigned p0 (l ++ indices.map fun ij => (ij.2, v.getD ij.1 0)) p' := by
  induction indices with
  | nil =>
    intro l p s hp ha _
    refine ⟨p, ?_, by simpa using ha⟩
    cases s; simp only at hp; subst hp; rfl
  | cons ij rest ih =>
    intro l p s hp ha hin
    obtain ⟨h1, h2⟩ := hin ij (by simp)
    have he : entryOf v ij.1 = .ok (v.getD ij.1 0) := by
      simp [entryOf, List.getElem?_eq_getElem h1, List.getD]
    have hw : writeParameter ij.2 (v.getD ij.1 0) s =
        (.ok (), { s with p := some (p.set ij.2 (v.getD ij.1 0)) }) := by
      simp only [writeParameter, hp]
      rw [if_pos (by rw [ha.1]; exact h2)]
    obtain ⟨p', hr, ha'⟩ := ih (l ++ [(ij.2, v.getD ij.1 0)]) (p.set ij.2 (v.getD ij.1 0))
      { s with p := some (p.set ij.2 (v.getD ij.1 0)) } rfl ⟨by simp [ha.1], by
        intro i hi
        rw [assigned_concat, List.getElem?_set]
        by_cases h : ij.2 = i
        · simp [h, ha.1, hi]
        · simp [h, ha.2 i hi]⟩ (fun ij' h' => hin ij' (by simp [h']))
    refine ⟨p', ?_, by simpa using ha'⟩
    simp only [writeParameters, Py.forEach, Py.bind_eq]
    rw [Py.bind_ok (a := ()) (s' := { s with p := some (p.set ij.2 (v.getD ij.1 0)) })]
    · exact hr
    · rw [he, Py.lift_ok_bind, hw]

theorem getParameter_run (c : Config W) (x cov p0 : List Rat) (l : List (Nat × Rat)) (p : List Rat)
    (s : State W) (hp : s.p = some p) (ha : Assigned p0 l p)
    (hf : Spec.ParametersFit c p0.length x cov) :
    ∃ p', getParameter c x cov s = (.ok (some p'), { s with p := some p' }) ∧
      Assigned p0 (l ++ Spec.assignments c x cov) p' := by
  obtain ⟨p1, h1, a1⟩ : ∃ p1, whenTrue c.meanAsParameter (writeParameters x c.meanIndices) s =
      (.ok (), { s with p := some p1 }) ∧ Assigned p0 (l ++ if c.meanAsParameter then
        c.meanIndices.map fun ij => (ij.2, x.getD ij.1 0) else []) p1 := by
    cases hm : c.meanAsParameter with
    | false =>
      refine ⟨p, ?_, by simpa using ha⟩
      cases s; simp only at hp; subst hp; rfl
    | true => simpa [whenTrue] using writeParameters_run x c.meanIndices p0 l p s hp ha (hf.mean hm)
  obtain ⟨p2, h2, a2⟩ : ∃ p2, whenTrue c.covarianceAsParameter (writeParameters cov c.covIndices)
      { s with p := some p1 } = (.ok (), { s with p := some p2 }) ∧
      Assigned p0 ((l ++ if c.meanAsParameter then
        c.meanIndices.map fun ij => (ij.2, x.getD ij.1 0) else []) ++
        if c.covarianceAsParameter then c.covIndices.map fun ij => (ij.2, cov.getD ij.1 0) else [])
        p2 := by
    cases hm : c.covarianceAsParameter with
    | false => exact ⟨p1, rfl, by simpa using a1⟩
    | true =>
      simpa [whenTrue] using writeParameters_run cov c.covIndices p0 _ p1 { s with p := some p1 } rfl a1
        (hf.covariance hm)
  refine ⟨p2, ?_, by simpa [Spec.assignments] using a2⟩
  simp only [getParameter, Py.bind_eq]
  rw [Py.bind_ok h1, Py.bind_ok h2]
  rfl

/-! ## One cycle -/

theorem onPlant_run {α : Type} {m : Py Plant.State α} {s : State W} {r : Except Err α}
    {q : Plant.State} (h : m s.plant = (r, q)) : onPlant m s = (r, { s with plant := q }) := by
  simp [onPlant, h]

theorem keeps_onWorld {α : Type} {P : State W → Prop} (m : Py W α)
    (h : ∀ s w, P s → P { s with world := w }) : Py.Always P (onWorld m) := by
  intro s hs
  exact h s _ hs

theorem keeps_getMeasurement {P : State W → Prop} : Py.Always P (getMeasurement (W := W)) := by
  intro s hs
  exact hs

theorem keeps_getStates {P : State W → Prop} (c : Config W) (m)
    (h : ∀ s w, P s → P { s with world := w }) : Py.Always P (getStates c m) :=
  Py.Always.bind (keeps_onWorld _ h) fun _ => Py.Always.pure _

theorem keeps_writeParameters {P : State W → Prop} (v) (l)
    (h : ∀ s p, P s → P { s with p := p }) : Py.Always P (writeParameters (W := W) v l) := by
  refine Py.Always.forEach _ _ fun ij _ => Py.Always.bind (Py.Always.lift _) fun a => ?_
  intro s hs
  simp only [writeParameter]
  split
  · exact hs
  · split
    · exact h s _ hs
    · exact hs

theorem keeps_getParameter {P : State W → Prop} (c : Config W) (x cov)
    (h : ∀ s p, P s → P { s with p := p }) : Py.Always P (getParameter c x cov) := by
  have hw : ∀ b v l, Py.Always P (whenTrue b (writeParameters (W := W) v l)) := by
    intro b v l
    cases b with
    | false => exact Py.Always.pure _
    | true => exact keeps_writeParameters v l h
  exact Py.Always.bind (hw _ _ _) fun _ => Py.Always.bind (hw _ _ _) fun _ =>
    Py.Always.bind Py.Always.get fun _ => Py.Always.pure _

/-- The plant, the counters and what a failed cycle must not touch. -/
theorem getNewControl_ok {c : Config W} {x u p} {s s' : State W} {v}
    (h : getNewControl c x u p s = (.ok v, s')) :
    s'.plant = s.plant ∧ s'.iteration = s.iteration ∧ s'.debuggerStops = s.debuggerStops + 1 ∧
      s'.p = s.p := by
  simp only [getNewControl, Py.bind_eq, Py.modify_bind, Py.get_bind] at h
  obtain ⟨sol, s1, h1, h⟩ := Py.bind_eq_ok.mp h
  simp only [onWorld, Prod.mk.injEq] at h1
  obtain ⟨-, rfl⟩ := h1
  obtain ⟨g, s2, h2, h⟩ := Py.bind_eq_ok.mp h
  simp only [Py.lift, Prod.mk.injEq] at h2
  obtain ⟨-, rfl⟩ := h2
  simp only [Py.modify_bind, Py.lift, Prod.mk.injEq] at h
  obtain ⟨-, rfl⟩ := h
  exact ⟨rfl, rfl, rfl, rfl⟩

theorem keepsTime_record (name v) (t : Rat) :
    Py.Always (fun s : Plant.State => s.t = t) (Plant.record name v) := by
  intro s hs
  simp only [Plant.record, Py.bind_eq, Py.get_bind, Plant.onData]
  exact hs

theorem keepsTime_saveData (x y u) (t : Rat) :
    Py.Always (fun s : Plant.State => s.t = t) (Plant.saveData x y u) :=
  Py.Always.bind (keepsTime_record "x" x t) fun _ =>
    Py.Always.bind (keepsTime_record "y" y t) fun _ => keepsTime_record "u" u t

theorem advanceTo_time {env : Plant.Env} {tF : Rat} {s s' : Plant.State} {r}
    (h : Plant.advanceTo env tF s = (.ok r, s')) : s'.t = tF := by
  simp only [Plant.advanceTo, Py.bind_eq] at h
  obtain ⟨_, s1, -, h⟩ := Py.bind_eq_ok.mp h
  obtain ⟨w, s2, -, h⟩ := Py.bind_eq_ok.mp h
  obtain ⟨x, s3, -, h⟩ := Py.bind_eq_ok.mp h
  simp only [Py.modify_bind] at h
  obtain ⟨_, s4, h4, h⟩ := Py.bind_eq_ok.mp h
  simp only [Py.pure_apply, Prod.mk.injEq] at h
  obtain ⟨-, rfl⟩ := h
  have := keepsTime_saveData x w.2.1 w.2.2 tF { s3 with t := tF, x := x } rfl
  rw [h4] at this
  exact this

theorem advanceLoop_time {env : Plant.Env} {tS : Rat} (ds : List Rat) :
    ∀ {s s' : Plant.State} {last r}, Plant.advanceLoop env tS ds last s = (.ok r, s') →
      (ds = [] → r = last) ∧ s'.t = (ds.getLast?.map fun d => tS + d * env.tS).getD s.t := by
  induction ds with
  | nil =>
    intro s s' last r h
    simp only [Plant.advanceLoop, Py.pure_apply, Prod.mk.injEq, Except.ok.injEq] at h
    exact ⟨fun _ => h.1.symm, by simp [h.2]⟩
  | cons d ds ih =>
    intro s s' last r h
    simp only [Plant.advanceLoop, Py.bind_eq] at h
    obtain ⟨xy, s1, h1, h⟩ := Py.bind_eq_ok.mp h
    obtain ⟨-, h2⟩ := ih h
    refine ⟨by simp, ?_⟩
    rw [h2, advanceTo_time h1, List.getLast?_cons]
    cases ds.getLast? <;> rfl

theorem advance_time {env : Plant.Env} {s s' : Plant.State} {d : Rat}
    (hd : env.points.getLast? = some d) (h : Plant.advance env s = (.ok (), s')) :
    s'.t = s.t + d * env.tS := by
  simp only [Plant.advance, Py.bind_eq, Py.get_bind] at h
  obtain ⟨last, s1, h1, h⟩ := Py.bind_eq_ok.mp h
  obtain ⟨-, ht⟩ := advanceLoop_time _ h1
  rw [hd] at ht
  have hk : Py.Always (fun q : Plant.State => q.t = s.t + d * env.tS) (Py.bind (Plant.bound last)
      fun xy => Py.bind (Plant.measure env xy.1 xy.2) fun m => Py.bind (Plant.saveMeasurement m)
        fun _ => Py.modify fun s => { s with measurement := m.1 }) := by
    refine Py.Always.bind ?_ fun xy => Py.Always.bind ?_ fun m => Py.Always.bind ?_ fun _ =>
      Py.Always.modify _ fun _ h => h
    · cases last with
      | none => exact Py.Always.throw _
      | some a => exact Py.Always.pure _
    · refine Py.Always.bind (Py.Always.lift _) fun _ => Py.Always.bind ?_ fun _ => Py.Always.pure _
      unfold Plant.addNoise
      split
      · exact Py.Always.bind (fun s h => h) fun _ => Py.Always.lift _
      · exact Py.Always.pure _
    · exact Py.Always.bind (keepsTime_record _ _ _) fun _ => keepsTime_record _ _ _
  have := hk s1 (by simpa using ht)
  rw [h] at this
  exact this

/-- A send that returns moved the clock of the plant and nothing of the controller. -/
theorem sendControl_ok {c : Config W} {u} {s s' : State W} {d : Rat}
    (hd : c.plant.points.getLast? = some d) (h : sendControl c u s = (.ok (), s')) :
    s'.plant.t = s.plant.t + d * c.plant.tS ∧ s'.iteration = s.iteration ∧
      s'.debuggerStops = s.debuggerStops := by
  simp only [sendControl, Py.bind_eq, Py.get_bind] at h
  obtain ⟨values, s1, h1, h⟩ := Py.bind_eq_ok.mp h
  simp only [Py.lift, Prod.mk.injEq] at h1
  obtain ⟨-, rfl⟩ := h1
  obtain ⟨par, s1, h1, h⟩ := Py.bind_eq_ok.mp h
  simp only [Py.lift, Prod.mk.injEq] at h1
  obtain ⟨-, rfl⟩ := h1
  obtain ⟨f, s1, h1, h⟩ := Py.bind_eq_ok.mp h
  simp only [Py.lift, Prod.mk.injEq] at h1
  obtain ⟨-, rfl⟩ := h1
  simp only [onPlant, Prod.mk.injEq] at h
  obtain ⟨h1, rfl⟩ := h
  refine ⟨?_, rfl, rfl⟩
  simp only [Plant.setControlFunction, Py.bind_eq, Py.modify_bind] at h1 ⊢
  exact advance_time (s := { s.plant with uFunction := some f }) hd (Prod.ext h1 rfl)

theorem cycle_ok {c : Config W} {s s' : State W} {d : Rat}
    (hd : c.plant.points.getLast? = some d) (h : cycle c s = (.ok (), s')) :
    s'.plant.t = s.plant.t + d * c.plant.tS ∧ s'.iteration = s.iteration + 1 ∧
      s'.debuggerStops = s.debuggerStops + 1 := by
  simp only [cycle, Py.bind_eq, Py.modify_bind] at h
  obtain ⟨m, s1, h1, h⟩ := Py.bind_eq_ok.mp h
  obtain ⟨xp, s2, h2, h⟩ := Py.bind_eq_ok.mp h
  obtain ⟨p, s3, h3, h⟩ := Py.bind_eq_ok.mp h
  obtain ⟨x, s4, h4, h⟩ := Py.bind_eq_ok.mp h
  obtain ⟨u, s5, h5, hsend⟩ := Py.bind_eq_ok.mp h
  have k1 := keeps_getMeasurement (P := fun q : State W => q.plant = s.plant ∧
    q.iteration = s.iteration + 1 ∧ q.debuggerStops = s.debuggerStops)
    { s with iteration := s.iteration + 1 } ⟨rfl, rfl, rfl⟩
  rw [h1] at k1
  have k2 := keeps_getStates (P := fun q : State W => q.plant = s.plant ∧
    q.iteration = s.iteration + 1 ∧ q.debuggerStops = s.debuggerStops) c m (fun _ _ h => h) s1 k1
  rw [h2] at k2
  have k3 := keeps_getParameter (P := fun q : State W => q.plant = s.plant ∧
    q.iteration = s.iteration + 1 ∧ q.debuggerStops = s.debuggerStops) c xp.1 xp.2
    (fun _ _ h => h) s2 k2
  rw [h3] at k3
  simp only [Py.lift, Prod.mk.injEq] at h4
  obtain ⟨-, rfl⟩ := h4
  obtain ⟨e1, e2, e3, -⟩ := getNewControl_ok h5
  obtain ⟨f1, f2, f3⟩ := sendControl_ok hd hsend
  rw [f1, f2, f3, e1, e2, e3]
  obtain ⟨g1, g2, g3⟩ := k3
  simp only at g1 g2 g3
  rw [g1, g2, g3]
  exact ⟨rfl, rfl, rfl⟩

end Mpc
end Verif
