import Verif.Lemmas.LayoutCreate
/-!
# The initial guess, and the shapes of tables
-/
namespace Verif
namespace Layout

variable {α β : Type}

theorem grid_table (e k n : Nat) (f : Nat → Nat → List α) (h : ∀ a b, (f a b).length = n) :
    Spec.Grid e k n (Spec.table e k f) := by
  refine ⟨by simp [Spec.table], fun l hl => ?_⟩
  obtain ⟨a, -, rfl⟩ := List.mem_map.mp hl
  refine ⟨by simp, fun c hc => ?_⟩
  obtain ⟨b, -, rfl⟩ := List.mem_map.mp hc
  exact h a b

theorem columns_map (k n : Nat) (f : Nat → List α) (h : ∀ a, (f a).length = n) :
    Spec.Columns k n ((List.range k).map f) := by
  refine ⟨by simp, fun c hc => ?_⟩
  obtain ⟨b, -, rfl⟩ := List.mem_map.mp hc
  exact h b

theorem repack_withFinal (b : Blocks α) : repack (Spec.withFinal b) = stacked b := by
  simp [repack_eq, Spec.withFinal, stacked]

theorem collocationStates_withFinal {d : Dims} (hd : 0 < d.elements) {x : List (List (List α))}
    (h : Spec.Grid d.elements (d.degree + 1) d.nX x) :
    Spec.CollocationStates d (x ++ [[(x.getLast?.bind List.getLast?).getD []]]) := by
  obtain ⟨e, he⟩ : ∃ e, d.elements = e + 1 := ⟨d.elements - 1, by omega⟩
  obtain ⟨before, front, last, rfl, -⟩ := lastPoint_grid (he ▸ h)
  exact ⟨before, front, last, by simp, h⟩

theorem map_flatten_flatten (f : α → β) (g : List (List (List α))) :
    (g.map (List.map (List.map f))).flatten.flatten = g.flatten.flatten.map f := by
  rw [List.map_flatten, List.map_flatten]

theorem stacked_map (f : α → β) (b : Blocks α) :
    stacked (Spec.mapBlocks f b) = (stacked b).map f := by
  simp only [stacked, Spec.mapBlocks, List.map_append, List.map_flatten]

theorem grid_map (f : α → β) {e k n : Nat} {g : List (List (List α))} (h : Spec.Grid e k n g) :
    Spec.Grid e k n (g.map (List.map (List.map f))) := by
  refine ⟨by simp [h.1], fun l hl => ?_⟩
  obtain ⟨l', hl', rfl⟩ := List.mem_map.mp hl
  refine ⟨by simp [(h.2 l' hl').1], fun c hc => ?_⟩
  obtain ⟨c', hc', rfl⟩ := List.mem_map.mp hc
  simp [(h.2 l' hl').2 c' hc']

theorem columns_map' (f : α → β) {k n : Nat} {g : List (List α)} (h : Spec.Columns k n g) :
    Spec.Columns k n (g.map (List.map f)) := by
  refine ⟨by simp [h.1], fun c hc => ?_⟩
  obtain ⟨c', hc', rfl⟩ := List.mem_map.mp hc
  simp [h.2 c' hc']

theorem sharedShape_map (f : α → β) {d : Dims} {b : Blocks α} (h : Spec.SharedShape d b) :
    Spec.SharedShape d (Spec.mapBlocks f b) :=
  ⟨grid_map f h.u, by simp [Spec.mapBlocks, h.eta], by simp [Spec.mapBlocks, h.pOpt],
    columns_map' f h.thetaOpt⟩

/-- Blocks that fit collocation before the value at the final time is added. -/
theorem collocationShape_withFinal {d : Dims} (hd : 0 < d.elements) {b : Blocks α}
    (hs : Spec.SharedShape d b) (hx : Spec.Grid d.elements (d.degree + 1) d.nX b.x)
    (hy : Spec.Grid d.elements d.degree d.nY b.y) : Spec.CollocationShape d (Spec.withFinal b) :=
  ⟨⟨hs.u, hs.eta, hs.pOpt, hs.thetaOpt⟩, collocationStates_withFinal hd hx, hy⟩

theorem variableBlocks_shared {d : Dims} {sym : Kind → Nat → Nat → List Sym}
    (hs : Spec.SymSizes d sym) (xe xp yp : Nat) :
    Spec.SharedShape d (Spec.variableBlocks d xe xp yp sym) :=
  ⟨grid_table _ _ _ _ hs.u, hs.eta, hs.pOpt, columns_map _ _ _ hs.thetaOpt⟩

theorem boundColumn_float (n : Nat) (v : XRat) :
    (Spec.boundColumn n (.float v)).length = n := by
  have : Spec.argAt (.float v) = fun _ => some (BVal.num v) := by funext i; rfl
  rw [Spec.boundColumn, this, filterMap_range_some, List.length_replicate]

theorem lowerBlocks_shared {d : Dims} {b : VarBounds} (hb : Spec.BoundSizes d b) (xe xp yp : Nat) :
    Spec.SharedShape d (Spec.lowerBlocks d xe xp yp b) :=
  ⟨grid_table _ _ _ _ fun _ _ => hb.u.1, boundColumn_float _ _, hb.pOpt.1,
    columns_map _ _ _ fun _ => hb.thetaOpt.1⟩

theorem upperBlocks_shared {d : Dims} {b : VarBounds} (hb : Spec.BoundSizes d b) (xe xp yp : Nat) :
    Spec.SharedShape d (Spec.upperBlocks d xe xp yp b) :=
  ⟨grid_table _ _ _ _ fun _ _ => hb.u.2, boundColumn_float _ _, hb.pOpt.2,
    columns_map _ _ _ fun _ => hb.thetaOpt.2⟩

/-! ## Unpacking -/

theorem collocationBlocks_ok {d : Dims} {v : List α} {b : Blocks α}
    (h : collocationBlocks d v = .ok b) : repack b = v ∧ Spec.CollocationShape d b := by
  have hd : 0 < d.elements := by
    by_contra hd
    have h0 : d.elements = 0 := by omega
    simp only [collocationBlocks, unpackCollocation, h0, collect, Py.bind_eq, Py.pure_bind,
      lastPoint, List.getLast?_nil, Option.getD_none] at h
    rw [Py.lift_error_bind] at h
    cases h
  obtain ⟨h1, h2, h3⟩ := parses_collocation d hd v 0 (Nat.zero_le _)
  rw [Nat.zero_add] at h1 h2 h3
  rw [collocationBlocks] at h
  rcases Nat.lt_trichotomy (Spec.collocationSize d) v.length with hl | hl | hl
  · rw [h3 hl] at h; cases h
  · obtain ⟨b', hb', hv, hs⟩ := h1 hl
    rw [h] at hb'
    obtain rfl : b = b' := Except.ok.inj hb'
    exact ⟨by rw [← hv, List.drop_zero], hs⟩
  · rw [h2 hl] at h; cases h

theorem collocationBlocks_repack {d : Dims} {b : Blocks α} (hb : Spec.CollocationShape d b) :
    collocationBlocks d (repack b) = .ok b := by
  obtain ⟨h1, -, -⟩ := parses_collocation d (elements_pos hb) (repack b) 0 (Nat.zero_le _)
  obtain ⟨b', hb', hv, hs⟩ := h1 (by rw [Nat.zero_add, repack_length hb])
  rw [List.drop_zero] at hv
  rw [collocationBlocks, hb', repack_inj hb hs hv]

theorem collocationBlocks_stacked {d : Dims} (hd : 0 < d.elements) {b : Blocks α}
    (hs : Spec.SharedShape d b) (hx : Spec.Grid d.elements (d.degree + 1) d.nX b.x)
    (hy : Spec.Grid d.elements d.degree d.nY b.y) :
    collocationBlocks d (stacked b) = .ok (Spec.withFinal b) := by
  rw [← repack_withFinal]
  exact collocationBlocks_repack (collocationShape_withFinal hd hs hx hy)

theorem shootingBlocks_ok {d : Dims} {v : List α} {b : Blocks α}
    (h : shootingBlocks d v = .ok b) : stacked b = v ∧ Spec.ShootingShape d b := by
  obtain ⟨h1, h2, h3⟩ := parses_shooting d v 0 (Nat.zero_le _)
  rw [Nat.zero_add] at h1 h2 h3
  rw [shootingBlocks] at h
  rcases Nat.lt_trichotomy (Spec.shootingSize d) v.length with hl | hl | hl
  · rw [h3 hl] at h; cases h
  · obtain ⟨b', hb', hv, hs⟩ := h1 hl
    rw [h] at hb'
    obtain rfl : b = b' := Except.ok.inj hb'
    exact ⟨by rw [← hv, List.drop_zero], hs⟩
  · rw [h2 hl] at h; cases h

theorem shootingBlocks_stacked {d : Dims} {b : Blocks α} (hb : Spec.ShootingShape d b) :
    shootingBlocks d (stacked b) = .ok b := by
  obtain ⟨h1, -, -⟩ := parses_shooting d (stacked b) 0 (Nat.zero_le _)
  obtain ⟨b', hb', hv, hs⟩ := h1 (by rw [Nat.zero_add, stacked_length hb])
  rw [List.drop_zero] at hv
  rw [shootingBlocks, hb', stacked_inj hb hs hv]

/-! ## The initial guess -/

theorem entry_eq (zero : α) {v : List α} {i : Nat} (h : i < v.length) :
    entry v i = .ok (v.getD i zero) := by
  simp [entry, h]

theorem setEntry_eq (pre post : List α) (b a : α) :
    setEntry pre.length a (pre ++ b :: post) = (.ok (), pre ++ a :: post) := by
  simp [setEntry]

theorem fill_from (zero : α) {v : List α} {indices : List Nat} (offset k : Nat)
    (hi : ∀ i ∈ indices, i < v.length) (pre mid post : List α) (hpre : pre.length = k + offset)
    (hmid : mid.length = indices.length) :
    Py.forEach (indices.zipIdx k) (fun (ik : Nat × Nat) =>
      Py.bind (Py.lift (.ok v)) fun v => Py.bind (Py.lift (entry v ik.1)) fun a =>
        setEntry (ik.2 + offset) a) (pre ++ mid ++ post) =
      (.ok (), pre ++ indices.map (fun i => v.getD i zero) ++ post) := by
  induction indices generalizing k pre mid with
  | nil =>
    have : mid = [] := List.length_eq_zero_iff.mp (by simpa using hmid)
    subst this
    rfl
  | cons i is ih =>
    cases mid with
    | nil => simp at hmid
    | cons m ms =>
      rw [List.zipIdx_cons]
      unfold Py.forEach
      have hstep : (Py.bind (Py.lift (Except.ok v)) fun v => Py.bind (Py.lift (entry v i)) fun a =>
          setEntry (k + offset) a) (pre ++ (m :: ms) ++ post) =
          (.ok (), pre ++ (v.getD i zero :: ms) ++ post) := by
        rw [Py.lift_ok_bind, entry_eq zero (hi i (by simp)), Py.lift_ok_bind, ← hpre]
        simp only [List.append_assoc, List.cons_append]
        exact setEntry_eq pre (ms ++ post) m _
      rw [Py.bind_ok hstep]
      have := ih (k + 1) (fun j hj => hi j (by simp [hj])) (pre ++ [v.getD i zero]) ms
        (by simp [hpre]; omega) (by simpa using hmid)
      simpa using this

theorem fill_eq (zero : α) {v : List α} {indices : List Nat} (hi : ∀ i ∈ indices, i < v.length)
    (pre mid post : List α) (hmid : mid.length = indices.length) :
    fill (.ok v) pre.length indices (pre ++ mid ++ post) =
      (.ok (), pre ++ indices.map (fun i => v.getD i zero) ++ post) := by
  rw [fill]
  exact fill_from zero pre.length 0 hi pre mid post (by simp) hmid

theorem pOptInit_eq (zero : α) {d : Dims} {indices : List Nat} {p : Option (List α)}
    (hl : indices.length = d.nPOpt) (hp : ∀ v, p = some v → ∀ i ∈ indices, i < v.length) :
    pOptInit zero d indices p = .ok (Spec.picked zero d.nPOpt indices p) := by
  cases p with
  | none => rfl
  | some v =>
    have h := fill_eq zero (hp v rfl) [] (List.replicate d.nPOpt zero) [] (by simp [hl])
    simp only [List.length_nil, List.nil_append, List.append_nil] at h
    simp only [pOptInit, Py.whenSome]
    rw [Py.bind_ok h]
    rfl

theorem theta_from (zero : α) {d : Dims} {indices : List Nat} {th : Dict Nat (List α)}
    (hl : indices.length = d.nThetaOpt) (count start : Nat)
    (ht : ∀ el, start ≤ el → el < start + count → ∃ v, th.get? el = some v ∧
      ∀ i ∈ indices, i < v.length) (pre rest : List α)
    (hpre : pre.length = start * d.nThetaOpt) (hrest : rest.length = count * d.nThetaOpt) :
    Py.forEach (List.range' start count) (fun el =>
      fill (thetaAt th el) (el * d.nThetaOpt) indices) (pre ++ rest) =
      (.ok (), pre ++ ((List.range' start count).map fun el =>
        Spec.picked zero d.nThetaOpt indices (th.get? el)).flatten) := by
  induction count generalizing start pre rest with
  | zero =>
    have : rest = [] := List.length_eq_zero_iff.mp (by simpa using hrest)
    subst this
    rfl
  | succ count ih =>
    rw [List.range'_succ]
    unfold Py.forEach
    obtain ⟨v, hv, hvi⟩ := ht start (Nat.le_refl _) (by omega)
    have hsplit : rest = rest.take d.nThetaOpt ++ rest.drop d.nThetaOpt :=
      (List.take_append_drop _ _).symm
    have hlen : d.nThetaOpt ≤ rest.length := by rw [hrest, Nat.succ_mul]; omega
    have hstep := fill_eq zero hvi pre (rest.take d.nThetaOpt) (rest.drop d.nThetaOpt)
      (by rw [List.length_take, hl]; omega)
    rw [List.append_assoc, ← hsplit, hpre] at hstep
    have hth : thetaAt th start = .ok v := by simp [thetaAt, hv]
    rw [hth, Py.bind_ok hstep]
    have := ih (start + 1) (fun el h1 h2 => ht el (by omega) (by omega))
      (pre ++ indices.map fun i => v.getD i zero) (rest.drop d.nThetaOpt)
      (by simp [hpre, hl, Nat.succ_mul]) (by rw [List.length_drop, hrest, Nat.succ_mul]; omega)
    rw [this]
    simp [hv, Spec.picked]

theorem thetaOptInit_eq (zero : α) {d : Dims} {indices : List Nat}
    {theta : Option (Dict Nat (List α))} (hl : indices.length = d.nThetaOpt)
    (ht : ∀ th, theta = some th → ∀ el < d.elements, ∃ v, th.get? el = some v ∧
      ∀ i ∈ indices, i < v.length) :
    thetaOptInit zero d indices theta = .ok ((List.range d.elements).map fun el =>
      Spec.picked zero d.nThetaOpt indices (Spec.valuesAt theta el)).flatten := by
  cases theta with
  | none =>
    simp only [thetaOptInit, Py.whenSome, Py.pure_bind, Py.get, Spec.valuesAt, Option.bind_none,
      Spec.picked, List.map_const', List.length_range, Except.ok.injEq]
    rw [Nat.mul_comm]
    induction d.elements with
    | zero => simp
    | succ n ih => rw [Nat.succ_mul, Nat.add_comm, List.replicate_add, ih, List.replicate_succ,
        List.flatten_cons]
  | some th =>
    have h := theta_from zero hl d.elements 0 (fun el _ h => ht th rfl el (by omega)) []
      (List.replicate (d.nThetaOpt * d.elements) zero) (by simp) (by simp [Nat.mul_comm])
    simp only [List.nil_append] at h
    simp only [thetaOptInit, Py.whenSome, List.range_eq_range']
    rw [Py.bind_ok h]
    rfl

theorem repmat_flatten (a : List α) (e k : Nat) :
    repmat a (k * e) = (Spec.table e k fun _ _ => a).flatten.flatten := by
  have : (Spec.table e k fun _ _ => a).flatten = List.replicate (k * e) a := by
    simp only [Spec.table, List.map_const', List.length_range]
    induction e with
    | zero => simp
    | succ e ih => simp [List.replicate_succ, ih, Nat.mul_succ, List.replicate_append_replicate,
        Nat.add_comm]
  rw [this, repmat]

theorem initialGuess_eq (zero : α) {d : Dims} (xe xp yp : Nat) {g : GuessInfo α}
    {p : Option (List α)} {theta : Option (Dict Nat (List α))} (h : Spec.GuessFits d g p theta) :
    initialGuess zero d (xp * xe) (yp * d.elements) g p theta =
      .ok (stacked (Spec.guessBlocks zero d xe xp yp g p theta)) := by
  have horz : ∀ (n : Nat) (o : Option (List α)), o.getD (List.replicate n zero) =
      Spec.orZeros zero n o := by intro n o; cases o <;> rfl
  simp only [initialGuess, pOptInit_eq zero h.pOptIndices h.p,
    thetaOptInit_eq zero h.thetaOptIndices h.theta, bind, Except.bind, horz]
  simp only [stacked, Spec.guessBlocks, ← repmat_flatten, Spec.controlPoints]
  by_cases hu : d.nUPar > 0
  · simp only [hu, if_true]; rfl
  · simp only [hu, if_false]
    simp [repmat, pure, Except.pure]

theorem guessBlocks_shared (zero : α) {d : Dims} (xe xp yp : Nat) {g : GuessInfo α}
    {p : Option (List α)} {theta : Option (Dict Nat (List α))} (h : Spec.GuessFits d g p theta) :
    Spec.SharedShape d (Spec.guessBlocks zero d xe xp yp g p theta) := by
  have hpick : ∀ (n : Nat) (is : List Nat) (o : Option (List α)), is.length = n →
      (Spec.picked zero n is o).length = n := by
    intro n is o hn; cases o <;> simp [Spec.picked, hn]
  refine ⟨grid_table _ _ _ _ fun _ _ => ?_, by simp [Spec.guessBlocks],
    hpick _ _ _ h.pOptIndices, columns_map _ _ _ fun _ => hpick _ _ _ h.thetaOptIndices⟩
  cases hu : g.uGuess with
  | none => simp [Spec.orZeros]
  | some u => exact h.uGuess u hu

theorem guess_y (zero : α) {d : Dims} {g : GuessInfo α} {p : Option (List α)}
    {theta : Option (Dict Nat (List α))} (h : Spec.GuessFits d g p theta) :
    (Spec.orZeros zero d.nY g.yGuess).length = d.nY := by
  cases hy : g.yGuess with
  | none => simp [Spec.orZeros]
  | some y => exact h.yGuess y hy

end Layout
end Verif
