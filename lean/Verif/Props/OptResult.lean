import Verif.Lemmas.ResultVectors
import Verif.Lemmas.NetworkModel
/-!
# Properties of optimisation results (C84, C133, C134)
-/
namespace Verif
open OptResult

/-! ## C84: access by name -/

/-- **C84** Access by name gives the row of the named variable, element by element and point by
point. A name used twice means the control first, then the algebraic variable, then the state. An
unknown name raises `ValueError`. -/
theorem C84_by_name (r : OptResult) (name : String) (hx : Spec.Rectangular r.xNames r.x.values)
    (hy : Spec.Rectangular r.yNames r.y.values) (hu : Spec.Rectangular r.uNames r.u.values) :
    (∀ i, Spec.FirstAt r.uNames i name →
      ∃ rows, r.getVariableByName name = .ok rows ∧ Spec.RowOf i rows r.u.values) ∧
    (name ∉ r.uNames → ∀ i, Spec.FirstAt r.yNames i name →
      ∃ rows, r.getVariableByName name = .ok rows ∧ Spec.RowOf i rows r.y.values) ∧
    (name ∉ r.uNames → name ∉ r.yNames → ∀ i, Spec.FirstAt r.xNames i name →
      ∃ rows, r.getVariableByName name = .ok rows ∧ Spec.RowOf i rows r.x.values) ∧
    (name ∉ r.uNames → name ∉ r.yNames → name ∉ r.xNames →
      r.getVariableByName name = .error .valueError) := by
  refine ⟨?_, ?_, ?_, ?_⟩
  · intro i hi
    obtain ⟨v₁, h₁⟩ := attempt_ok r "x" r.xNames name none _ rfl hx
    obtain ⟨v₂, h₂⟩ := attempt_ok r "y" r.yNames name v₁ _ rfl hy
    obtain ⟨rows, h₃, h₄⟩ := attempt_present r "u" r.uNames name v₂ _ rfl hu hi
    exact ⟨rows, by simp [getVariableByName, h₁, h₂, h₃, bind, Except.bind, found], h₄⟩
  · intro hn i hi
    obtain ⟨v₁, h₁⟩ := attempt_ok r "x" r.xNames name none _ rfl hx
    obtain ⟨rows, h₂, h₄⟩ := attempt_present r "y" r.yNames name v₁ _ rfl hy hi
    exact ⟨rows, by simp [getVariableByName, h₁, h₂, attempt_absent, hn, bind, Except.bind, found], h₄⟩
  · intro hn hn' i hi
    obtain ⟨rows, h₂, h₄⟩ := attempt_present r "x" r.xNames name none _ rfl hx hi
    exact ⟨rows, by simp [getVariableByName, h₂, attempt_absent, hn, hn', bind, Except.bind, found], h₄⟩
  · intro hn hn' hn''
    simp [getVariableByName, attempt_absent, hn, hn', hn'', bind, Except.bind, found]

/-- **C84** Access by kind and index: the row of the kind's values, and `NotImplementedError` for
another kind. -/
theorem C84_by_index (r : OptResult) (hx : Spec.Rectangular r.xNames r.x.values)
    (hy : Spec.Rectangular r.yNames r.y.values) (hu : Spec.Rectangular r.uNames r.u.values) :
    (∀ i < r.xNames.length, ∃ rows, r.getVariable "x" i = .ok rows ∧ Spec.RowOf i rows r.x.values) ∧
    (∀ i < r.yNames.length, ∃ rows, r.getVariable "y" i = .ok rows ∧ Spec.RowOf i rows r.y.values) ∧
    (∀ i < r.uNames.length, ∃ rows, r.getVariable "u" i = .ok rows ∧ Spec.RowOf i rows r.u.values) ∧
    ∀ kind i, kind ∉ ["x", "y", "u"] → r.getVariable kind i = .error .notImplementedError := by
  refine ⟨fun i hi => rowOf_ok hx hi, fun i hi => rowOf_ok hy hi, fun i hi => rowOf_ok hu hi, ?_⟩
  intro kind i h
  simp only [List.mem_cons, List.not_mem_nil, or_false, not_or] at h
  simp [getVariable, dataOf, h.1, h.2.1, h.2.2, bind, Except.bind]

/-- **C84** The exported data set: one column per stored time point, with that point's value. -/
theorem C84_dataset (r : OptResult) (hr : Spec.CompleteResult r) :
    ∃ d, r.toDataset [] = (.ok (), d) ∧
      (r.xNames ≠ [] → Spec.Exported d "x" r.xNames (r.finiteElements + 1) (r.x.time ++ [[r.tf]])
        r.x.values) ∧
      (r.yNames ≠ [] → Spec.Exported d "y" r.yNames r.finiteElements r.y.time r.y.values) ∧
      (r.uNames ≠ [] → Spec.Exported d "u" r.uNames r.finiteElements r.u.time r.u.values) ∧
      (r.thetaOptNames ≠ [] → Spec.Exported d "theta_opt" r.thetaOptNames r.finiteElements
        (r.breakpoints.map fun t => [t]) (r.thetaOpt.map fun v => [v])) ∧
      ∀ kv ∈ r.other, ∃ names, Spec.Exported d kv.1 names r.finiteElements kv.2.time kv.2.values := by
  obtain ⟨d, h, ⟨_, hx, _⟩, ⟨_, hy, _⟩, ⟨_, hu, _⟩, ⟨_, ht, _⟩, ho⟩ := toDataset_has r hr
  refine ⟨d, h, fun hn => ⟨_, hx, rfl, rfl, ?_, ?_⟩, fun hn => ⟨_, hy, rfl, rfl, ?_, ?_⟩,
    fun hn => ⟨_, hu, rfl, rfl, ?_, ?_⟩, fun hn => ⟨_, ht, rfl, rfl, ?_, ?_⟩, ?_⟩
  · simp [contents, hn]
  · simp [contents, hn]
  · simp [contents, hn]
  · simp [contents, hn]
  · simp [contents, hn]
  · simp [contents, hn]
  · simp only [contents, hn, if_false, ← List.map_take]
    rw [← List.flatMap_def, List.flatMap_singleton', List.dropLast_eq_take, hr.breakpoints]
    rfl
  · simp only [contents, hn, if_false, ← List.map_take]
    rw [← List.flatMap_def, List.flatMap_singleton', List.take_of_length_le (by rw [hr.thetaOpt.1])]
  · intro kv hkv
    obtain ⟨_, h₁, _⟩ := ho kv hkv
    exact ⟨_, _, h₁, rfl, by simp [DataSet.defaultNames], rfl, rfl⟩

/-- **C84** An export that returns has found as many times as values for every element of the states;
otherwise it raises. -/
theorem C84_dataset_checked (r : OptResult) (d d' : DataSet) (h : r.toDataset d = (.ok (), d'))
    (hn : r.xNames ≠ []) : ∀ el ≤ r.finiteElements, ∃ ts vs,
      (r.x.time ++ [[r.tf]])[el]? = some ts ∧ r.x.values[el]? = some vs ∧ ts ≠ [] ∧
        ts.length = vs.length := by
  intro el hel
  unfold toDataset at h
  simp only [Py.bind_eq] at h
  obtain ⟨_, d₀, h₀, h⟩ := Py.bind_eq_ok.mp h
  obtain ⟨_, d₁, h₁, h⟩ := Py.bind_eq_ok.mp h
  obtain ⟨_, d₂, h₂, h⟩ := Py.bind_eq_ok.mp h
  obtain ⟨_, d₃, h₃, h⟩ := Py.bind_eq_ok.mp h
  simp only [insertIfNamed, List.length_pos_iff.mpr hn, if_true] at h₃
  obtain ⟨_, _, h₄⟩ := Py.forEach_ok_mem h₃ (a := el) (List.mem_range.mpr (by omega))
  exact insertElement_checked h₄

/-- A result of two elements with two states, a control and an optimised parameter. -/
def sampleResult : OptResult where
  finiteElements := 2
  degreeControl := 1
  tf := 2
  breakpoints := [0, 1, 2]
  xNames := ["h", "v"]
  yNames := []
  uNames := ["a"]
  thetaOptNames := ["k"]
  x := ⟨[[[0, 1], [1, 1]], [[2, 0], [3, 0]], [[4, 5]]], [[0, 1/2], [1, 3/2]]⟩
  y := ⟨[[[]], [[]]], [[0], [1]]⟩
  u := ⟨[[[7]], [[8]]], [[0], [1]]⟩
  thetaOpt := [[3], [4]]
  other := []

theorem stored_sample : Spec.CompleteResult sampleResult where
  elements := by decide
  x := by
    intro el hel
    have : el = 0 ∨ el = 1 ∨ el = 2 := by simp [sampleResult] at hel; omega
    rcases this with rfl | rfl | rfl <;> exact ⟨_, _, rfl, rfl, by decide, by decide, by decide⟩
  y := by
    intro el hel
    have : el = 0 ∨ el = 1 := by simp [sampleResult] at hel; omega
    rcases this with rfl | rfl <;> exact ⟨_, _, rfl, rfl, by decide, by decide, by decide⟩
  u := by
    intro el hel
    have : el = 0 ∨ el = 1 := by simp [sampleResult] at hel; omega
    rcases this with rfl | rfl <;> exact ⟨_, _, rfl, rfl, by decide, by decide, by decide⟩
  thetaOpt := by decide
  breakpoints := by decide
  other := by intro kv h; cases h
  keys := ⟨List.nodup_nil, by intro k h; cases h⟩

example : ∃ d, sampleResult.toDataset [] = (.ok (), d) ∧
    Spec.Exported d "x" ["h", "v"] 3 [[0, 1/2], [1, 3/2], [2]]
      [[[0, 1], [1, 1]], [[2, 0], [3, 0]], [[4, 5]]] := by
  obtain ⟨d, h, hx, _⟩ := C84_dataset sampleResult stored_sample
  exact ⟨d, h, hx (by decide)⟩

example : sampleResult.getVariableByName "v" = .ok [[1, 1], [0, 0], [5]] := by decide +kernel
example : sampleResult.getVariableByName "w" = .error .valueError := by decide +kernel
example : Spec.Rectangular sampleResult.xNames sampleResult.x.values ∧
    Spec.FirstAt sampleResult.xNames 1 "v" := by
  refine ⟨?_, ?_, ?_⟩ <;> simp [Spec.Rectangular, sampleResult]

/-- One time too many in an element: the export raises. -/
example : ({ sampleResult with x := ⟨[[[0, 1]], [[2, 0]], [[4, 5]]], [[0, 1], [1]]⟩ }.toDataset []).1
    = .error .valueError := by decide +kernel

/-! ## C133: the caller's parameter vectors -/

open Vectors

/-- **C133** Solving changes the vector the caller passed as `p`: with an optimised parameter whose
solution differs from the given value, the caller's vector is different after the call. -/
theorem C133_fails (nP elements : Nat) (h h' : Vectors) (o : Nat) (pInd : List Nat)
    (pOpt v : List Rat) (res : Nat × Dict Nat Nat) (hv : h[o]? = some v) (hn : pInd.Nodup)
    (k i : Nat) (hk : pInd[k]? = some i) (hne : v[i]? ≠ pOpt[k]?)
    (hrun : Vectors.solve nP 0 elements pInd [] pOpt (List.replicate elements []) (.dm o) none h =
      (.ok res, h')) :
    h'[o]? ≠ some v := by
  have ho : o < h.length := (List.getElem?_eq_some_iff.mp hv).1
  unfold Vectors.solve at hrun
  simp only [Py.bind_eq] at hrun
  obtain ⟨p, h₁, e₁, hrun⟩ := Py.bind_eq_ok.mp hrun
  obtain ⟨th, h₂, e₂, hrun⟩ := Py.bind_eq_ok.mp hrun
  obtain ⟨_, h₃, e₃, hrun⟩ := Py.bind_eq_ok.mp hrun
  simp only [Py.pure, Prod.mk.injEq] at hrun
  obtain ⟨-, rfl⟩ := hrun
  simp only [parameter, Py.pure, Prod.mk.injEq, Except.ok.injEq] at e₁
  obtain ⟨rfl, rfl⟩ := e₁
  simp only [thetaParameter, List.length_nil, if_true] at e₂
  rw [createTheta_run] at e₂
  simp only [Prod.mk.injEq, Except.ok.injEq] at e₂
  obtain ⟨rfl, rfl⟩ := e₂
  unfold storeOptimised at e₃
  simp only [Py.bind_eq] at e₃
  obtain ⟨_, h₄, e₄, e₅⟩ := Py.bind_eq_ok.mp e₃
  have hkeep : h₃.take h.length = h₄.take h.length := by
    rw [← assignThetas_take [] (List.replicate elements []) ((List.range elements).map fun i =>
      (0 + i, h.length + i)) h₄ (.inl rfl), e₅]
  obtain ⟨hl, hh⟩ := assign_ok e₄
  have h₂o : (h ++ List.replicate elements (List.replicate 0 (0 : Rat))).getD o [] = v := by
    rw [List.getD_eq_getElem?_getD, List.getElem?_append_left ho, hv]; rfl
  rw [h₂o] at hl hh
  intro hc
  have e₆ : h₃[o]? = h₄[o]? := by
    rw [← List.getElem?_take_of_lt ho, hkeep, List.getElem?_take_of_lt ho]
  rw [e₆, hh, List.getElem?_set_self (by simp; omega)] at hc
  have := (reports_putValues pInd pOpt v hn hl.1 hl.2).2.1 k i hk
  rw [Option.some.inj hc] at this
  exact hne this

/-- **C133** Without optimised parameters, or with `p` given as a list (or not at all) and no
`theta`, the caller's vectors are unchanged, even when the call raises. -/
theorem C133_partial (nP nTheta elements : Nat) (pInd thetaInd : List Nat) (pOpt : List Rat)
    (thetaOpt : List (List Rat)) (p : ParArg) (theta : Option (Dict Nat Nat)) (h : Vectors)
    (hp : pInd = [] ∨ ∀ o, p ≠ .dm o) (ht : thetaInd = [] ∨ theta = none) :
    ((Vectors.solve nP nTheta elements pInd thetaInd pOpt thetaOpt p theta h).2).take h.length = h := by
  unfold Vectors.solve
  simp only [Py.bind_eq]
  have k₁ := parameter_keeps pInd.length nP p h
  refine bind_keeps (P := fun s : Vectors => s.take h.length = h) k₁.1 fun po h₁ e₁ => ?_
  have hk₁ : h₁.take h.length = h := by have := k₁.1; rwa [e₁] at this
  have hlen : h.length ≤ h₁.length := by
    have := congrArg List.length hk₁
    rw [List.length_take] at this
    omega
  obtain ⟨⟨l, hl⟩, k₂⟩ := thetaParameter_keeps thetaInd.length nTheta elements theta h₁
  have hk₂ : ((thetaParameter thetaInd.length nTheta elements theta h₁).2).take h.length = h := by
    rw [hl, List.take_append_of_le_length hlen, hk₁]
  refine bind_keeps (P := fun s : Vectors => s.take h.length = h) hk₂ fun th h₂ e₂ => ?_
  rw [e₂] at hk₂
  have hs : ((storeOptimised pInd thetaInd pOpt thetaOpt po th h₂).2).take h.length = h := by
    unfold storeOptimised
    simp only [Py.bind_eq]
    have ha : ((assign po pInd pOpt h₂).2).take h.length = h := by
      rw [assign_take _ _, hk₂]
      rcases hp with hp | hp
      · exact .inl hp
      · rcases k₁.2 po h₁ e₁ with ⟨q, hq, _⟩ | hge
        · exact absurd hq (hp q)
        · exact .inr hge
    refine bind_keeps (P := fun s : Vectors => s.take h.length = h) ha fun _ h₃ e₃ => ?_
    rw [e₃] at ha
    rw [assignThetas_take, ha]
    rcases ht with ht | ht
    · exact .inl ht
    · rcases k₂ th h₂ e₂ with hc | hge
      · rw [ht] at hc; cases hc
      · exact .inr fun kv hkv => le_trans hlen (hge kv hkv)
  exact bind_keeps (P := fun s : Vectors => s.take h.length = h) hs fun _ h₃ e₃ => by
    rw [e₃] at hs
    exact hs

/-- The caller's `p = DM([0, 5])` with the second entry optimised becomes `[0, 9]`. -/
example : (Vectors.solve 2 0 1 [1] [] [9] [[]] (.dm 0) none [[0, 5]]).2 = [[0, 9], []] := by
  decide +kernel
example : (Vectors.solve 2 0 1 [1] [] [9] [[]] (.list [0, 5]) none [[0, 5]]).2
    = [[0, 5], [0, 9], []] := by decide +kernel

/-! ## C134: the parameters of the result -/

/-- **C134** When the elements have vectors of their own, the result's parameters have the optimised
values at the optimised positions and the given values elsewhere. `new` are the vectors created for
arguments that were not given as vectors. -/
theorem C134_partial (nP nTheta elements : Nat) (pInd thetaInd : List Nat) (pOpt : List Rat)
    (thetaOpt : List (List Rat)) (p : ParArg) (theta : Option (Dict Nat Nat)) (h h' : Vectors)
    (po : Nat) (th : Dict Nat Nat) (hpn : pInd.Nodup) (htn : thetaInd.Nodup)
    (hpo : ∀ q, p = .dm q → q < h.length)
    (hto : ∀ t, theta = some t → (t.map (·.2)).Nodup ∧ ∀ kv ∈ t, kv.2 < h.length ∧ p ≠ .dm kv.2)
    (hrun : Vectors.solve nP nTheta elements pInd thetaInd pOpt thetaOpt p theta h =
      (.ok (po, th), h')) :
    ∃ new, (∀ q, p = .dm q → po = q) ∧ (∀ l, p = .list l → (h ++ new)[po]? = some l) ∧
      (∀ t, theta = some t → th = t) ∧
      (∃ before after, (h ++ new)[po]? = some before ∧ h'[po]? = some after ∧
        Spec.Reports pInd pOpt before after) ∧
      ∀ el o, (el, o) ∈ th → ∃ w before after, thetaOpt[el]? = some w ∧
        (h ++ new)[o]? = some before ∧ h'[o]? = some after ∧
        Spec.Reports thetaInd w before after := by
  unfold Vectors.solve at hrun
  simp only [Py.bind_eq] at hrun
  obtain ⟨p', h₁, e₁, hrun⟩ := Py.bind_eq_ok.mp hrun
  obtain ⟨th', h₂, e₂, hrun⟩ := Py.bind_eq_ok.mp hrun
  obtain ⟨_, h₃, e₃, hrun⟩ := Py.bind_eq_ok.mp hrun
  simp only [Py.pure, Prod.mk.injEq, Except.ok.injEq] at hrun
  obtain ⟨⟨rfl, rfl⟩, rfl⟩ := hrun
  have k₁ := (parameter_keeps pInd.length nP p h).1
  have k₁' := (parameter_keeps pInd.length nP p h).2 p' h₁ e₁
  rw [e₁] at k₁
  obtain ⟨⟨l₂, hl₂⟩, k₂⟩ := thetaParameter_keeps thetaInd.length nTheta elements theta h₁
  have k₂' := k₂ th' h₂ e₂
  rw [e₂] at hl₂
  simp only at hl₂ k₁
  obtain ⟨l₁, hl₁⟩ : ∃ l₁, h₁ = h ++ l₁ := ⟨h₁.drop h.length, by
    conv_lhs => rw [← List.take_append_drop h.length h₁, k₁]⟩
  have hp₁ : p' < h₁.length := parameter_lt hpo e₁
  have hnodup : (th'.map (·.2)).Nodup ∧ p' ∉ th'.map (·.2) ∧ ∀ kv ∈ th', kv.2 < h₂.length := by
    cases theta with
    | some t =>
      simp only [thetaParameter, Py.pure, Prod.mk.injEq, Except.ok.injEq] at e₂
      obtain ⟨rfl, rfl⟩ := e₂
      obtain ⟨g₁, g₂⟩ := hto t rfl
      refine ⟨g₁, ?_, fun kv hkv => by have := (g₂ kv hkv).1; rw [hl₁, List.length_append]; omega⟩
      intro hm
      obtain ⟨kv, hkv, hkv'⟩ := List.mem_map.mp hm
      rcases k₁' with ⟨q, hq, hq'⟩ | hge
      · exact (g₂ kv hkv).2 (by rw [hkv', hq, hq'])
      · have := (g₂ kv hkv).1
        omega
    | none =>
      obtain ⟨n, hn⟩ := thetaParameter_none e₂
      rw [createTheta_run] at hn
      simp only [Prod.mk.injEq, Except.ok.injEq] at hn
      obtain ⟨rfl, rfl⟩ := hn
      refine ⟨?_, ?_, ?_⟩
      · rw [List.map_map]
        refine List.Nodup.map (fun a b hab => by simpa using hab) List.nodup_range
      · intro hm
        simp only [List.map_map, List.mem_map, Function.comp] at hm
        obtain ⟨i, _, hi⟩ := hm
        omega
      · intro kv hkv
        obtain ⟨i, hi, rfl⟩ := List.mem_map.mp hkv
        have := List.mem_range.mp hi
        simp
        omega
  refine ⟨l₁ ++ l₂, ?_, ?_, ?_, ?_⟩
  · intro q hq
    rcases k₁' with ⟨q', hq', hq''⟩ | hge
    · rw [hq'', ← ParArg.dm.inj (hq.symm.trans hq')]
    · subst hq
      simp only [parameter, Py.pure, Prod.mk.injEq, Except.ok.injEq] at e₁
      exact e₁.1.symm
  · rintro l rfl
    simp only [parameter, create, Prod.mk.injEq, Except.ok.injEq] at e₁
    rw [← List.append_assoc, ← hl₁, ← e₁.1, ← e₁.2]
    simp
  · rintro t rfl
    simp only [thetaParameter, Py.pure, Prod.mk.injEq, Except.ok.injEq] at e₂
    exact e₂.1.symm
  · rw [← List.append_assoc, ← hl₁, ← hl₂]
    have hp₂ : p' < h₂.length := by rw [hl₂, List.length_append]; omega
    exact storeOptimised_reports hpn htn hp₂ hnodup.2.2 hnodup.1 hnodup.2.1 e₃

/-- **C134** When two elements of `theta` are the same vector, both report the values of the last
one. -/
theorem C134_fails (a b x : Rat) (hab : a ≠ b) (h h' : Vectors) (o : Nat) (p : ParArg)
    (ho : h[o]? = some [x]) (res : Nat × Dict Nat Nat)
    (hrun : Vectors.solve 0 1 2 [] [0] [] [[a], [b]] p (some [(0, o), (1, o)]) h = (.ok res, h')) :
    h'[o]? = some [b] ∧ ¬ Spec.Reports [0] [a] [x] [b] := by
  refine ⟨?_, fun hr => ?_⟩
  · unfold Vectors.solve at hrun
    simp only [Py.bind_eq] at hrun
    obtain ⟨p', h₁, e₁, hrun⟩ := Py.bind_eq_ok.mp hrun
    obtain ⟨th', h₂, e₂, hrun⟩ := Py.bind_eq_ok.mp hrun
    obtain ⟨_, h₃, e₃, hrun⟩ := Py.bind_eq_ok.mp hrun
    simp only [Py.pure, Prod.mk.injEq, Except.ok.injEq] at hrun
    obtain ⟨-, rfl⟩ := hrun
    simp only [thetaParameter, Py.pure, Prod.mk.injEq, Except.ok.injEq] at e₂
    obtain ⟨rfl, rfl⟩ := e₂
    unfold storeOptimised at e₃
    simp only [Py.bind_eq] at e₃
    obtain ⟨_, h₄, e₄, e₅⟩ := Py.bind_eq_ok.mp e₃
    simp only [Py.forEach] at e₅
    obtain ⟨_, h₅, f₅, e₆⟩ := Py.bind_eq_ok.mp e₅
    obtain ⟨_, h₆, f₆, e₇⟩ := Py.bind_eq_ok.mp e₆
    simp only [Py.pure, Prod.mk.injEq] at e₇
    obtain ⟨-, rfl⟩ := e₇
    have k₁ := (parameter_keeps 0 0 p h).1
    rw [show parameter 0 0 p h = _ from e₁] at k₁
    simp only at k₁
    have hol : o < h.length := (List.getElem?_eq_some_iff.mp ho).1
    have hlen : h.length ≤ h₁.length := by
      have := congrArg List.length k₁
      rw [List.length_take] at this
      omega
    have hv : h₁[o]? = some [x] := by
      rw [← ho, ← List.getElem?_take_of_lt hol]
      exact congrArg (·[o]?) k₁
    have hv₄ : h₄ = h₁ := by
      obtain ⟨_, hh⟩ := assign_ok e₄
      rw [hh]
      exact set_getD _ _
    subst hv₄
    obtain ⟨g₁, hh₅⟩ := assign_ok (show assign o [0] [a] h₄ = (.ok (), h₅) from f₅)
    obtain ⟨g₂, hh₆⟩ := assign_ok (show assign o [0] [b] h₅ = (.ok (), h₆) from f₆)
    have e : h₅[o]? = some [a] := by
      rw [hh₅, List.getElem?_set_self (by omega), List.getD_eq_getElem?_getD, hv]; rfl
    rw [hh₆, List.getElem?_set_self (List.getElem?_eq_some_iff.mp e).1, List.getD_eq_getElem?_getD, e]
    rfl
  · have := hr.2.1 0 0 rfl
    simp at this
    exact hab this.symm

/-- Two elements sharing one vector: both report `4`, the second one's value. -/
example : Vectors.solve 0 1 2 [] [0] [] [[3], [4]] .none (some [(0, 0), (1, 0)]) [[7]] =
    (.ok (1, [(0, 0), (1, 0)]), [[4], []]) := by decide +kernel
example : Vectors.solve 2 2 2 [1] [0] [6] [[3], [4]] (.list [1, 2]) (some [(0, 0), (1, 1)])
    [[7, 7], [8, 8]] = (.ok (2, [(0, 0), (1, 1)]), [[3, 7], [4, 8], [1, 6]]) := by decide +kernel

end Verif
