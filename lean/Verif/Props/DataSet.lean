import Verif.Lemmas.DataSet
/-!
# C25 - C29, C89: data sets and simulation results
-/
namespace Verif
open DataSet

/-! ## C25 -/

/-- C25. After any history of calls, returned or raised, starting from an empty data set, every entry
has one value column per time stamp (and entry names are unique). -/
theorem C25_aligned (calls : List DataSet.Call) :
    Spec.WellFormed (runHistory (fun c d => Py.stateAfter c.run d) calls []) := by
  have : ∀ d, Spec.WellFormed d →
      Spec.WellFormed (runHistory (fun c d => Py.stateAfter (DataSet.Call.run c) d) calls d) := by
    induction calls with
    | nil => exact fun d h => h
    | cons c cs ih => exact fun d h => ih _ (wf_call c d h)
  exact this [] ⟨by simp [Dict.keys], by simp [Dict.get?]⟩

/-- C25. An insertion whose numbers of columns differ raises `ValueError`; any insertion that raises
leaves the data set as it was. -/
theorem C25_rejected (d : DataSet) (name : String) (time : List Rat) (value : Mat) :
    (time.length ≠ value.cols.length →
      insertData name (.row time) value d = (.error .valueError, d)) ∧
    ∀ t er, (insertData name t value d).1 = .error er → (insertData name t value d).2 = d := by
  refine ⟨fun h => ?_, fun t er h => ?_⟩
  · rw [insertData_run]
    simp only [TimeArg.toRow]
    rw [if_pos h]
  · rw [insertData_run] at h ⊢
    split
    · rfl
    · next t' ht =>
      rw [ht] at h
      simp only at h
      split
      · rfl
      · next hl =>
        rw [if_neg hl] at h
        split
        · rfl
        · next e he =>
          rw [he] at h
          simp only at h
          split
          · rfl
          · next v hv =>
            rw [hv] at h
            simp at h

/-- C25. A successful insertion appends the new samples and touches no other entry. -/
theorem C25_insert (d d' : DataSet) (hd : Spec.WellFormed d) (name : String) (time : List Rat)
    (value : Mat) (h : insertData name (.row time) value d = (.ok (), d')) :
    Spec.samplesOf d' name = Spec.samplesOf d name ++ time.zip value.cols ∧
    ∀ k, k ≠ name → Dict.get? d' k = Dict.get? d k := by
  rw [insertData_run] at h
  simp only [TimeArg.toRow] at h
  split at h
  · simp at h
  · split at h
    · simp at h
    · next e he =>
      split at h
      · simp at h
      · next v hv =>
        simp only [Prod.mk.injEq, true_and] at h
        subst h
        refine ⟨?_, fun k hk => by rw [Dict.get?_set, if_neg hk]⟩
        have ha := hd.2 name e he
        simp only [Spec.samplesOf, Dict.get?_set, if_true, he, Spec.samples, hcat_cols _ _ _ hv]
        exact List.zip_append ha

example : (runHistory (fun c d => Py.stateAfter (DataSet.Call.run c) d)
    [.createEntry "x" 2 none "plot", .insertData "x" (.list [1, 0]) ⟨2, [[10, 11], [20, 21]]⟩,
     .insertData "x" (.number 3) ⟨2, [[1, 2], [3, 4]]⟩, .sort none] []) =
    [("x", { names := ["x_0", "x_1"], size := 2, time := [0, 1],
             values := ⟨2, [[20, 21], [10, 11]]⟩ })] := by decide +kernel

/-! ## C26 -/

/-- C26. Sorting the entries `ks` (all of them by default), each present and holding a sample, gives
every sorted entry the chronological arrangement of its samples and leaves its name list, size and
style; other entries are untouched. -/
theorem C26_sort (d : DataSet) (es : Option (List String))
    (h : ∀ k ∈ es.getD (Dict.keys d), ∃ e, Dict.get? d k = some e ∧ Spec.samples e ≠ []) :
    ∃ d', sort es d = (.ok (), d') ∧ Dict.keys d' = Dict.keys d ∧
      (∀ k ∈ es.getD (Dict.keys d), ∀ e, Dict.get? d k = some e →
        ∃ e', Dict.get? d' k = some e' ∧ Spec.Aligned e' ∧
          Spec.Chronological (Spec.samples e) (Spec.samples e') ∧
          e'.names = e.names ∧ e'.size = e.size ∧ e'.plotStyle = e.plotStyle ∧
          e'.values.rows = e.values.rows) ∧
      ∀ k, k ∉ es.getD (Dict.keys d) → Dict.get? d' k = Dict.get? d k := by
  obtain ⟨d', h₁, h₂, h₃⟩ := sortAll_run (es.getD (Dict.keys d)) d h
  refine ⟨d', ?_, h₂, fun k hk e he => ?_, fun k hk => by rw [h₃ k, if_neg hk]⟩
  · unfold sort
    simp only [Py.bind_eq, Py.get_bind]
    exact h₁
  · refine ⟨sortedEntry e, by rw [h₃ k, if_pos hk, he]; rfl, aligned_sortedEntry e, ?_,
      rfl, rfl, rfl, rfl⟩
    rw [samples_sortedEntry]
    exact chronological_sortSamples _

/-- C26. Sorting twice is sorting once. -/
theorem C26_sort_twice (d d' : DataSet) (hn : (Dict.keys d).Nodup)
    (h : sort none d = (.ok (), d')) : sort none d' = (.ok (), d') := by
  by_cases hall : ∀ k ∈ Dict.keys d, ∃ e, Dict.get? d k = some e ∧ Spec.samples e ≠ []
  · obtain ⟨d₁, h₁, h₂, h₃⟩ := sortAll_run (Dict.keys d) d hall
    have hd : d' = d₁ := by
      have : sort none d = (.ok (), d₁) := h₁
      rw [h] at this; simpa using this
    subst hd
    obtain ⟨d₂, g₁, g₂, g₃⟩ := sortAll_run (Dict.keys d') d' (by
      intro k hk
      rw [h₂] at hk
      obtain ⟨e, he, hne⟩ := hall k hk
      refine ⟨sortedEntry e, by rw [h₃ k, if_pos hk, he]; rfl, ?_⟩
      rw [samples_sortedEntry]
      intro h0
      have := (chronological_sortSamples (Spec.samples e)).same
      rw [h0] at this
      exact hne (List.perm_nil.mp this.symm))
    have hrun : sort none d' = (.ok (), d₂) := g₁
    rw [hrun]
    have hext : ∀ a b : DataSet, Dict.keys a = Dict.keys b → (Dict.keys a).Nodup →
        (∀ k, Dict.get? a k = Dict.get? b k) → a = b := by
      intro a
      induction a with
      | nil => intro b hk _ _; cases b with
        | nil => rfl
        | cons q b => simp [Dict.keys] at hk
      | cons q a ih =>
        intro b hk hn hg
        cases b with
        | nil => simp [Dict.keys] at hk
        | cons r b =>
          obtain ⟨qk, qv⟩ := q
          obtain ⟨rk, rv⟩ := r
          simp only [Dict.keys, List.map_cons, List.cons.injEq, List.nodup_cons] at hk hn
          obtain ⟨hk₁, hk₂⟩ := hk
          subst hk₁
          have hv := hg qk
          simp only [Dict.get?, if_true, Option.some.injEq] at hv
          subst hv
          rw [ih b hk₂ hn.2 fun k => ?_]
          have := hg k
          simp only [Dict.get?] at this
          by_cases hkk : k = qk
          · subst hkk
            have h₁ : Dict.get? a k = none := (Dict.get?_eq_none_iff ..).mpr hn.1
            have h₂ : Dict.get? b k = none :=
              (Dict.get?_eq_none_iff ..).mpr (by
                rw [show Dict.keys b = List.map (·.1) b from rfl, ← hk₂]; exact hn.1)
            rw [h₁, h₂]
          · simpa [hkk] using this
    have : d₂ = d' := by
      refine hext d₂ d' g₂ (by rw [g₂, h₂]; exact hn) fun k => ?_
      rw [g₃ k]
      split
      · next hk =>
        rw [h₂] at hk
        rw [h₃ k, if_pos hk, Option.map_map]
        congr 1
        funext e
        exact sortedEntry_twice e
      · rfl
    rw [this]
  · exfalso
    push Not at hall
    obtain ⟨k, hk, hne⟩ := hall
    have hrun : Py.forEach (Dict.keys d) sortEntry d = (.ok (), d') := h
    have hgen : ∀ (ks : List String) (a a' : DataSet), k ∈ ks →
        (∀ e, Dict.get? a k = some e → Spec.samples e = []) →
        Py.forEach ks sortEntry a = (.ok (), a') → False := by
      intro ks
      induction ks with
      | nil => intro a a' hk; simp at hk
      | cons q ks ih =>
        intro a a' hk ha hr
        rw [Py.forEach] at hr
        obtain ⟨_, a₁, hr₁, hr₂⟩ := Py.bind_eq_ok.mp hr
        rw [sortEntry_run] at hr₁
        split at hr₁
        · simp at hr₁
        · next e he =>
          split at hr₁
          · simp at hr₁
          · next hsne =>
            have hqk : q ≠ k := by
              rintro rfl
              exact hsne (ha e he)
            simp only [Prod.mk.injEq, true_and] at hr₁
            refine ih a₁ a' ?_ ?_ hr₂
            · simp only [List.mem_cons] at hk
              exact hk.resolve_left fun h => hqk h.symm
            · intro e' he'
              rw [← hr₁, Dict.get?_set, if_neg (fun h => hqk h.symm)] at he'
              exact ha e' he'
    exact hgen _ d d' hk hne hrun

example : Spec.samplesOf (sort none
    [("x", ⟨["a"], 1, [2, 1, 2], ⟨1, [[5], [6], [4]]⟩, "plot"⟩)]).2 "x" =
    [(1, [6]), (2, [5]), (2, [4])] := by decide +kernel

/-! ## C27 -/

/-- C27 is false of the code: sorting a data set with an entry that holds no samples raises. -/
theorem C27_empty_entry_fails : ∃ d : DataSet, Spec.WellFormed d ∧
    (sort none d).1 = .error .valueError :=
  ⟨[("x", { names := ["x_0"], size := 1 })],
    by
      refine ⟨by simp [Dict.keys], fun k e h => ?_⟩
      simp only [Dict.get?] at h
      split at h
      · simp only [Option.some.injEq] at h; subst h; rfl
      · simp at h,
    by decide +kernel⟩

/-- C27 (the part that holds). On a well-formed data set `sort` succeeds exactly when every entry
holds a sample. -/
theorem C27_sort_succeeds_iff_partial (d : DataSet) (hd : Spec.WellFormed d) :
    (sort none d).1 = .ok () ↔ ∀ k e, Dict.get? d k = some e → e.time ≠ [] := by
  have hz : ∀ e, Spec.Aligned e → (Spec.samples e = [] ↔ e.time = []) := by
    intro e he
    unfold Spec.samples Spec.Aligned at *
    rw [← List.length_eq_zero_iff, List.length_zip, ← he, min_self, List.length_eq_zero_iff]
  constructor
  · intro h k e he h0
    match hr : sort none d with
    | (.ok (), d') =>
      have hrun : Py.forEach (Dict.keys d) sortEntry d = (.ok (), d') := hr
      have hk : k ∈ Dict.keys d := by
        by_contra hk
        rw [← Dict.get?_eq_none_iff, he] at hk
        simp at hk
      have hgen : ∀ (ks : List String) (a a' : DataSet), k ∈ ks →
          Dict.get? a k = some e → Py.forEach ks sortEntry a = (.ok (), a') → False := by
        intro ks
        induction ks with
        | nil => intro a a' hk; simp at hk
        | cons q ks ih =>
          intro a a' hk ha hr
          rw [Py.forEach] at hr
          obtain ⟨_, a₁, hr₁, hr₂⟩ := Py.bind_eq_ok.mp hr
          rw [sortEntry_run] at hr₁
          split at hr₁
          · simp at hr₁
          · next e' he' =>
            split at hr₁
            · simp at hr₁
            · next hsne =>
              have hqk : q ≠ k := by
                rintro rfl
                rw [ha] at he'
                simp only [Option.some.injEq] at he'
                subst he'
                exact hsne ((hz e (hd.2 q e he)).mpr h0)
              simp only [Prod.mk.injEq, true_and] at hr₁
              refine ih a₁ a' ?_ ?_ hr₂
              · simp only [List.mem_cons] at hk
                exact hk.resolve_left fun h => hqk h.symm
              · rw [← hr₁, Dict.get?_set, if_neg (fun h => hqk h.symm)]; exact ha
      exact hgen _ d d' hk he hrun
    | (.error er, d') => rw [hr] at h; simp at h
  · intro h
    obtain ⟨d', h₁, -⟩ := C26_sort d none (by
      intro k hk
      match he : Dict.get? d k with
      | none => exact absurd hk ((Dict.get?_eq_none_iff ..).mp he)
      | some e => exact ⟨e, rfl, fun h0 => h k e he ((hz e (hd.2 k e he)).mp h0)⟩)
    rw [h₁]

/-! ## C28 -/

/-- C28 (the part that holds). When every entry of `b` exists in `a` with the same size and every
entry of `a` ends up with a sample, `a.extend(b)` succeeds and every entry of `a` holds the samples
of both in chronological order; entries only in `a` are only sorted. -/
theorem C28_extend_partial (a b : DataSet) (ha : Spec.WellFormed a) (hb : Spec.WellFormed b)
    (h : ∀ kv ∈ b, ∃ e, Dict.get? a kv.1 = some e ∧ e.size = kv.2.size ∧
      Spec.SameRows e.values kv.2.values)
    (hne : ∀ k ∈ Dict.keys a, Spec.samplesOf a k ++ Spec.samplesOf b k ≠ []) :
    ∃ a', extend b a = (.ok (), a') ∧ Dict.keys a' = Dict.keys a ∧
      ∀ k, Spec.Chronological (Spec.samplesOf a k ++ Spec.samplesOf b k) (Spec.samplesOf a' k) := by
  obtain ⟨a₁, h₁, h₂, h₃, h₄⟩ := extendLoop b a hb ha h
  obtain ⟨a', g₁, g₂, g₃, g₄⟩ := C26_sort a₁ none (by
    intro k hk
    simp only [Option.getD_none] at hk
    have := hne k (h₂ ▸ hk)
    rw [← h₄ k] at this
    match he : Dict.get? a₁ k with
    | none => simp [Spec.samplesOf, he] at this
    | some e => exact ⟨e, rfl, by simpa [Spec.samplesOf, he] using this⟩)
  refine ⟨a', ?_, by rw [g₂, h₂], fun k => ?_⟩
  · unfold extend
    simp only [Py.bind_eq]
    rw [Py.bind_ok h₁, g₁]
  · rw [← h₄ k]
    by_cases hk : k ∈ Dict.keys a₁
    · match he : Dict.get? a₁ k with
      | none => exact absurd hk ((Dict.get?_eq_none_iff ..).mp he)
      | some e =>
        obtain ⟨e', he', -, hc, -⟩ := g₃ k (by simpa using hk) e he
        simp only [Spec.samplesOf, he, he']
        exact hc
    · have hn : Dict.get? a₁ k = none := (Dict.get?_eq_none_iff ..).mpr hk
      have hn' : Dict.get? a' k = none := (Dict.get?_eq_none_iff ..).mpr (g₂ ▸ hk)
      simp only [Spec.samplesOf, hn, hn']
      exact ⟨List.Perm.refl _, List.Pairwise.nil, fun _ => rfl⟩

/-- C28 is false of the code for new entries: they are not created, the call raises `KeyError`. -/
theorem C28_new_entry_fails (a : DataSet) (k : String) (e : Entry) (b : DataSet)
    (h : k ∉ Dict.keys a) : extend ((k, e) :: b) a = (.error .keyError, a) := by
  have : extendEntry (k, e) a = (.error .keyError, a) := by
    unfold extendEntry
    simp only [Py.bind_eq]
    rw [Py.bind_error (by rw [entry_run, (Dict.get?_eq_none_iff ..).mpr h])]
  unfold extend
  simp only [Py.bind_eq]
  rw [Py.bind_error (by rw [Py.forEach, Py.bind_error this])]

/-- C28. A different size raises `ValueError`. -/
theorem C28_size_mismatch (a : DataSet) (k : String) (e o : Entry) (b : DataSet)
    (h : Dict.get? a k = some e) (hs : e.size ≠ o.size) :
    extend ((k, o) :: b) a = (.error .valueError, a) := by
  have : extendEntry (k, o) a = (.error .valueError, a) := by
    unfold extendEntry
    simp only [Py.bind_eq]
    rw [Py.bind_ok (by rw [entry_run, h])]
    simp [Py.raiseIf, hs]
  unfold extend
  simp only [Py.bind_eq]
  rw [Py.bind_error (by rw [Py.forEach, Py.bind_error this])]

example : ∃ a', extend [("x", { names := ["a"], size := 1, time := [1], values := ⟨1, [[9]]⟩ })]
    [("x", { names := ["a"], size := 1, time := [2, 0], values := ⟨1, [[5], [6]]⟩ })] =
    (.ok (), a') ∧ Spec.samplesOf a' "x" = [(0, [6]), (1, [9]), (2, [5])] :=
  ⟨_, rfl, by decide +kernel⟩

/-! ## C29 -/

/-- C29. Results with different numbers of variables are rejected without change; otherwise the
horizon covers both and the numbers of finite elements add up, whether or not the data part
succeeds. -/
theorem C29_extend (r o : SimResult) :
    (¬ (∀ a ∈ ["x", "y", "u"], r.sizeOf a = o.sizeOf a) →
      SimResult.extend o r = (.error .exception, r)) ∧
    ((∀ a ∈ ["x", "y", "u"], r.sizeOf a = o.sizeOf a) →
      (SimResult.extend o r).2.t0 = min r.t0 o.t0 ∧ (SimResult.extend o r).2.tf = max r.tf o.tf ∧
      (SimResult.extend o r).2.finiteElements = r.finiteElements + o.finiteElements ∧
      (SimResult.extend o r).1 = (DataSet.extend o.data r.data).1 ∧
      (SimResult.extend o r).2.data = (DataSet.extend o.data r.data).2) := by
  refine ⟨fun h => ?_, fun h => ?_⟩
  · unfold SimResult.extend
    simp only [Py.bind_eq]
    rw [Py.bind_error (by rw [sizeCheck_run, if_neg h])]
  · unfold SimResult.extend
    simp only [Py.bind_eq]
    rw [Py.bind_ok (by rw [sizeCheck_run, if_pos h])]
    simp [SimResult.onData]

/-- C29 is false of the code for the number of finite elements: the constructor ignores it, so it is
0 for every result that `simulate` returns, and stays 0 when such results are joined. -/
theorem C29_finite_elements_fails (nx ny nu n nx' ny' nu' n' : Nat) (t0 tf t0' tf' : Rat)
    (hn : 0 < n) :
    (SimResult.new nx ny nu t0 tf n).finiteElements ≠ n ∧
    (SimResult.extend (SimResult.new nx' ny' nu' t0' tf' n')
      (SimResult.new nx ny nu t0 tf n)).2.finiteElements = 0 := by
  refine ⟨by simp [SimResult.new]; omega, ?_⟩
  by_cases h : ∀ a ∈ ["x", "y", "u"], (SimResult.new nx ny nu t0 tf n).sizeOf a =
      (SimResult.new nx' ny' nu' t0' tf' n').sizeOf a
  · rw [((C29_extend _ _).2 h).2.2.1]; rfl
  · rw [(C29_extend _ _).1 h]; rfl

/-- C29 (the part that holds). -/
theorem C29_horizon_partial (r o : SimResult) (r' : SimResult)
    (h : SimResult.extend o r = (.ok (), r')) :
    r'.t0 = min r.t0 o.t0 ∧ r'.tf = max r.tf o.tf ∧ ∀ a ∈ ["x", "y", "u"],
      r.sizeOf a = o.sizeOf a := by
  by_cases hs : ∀ a ∈ ["x", "y", "u"], r.sizeOf a = o.sizeOf a
  · obtain ⟨h₁, h₂, -⟩ := (C29_extend r o).2 hs
    rw [h] at h₁ h₂
    exact ⟨h₁, h₂, hs⟩
  · rw [(C29_extend r o).1 hs] at h
    simp at h

/-! ## C89 -/

/-- C89 is false of the code: the first insertion fixes the number of rows, whatever the declared
size. -/
theorem C89_declared_size_fails : ∃ d e, insertData "x" (.list [0]) ⟨3, [[1, 2, 3]]⟩
    [("x", { names := ["x_0"], size := 1 })] = (.ok (), d) ∧ Dict.get? d "x" = some e ∧
    e.values.rows ≠ e.size :=
  ⟨[("x", { names := ["x_0"], size := 1, time := [0], values := ⟨3, [[1, 2, 3]]⟩ })],
   { names := ["x_0"], size := 1, time := [0], values := ⟨3, [[1, 2, 3]]⟩ },
   by decide +kernel, by decide +kernel, by decide +kernel⟩

/-- C89 (the part that holds). Once an entry holds values, an insertion with another number of rows
is refused with `RuntimeError`. -/
theorem C89_rows_partial (d : DataSet) (name : String) (time : List Rat) (value : Mat) (e : Entry)
    (he : Dict.get? d name = some e) (hl : time.length = value.cols.length)
    (hv : value.cols ≠ []) (hne : e.values.cols ≠ []) (hr : e.values.rows ≠ value.rows) :
    insertData name (.row time) value d = (.error .runtimeError, d) := by
  rw [insertData_run]
  have : e.values.hcat value = .error .runtimeError := by
    unfold Mat.hcat
    rw [if_neg (by simp [hne]), if_neg (by simp [hv]), if_neg hr]
  simp [TimeArg.toRow, hl, he, this]

end Verif
