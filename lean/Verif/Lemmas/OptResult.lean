import Verif.Spec.OptResult
import Verif.Lemmas.DataSet
/-! Lemmas for optimisation results. -/
namespace Verif

theorem Py.forEach_prefix_ok {σ ι : Type} {f : ι → Py σ Unit} (Inv : List ι → σ → Prop) (l : List ι)
    (h : ∀ pre a post, l = pre ++ a :: post → ∀ s, Inv pre s →
      ∃ s', f a s = (.ok (), s') ∧ Inv (pre ++ [a]) s') (s : σ) (h₀ : Inv [] s) :
    ∃ s', Py.forEach l f s = (.ok (), s') ∧ Inv l s' := by
  have key : ∀ (post pre : List ι), l = pre ++ post → ∀ s, Inv pre s →
      ∃ s', Py.forEach post f s = (.ok (), s') ∧ Inv l s' := by
    intro post
    induction post with
    | nil =>
      intro pre hl s hs
      rw [List.append_nil] at hl
      exact ⟨s, rfl, hl ▸ hs⟩
    | cons a post ih =>
      intro pre hl s hs
      obtain ⟨s₁, h₁, h₂⟩ := h pre a post hl s hs
      obtain ⟨s', h₃, h₄⟩ := ih (pre ++ [a]) (by simp [hl]) s₁ h₂
      exact ⟨s', by rw [Py.forEach, Py.bind_ok h₁]; exact h₃, h₄⟩
  exact key l [] rfl s h₀

theorem Py.forEach_range_ok {σ : Type} {f : Nat → Py σ Unit} (Inv : Nat → σ → Prop) (n : Nat)
    (h : ∀ k < n, ∀ s, Inv k s → ∃ s', f k s = (.ok (), s') ∧ Inv (k + 1) s') (s : σ)
    (h₀ : Inv 0 s) : ∃ s', Py.forEach (List.range n) f s = (.ok (), s') ∧ Inv n s' := by
  obtain ⟨s', h₁, h₂⟩ := Py.forEach_prefix_ok (fun pre s => Inv pre.length s) (List.range n) (by
    intro pre a post hl s hs
    have ha : (List.range n)[pre.length]? = some a := by rw [hl]; simp
    have hlt : pre.length < n := by
      have := congrArg List.length hl
      simp at this
      omega
    rw [List.getElem?_range hlt] at ha
    cases ha
    simpa using h _ hlt s hs) s h₀
  exact ⟨s', h₁, by simpa using h₂⟩

namespace OptResult

/-- The content of an entry while it is filled: values are empty or have `n` rows. -/
def Has (d : DataSet) (name : String) (names : List String) (size n : Nat) (style : String)
    (T : List Rat) (C : List (List Rat)) : Prop :=
  ∃ rows, Dict.get? d name = some ⟨names, size, T, ⟨rows, C⟩, style⟩ ∧ (C = [] ∧ rows = 0 ∨ rows = n)

theorem horzcat_ok (n : Nat) (vs : List (List Rat)) (h : vs ≠ []) (hn : ∀ v ∈ vs, v.length = n) :
    horzcat vs = .ok ⟨n, vs⟩ := by
  cases vs with
  | nil => exact absurd rfl h
  | cons c cs =>
    have hc := hn c (by simp)
    have hall : (cs.all fun c' => c'.length == n) = true := by
      rw [List.all_eq_true]
      intro v hv
      simp [hn v (by simp [hv])]
    simp only [horzcat, hc, hall, if_true]

theorem horzcatTimes_ok (ts : List Rat) (h : ts ≠ []) : horzcatTimes ts = .ok ts := by
  cases ts with
  | nil => exact absurd rfl h
  | cons => rfl

/-- Inserting well-shaped data appends it and leaves the other entries alone. -/
theorem insertData_has {d : DataSet} {name : String} {names : List String} {size n : Nat}
    {style : String} {T : List Rat} {C : List (List Rat)} (h : Has d name names size n style T C)
    (ts : List Rat) (vs : List (List Rat)) (hl : ts.length = vs.length) (hne : ts ≠ []) :
    ∃ d', DataSet.insertData name (.row ts) ⟨n, vs⟩ d = (.ok (), d') ∧
      Has d' name names size n style (T ++ ts) (C ++ vs) ∧
      ∀ k ≠ name, Dict.get? d' k = Dict.get? d k := by
  obtain ⟨rows, hg, hr⟩ := h
  have hvs : vs ≠ [] := by rintro rfl; exact hne (List.length_eq_zero_iff.mp hl)
  have hcat : (Mat.hcat ⟨rows, C⟩ ⟨n, vs⟩) = .ok ⟨n, C ++ vs⟩ := by
    unfold Mat.hcat
    rcases hr with ⟨rfl, rfl⟩ | rfl
    · simp
    · by_cases h0 : rows = 0 ∧ C = []
      · rw [if_pos h0, h0.2]; rfl
      · rw [if_neg h0, if_neg (by simp [hvs]), if_pos rfl]
  rw [DataSet.insertData_run]
  simp only [TimeArg.toRow, hl, ne_eq, not_true_eq_false, if_false, hg, hcat]
  refine ⟨_, rfl, ⟨n, ?_, .inr rfl⟩, fun k hk => ?_⟩
  · rw [Dict.get?_set, if_pos rfl]
  · rw [Dict.get?_set, if_neg hk]

theorem insertElement_has {d : DataSet} {name : String} {names : List String} {size n : Nat}
    {style : String} {T : List Rat} {C : List (List Rat)} (h : Has d name names size n style T C)
    {times : List (List Rat)} {values : List (List (List Rat))} {el : Nat} {ts : List Rat}
    {vs : List (List Rat)} (ht : times[el]? = some ts) (hv : values[el]? = some vs)
    (hl : ts.length = vs.length) (hne : ts ≠ []) (hn : ∀ v ∈ vs, v.length = n) :
    ∃ d', insertElement name times values el d = (.ok (), d') ∧
      Has d' name names size n style (T ++ ts) (C ++ vs) ∧
      ∀ k ≠ name, Dict.get? d' k = Dict.get? d k := by
  have hvs : vs ≠ [] := by rintro rfl; exact hne (List.length_eq_zero_iff.mp hl)
  obtain ⟨d', h₁, h₂⟩ := insertData_has h ts vs hl hne
  refine ⟨d', ?_, h₂⟩
  unfold insertElement
  simp only [itemAt, ht, hv, Py.bind_eq, Py.lift_ok_bind, horzcatTimes_ok ts hne,
    horzcat_ok n vs hvs hn]
  exact h₁

theorem take_succ_flatten {α : Type} (l : List (List α)) (k : Nat) (a : List α)
    (h : l[k]? = some a) : (l.take (k + 1)).flatten = (l.take k).flatten ++ a := by
  rw [List.take_add_one, h]
  simp

/-- Inserting element by element. -/
theorem insertLoop_has {d : DataSet} {name : String} {names : List String} {size n : Nat}
    {style : String} (h : Has d name names size n style [] [])
    {times : List (List Rat)} {values : List (List (List Rat))} {k : Nat}
    (hs : Spec.Stored n k times values) :
    ∃ d', Py.forEach (List.range k) (insertElement name times values) d = (.ok (), d') ∧
      Has d' name names size n style (times.take k).flatten (values.take k).flatten ∧
      ∀ k ≠ name, Dict.get? d' k = Dict.get? d k := by
  refine Py.forEach_range_ok (fun j d' => Has d' name names size n style (times.take j).flatten
    (values.take j).flatten ∧ ∀ k ≠ name, Dict.get? d' k = Dict.get? d k) k ?_ d
    ⟨by simpa using h, fun _ _ => rfl⟩
  rintro j hj d₁ ⟨h₁, h₂⟩
  obtain ⟨ts, vs, ht, hv, hl, hne, hn⟩ := hs j hj
  obtain ⟨d₂, h₃, h₄, h₅⟩ := insertElement_has h₁ ht hv hl hne hn
  refine ⟨d₂, h₃, ?_, fun k hk => (h₅ k hk).trans (h₂ k hk)⟩
  rw [take_succ_flatten _ _ _ ht, take_succ_flatten _ _ _ hv]
  exact h₄

/-- The size of an additional entry. -/
def sizeOf (s : Series) : Nat := ((otherSize s).toOption).getD 0

theorem otherSize_stored {s : Series} {n k : Nat} (h : Spec.Stored n k s.time s.values)
    (hk : 0 < k) : otherSize s = .ok n := by
  obtain ⟨ts, vs, ht, hv, hl, hne, hn⟩ := h 0 hk
  cases vs with
  | nil => exact absurd (List.length_eq_zero_iff.mp hl) hne
  | cons v vs =>
    simp [otherSize, itemAt, hv, bind, Except.bind, hn v (by simp)]

theorem sizeOf_stored {s : Series} {n k : Nat} (h : Spec.Stored n k s.time s.values)
    (hk : 0 < k) : sizeOf s = n := by
  rw [sizeOf, otherSize_stored h hk]
  rfl

theorem createOthers_has (r : OptResult) (hr : Spec.CompleteResult r) (d : DataSet) :
    ∃ d', Py.forEach r.other createOther d = (.ok (), d') ∧
      (∀ kv ∈ r.other, Has d' kv.1 (DataSet.defaultNames kv.1 (sizeOf kv.2)) (sizeOf kv.2)
        (sizeOf kv.2) "plot" [] []) ∧
      ∀ k, k ∉ r.other.keys → Dict.get? d' k = Dict.get? d k := by
  refine Py.forEach_prefix_ok (fun pre d' => (∀ kv ∈ pre, Has d' kv.1
    (DataSet.defaultNames kv.1 (sizeOf kv.2)) (sizeOf kv.2) (sizeOf kv.2) "plot" [] []) ∧
    ∀ k, k ∉ pre.map (·.1) → Dict.get? d' k = Dict.get? d k) r.other ?_ d ⟨by simp, fun _ _ => rfl⟩
  rintro pre kv post hl d₁ ⟨h₁, h₂⟩
  have hmem : kv ∈ r.other := by rw [hl]; simp
  have hnd : r.other.keys.Nodup := hr.keys.1
  have hnot : kv.1 ∉ pre.map (·.1) := by
    rw [Dict.keys, hl, List.map_append, List.map_cons, List.nodup_append] at hnd
    intro h
    exact hnd.2.2 _ h _ (by simp) rfl
  obtain ⟨n, hn⟩ := hr.other kv hmem
  have hs : otherSize kv.2 = .ok (sizeOf kv.2) := by
    rw [sizeOf_stored hn hr.elements]; exact otherSize_stored hn hr.elements
  refine ⟨_, by
    simp only [createOther, Py.bind_eq, hs, Py.lift_ok_bind, DataSet.createEntry, Py.modify_apply]
    rfl, ?_, ?_⟩
  · intro kv' hkv'
    rcases List.mem_append.mp hkv' with h | h
    · have hne : kv'.1 ≠ kv.1 := fun he => hnot (he ▸ List.mem_map.mpr ⟨kv', h, rfl⟩)
      obtain ⟨rows, hg, hrw⟩ := h₁ kv' h
      exact ⟨rows, by rw [Dict.get?_set, if_neg hne]; exact hg, hrw⟩
    · rw [List.mem_singleton.mp h]
      exact ⟨0, by rw [Dict.get?_set, if_pos rfl]; rfl, .inl ⟨rfl, rfl⟩⟩
  · intro k hk
    simp only [List.map_append, List.mem_append, List.map_cons, List.map_nil, List.mem_singleton,
      not_or] at hk
    rw [Dict.get?_set, if_neg hk.2]
    exact h₂ k hk.1

theorem insertOthers_has (r : OptResult) (hr : Spec.CompleteResult r) (d : DataSet)
    (h : ∀ kv ∈ r.other, Has d kv.1 (DataSet.defaultNames kv.1 (sizeOf kv.2)) (sizeOf kv.2)
        (sizeOf kv.2) "plot" [] []) :
    ∃ d', (Py.forEach r.other fun kv => Py.forEach (List.range r.finiteElements)
      (insertElement kv.1 kv.2.time kv.2.values)) d = (.ok (), d') ∧
      (∀ kv ∈ r.other, Has d' kv.1 (DataSet.defaultNames kv.1 (sizeOf kv.2)) (sizeOf kv.2)
        (sizeOf kv.2) "plot" (kv.2.time.take r.finiteElements).flatten
          (kv.2.values.take r.finiteElements).flatten) ∧
      ∀ k, k ∉ r.other.keys → Dict.get? d' k = Dict.get? d k := by
  refine (Py.forEach_prefix_ok (fun pre d' => (∀ kv ∈ pre, Has d' kv.1
    (DataSet.defaultNames kv.1 (sizeOf kv.2)) (sizeOf kv.2) (sizeOf kv.2) "plot"
      (kv.2.time.take r.finiteElements).flatten (kv.2.values.take r.finiteElements).flatten) ∧
    ∀ k, k ∉ pre.map (·.1) → Dict.get? d' k = Dict.get? d k) r.other ?_ d ⟨by simp, fun _ _ => rfl⟩)
  rintro pre kv post hl d₁ ⟨h₁, h₂⟩
  have hmem : kv ∈ r.other := by rw [hl]; simp
  have hnd : r.other.keys.Nodup := hr.keys.1
  have hnot : kv.1 ∉ pre.map (·.1) := by
    rw [Dict.keys, hl, List.map_append, List.map_cons, List.nodup_append] at hnd
    intro h
    exact hnd.2.2 _ h _ (by simp) rfl
  obtain ⟨n, hn⟩ := hr.other kv hmem
  have hd₁ : Has d₁ kv.1 (DataSet.defaultNames kv.1 (sizeOf kv.2)) (sizeOf kv.2) (sizeOf kv.2) "plot"
      [] [] := by
    obtain ⟨rows, hg, hrw⟩ := h kv hmem
    exact ⟨rows, by rw [h₂ _ hnot]; exact hg, hrw⟩
  rw [← sizeOf_stored hn hr.elements] at hn
  obtain ⟨d₂, h₃, h₄, h₅⟩ := insertLoop_has hd₁ hn
  refine ⟨d₂, h₃, ?_, ?_⟩
  · intro kv' hkv'
    rcases List.mem_append.mp hkv' with h | h
    · have hne : kv'.1 ≠ kv.1 := fun he => hnot (he ▸ List.mem_map.mpr ⟨kv', h, rfl⟩)
      obtain ⟨rows, hg, hrw⟩ := h₁ kv' h
      exact ⟨rows, by rw [h₅ _ hne]; exact hg, hrw⟩
    · rw [List.mem_singleton.mp h]
      exact h₄
  · intro k hk
    simp only [List.map_append, List.mem_append, List.map_cons, List.map_nil, List.mem_singleton,
      not_or] at hk
    rw [h₅ k hk.2]
    exact h₂ k hk.1

/-- `insertIfNamed` around an insertion loop. -/
def contents {α : Type} (names : List String) (l : List α) : List α := if names = [] then [] else l

theorem insertYU_loop (r : OptResult) (hr : Spec.CompleteResult r) (d : DataSet) (style : String)
    (hy : Has d "y" r.yNames r.yNames.length r.yNames.length "plot" [] [])
    (hu : Has d "u" r.uNames r.uNames.length r.uNames.length style [] []) :
    ∃ d', Py.forEach (List.range r.finiteElements) (insertYU r) d = (.ok (), d') ∧
      Has d' "y" r.yNames r.yNames.length r.yNames.length "plot"
        (contents r.yNames (r.y.time.take r.finiteElements).flatten)
        (contents r.yNames (r.y.values.take r.finiteElements).flatten) ∧
      Has d' "u" r.uNames r.uNames.length r.uNames.length style
        (contents r.uNames (r.u.time.take r.finiteElements).flatten)
        (contents r.uNames (r.u.values.take r.finiteElements).flatten) ∧
      ∀ k, k ≠ "y" → k ≠ "u" → Dict.get? d' k = Dict.get? d k := by
  refine Py.forEach_range_ok (fun j d' => Has d' "y" r.yNames r.yNames.length r.yNames.length "plot"
        (contents r.yNames (r.y.time.take j).flatten)
        (contents r.yNames (r.y.values.take j).flatten) ∧
      Has d' "u" r.uNames r.uNames.length r.uNames.length style
        (contents r.uNames (r.u.time.take j).flatten)
        (contents r.uNames (r.u.values.take j).flatten) ∧
      ∀ k, k ≠ "y" → k ≠ "u" → Dict.get? d' k = Dict.get? d k) r.finiteElements ?_ d
    ⟨by simpa [contents] using hy, by simpa [contents] using hu, fun _ _ _ => rfl⟩
  rintro j hj d₁ ⟨h₁, h₂, h₃⟩
  have hstep : ∀ (name : String) (names : List String) (st : String) (s : Series) (d₁ : DataSet),
      Spec.Stored names.length r.finiteElements s.time s.values →
      Has d₁ name names names.length names.length st (contents names (s.time.take j).flatten)
        (contents names (s.values.take j).flatten) →
      ∃ d₂, insertIfNamed names (insertElement name s.time s.values j) d₁ = (.ok (), d₂) ∧
        Has d₂ name names names.length names.length st (contents names (s.time.take (j + 1)).flatten)
          (contents names (s.values.take (j + 1)).flatten) ∧
        ∀ k ≠ name, Dict.get? d₂ k = Dict.get? d₁ k := by
    intro name names st s d₁ hs h
    by_cases hne : names = []
    · refine ⟨d₁, by simp [insertIfNamed, hne, Py.pure], ?_, fun _ _ => rfl⟩
      simpa [contents, hne] using h
    · obtain ⟨ts, vs, ht, hv, hl, hnn, hn⟩ := hs j hj
      have hlen : names.length > 0 := List.length_pos_iff.mpr hne
      obtain ⟨d₂, e₁, e₂, e₃⟩ := insertElement_has h ht hv hl hnn hn
      refine ⟨d₂, by simp only [insertIfNamed, hlen, if_true]; exact e₁, ?_, e₃⟩
      simp only [contents, hne, if_false] at e₂ ⊢
      rwa [take_succ_flatten _ _ _ ht, take_succ_flatten _ _ _ hv]
  obtain ⟨d₂, e₁, e₂, e₃⟩ := hstep "y" r.yNames "plot" r.y d₁ hr.y h₁
  have h₂' : Has d₂ "u" r.uNames r.uNames.length r.uNames.length style
        (contents r.uNames (r.u.time.take j).flatten)
        (contents r.uNames (r.u.values.take j).flatten) := by
    obtain ⟨rows, hg, hrw⟩ := h₂
    exact ⟨rows, by rw [e₃ "u" (by decide)]; exact hg, hrw⟩
  obtain ⟨d₃, f₁, f₂, f₃⟩ := hstep "u" r.uNames style r.u d₂ hr.u h₂'
  refine ⟨d₃, ?_, ?_, f₂, ?_⟩
  · simp only [insertYU, Py.bind_eq]
    rw [Py.bind_ok e₁]
    exact f₁
  · obtain ⟨rows, hg, hrw⟩ := e₂
    exact ⟨rows, by rw [f₃ "y" (by decide)]; exact hg, hrw⟩
  · intro k hk₁ hk₂
    rw [f₃ k hk₂, e₃ k hk₁, h₃ k hk₁ hk₂]

theorem Has.congr {d d' : DataSet} {name names size n style T C}
    (h : Has d name names size n style T C) (hg : Dict.get? d' name = Dict.get? d name) :
    Has d' name names size n style T C := by
  obtain ⟨rows, h₁, h₂⟩ := h
  exact ⟨rows, hg.trans h₁, h₂⟩

theorem insertTheta_has (r : OptResult) (hr : Spec.CompleteResult r) (d : DataSet) (style : String)
    (h : Has d "theta_opt" r.thetaOptNames r.thetaOptNames.length r.thetaOptNames.length style [] []) :
    ∃ d', insertTheta r d = (.ok (), d') ∧
      Has d' "theta_opt" r.thetaOptNames r.thetaOptNames.length r.thetaOptNames.length style
        r.breakpoints.dropLast r.thetaOpt ∧ ∀ k ≠ "theta_opt", Dict.get? d' k = Dict.get? d k := by
  have hl : r.breakpoints.dropLast.length = r.thetaOpt.length := by
    rw [List.length_dropLast, hr.breakpoints, hr.thetaOpt.1]; rfl
  have hpos : 0 < r.thetaOpt.length := by rw [hr.thetaOpt.1]; exact hr.elements
  have hne : r.breakpoints.dropLast ≠ [] := List.length_pos_iff.mp (by omega)
  obtain ⟨d', h₁, h₂⟩ := insertData_has h r.breakpoints.dropLast r.thetaOpt hl hne
  refine ⟨d', ?_, by simpa using h₂⟩
  simp only [insertTheta, Py.bind_eq, horzcatTimes_ok _ hne, Py.lift_ok_bind,
    horzcat_ok _ _ (List.length_pos_iff.mp hpos) hr.thetaOpt.2]
  exact h₁

/-- The whole export. -/
theorem toDataset_has (r : OptResult) (hr : Spec.CompleteResult r) :
    ∃ d, toDataset r [] = (.ok (), d) ∧
      Has d "x" r.xNames r.xNames.length r.xNames.length "plot"
        (contents r.xNames ((r.x.time ++ [[r.tf]]).take (r.finiteElements + 1)).flatten)
        (contents r.xNames (r.x.values.take (r.finiteElements + 1)).flatten) ∧
      Has d "y" r.yNames r.yNames.length r.yNames.length "plot"
        (contents r.yNames (r.y.time.take r.finiteElements).flatten)
        (contents r.yNames (r.y.values.take r.finiteElements).flatten) ∧
      Has d "u" r.uNames r.uNames.length r.uNames.length
        (if r.degreeControl > 1 then "plot" else "step")
        (contents r.uNames (r.u.time.take r.finiteElements).flatten)
        (contents r.uNames (r.u.values.take r.finiteElements).flatten) ∧
      Has d "theta_opt" r.thetaOptNames r.thetaOptNames.length r.thetaOptNames.length "step"
        (contents r.thetaOptNames r.breakpoints.dropLast)
        (contents r.thetaOptNames r.thetaOpt) ∧
      ∀ kv ∈ r.other, Has d kv.1 (DataSet.defaultNames kv.1 (sizeOf kv.2)) (sizeOf kv.2)
        (sizeOf kv.2) "plot" (kv.2.time.take r.finiteElements).flatten
          (kv.2.values.take r.finiteElements).flatten := by
  have hk := hr.keys.2
  have hkey : ∀ k ∈ ["x", "y", "u", "theta_opt"], k ∉ r.other.keys := fun k h h' => hk k h' h
  obtain ⟨d₀, hd₀, x₀, y₀, u₀, t₀⟩ : ∃ d₀, createEntries r [] = (.ok (), d₀) ∧
      Has d₀ "x" r.xNames r.xNames.length r.xNames.length "plot" [] [] ∧
      Has d₀ "y" r.yNames r.yNames.length r.yNames.length "plot" [] [] ∧
      Has d₀ "u" r.uNames r.uNames.length r.uNames.length "plot" [] [] ∧
      Has d₀ "theta_opt" r.thetaOptNames r.thetaOptNames.length r.thetaOptNames.length "step" [] [] :=
    ⟨_, rfl, ⟨0, rfl, .inl ⟨rfl, rfl⟩⟩, ⟨0, rfl, .inl ⟨rfl, rfl⟩⟩, ⟨0, rfl, .inl ⟨rfl, rfl⟩⟩,
      ⟨0, rfl, .inl ⟨rfl, rfl⟩⟩⟩
  obtain ⟨d₁, hd₁, o₁, f₁⟩ := createOthers_has r hr d₀
  have x₁ := x₀.congr (f₁ _ (hkey _ (by simp)))
  have y₁ := y₀.congr (f₁ _ (hkey _ (by simp)))
  have u₁ := u₀.congr (f₁ _ (hkey _ (by simp)))
  have t₁ := t₀.congr (f₁ _ (hkey _ (by simp)))
  obtain ⟨d₂, hd₂, u₂, f₂⟩ : ∃ d₂, setStyle r d₁ = (.ok (), d₂) ∧
      Has d₂ "u" r.uNames r.uNames.length r.uNames.length
        (if r.degreeControl > 1 then "plot" else "step") [] [] ∧
      ∀ k ≠ "u", Dict.get? d₂ k = Dict.get? d₁ k := by
    obtain ⟨rows, hg, hrw⟩ := u₁
    refine ⟨_, by
      simp only [setStyle, Py.bind_eq]
      rw [Py.bind_ok (by rw [DataSet.entry_run, hg])]
      rfl, ⟨rows, by rw [Dict.get?_set, if_pos rfl], hrw⟩, fun k hk => by
        rw [Dict.get?_set, if_neg hk]⟩
  have x₂ := x₁.congr (f₂ _ (by decide))
  have y₂ := y₁.congr (f₂ _ (by decide))
  have t₂ := t₁.congr (f₂ _ (by decide))
  have o₂ : ∀ kv ∈ r.other, Has d₂ kv.1 (DataSet.defaultNames kv.1 (sizeOf kv.2)) (sizeOf kv.2)
        (sizeOf kv.2) "plot" [] [] := fun kv hkv => (o₁ kv hkv).congr (f₂ _ fun h =>
    hkey "u" (by simp) (h ▸ List.mem_map.mpr ⟨kv, hkv, rfl⟩))
  obtain ⟨d₃, hd₃, x₃, f₃⟩ : ∃ d₃, insertIfNamed r.xNames (Py.forEach
      (List.range (r.finiteElements + 1))
      (insertElement "x" (r.x.time ++ [[r.tf]]) r.x.values)) d₂ = (.ok (), d₃) ∧
      Has d₃ "x" r.xNames r.xNames.length r.xNames.length "plot"
        (contents r.xNames ((r.x.time ++ [[r.tf]]).take (r.finiteElements + 1)).flatten)
        (contents r.xNames (r.x.values.take (r.finiteElements + 1)).flatten) ∧
      ∀ k ≠ "x", Dict.get? d₃ k = Dict.get? d₂ k := by
    by_cases hne : r.xNames = []
    · exact ⟨d₂, by simp [insertIfNamed, hne, Py.pure], by simpa [contents, hne] using x₂,
        fun _ _ => rfl⟩
    · obtain ⟨d₃, e₁, e₂, e₃⟩ := insertLoop_has x₂ hr.x
      exact ⟨d₃, by
        simp only [insertIfNamed, List.length_pos_iff.mpr hne, if_true]; exact e₁,
        by simpa only [contents, hne, if_false] using e₂, e₃⟩
  have y₃ := y₂.congr (f₃ _ (by decide))
  have u₃ := u₂.congr (f₃ _ (by decide))
  have t₃ := t₂.congr (f₃ _ (by decide))
  have o₃ : ∀ kv ∈ r.other, Has d₃ kv.1 (DataSet.defaultNames kv.1 (sizeOf kv.2)) (sizeOf kv.2)
        (sizeOf kv.2) "plot" [] [] := fun kv hkv => (o₂ kv hkv).congr (f₃ _ fun h =>
    hkey "x" (by simp) (h ▸ List.mem_map.mpr ⟨kv, hkv, rfl⟩))
  obtain ⟨d₄, hd₄, y₄, u₄, f₄⟩ := insertYU_loop r hr d₃ _ y₃ u₃
  have x₄ := x₃.congr (f₄ _ (by decide) (by decide))
  have t₄ := t₃.congr (f₄ _ (by decide) (by decide))
  have o₄ : ∀ kv ∈ r.other, Has d₄ kv.1 (DataSet.defaultNames kv.1 (sizeOf kv.2)) (sizeOf kv.2)
        (sizeOf kv.2) "plot" [] [] := fun kv hkv => (o₃ kv hkv).congr (f₄ _ (fun h =>
    hkey "y" (by simp) (h ▸ List.mem_map.mpr ⟨kv, hkv, rfl⟩)) fun h =>
    hkey "u" (by simp) (h ▸ List.mem_map.mpr ⟨kv, hkv, rfl⟩))
  obtain ⟨d₅, hd₅, t₅, f₅⟩ : ∃ d₅, insertIfNamed r.thetaOptNames (insertTheta r) d₄ = (.ok (), d₅) ∧
      Has d₅ "theta_opt" r.thetaOptNames r.thetaOptNames.length r.thetaOptNames.length "step"
        (contents r.thetaOptNames r.breakpoints.dropLast)
        (contents r.thetaOptNames r.thetaOpt) ∧
      ∀ k ≠ "theta_opt", Dict.get? d₅ k = Dict.get? d₄ k := by
    by_cases hne : r.thetaOptNames = []
    · exact ⟨d₄, by simp [insertIfNamed, hne, Py.pure], by simpa [contents, hne] using t₄,
        fun _ _ => rfl⟩
    · obtain ⟨d₅, e₁, e₂, e₃⟩ := insertTheta_has r hr d₄ _ t₄
      exact ⟨d₅, by
        simp only [insertIfNamed, List.length_pos_iff.mpr hne, if_true]; exact e₁,
        by simpa only [contents, hne, if_false] using e₂, e₃⟩
  have x₅ := x₄.congr (f₅ _ (by decide))
  have y₅ := y₄.congr (f₅ _ (by decide))
  have u₅ := u₄.congr (f₅ _ (by decide))
  have o₅ : ∀ kv ∈ r.other, Has d₅ kv.1 (DataSet.defaultNames kv.1 (sizeOf kv.2)) (sizeOf kv.2)
        (sizeOf kv.2) "plot" [] [] := fun kv hkv => (o₄ kv hkv).congr (f₅ _ fun h =>
    hkey "theta_opt" (by simp) (h ▸ List.mem_map.mpr ⟨kv, hkv, rfl⟩))
  obtain ⟨d₆, hd₆, o₆, f₆⟩ := insertOthers_has r hr d₅ o₅
  refine ⟨d₆, ?_, x₅.congr (f₆ _ (hkey _ (by simp))), y₅.congr (f₆ _ (hkey _ (by simp))),
    u₅.congr (f₆ _ (hkey _ (by simp))), t₅.congr (f₆ _ (hkey _ (by simp))), o₆⟩
  simp only [toDataset, Py.bind_eq]
  rw [Py.bind_ok hd₀, Py.bind_ok hd₁, Py.bind_ok hd₂, Py.bind_ok hd₃, Py.bind_ok hd₄, Py.bind_ok hd₅]
  exact hd₆

end OptResult
end Verif
