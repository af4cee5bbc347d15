import Verif.Lemmas.DataFrame
/-!
# C168: a dataset as a table
-/
namespace Verif
open Spec Frame

/-- The merged tables. -/
theorem Frame.mergeAll_ok {fs : List Frame} (h : fs ≠ []) : ∃ r, mergeAll fs = some r ∧
    r.columns = fs.flatMap Frame.columns ∧
    (∀ t cells, (t, cells) ∈ r.rows ↔ (∃ f ∈ fs, Recorded t f) ∧ SideBySide t fs cells) ∧
    (∀ t, (∃ f ∈ fs, Recorded t f) → rowCount t r = (fs.map fun f => max 1 (rowCount t f)).prod) ∧
    (1 < fs.length → (r.rows.map Prod.fst).Pairwise (· ≤ ·)) := by
  obtain ⟨g, fs, rfl⟩ := List.exists_cons_of_ne_nil h
  obtain ⟨r, h₁, h₂, h₃, h₄⟩ := foldl_mergeNext fs g
  refine ⟨r, h₁, h₂, fun t cells => ?_, fun t ht => ?_, fun hl => ?_⟩
  · rw [← h₃, ← h₄, mem_orMissing]
    constructor
    · exact fun h => ⟨⟨_, h⟩, .inl h⟩
    · rintro ⟨⟨v, hv⟩, h | ⟨h, -⟩⟩
      · exact h
      · exact absurd hv (h v)
  · rw [← rowCount_foldl fs g r h₁ t]
    have := rowCount_zero.not.mpr (not_not.mpr ((h₃ t).mpr ht))
    omega
  · refine sorted_foldl fs g r h₁ fun hn => ?_
    subst hn
    simp at hl

/-- The tables of the entries. -/
theorem DataSet.entryFrame_eq (name : String) (e : Entry) (h : Tabular e) :
    entryFrame name e = .ok (entryTable name e) := by
  unfold entryFrame
  rw [if_neg (by
    rw [not_or, not_not, not_not]
    exact ⟨h.1, h.2.symm⟩)]
  unfold entryTable samples
  rw [List.zip_map_right]
  rfl

theorem DataSet.tables (l : List (String × Entry)) (h : ∀ kv ∈ l, Tabular kv.2) :
    l.mapM (fun kv => entryFrame kv.1 kv.2) = .ok (l.map fun kv => entryTable kv.1 kv.2) := by
  induction l with
  | nil => rfl
  | cons a l ih =>
    rw [List.mapM_cons, entryFrame_eq _ _ (h a List.mem_cons_self),
      ih fun kv hkv => h kv (List.mem_cons_of_mem _ hkv)]
    rfl

theorem DataSet.asDataframe_eq (d : DataSet) (h : ∀ kv ∈ named d, Tabular kv.2) :
    DataSet.asDataframe d = match mergeAll ((named d).map fun kv => entryTable kv.1 kv.2) with
      | none => .error .attributeError
      | some f => .ok f := by
  unfold asDataframe
  have hn : (d.filter fun kv => !kv.2.names.isEmpty) = named d := by
    unfold named
    congr 1
    funext kv
    cases kv.2.names <;> simp
  rw [hn, tables _ h]
  rfl

/-- The table of a dataset has a column per name of each entry. Its rows are the entries side by side:
at each time at which there is a sample, every combination of a sample of each entry (or missing values
if the entry has none at this time), and nothing else. -/
theorem C168_rows (d : DataSet) (hne : named d ≠ []) (h : ∀ kv ∈ named d, Tabular kv.2) :
    ∃ f, d.asDataframe = .ok f ∧
      f.columns = (named d).flatMap (fun kv => kv.2.names.map fun n => (kv.1, n)) ∧
      (∀ t cells, (t, cells) ∈ f.rows ↔ (∃ kv ∈ named d, ∃ v, (t, v) ∈ samples kv.2) ∧
        SideBySide t ((named d).map fun kv => entryTable kv.1 kv.2) cells) ∧
      (1 < (named d).length → (f.rows.map Prod.fst).Pairwise (· ≤ ·)) := by
  obtain ⟨r, h₁, h₂, h₃, -, h₅⟩ := mergeAll_ok (fs := (named d).map fun kv => entryTable kv.1 kv.2)
    (by simpa using hne)
  refine ⟨r, ?_, ?_, fun t cells => ?_, fun hl => h₅ (by simpa using hl)⟩
  · rw [DataSet.asDataframe_eq d h, h₁]
  · rw [h₂, List.flatMap_map]
    rfl
  · rw [h₃]
    refine and_congr_left fun _ => ?_
    constructor
    · rintro ⟨f, hf, v, hv⟩
      obtain ⟨kv, hkv, rfl⟩ := List.mem_map.mp hf
      obtain ⟨⟨t', w⟩, hw, he⟩ := List.mem_map.mp hv
      cases he
      exact ⟨kv, hkv, w, hw⟩
    · rintro ⟨kv, hkv, w, hw⟩
      exact ⟨_, List.mem_map_of_mem hkv, w.map some, List.mem_map.mpr ⟨(t, w), hw, rfl⟩⟩

/-- The number of rows at a time is the product of the numbers of samples of the entries at this time
(one for an entry without any). -/
theorem C168_multiplicity (d : DataSet) (hne : named d ≠ []) (h : ∀ kv ∈ named d, Tabular kv.2) (t : Rat)
    (ht : ∃ kv ∈ named d, ∃ v, (t, v) ∈ samples kv.2) :
    ∃ f, d.asDataframe = .ok f ∧ rowCount t f =
      ((named d).map fun kv => max 1 ((samples kv.2).filter fun s => decide (s.1 = t)).length).prod := by
  obtain ⟨r, h₁, -, -, h₄, -⟩ := mergeAll_ok (fs := (named d).map fun kv => entryTable kv.1 kv.2)
    (by simpa using hne)
  refine ⟨r, by rw [DataSet.asDataframe_eq d h, h₁], ?_⟩
  rw [h₄ t ?_, List.map_map]
  · congr 1
    refine List.map_congr_left fun kv _ => ?_
    simp only [Function.comp, rowCount, entryTable, List.filter_map, List.length_map]
    rfl
  · obtain ⟨kv, hkv, v, hv⟩ := ht
    exact ⟨_, List.mem_map_of_mem hkv, v.map some, by
      simp only [entryTable, List.mem_map]
      exact ⟨(t, v), hv, rfl⟩⟩

/-- If no entry has two samples at the same time, there is one row per time. -/
theorem C168_one_row_partial (d : DataSet) (hne : named d ≠ []) (h : ∀ kv ∈ named d, Tabular kv.2)
    (hd : ∀ kv ∈ named d, kv.2.time.Nodup) (t : Rat)
    (ht : ∃ kv ∈ named d, ∃ v, (t, v) ∈ samples kv.2) :
    ∃ f, d.asDataframe = .ok f ∧ rowCount t f = 1 := by
  obtain ⟨f, h₁, h₂⟩ := C168_multiplicity d hne h t ht
  refine ⟨f, h₁, h₂.trans (List.prod_eq_one fun n hn => ?_)⟩
  obtain ⟨kv, hkv, rfl⟩ := List.mem_map.mp hn
  have hs : ((samples kv.2).map Prod.fst).Nodup := by
    unfold samples
    rw [List.map_fst_zip (by rw [(h kv hkv).2])]
    exact hd kv hkv
  have : ((samples kv.2).filter fun s => decide (s.1 = t)).length ≤ 1 := by
    generalize samples kv.2 = l at hs
    induction l with
    | nil => simp
    | cons a l ih =>
      simp only [List.map_cons, List.nodup_cons] at hs
      rw [List.filter_cons]
      split
      · rename_i ha
        have : l.filter (fun s => decide (s.1 = t)) = [] := by
          rw [List.filter_eq_nil_iff]
          intro b hb hbt
          refine hs.1 ?_
          rw [decide_eq_true_eq] at ha hbt
          rw [ha, ← hbt]
          exact List.mem_map_of_mem hb
        rw [this]
        rfl
      · exact ih hs.2
  omega

/-- Without entries with names, the call raises an error that does not say so. -/
theorem C168_empty_fails (d : DataSet) (h : named d = []) : d.asDataframe = .error .attributeError := by
  rw [DataSet.asDataframe_eq d (by rw [h]; simp), h]
  rfl

/-- An entry that has been created and has no data yet makes the call raise, as does any entry whose
values do not have a row per name. -/
theorem C168_no_data_fails (d : DataSet) (h : ∃ kv ∈ named d, kv.2.values.rows ≠ kv.2.names.length) :
    d.asDataframe = .error .valueError := by
  unfold DataSet.asDataframe
  have hn : (d.filter fun kv => !kv.2.names.isEmpty) = named d := by
    unfold named
    congr 1
    funext kv
    cases kv.2.names <;> simp
  rw [hn]
  have : ∀ l : List (String × Entry), (∃ kv ∈ l, kv.2.values.rows ≠ kv.2.names.length) →
      l.mapM (fun kv => DataSet.entryFrame kv.1 kv.2) = .error .valueError := by
    intro l
    induction l with
    | nil => simp
    | cons a l ih =>
      rintro ⟨kv, hkv, hr⟩
      rw [List.mapM_cons]
      by_cases ha : a.2.values.rows ≠ a.2.names.length ∨ a.2.values.cols.length ≠ a.2.time.length
      · have : DataSet.entryFrame a.1 a.2 = .error .valueError := by
          unfold DataSet.entryFrame
          rw [if_pos ha]
        rw [this]
        rfl
      · have hf : DataSet.entryFrame a.1 a.2 = .ok ⟨a.2.names.map fun n => (a.1, n),
            a.2.time.zip (a.2.values.cols.map fun c => c.map some)⟩ := by
          unfold DataSet.entryFrame
          rw [if_neg ha]
        rw [not_or] at ha
        rw [hf, ih ⟨kv, (List.mem_cons.mp hkv).resolve_left fun he => by subst he; exact ha.1 hr, hr⟩]
        rfl
  rw [this _ h]
  rfl

/-- The table of a distributed result: the tables of the nodes side by side; without nodes it raises. -/
theorem C168_distributed (ds : List DataSet) (fs : List Frame)
    (h : ds.map DataSet.asDataframe = fs.map .ok) :
    (ds = [] → distributedDataframe ds = .error .valueError) ∧
    (ds ≠ [] → ∃ f, distributedDataframe ds = .ok f ∧ f.columns = fs.flatMap Frame.columns ∧
      (∀ t cells, (t, cells) ∈ f.rows ↔ (∃ g ∈ fs, Recorded t g) ∧ SideBySide t fs cells) ∧
      ∀ t, (∃ g ∈ fs, Recorded t g) → rowCount t f = (fs.map fun g => max 1 (rowCount t g)).prod) := by
  have hm : ds.mapM DataSet.asDataframe = .ok fs := by
    induction ds generalizing fs with
    | nil => cases fs with
      | nil => rfl
      | cons _ _ => cases h
    | cons d ds ih =>
      cases fs with
      | nil => cases h
      | cons f fs =>
        rw [List.map_cons, List.map_cons, List.cons.injEq] at h
        rw [List.mapM_cons, h.1, ih fs h.2]
        rfl
  have hl : ds.length = fs.length := by simpa using congrArg List.length h
  unfold distributedDataframe
  rw [hm]
  constructor
  · rintro rfl
    obtain rfl : fs = [] := List.length_eq_zero_iff.mp hl.symm
    rfl
  · intro hne
    have : fs ≠ [] := by
      rintro rfl
      exact hne (List.length_eq_zero_iff.mp hl)
    obtain ⟨r, h₁, h₂, h₃, h₄, -⟩ := mergeAll_ok this
    refine ⟨r, ?_, h₂, h₃, h₄⟩
    simp only [bind, Except.bind, h₁]

namespace Example

/-- A state with two samples at time 1, as at the border of two finite elements. -/
def borderSet (name : String) : DataSet :=
  [("x", { names := [name], size := 1, time := [0, 1, 1, 2], values := ⟨1, [[5], [6], [6], [7]]⟩ })]

/-- A control as well. -/
def borderControl : DataSet :=
  borderSet "v" ++ [("u", { names := ["w"], size := 1, time := [0, 1], values := ⟨1, [[8], [9]]⟩ }),
    ("y", { names := [], size := 0 })]

/-- An entry with different times. -/
def plainEntry : String × Entry :=
  ("u", { names := ["w"], size := 1, time := [0, 1], values := ⟨1, [[8], [9]]⟩ })

end Example

/-- With repeated times samples are repeated: for `n` nodes with two samples each at the border of two
elements, the table of the result has `2 ^ n` rows there. -/
theorem C168_repeated_fails (names : List String) (hn : names ≠ []) :
    ∃ f, distributedDataframe (names.map Example.borderSet) = .ok f ∧ rowCount 1 f = 2 ^ names.length := by
  let g (name : String) : Frame := entryTable "x" (Example.borderSet name |>.map Prod.snd |>.headD ⟨[], 0, [], {}, "plot"⟩)
  have hg : ∀ name, (Example.borderSet name).asDataframe = .ok (g name) := fun _ => rfl
  obtain ⟨f, h₁, -, -, h₄⟩ := (C168_distributed (names.map Example.borderSet) (names.map g)
    (by rw [List.map_map, List.map_map]; exact List.map_congr_left fun n _ => hg n)).2 (by simpa using hn)
  refine ⟨f, h₁, ?_⟩
  have h2 : ∀ n, max 1 (rowCount 1 (g n)) = 2 := fun _ => by
    unfold rowCount
    simp [g, entryTable, Example.borderSet, samples]
  rw [h₄ 1, List.map_map, List.map_congr_left (f := (fun g => max 1 (rowCount 1 g)) ∘ g) (g := fun _ => 2) fun n _ => h2 n]
  · simp
  · obtain ⟨n, hn⟩ := List.exists_mem_of_ne_nil _ hn
    exact ⟨g n, List.mem_map_of_mem hn, [some 6], by simp [g, entryTable, Example.borderSet, samples]⟩

open Example in
/-- The table of a state with repeated times and a control. -/
example : borderControl.asDataframe.toOption = some ⟨[("x", "v"), ("u", "w")],
    [(0, [some 5, some 8]), (1, [some 6, some 9]), (1, [some 6, some 9]), (2, [some 7, none])]⟩ := by
  decide +kernel

open Example in
/-- The hypotheses of `C168_rows` and `C168_multiplicity` are met. -/
example : named borderControl ≠ [] ∧ (∀ kv ∈ named borderControl, Tabular kv.2) ∧
    ∃ kv ∈ named borderControl, ∃ v, (1, v) ∈ samples kv.2 := by
  unfold Tabular Aligned
  exact ⟨by decide, by decide +kernel, ("u", ⟨["w"], 1, [0, 1], ⟨1, [[8], [9]]⟩, "plot"⟩), by decide +kernel, [9],
    by decide +kernel⟩

/-- The hypotheses of `C168_one_row_partial` are met by an entry with different times. -/
example : ∃ f, DataSet.asDataframe [Example.plainEntry] = .ok f ∧ rowCount 1 f = 1 :=
  C168_one_row_partial _ (by decide) (by unfold Tabular Aligned; decide +kernel) (by decide +kernel) 1
    ⟨Example.plainEntry, List.mem_singleton_self _, [9], by decide +kernel⟩

end Verif
