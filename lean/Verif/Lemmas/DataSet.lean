import Verif.Spec.DataSet
import Verif.Lemmas.Dict
import Verif.Lemmas.Py
/-! Lemmas on data sets. -/
namespace Verif
namespace DataSet

instance : Std.Total fun a b : Rat × List Rat => a.1 ≤ b.1 := ⟨fun a b => le_total a.1 b.1⟩
instance : IsTrans (Rat × List Rat) fun a b => a.1 ≤ b.1 := ⟨fun _ _ _ h h' => le_trans h h'⟩

/-- `sorted` by time is the chronological arrangement. -/
theorem chronological_sortSamples (l : List (Rat × List Rat)) :
    Spec.Chronological l (sortSamples l) := by
  have hp : (sortSamples l).Perm l := List.perm_insertionSort _ l
  refine ⟨hp, List.pairwise_insertionSort _ l, fun t => ?_⟩
  have hsub : (l.filter fun s => decide (s.1 = t)).Sublist (sortSamples l) := by
    apply List.sublist_insertionSort _ List.filter_sublist
    rw [List.pairwise_filter]
    apply List.pairwise_of_forall
    intro a b ha hb
    simp only [decide_eq_true_eq] at ha hb
    rw [ha, hb]
  have hsub' := hsub.filter fun s => decide (s.1 = t)
  rw [List.filter_filter] at hsub'
  simp only [Bool.and_self] at hsub'
  exact (hsub'.eq_of_length (hp.filter _).length_eq.symm).symm

theorem sortSamples_of_ordered (l : List (Rat × List Rat))
    (h : l.Pairwise fun a b => a.1 ≤ b.1) : sortSamples l = l :=
  List.Pairwise.insertionSort_eq h

theorem zip_fst_snd {α β : Type*} (l : List (α × β)) :
    (l.map (·.1)).zip (l.map (·.2)) = l := by
  induction l with
  | nil => rfl
  | cons a l ih => simp [ih]

theorem samples_sortedEntry (e : Entry) :
    Spec.samples (sortedEntry e) = sortSamples (Spec.samples e) := by
  simp only [Spec.samples, sortedEntry, zip_fst_snd]

theorem aligned_sortedEntry (e : Entry) : Spec.Aligned (sortedEntry e) := by
  simp [Spec.Aligned, sortedEntry]

/-- Sorting a sorted entry changes nothing. -/
theorem sortedEntry_twice (e : Entry) : sortedEntry (sortedEntry e) = sortedEntry e := by
  have h := chronological_sortSamples (Spec.samples e)
  have h₂ : sortSamples (Spec.samples (sortedEntry e)) = Spec.samples (sortedEntry e) := by
    rw [samples_sortedEntry]
    exact sortSamples_of_ordered _ h.ordered
  unfold Spec.samples at h₂
  have hd : ∀ e, sortedEntry e = { e with
    time := (sortSamples (e.time.zip e.values.cols)).map (·.1)
    values := ⟨e.values.rows, (sortSamples (e.time.zip e.values.cols)).map (·.2)⟩ } :=
      fun _ => rfl
  rw [hd (sortedEntry e), h₂]
  simp only [sortedEntry, zip_fst_snd]

theorem entry_run (name : String) (d : DataSet) :
    entry name d = match Dict.get? d name with
      | some e => (.ok e, d)
      | none => (.error .keyError, d) := rfl

theorem sortEntry_run (name : String) (d : DataSet) :
    sortEntry name d = match Dict.get? d name with
      | none => (.error .keyError, d)
      | some e =>
        if Spec.samples e = [] then (.error .valueError, d)
        else (.ok (), Dict.set d name (sortedEntry e)) := by
  unfold sortEntry
  simp only [Py.bind_eq]
  match h : Dict.get? d name with
  | none => rw [Py.bind_error (by rw [entry_run, h])]
  | some e =>
    rw [Py.bind_ok (by rw [entry_run, h])]
    simp only [Py.raiseIf, Spec.samples]
    by_cases h0 : e.time.zip e.values.cols = []
    · simp [h0]
    · simp [h0]

theorem insertData_run (name : String) (time : TimeArg) (value : Mat) (d : DataSet) :
    insertData name time value d = match time.toRow with
      | .error er => (.error er, d)
      | .ok t =>
        if t.length ≠ value.cols.length then (.error .valueError, d)
        else match Dict.get? d name with
          | none => (.error .keyError, d)
          | some e => match e.values.hcat value with
            | .error er => (.error er, d)
            | .ok v => (.ok (), Dict.set d name { e with values := v, time := e.time ++ t }) := by
  unfold insertData
  simp only [Py.bind_eq]
  match ht : time.toRow with
  | .error er => simp
  | .ok t =>
    simp only [Py.lift_ok_bind, Py.raiseIf]
    by_cases hl : t.length = value.cols.length
    · simp only [hl, ne_eq, not_true_eq_false, decide_false, Bool.false_eq_true, if_false,
        Py.pure_bind]
      match h : Dict.get? d name with
      | none => rw [Py.bind_error (by rw [entry_run, h])]
      | some e =>
        rw [Py.bind_ok (by rw [entry_run, h])]
        simp only
        match hv : e.values.hcat value with
        | .error er => simp
        | .ok v => simp
    · simp [hl]

theorem hcat_cols (a b v : Mat) (h : a.hcat b = .ok v) :
    v.cols = a.cols ++ b.cols := by
  unfold Mat.hcat at h
  split at h
  · next h0 => simp only [Except.ok.injEq] at h; rw [← h, h0.2]; rfl
  · split at h
    · next h0 => simp only [Except.ok.injEq] at h; rw [← h, h0.2]; simp
    · split at h
      · simp only [Except.ok.injEq] at h; rw [← h]
      · simp at h

theorem wf_set (d : DataSet) (k : String) (e : Entry) (h : Spec.WellFormed d)
    (he : Spec.Aligned e) : Spec.WellFormed (Dict.set d k e) := by
  refine ⟨?_, fun k' e' h' => ?_⟩
  · rw [Dict.keys_set]
    split
    · exact h.1
    · next hk =>
      rw [List.nodup_append]
      refine ⟨h.1, by simp, ?_⟩
      intro a ha b hb hab
      simp only [List.mem_singleton] at hb
      exact hk (hb ▸ hab ▸ ha)
  · rw [Dict.get?_set] at h'
    split at h'
    · simp only [Option.some.injEq] at h'; exact h' ▸ he
    · exact h.2 k' e' h'

theorem wf_createEntry (e n names s) : Py.Always Spec.WellFormed (createEntry e n names s) :=
  fun d h => wf_set d e _ h rfl

theorem wf_insertData {e t v} : Py.Always Spec.WellFormed (insertData e t v) := by
  intro d h
  rw [insertData_run]
  split
  · exact h
  · next t' ht =>
    split
    · exact h
    · next hl =>
      split
      · exact h
      · next e' he' =>
        split
        · exact h
        · next v' hv =>
          refine wf_set d e _ h ?_
          have := h.2 e e' he'
          unfold Spec.Aligned at this ⊢
          simp only [List.length_append, hcat_cols _ _ _ hv, this]
          omega

theorem wf_sortEntry {k} : Py.Always Spec.WellFormed (sortEntry k) := by
  intro d h
  rw [sortEntry_run]
  split
  · exact h
  · split
    · exact h
    · exact wf_set d k _ h (aligned_sortedEntry _)

theorem wf_sort {es} : Py.Always Spec.WellFormed (sort es) := by
  unfold sort
  refine Py.Always.bind Py.Always.get fun d => Py.Always.forEach _ _ fun k _ => wf_sortEntry

theorem wf_entry {k} : Py.Always Spec.WellFormed (entry k) := by
  intro d h
  rw [entry_run]
  split <;> exact h

theorem wf_createIfMissing {k o} : Py.Always Spec.WellFormed (createIfMissing k o) := by
  intro d h
  unfold createIfMissing
  simp only [Py.bind_eq, Py.get_bind]
  split
  · exact h
  · exact wf_createEntry _ _ _ _ d h

theorem wf_extendEntry {kv} : Py.Always Spec.WellFormed (extendEntry kv) := by
  unfold extendEntry
  exact Py.Always.bind wf_entry fun e => Py.Always.bind (Py.Always.raiseIf _ _) fun _ =>
    Py.Always.bind wf_createIfMissing fun _ => wf_insertData

theorem wf_extend {o} : Py.Always Spec.WellFormed (extend o) := by
  unfold extend
  exact Py.Always.bind (Py.Always.forEach _ _ fun kv _ => wf_extendEntry) fun _ => wf_sort

theorem wf_call (c : Call) : Py.Always Spec.WellFormed c.run := by
  cases c with
  | createEntry e n names s => exact wf_createEntry e n names s
  | insertData e t v => exact wf_insertData
  | sort es => exact wf_sort
  | extend o => exact wf_extend

/-- Sorting the entries `ks`. -/
theorem sortAll_run (ks : List String) (d : DataSet)
    (h : ∀ k ∈ ks, ∃ e, Dict.get? d k = some e ∧ Spec.samples e ≠ []) :
    ∃ d', Py.forEach ks sortEntry d = (.ok (), d') ∧ Dict.keys d' = Dict.keys d ∧
      ∀ k, Dict.get? d' k = if k ∈ ks then (Dict.get? d k).map sortedEntry else Dict.get? d k := by
  induction ks generalizing d with
  | nil => exact ⟨d, rfl, rfl, fun k => by simp⟩
  | cons a ks ih =>
    obtain ⟨e, he, hne⟩ := h a (by simp)
    have hrun : sortEntry a d = (.ok (), Dict.set d a (sortedEntry e)) := by
      rw [sortEntry_run, he]
      simp only [hne, if_false]
    have hamem : a ∈ Dict.keys d := by
      by_contra hk
      rw [← Dict.get?_eq_none_iff, he] at hk
      simp at hk
    have hne' : Spec.samples (sortedEntry e) ≠ [] := by
      rw [samples_sortedEntry]
      intro h0
      have := (chronological_sortSamples (Spec.samples e)).same
      rw [h0] at this
      exact hne (List.perm_nil.mp this.symm)
    obtain ⟨d', h₁, h₂, h₃⟩ := ih (Dict.set d a (sortedEntry e)) (by
      intro k hk
      rw [Dict.get?_set]
      by_cases hka : k = a
      · exact ⟨sortedEntry e, by simp [hka], hne'⟩
      · simp only [hka, if_false]
        exact h k (by simp [hk]))
    refine ⟨d', ?_, ?_, fun k => ?_⟩
    · rw [Py.forEach, Py.bind_ok hrun, h₁]
    · rw [h₂, Dict.keys_set, if_pos hamem]
    · rw [h₃ k, Dict.get?_set]
      by_cases hka : k = a
      · subst hka
        simp only [if_true, Option.map_some, sortedEntry_twice, ite_self, List.mem_cons, true_or,
          he]
      · simp only [hka, if_false, List.mem_cons, false_or]

theorem extendEntry_run (kv : String × Entry) (d : DataSet) (e : Entry)
    (he : Dict.get? d kv.1 = some e) (hs : e.size = kv.2.size) :
    extendEntry kv d = insertData kv.1 (.row kv.2.time) kv.2.values d := by
  unfold extendEntry
  simp only [Py.bind_eq]
  rw [Py.bind_ok (by rw [entry_run, he])]
  have hk : Dict.has d kv.1 = true := by
    rw [Dict.has_iff]
    by_contra hk
    rw [← Dict.get?_eq_none_iff, he] at hk
    simp at hk
  simp only [Py.raiseIf, hs, ne_eq, not_true_eq_false, decide_false, Bool.false_eq_true, if_false,
    Py.pure_bind]
  rw [Py.bind_ok (a := ()) (s' := d)]
  unfold createIfMissing
  simp [hk]

theorem hcat_of_sameRows (a b : Mat) (h : Spec.SameRows a b) : ∃ v, a.hcat b = .ok v := by
  unfold Mat.hcat
  split
  · exact ⟨_, rfl⟩
  · split
    · exact ⟨_, rfl⟩
    · rcases h with h | h | h
      · rw [if_pos h]; exact ⟨_, rfl⟩
      · next h1 _ => exact absurd h h1
      · next h1 => exact absurd h h1

/-- Appending the entries of `b` to those of `a`, before sorting. -/
theorem extendLoop (b a : DataSet) (hb : Spec.WellFormed b) (ha : Spec.WellFormed a)
    (h : ∀ kv ∈ b, ∃ e, Dict.get? a kv.1 = some e ∧ e.size = kv.2.size ∧
      Spec.SameRows e.values kv.2.values) :
    ∃ a', Py.forEach b extendEntry a = (.ok (), a') ∧ Dict.keys a' = Dict.keys a ∧
      Spec.WellFormed a' ∧
      ∀ k, Spec.samplesOf a' k = Spec.samplesOf a k ++ Spec.samplesOf b k := by
  induction b generalizing a with
  | nil =>
    refine ⟨a, rfl, rfl, ha, fun k => ?_⟩
    have : Spec.samplesOf ([] : DataSet) k = [] := rfl
    rw [this, List.append_nil]
  | cons kv b ih =>
    obtain ⟨e, he, hs, hrows⟩ := h kv (by simp)
    obtain ⟨v, hv⟩ := hcat_of_sameRows _ _ hrows
    have hal : kv.2.time.length = kv.2.values.cols.length :=
      hb.2 kv.1 kv.2 (by obtain ⟨k, o⟩ := kv; simp [Dict.get?])
    have hrun : extendEntry kv a = (.ok (), Dict.set a kv.1
        { e with values := v, time := e.time ++ kv.2.time }) := by
      rw [extendEntry_run kv a e he hs, insertData_run]
      simp only [TimeArg.toRow, hal, ne_eq, not_true_eq_false, if_false, he, hv]
    have hnb : kv.1 ∉ Dict.keys b ∧ (Dict.keys b).Nodup := by
      have := hb.1
      simpa [Dict.keys] using this
    have hb' : Spec.WellFormed b := by
      refine ⟨hnb.2, fun k e' hk => hb.2 k e' ?_⟩
      obtain ⟨q, o⟩ := kv
      simp only [Dict.get?]
      have : k ≠ q := by
        rintro rfl
        rw [(Dict.get?_eq_none_iff ..).mpr hnb.1] at hk
        simp at hk
      rw [if_neg this]; exact hk
    have hset : Spec.WellFormed (Dict.set a kv.1
        { e with values := v, time := e.time ++ kv.2.time }) := by
      refine wf_set a _ _ ha ?_
      have := ha.2 kv.1 e he
      unfold Spec.Aligned at *
      simp only [List.length_append, hcat_cols _ _ _ hv, this, hal]
    obtain ⟨a', h₁, h₂, h₃, h₄⟩ := ih (Dict.set a kv.1
        { e with values := v, time := e.time ++ kv.2.time }) hb' hset (by
      intro kv' hkv'
      have hne : kv'.1 ≠ kv.1 := fun h0 => hnb.1 (h0 ▸ List.mem_map.mpr ⟨kv', hkv', rfl⟩)
      rw [Dict.get?_set, if_neg hne]
      exact h kv' (by simp [hkv']))
    have hmem : kv.1 ∈ Dict.keys a := by
      by_contra hk
      rw [← Dict.get?_eq_none_iff, he] at hk
      simp at hk
    refine ⟨a', ?_, ?_, h₃, fun k => ?_⟩
    · rw [Py.forEach, Py.bind_ok hrun, h₁]
    · rw [h₂, Dict.keys_set, if_pos hmem]
    · rw [h₄ k]
      obtain ⟨q, o⟩ := kv
      simp only at he hv hnb
      simp only [Spec.samplesOf, Dict.get?_set, Dict.get?]
      by_cases hkq : k = q
      · subst hkq
        simp only [if_true, (Dict.get?_eq_none_iff ..).mpr hnb.1, he, List.append_nil]
        simp only [Spec.samples, hcat_cols _ _ _ hv]
        exact List.zip_append (ha.2 k e he)
      · simp only [hkq, if_false]

theorem sizeCheck_run (ks : List String) (r o : SimResult) :
    Py.forEach ks (fun a => Py.bind Py.get fun r =>
      Py.raiseIf (decide (r.sizeOf a ≠ o.sizeOf a)) .exception) r =
      if ∀ a ∈ ks, r.sizeOf a = o.sizeOf a then (.ok (), r) else (.error .exception, r) := by
  induction ks with
  | nil => simp [Py.forEach]
  | cons a ks ih =>
    rw [Py.forEach]
    by_cases h : r.sizeOf a = o.sizeOf a
    · rw [Py.bind_ok (a := ()) (s' := r) (by simp [Py.get_bind, Py.raiseIf, h]), ih]
      simp [h]
    · rw [Py.bind_error (e := .exception) (s' := r) (by simp [Py.get_bind, Py.raiseIf, h])]
      simp [h]

end DataSet
end Verif
