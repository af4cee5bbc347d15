import Verif.Lemmas.OptResult
import Verif.Props.OcpIndices
/-! Lemmas for access to results and for the vectors shared with the caller. -/
namespace Verif
open OptResult

theorem OptResult.ne_of_lt_idxOf {names : List String} {name : String} {j : Nat}
    (hj : j < names.idxOf name) : names[j]? ≠ some name := by
  intro hc
  obtain ⟨hl, he⟩ := List.getElem?_eq_some_iff.mp hc
  have := List.not_of_lt_findIdx (p := (· == name)) (xs := names) (i := j) (by simpa [List.idxOf] using hj)
  simp [he] at this

theorem OptResult.indexOf_ok {names : List String} {name : String} {i : Nat}
    (h : Spec.FirstAt names i name) : indexOf names name = .ok i := by
  have hm : name ∈ names := List.mem_of_getElem? h.1
  rw [indexOf, if_pos hm]
  congr 1
  obtain ⟨hi, hg⟩ := List.getElem?_eq_some_iff.mp h.1
  have h₁ : names.idxOf name < names.length := List.idxOf_lt_length_of_mem hm
  have h₂ : names[names.idxOf name]? = some name := by
    rw [List.getElem?_eq_getElem h₁, List.getElem_idxOf h₁]
  rcases Nat.lt_trichotomy (names.idxOf name) i with hlt | heq | hgt
  · exact absurd h₂ (h.2 _ hlt)
  · exact heq
  · exact absurd h.1 (ne_of_lt_idxOf hgt)

theorem OptResult.mapM_forall₂ {α β : Type} {f : α → Except Err β} {R : β → α → Prop} (l : List α)
    (h : ∀ a ∈ l, ∃ b, f a = .ok b ∧ R b a) : ∃ bs, l.mapM f = .ok bs ∧ List.Forall₂ R bs l := by
  induction l with
  | nil => exact ⟨[], rfl, .nil⟩
  | cons a l ih =>
    obtain ⟨b, h₁, h₂⟩ := h a (by simp)
    obtain ⟨bs, h₃, h₄⟩ := ih fun a ha => h a (by simp [ha])
    exact ⟨b :: bs, by simp [List.mapM_cons, h₁, h₃, bind, Except.bind, pure, Except.pure], .cons h₂ h₄⟩

theorem OptResult.rowOf_ok {names : List String} {values : List (List (List Rat))}
    (h : Spec.Rectangular names values) {i : Nat} (hi : i < names.length) :
    ∃ rows, rowOf i values = .ok rows ∧ Spec.RowOf i rows values := by
  refine mapM_forall₂ _ fun el hel => mapM_forall₂ _ fun v hv => ?_
  have hl := h el hel v hv
  refine ⟨v[i], ?_, by rw [List.getElem?_eq_getElem]⟩
  simp [entryOf, List.getElem?_eq_getElem (by omega : i < v.length)]

theorem OptResult.attempt_absent (r : OptResult) (kind : String) (names : List String) (name : String)
    (before : Option (List (List Rat))) (h : name ∉ names) :
    r.attempt kind names name before = .ok before := by
  simp [attempt, indexOf, h]

theorem OptResult.attempt_present (r : OptResult) (kind : String) (names : List String)
    (name : String) (before : Option (List (List Rat))) (values : List (List (List Rat)))
    (hd : r.dataOf kind = .ok values) (hr : Spec.Rectangular names values) {i : Nat}
    (h : Spec.FirstAt names i name) :
    ∃ rows, r.attempt kind names name before = .ok (some rows) ∧ Spec.RowOf i rows values := by
  obtain ⟨hi, _⟩ := List.getElem?_eq_some_iff.mp h.1
  obtain ⟨rows, h₁, h₂⟩ := rowOf_ok hr hi
  exact ⟨rows, by simp [attempt, indexOf_ok h, getVariable, hd, bind, Except.bind, h₁], h₂⟩

theorem OptResult.attempt_ok (r : OptResult) (kind : String) (names : List String)
    (name : String) (before : Option (List (List Rat))) (values : List (List (List Rat)))
    (hd : r.dataOf kind = .ok values) (hr : Spec.Rectangular names values) :
    ∃ v, r.attempt kind names name before = .ok v := by
  by_cases h : name ∈ names
  · have hl := List.idxOf_lt_length_of_mem h
    obtain ⟨rows, h₁, _⟩ := attempt_present r kind names name before values hd hr
      (i := names.idxOf name) ⟨by rw [List.getElem?_eq_getElem hl, List.getElem_idxOf hl],
        fun j hj => ne_of_lt_idxOf hj⟩
    exact ⟨_, h₁⟩
  · exact ⟨_, attempt_absent r kind names name before h⟩

theorem OptResult.insertElement_checked {name : String} {times : List (List Rat)}
    {values : List (List (List Rat))} {el : Nat} {d d' : DataSet}
    (h : insertElement name times values el d = (.ok (), d')) :
    ∃ ts vs, times[el]? = some ts ∧ values[el]? = some vs ∧ ts ≠ [] ∧ ts.length = vs.length := by
  unfold insertElement at h
  simp only [Py.bind_eq] at h
  obtain ⟨ts, _, h₁, h⟩ := Py.bind_eq_ok.mp h
  obtain ⟨t, _, h₂, h⟩ := Py.bind_eq_ok.mp h
  obtain ⟨vs, _, h₃, h⟩ := Py.bind_eq_ok.mp h
  obtain ⟨v, _, h₄, h⟩ := Py.bind_eq_ok.mp h
  have e₁ : times[el]? = some ts := by
    cases hc : times[el]? <;> simp_all [itemAt, Py.lift]
  have e₃ : values[el]? = some vs := by
    cases hc : values[el]? <;> simp_all [itemAt, Py.lift]
  have e₂ : t = ts ∧ ts ≠ [] := by
    cases ts with
    | nil => simp [horzcatTimes, Py.lift] at h₂
    | cons a l =>
      simp only [horzcatTimes, Py.lift, Prod.mk.injEq, Except.ok.injEq] at h₂
      exact ⟨h₂.1.symm, by simp⟩
  have e₄ : v.cols = vs := by
    cases vs with
    | nil => simp [horzcat, Py.lift] at h₄
    | cons c cs =>
      simp only [horzcat] at h₄
      split at h₄
      · simp only [Py.lift, Prod.mk.injEq, Except.ok.injEq] at h₄
        rw [← h₄.1]
      · simp [Py.lift] at h₄
  refine ⟨ts, vs, e₁, e₃, e₂.2, ?_⟩
  rw [DataSet.insertData_run] at h
  simp only [TimeArg.toRow] at h
  split at h
  · simp at h
  · next hne => rw [← e₄, ← e₂.1]; exact not_not.mp hne

namespace Vectors

theorem set_getD (h : Vectors) (o : Nat) : h.set o (h.getD o []) = h := by
  apply List.ext_getElem?
  intro i
  rw [List.getElem?_set]
  split
  · next he =>
    subst he
    split
    · next hl => rw [List.getD_eq_getElem?_getD, List.getElem?_eq_getElem hl]; rfl
    · next hl => rw [List.getElem?_eq_none (by omega)]
  · rfl

theorem take_set {n o : Nat} (h : Vectors) (v : List Rat) (ho : n ≤ o) : (h.set o v).take n = h.take n := by
  rw [List.take_set, List.set_eq_of_length_le]
  rw [List.length_take]
  omega

theorem assign_take {o n : Nat} {ind : List Nat} (values : List Rat) (h : Vectors)
    (hs : ind = [] ∨ n ≤ o) : ((assign o ind values h).2).take n = h.take n := by
  unfold assign
  split
  · rcases hs with rfl | hs
    · show (h.set o (h.getD o [])).take n = _
      rw [set_getD]
    · exact take_set _ _ hs
  · rfl

theorem bind_keeps {σ α β : Type} {P : σ → Prop} {m : Py σ α} {f : α → Py σ β} {s : σ}
    (hm : P (m s).2) (hf : ∀ a s', m s = (.ok a, s') → P (f a s').2) : P (Py.bind m f s).2 := by
  unfold Py.bind
  match h : m s with
  | (.ok a, s') => simpa [h] using hf a s' h
  | (.error e, s') => simpa [h] using hm

theorem parameter_keeps (a b : Nat) (p : ParArg) (h : Vectors) :
    ((parameter a b p h).2).take h.length = h ∧
    ∀ o h', parameter a b p h = (.ok o, h') → (∃ q, p = .dm q ∧ o = q) ∨ h.length ≤ o := by
  cases p with
  | none =>
    simp only [parameter]
    split
    · refine ⟨by simp [create], ?_⟩
      intro o h' he
      simp only [create, Prod.mk.injEq, Except.ok.injEq] at he
      exact .inr (by omega)
    · split
      · refine ⟨by simp [Py.throw], ?_⟩
        intro o h' he
        simp [Py.throw] at he
      · refine ⟨by simp [create], ?_⟩
        intro o h' he
        simp only [create, Prod.mk.injEq, Except.ok.injEq] at he
        exact .inr (by omega)
  | list l =>
    refine ⟨by simp [parameter, create], ?_⟩
    intro o h' he
    simp only [parameter, create, Prod.mk.injEq, Except.ok.injEq] at he
    exact .inr (by omega)
  | dm q =>
    refine ⟨by simp [parameter, Py.pure], ?_⟩
    intro o h' he
    simp only [parameter, Py.pure, Prod.mk.injEq, Except.ok.injEq] at he
    exact .inl ⟨q, rfl, he.1.symm⟩

theorem createTheta_run (n k el : Nat) (h : Vectors) :
    createTheta n el k h = (.ok ((List.range k).map fun i => (el + i, h.length + i)),
      h ++ List.replicate k (List.replicate n 0)) := by
  induction k generalizing el h with
  | zero => simp [createTheta, Py.pure]
  | succ k ih =>
    simp only [createTheta, Py.bind_eq]
    rw [Py.bind_ok (show create (List.replicate n 0) h = (.ok h.length, h ++ [List.replicate n 0]) from rfl),
      Py.bind_ok (ih _ _)]
    simp only [Py.pure, Prod.mk.injEq, Except.ok.injEq]
    refine ⟨?_, ?_⟩
    · rw [List.range_succ_eq_map, List.map_cons, List.map_map]
      simp only [Nat.add_zero, List.cons.injEq, true_and]
      apply List.map_congr_left
      intro i _
      simp
      omega
    · rw [List.replicate_succ, List.append_assoc]; rfl

theorem thetaParameter_keeps (a b k : Nat) (theta : Option (Dict Nat Nat)) (h : Vectors) :
    (∃ l, (thetaParameter a b k theta h).2 = h ++ l) ∧
    ∀ t h', thetaParameter a b k theta h = (.ok t, h') → theta = some t ∨ ∀ kv ∈ t, h.length ≤ kv.2 := by
  cases theta with
  | some t =>
    refine ⟨⟨[], by simp [thetaParameter, Py.pure]⟩, ?_⟩
    intro t' h' he
    simp only [thetaParameter, Py.pure, Prod.mk.injEq, Except.ok.injEq] at he
    exact .inl (by rw [he.1])
  | none =>
    simp only [thetaParameter]
    split
    · rw [createTheta_run]
      refine ⟨⟨_, rfl⟩, ?_⟩
      intro t h' he
      simp only [Prod.mk.injEq, Except.ok.injEq] at he
      rw [← he.1]
      right
      intro kv hkv
      obtain ⟨i, _, rfl⟩ := List.mem_map.mp hkv
      simp
    · split
      · refine ⟨⟨[], by simp [Py.throw]⟩, ?_⟩
        intro t h' he
        simp [Py.throw] at he
      · rw [createTheta_run]
        refine ⟨⟨_, rfl⟩, ?_⟩
        intro t h' he
        simp only [Prod.mk.injEq, Except.ok.injEq] at he
        rw [← he.1]
        right
        intro kv hkv
        obtain ⟨i, _, rfl⟩ := List.mem_map.mp hkv
        simp

theorem assign_ok {o : Nat} {ind : List Nat} {values : List Rat} {h h' : Vectors}
    (e : assign o ind values h = (.ok (), h')) :
    (values.length = ind.length ∧ ∀ i ∈ ind, i < (h.getD o []).length) ∧
      h' = h.set o (Ocp.putValues ind values (h.getD o [])) := by
  unfold assign at e
  split at e
  · next hc => exact ⟨hc, by simpa using e.symm⟩
  · simp at e

theorem assignThetas_take (ind : List Nat) (thetaOpt : List (List Rat)) (th : Dict Nat Nat)
    (h : Vectors) {n : Nat} (hs : ind = [] ∨ ∀ kv ∈ th, n ≤ kv.2) :
    ((Py.forEach th (assignTheta ind thetaOpt) h).2).take n = h.take n := by
  refine Py.Always.forEach (P := fun s => s.take n = h.take n) _ _ (fun kv hkv => ?_) h rfl
  unfold assignTheta
  simp only [Py.bind_eq]
  refine Py.Always.bind (Py.Always.lift _) fun v s hP => ?_
  rw [assign_take, hP]
  exact hs.imp id fun hs => hs kv hkv

theorem reports_putValues {α : Type} (ind : List Nat) (values v : List α) (hn : ind.Nodup)
    (hl : values.length = ind.length) (hi : ∀ i ∈ ind, i < v.length) :
    Spec.Reports ind values v (Ocp.putValues ind values v) := by
  refine ⟨Ocp.putValues_length _ _ _, ?_, fun i hi => Ocp.putValues_other _ _ _ _ hi⟩
  intro k i hk
  obtain ⟨hk', he⟩ := List.getElem?_eq_some_iff.mp hk
  have := Ocp.putValues_at ind values v hn hi hl k hk'
  rw [he] at this
  rw [this, List.getElem?_eq_getElem]

theorem parameter_lt {a b : Nat} {p : ParArg} {h h' : Vectors} {o : Nat}
    (hp : ∀ q, p = .dm q → q < h.length) (e : parameter a b p h = (.ok o, h')) : o < h'.length := by
  have hc : ∀ v, create v h = (.ok o, h') → o < h'.length := by
    intro v hv
    simp only [create, Prod.mk.injEq, Except.ok.injEq] at hv
    rw [← hv.1, ← hv.2]
    simp
  cases p with
  | none =>
    simp only [parameter] at e
    split at e
    · exact hc _ e
    · split at e
      · simp [Py.throw] at e
      · exact hc _ e
  | list l => exact hc _ e
  | dm q =>
    simp only [parameter, Py.pure, Prod.mk.injEq, Except.ok.injEq] at e
    rw [← e.1, ← e.2]
    exact hp q rfl

theorem thetaParameter_none {a b k : Nat} {h h' : Vectors} {t : Dict Nat Nat}
    (e : thetaParameter a b k none h = (.ok t, h')) : ∃ n, createTheta n 0 k h = (.ok t, h') := by
  simp only [thetaParameter] at e
  split at e
  · exact ⟨_, e⟩
  · split at e
    · simp [Py.throw] at e
    · exact ⟨_, e⟩

theorem storeOptimised_reports {pInd thetaInd : List Nat} {pOpt : List Rat}
    {thetaOpt : List (List Rat)} {po : Nat} {th : Dict Nat Nat} {h h' : Vectors} (hpn : pInd.Nodup)
    (htn : thetaInd.Nodup) (hp : po < h.length) (hth : ∀ kv ∈ th, kv.2 < h.length)
    (hnd : (th.map (·.2)).Nodup) (hnp : po ∉ th.map (·.2))
    (e : storeOptimised pInd thetaInd pOpt thetaOpt po th h = (.ok (), h')) :
    (∃ before after, h[po]? = some before ∧ h'[po]? = some after ∧
        Spec.Reports pInd pOpt before after) ∧
      ∀ el o, (el, o) ∈ th → ∃ w before after, thetaOpt[el]? = some w ∧
        h[o]? = some before ∧ h'[o]? = some after ∧ Spec.Reports thetaInd w before after := by
  unfold storeOptimised at e
  simp only [Py.bind_eq] at e
  obtain ⟨_, h₁, e₁, e₂⟩ := Py.bind_eq_ok.mp e
  obtain ⟨⟨hl, hi⟩, hh₁⟩ := assign_ok e₁
  have hlen₁ : h₁.length = h.length := by rw [hh₁, List.length_set]
  have hoth₁ : ∀ o, o ≠ po → h₁[o]? = h[o]? := by
    intro o ho
    rw [hh₁, List.getElem?_set_ne (Ne.symm ho)]
  have loop := Py.Triple.forEach_prefix (fun (pre : List (Nat × Nat)) (s : Vectors) =>
      s.length = h.length ∧ (∀ o, o ∉ pre.map (·.2) → s[o]? = h₁[o]?) ∧
      ∀ el o, (el, o) ∈ pre → ∃ w before after, thetaOpt[el]? = some w ∧
        h[o]? = some before ∧ s[o]? = some after ∧ Spec.Reports thetaInd w before after)
    th (assignTheta thetaInd thetaOpt) ?_ th [] rfl h₁ () h' ⟨hlen₁, fun _ _ => rfl, by simp⟩ e₂
  · obtain ⟨_, g₁, g₂⟩ := loop
    refine ⟨⟨h[po], Ocp.putValues pInd pOpt h[po], List.getElem?_eq_getElem hp, ?_, ?_⟩, g₂⟩
    · rw [g₁ po hnp, hh₁, List.getElem?_set_self hp, List.getD_eq_getElem?_getD,
        List.getElem?_eq_getElem hp]; rfl
    · rw [List.getD_eq_getElem?_getD, List.getElem?_eq_getElem hp] at hi
      exact reports_putValues _ _ _ hpn hl hi
  · rintro pre ⟨el, o⟩ post hl' s _ s' ⟨i₁, i₂, i₃⟩ hs
    have hmem : (el, o) ∈ th := by rw [← hl']; simp
    have hnot : o ∉ pre.map (·.2) := by
      rw [← hl', List.map_append, List.map_cons, List.nodup_append] at hnd
      intro hc
      exact hnd.2.2 _ hc _ (by simp) rfl
    have hne : o ≠ po := fun hc => hnp (hc ▸ List.mem_map.mpr ⟨_, hmem, rfl⟩)
    unfold assignTheta at hs
    simp only [Py.bind_eq] at hs
    obtain ⟨w, s₁, f₁, f₂⟩ := Py.bind_eq_ok.mp hs
    have hw : thetaOpt[el]? = some w ∧ s = s₁ := by
      cases hc : thetaOpt[el]? <;> simp_all [itemAt, Py.lift]
    obtain ⟨hw, rfl⟩ := hw
    obtain ⟨⟨hl₂, hi₂⟩, hh₂⟩ := assign_ok f₂
    have hol : o < h.length := hth _ hmem
    have hso : s[o]? = some h[o] := by
      rw [i₂ o hnot, hoth₁ o hne, List.getElem?_eq_getElem hol]
    have hgd : s.getD o [] = h[o] := by
      rw [List.getD_eq_getElem?_getD, hso]; rfl
    simp only [hgd] at hi₂ hh₂
    refine ⟨by rw [hh₂, List.length_set, i₁], ?_, ?_⟩
    · intro o' ho'
      simp only [List.map_append, List.map_cons, List.map_nil, List.mem_append, List.mem_singleton,
        not_or] at ho'
      rw [hh₂, List.getElem?_set_ne (Ne.symm ho'.2)]
      exact i₂ o' ho'.1
    · intro el' o' hm
      rcases List.mem_append.mp hm with hm | hm
      · obtain ⟨w', b, a, j₁, j₂, j₃, j₄⟩ := i₃ el' o' hm
        have hoo : o ≠ o' := fun hc => hnot (hc ▸ List.mem_map.mpr ⟨_, hm, rfl⟩)
        exact ⟨w', b, a, j₁, j₂, by rw [hh₂, List.getElem?_set_ne hoo]; exact j₃, j₄⟩
      · obtain ⟨rfl, rfl⟩ := Prod.mk.inj (List.mem_singleton.mp hm)
        exact ⟨w, h[o'], _, hw, List.getElem?_eq_getElem hol, by
          rw [hh₂, List.getElem?_set_self (by omega)], reports_putValues _ _ _ htn hl₂ hi₂⟩

end Vectors

end Verif
