import Verif.Lemmas.DataCopy
/-! The copy of a data set, and the methods of data sets read through references. -/
namespace Verif
namespace DataHeap
open Py

/-! ## The copy -/

theorem kind_shift (n : Nat) (c : Cell) : (c.shift n).kind = c.kind := by cases c <;> rfl

theorem copy_old (h : List Cell) (x : Nat) (hx : x < h.length) :
    (h ++ h.map (Cell.shift h.length))[x]? = h[x]? := List.getElem?_append_left hx

theorem copy_new (h : List Cell) (i : Nat) :
    (h ++ h.map (Cell.shift h.length))[i + h.length]? = h[i]?.map (Cell.shift h.length) := by
  rw [List.getElem?_append_right (by omega), Nat.add_sub_cancel, List.getElem?_map]

theorem copy_kind_old (h : List Cell) (x : Nat) (hx : x < h.length) :
    kindAt (h ++ h.map (Cell.shift h.length)) x = kindAt h x := by
  unfold kindAt
  rw [copy_old h x hx]

theorem copy_kind_new (h : List Cell) (i : Nat) :
    kindAt (h ++ h.map (Cell.shift h.length)) (i + h.length) = kindAt h i := by
  unfold kindAt
  rw [copy_new h i]
  cases h[i]? with
  | none => rfl
  | some c => simp [kind_shift]

theorem Fits.anyone {own : Nat → Bool} {h : List Cell} {x : Nat} {c : Cell} (hf : Fits own h x c)
    (b : Bool) : Fits (fun _ => b) h x c := by
  cases c with
  | dict d => exact ⟨hf.1, hf.2.1, fun kv hkv => ⟨rfl, (hf.2.2 kv hkv).2⟩⟩
  | entry e => exact ⟨⟨rfl, hf.1.2⟩, ⟨.inr rfl, hf.2.1.2⟩, ⟨.inr rfl, hf.2.2.2⟩⟩
  | _ => trivial

/-- After the copy each data set has its own objects. -/
theorem good_getCopy {own : Nat → Bool} {w : World} (hg : Good own w) (b : Bool) :
    Good (fun x => if x < w.heap.length then b else !b) (w.getCopy b) := by
  have hb := hg.objs b
  have hbl := kindAt_lt hb.2
  have h0 : 0 < w.heap.length := by omega
  have h1 : 1 < w.heap.length := kindAt_lt (k := .mat) (by unfold kindAt; rw [hg.values]; rfl)
  refine ⟨(copy_old _ 0 h0).trans hg.time, (copy_old _ 1 h1).trans hg.values, fun c => ?_, fun x c hx => ?_⟩
  · by_cases hc : c = b
    · subst hc
      simp only [World.getCopy, if_true, hbl, true_and]
      rw [copy_kind_old _ _ hbl]
      exact hb.2
    · have hcb : c = !b := by cases b <;> cases c <;> simp_all
      simp only [World.getCopy, if_neg hc]
      rw [copy_kind_new]
      refine ⟨?_, hb.2⟩
      rw [if_neg (by omega), hcb]
  · change (w.heap ++ w.heap.map (Cell.shift w.heap.length))[x]? = some c at hx
    by_cases hxl : x < w.heap.length
    · rw [copy_old _ _ hxl] at hx
      exact ((hg.fits x c hx).anyone b).mono hxl (fun y hy => copy_kind_old _ y hy)
        (fun y hy => if_pos hy)
    · obtain ⟨i, rfl⟩ : ∃ i, x = i + w.heap.length := ⟨x - w.heap.length, by omega⟩
      rw [copy_new] at hx
      obtain ⟨c', hc', rfl⟩ := Option.map_eq_some_iff.mp hx
      have hf := hg.fits i c' hc'
      have ho : ∀ y, (fun x => if x < w.heap.length then b else !b) (y + w.heap.length) = !b :=
        fun y => if_neg (by omega)
      cases c' with
      | dict d =>
        refine ⟨?_, ?_, fun kv hkv => ?_⟩
        · have : Dict.keys (d.map fun kv => (kv.1, kv.2 + w.heap.length)) = Dict.keys d := by
            simp [Dict.keys, Function.comp_def]
          rw [this]
          exact hf.1
        · rw [List.map_map]
          have : ((fun x : String × Nat => x.2) ∘ fun kv : String × Nat => (kv.1, kv.2 + w.heap.length)) =
              (fun n => n + w.heap.length) ∘ fun x => x.2 := rfl
          rw [this, ← List.map_map]
          exact hf.2.1.map fun a b h => by simpa using h
        · obtain ⟨kv', hkv', rfl⟩ := List.mem_map.mp hkv
          exact ⟨by rw [ho, ho], by
            show kindAt _ (kv'.2 + w.heap.length) = _
            exact (copy_kind_new _ _).trans (hf.2.2 kv' hkv').2⟩
      | entry e =>
        exact ⟨⟨by
            show _ = (fun x => if x < w.heap.length then b else !b) (i + w.heap.length)
            exact (ho _).trans (ho _).symm, (copy_kind_new _ _).trans hf.1.2⟩,
          ⟨.inr (by
            show _ = (fun x => if x < w.heap.length then b else !b) (i + w.heap.length)
            exact (ho _).trans (ho _).symm), (copy_kind_new _ _).trans hf.2.1.2⟩,
          ⟨.inr (by
            show _ = (fun x => if x < w.heap.length then b else !b) (i + w.heap.length)
            exact (ho _).trans (ho _).symm), (copy_kind_new _ _).trans hf.2.2.2⟩⟩
      | _ => trivial

theorem copy_names_old (h : List Cell) (a : Nat) (ha : a < h.length) :
    namesAt (h ++ h.map (Cell.shift h.length)) a = namesAt h a := by
  unfold namesAt; rw [copy_old h a ha]
theorem copy_row_old (h : List Cell) (a : Nat) (ha : a < h.length) :
    rowAt (h ++ h.map (Cell.shift h.length)) a = rowAt h a := by
  unfold rowAt; rw [copy_old h a ha]
theorem copy_mat_old (h : List Cell) (a : Nat) (ha : a < h.length) :
    matAt (h ++ h.map (Cell.shift h.length)) a = matAt h a := by
  unfold matAt; rw [copy_old h a ha]

theorem copy_names_new (h : List Cell) (a : Nat) :
    namesAt (h ++ h.map (Cell.shift h.length)) (a + h.length) = namesAt h a := by
  unfold namesAt
  rw [copy_new h a]
  cases h[a]? with
  | none => rfl
  | some c => cases c <;> rfl
theorem copy_row_new (h : List Cell) (a : Nat) :
    rowAt (h ++ h.map (Cell.shift h.length)) (a + h.length) = rowAt h a := by
  unfold rowAt
  rw [copy_new h a]
  cases h[a]? with
  | none => rfl
  | some c => cases c <;> rfl
theorem copy_mat_new (h : List Cell) (a : Nat) :
    matAt (h ++ h.map (Cell.shift h.length)) (a + h.length) = matAt h a := by
  unfold matAt
  rw [copy_new h a]
  cases h[a]? with
  | none => rfl
  | some c => cases c <;> rfl

/-- Both read like the original. -/
theorem view_getCopy {own : Nat → Bool} {w : World} (hg : Good own w) (b c : Bool) :
    (w.getCopy b).view c = w.view b := by
  have hb := hg.objs b
  have hbl := kindAt_lt hb.2
  by_cases hc : c = b
  · subst hc
    unfold World.view
    have hd : dictAt (w.getCopy c).heap ((w.getCopy c).obj c) = dictAt w.heap (w.obj c) := by
      simp only [World.getCopy, if_true]
      unfold dictAt
      rw [copy_old _ _ hbl]
    rw [hd]
    refine List.map_congr_left fun kv hkv => ?_
    have hk := ((dict_fits hg c).2.2 kv hkv).2
    have he : entryAt (w.getCopy c).heap kv.2 = entryAt w.heap kv.2 := by
      simp only [World.getCopy]
      unfold entryAt
      rw [copy_old _ _ (kindAt_lt hk)]
    obtain ⟨⟨-, h2⟩, ⟨-, h4⟩, ⟨-, h6⟩⟩ := entry_fits hg hk
    rw [he]
    simp only [World.getCopy, readEntry]
    rw [copy_names_old _ _ (kindAt_lt h2), copy_row_old _ _ (kindAt_lt h4), copy_mat_old _ _ (kindAt_lt h6)]
  · unfold World.view
    have hd : dictAt (w.getCopy b).heap ((w.getCopy b).obj c) =
        (dictAt w.heap (w.obj b)).map fun kv => (kv.1, kv.2 + w.heap.length) := by
      simp only [World.getCopy, if_neg hc]
      unfold dictAt
      rw [copy_new]
      cases w.heap[w.obj b]? with
      | none => rfl
      | some c => cases c <;> rfl
    rw [hd, List.map_map]
    refine List.map_congr_left fun kv hkv => ?_
    have hk := ((dict_fits hg b).2.2 kv hkv).2
    have he : entryAt (w.getCopy b).heap (kv.2 + w.heap.length) =
        { entryAt w.heap kv.2 with
          names := (entryAt w.heap kv.2).names + w.heap.length
          time := (entryAt w.heap kv.2).time + w.heap.length
          values := (entryAt w.heap kv.2).values + w.heap.length } := by
      simp only [World.getCopy]
      conv_lhs => unfold entryAt
      rw [copy_new, entry_cell hk]
      rfl
    simp only [Function.comp]
    rw [he]
    simp only [World.getCopy, readEntry]
    rw [copy_names_new, copy_row_new, copy_mat_new]

theorem good_start : Good (fun x => decide (x = 3)) World.start := by
  refine ⟨rfl, rfl, fun b => by cases b <;> exact ⟨rfl, rfl⟩, fun x c hx => ?_⟩
  match x with
  | 0 => cases hx; trivial
  | 1 => cases hx; trivial
  | 2 => cases hx; exact ⟨by simp [Dict.keys], by simp, by simp⟩
  | 3 => cases hx; exact ⟨by simp [Dict.keys], by simp, by simp⟩
  | x + 4 => simp [World.start] at hx

/-! ## The methods of one data set -/

/-- A computation on data set `b` gives what `p` gives on what is read through `b`. -/
def Refines (b : Bool) {α : Type} (m : Py World α) (p : Py DataSet α) : Prop :=
  ∀ own w, Good own w → (m w).1 = (p (w.view b)).1 ∧ (m w).2.view b = (p (w.view b)).2

theorem Refines.bind {b : Bool} {α β : Type} {m : Py World α} {p : Py DataSet α} {f : α → Py World β}
    {g : α → Py DataSet β} (hl : Local b m) (hm : Refines b m p) (hf : ∀ a, Refines b (f a) (g a)) :
    Refines b (Py.bind m f) (Py.bind p g) := by
  intro own w hg
  obtain ⟨own', h'⟩ := hl own w hg
  obtain ⟨h₁, h₂⟩ := hm own w hg
  unfold Py.bind
  match hr : m w, hp : p (w.view b) with
  | (.ok a, s), (.ok a', d) =>
    rw [hr] at h' h₁ h₂
    rw [hp] at h₁ h₂
    cases h₁
    subst h₂
    exact hf a own' s h'.good
  | (.error e, s), (.error e', d) =>
    rw [hr] at h₁ h₂
    rw [hp] at h₁ h₂
    cases h₁
    exact ⟨rfl, h₂⟩
  | (.ok a, s), (.error e, d) => rw [hr, hp] at h₁; cases h₁
  | (.error e, s), (.ok a, d) => rw [hr, hp] at h₁; cases h₁

theorem Refines.pure {b : Bool} {α : Type} (a : α) : Refines b (Py.pure a) (Py.pure a) :=
  fun _ _ _ => ⟨rfl, rfl⟩
theorem Refines.lift {b : Bool} {α : Type} (r : Except Err α) : Refines b (Py.lift r) (Py.lift r) :=
  fun _ _ _ => ⟨rfl, rfl⟩
theorem Refines.raiseIf {b : Bool} (c : Bool) (e : Err) : Refines b (Py.raiseIf c e) (Py.raiseIf c e) :=
  fun _ _ _ => by cases c <;> exact ⟨rfl, rfl⟩

theorem Refines.forEach {b : Bool} {ι : Type} (l : List ι) {f : ι → Py World Unit}
    {g : ι → Py DataSet Unit} (hl : ∀ i, Local b (f i)) (h : ∀ i, Refines b (f i) (g i)) :
    Refines b (Py.forEach l f) (Py.forEach l g) := by
  induction l with
  | nil => exact .pure _
  | cons a l ih => exact .bind (hl a) (h a) fun _ => ih

theorem get?_map {κ : Type} {α β : Type} [DecidableEq κ] (d : Dict κ α) (f : α → β) (k : κ) :
    Dict.get? (d.map fun kv => (kv.1, f kv.2)) k = (Dict.get? d k).map f := by
  induction d with
  | nil => rfl
  | cons kv d ih =>
    obtain ⟨k', v⟩ := kv
    by_cases h : k = k' <;> simp [Dict.get?, h, ih]

theorem get?_view (w : World) (b : Bool) (name : String) :
    Dict.get? (w.view b) name =
      (Dict.get? (dictAt w.heap (w.obj b)) name).map fun a => readEntry w.heap (entryAt w.heap a) :=
  get?_map _ (fun a => readEntry w.heap (entryAt w.heap a)) name

theorem keys_view (w : World) (b : Bool) : Dict.keys (w.view b) = Dict.keys (dictAt w.heap (w.obj b)) := by
  simp [World.view, Dict.keys, Function.comp_def]

theorem Refines.read {b : Bool} {name : String} : Refines b (read b name) (DataSet.entry name) := by
  intro own w hg
  rw [read_run, DataSet.entry_run, get?_view]
  cases Dict.get? (dictAt w.heap (w.obj b)) name <;> exact ⟨rfl, rfl⟩

theorem map_set_of_get? {α β : Type} {d : Dict String α} {name : String} {a : α}
    (hd : Dict.get? d name = some a) (hk : (Dict.keys d).Nodup) (f f' : α → β)
    (h : ∀ kv ∈ d, kv.1 ≠ name → f' kv.2 = f kv.2) :
    (d.map fun kv => (kv.1, f' kv.2)) = Dict.set (d.map fun kv => (kv.1, f kv.2)) name (f' a) := by
  induction d with
  | nil => simp [Dict.get?] at hd
  | cons kv d ih =>
    obtain ⟨k', v⟩ := kv
    simp only [Dict.keys, List.map_cons, List.nodup_cons] at hk
    by_cases hn : name = k'
    · subst hn
      simp only [Dict.get?, if_true, Option.some.injEq] at hd
      subst hd
      simp only [List.map_cons, Dict.set, if_true, List.cons.injEq, true_and]
      refine List.map_congr_left fun kv hkv => ?_
      rw [h kv (List.mem_cons_of_mem _ hkv)]
      rintro rfl
      exact hk.1 (List.mem_map_of_mem hkv)
    · simp only [Dict.get?, if_neg hn] at hd
      simp only [List.map_cons, Dict.set, if_neg hn, List.cons.injEq, Prod.mk.injEq, true_and]
      exact ⟨h (k', v) List.mem_cons_self (fun hh => hn hh.symm),
        ih hd hk.2 fun kv hkv => h kv (List.mem_cons_of_mem _ hkv)⟩

theorem map_set {α β : Type} (d : Dict String α) (name : String) (a : α) (f f' : α → β)
    (h : ∀ kv ∈ d, f' kv.2 = f kv.2) :
    ((Dict.set d name a).map fun kv => (kv.1, f' kv.2)) =
      Dict.set (d.map fun kv => (kv.1, f kv.2)) name (f' a) := by
  induction d with
  | nil => rfl
  | cons kv d ih =>
    obtain ⟨k', v⟩ := kv
    by_cases hn : name = k'
    · subst hn
      simp only [List.map_cons, Dict.set, if_true, List.cons.injEq, true_and]
      exact List.map_congr_left fun kv hkv => by rw [h kv (List.mem_cons_of_mem _ hkv)]
    · simp only [List.map_cons, Dict.set, if_neg hn, List.cons.injEq, Prod.mk.injEq, true_and]
      exact ⟨h (k', v) List.mem_cons_self, ih fun kv hkv => h kv (List.mem_cons_of_mem _ hkv)⟩

/-- What is read through an entry that is not changed. -/
theorem readEntry_other {own : Nat → Bool} {w : World} (hg : Good own w) {x a : Nat} {c : Cell}
    {news : List Cell} (hx : kindAt w.heap x = some .entry) (hne : x ≠ a)
    (hc : c.kind = .entry ∨ c.kind = .dict) (hk : kindAt w.heap a = some c.kind) :
    readEntry ((w.heap ++ news).set a c) (entryAt ((w.heap ++ news).set a c) x) =
      readEntry w.heap (entryAt w.heap x) := by
  have other : ∀ y k, kindAt w.heap y = some k → y ≠ a →
      ((w.heap ++ news).set a c)[y]? = w.heap[y]? := fun y k hy hya => by
    rw [cell_set _ _ _ _ _ (kindAt_lt hy), if_neg hya]
  have ne : ∀ y k, kindAt w.heap y = some k → k ≠ .entry → k ≠ .dict → y ≠ a := by
    rintro y k hy h1 h2 rfl
    rw [hk] at hy
    cases hy
    rcases hc with h | h
    · exact h1 h
    · exact h2 h
  have he : entryAt ((w.heap ++ news).set a c) x = entryAt w.heap x := by
    unfold entryAt
    rw [other x _ hx hne]
  obtain ⟨⟨-, h2⟩, ⟨-, h4⟩, ⟨-, h6⟩⟩ := entry_fits hg hx
  rw [he]
  unfold readEntry namesAt rowAt matAt
  rw [other _ _ h2 (ne _ _ h2 (by simp) (by simp)), other _ _ h4 (ne _ _ h4 (by simp) (by simp)),
    other _ _ h6 (ne _ _ h6 (by simp) (by simp))]

/-- An entry object of data set `b` is changed. -/
theorem view_set_entry {own : Nat → Bool} {w : World} (hg : Good own w) {b : Bool} {name : String} {a : Nat}
    (hd : Dict.get? (dictAt w.heap (w.obj b)) name = some a) (e : EntryObj) (news : List Cell) :
    World.view { w with heap := (w.heap ++ news).set a (.entry e) } b =
      Dict.set (w.view b) name (readEntry ((w.heap ++ news).set a (.entry e)) e) := by
  have hf := dict_fits hg b
  have hk : kindAt w.heap a = some .entry := (hf.2.2 _ (mem_of_get? hd)).2
  have hal := kindAt_lt hk
  have hb := hg.objs b
  have hne : w.obj b ≠ a := by
    rintro h
    rw [← h, hb.2] at hk
    cases hk
  unfold World.view
  have hdict : dictAt ((w.heap ++ news).set a (.entry e)) (w.obj b) = dictAt w.heap (w.obj b) := by
    unfold dictAt
    rw [cell_set _ _ _ _ _ (kindAt_lt hb.2), if_neg hne]
  simp only [hdict]
  have := map_set_of_get? hd hf.1 (fun x => readEntry w.heap (entryAt w.heap x))
    (fun x => readEntry ((w.heap ++ news).set a (.entry e)) (entryAt ((w.heap ++ news).set a (.entry e)) x))
    (fun kv hkv hname => by
      refine readEntry_other hg (hf.2.2 kv hkv).2 ?_ (.inl rfl) hk
      intro hkva
      obtain ⟨k, x⟩ := kv
      simp only at hkva hname
      subst hkva
      have h1 := mem_of_get? hd
      have := List.inj_on_of_nodup_map hf.2.1 h1 hkv rfl
      simp only [Prod.mk.injEq, and_true] at this
      exact hname this.symm)
  rw [this]
  congr 2
  unfold entryAt
  rw [cell_set _ _ _ _ _ hal, if_pos rfl]

/-- `self.data[entry].values = v` on a data set. -/
def pureValues (name : String) (v : Mat) : Py DataSet Unit :=
  Py.bind (DataSet.entry name) fun e => Py.modify fun d => Dict.set d name { e with values := v }

/-- `self.data[entry].time = t` on a data set. -/
def pureTime (name : String) (t : List Rat) : Py DataSet Unit :=
  Py.bind (DataSet.entry name) fun e => Py.modify fun d => Dict.set d name { e with time := t }

theorem ref_run (b : Bool) (name : String) (w : World) :
    ref b name w = match Dict.get? (dictAt w.heap (w.obj b)) name with
      | some a => (.ok a, w)
      | none => (.error .keyError, w) := rfl

theorem Refines.assignValues {b : Bool} {name : String} {v : Mat} :
    Refines b (assignValues b name v) (pureValues name v) := by
  intro own w hg
  show (Py.bind (DataHeap.ref b name) _ w).1 = _ ∧ (Py.bind (DataHeap.ref b name) _ w).2.view b = _
  unfold Py.bind pureValues Py.bind
  rw [ref_run, DataSet.entry_run, get?_view]
  cases hd : Dict.get? (dictAt w.heap (w.obj b)) name with
  | none => exact ⟨rfl, rfl⟩
  | some a =>
    refine ⟨rfl, ?_⟩
    have hk : kindAt w.heap a = some .entry := ((dict_fits hg b).2.2 _ (mem_of_get? hd)).2
    have hal := kindAt_lt hk
    show (setValuesRef a v w).view b = Dict.set (w.view b) name _
    unfold setValuesRef
    rw [view_set_entry hg hd]
    congr 1
    obtain ⟨⟨-, h2⟩, ⟨-, h4⟩, -⟩ := entry_fits hg hk
    unfold readEntry
    simp only [Entry.mk.injEq, true_and, and_true]
    refine ⟨?_, ?_, ?_⟩
    · unfold namesAt
      rw [cell_set _ _ _ _ _ (kindAt_lt h2), if_neg]
      rintro h; rw [h, hk] at h2; cases h2
    · unfold rowAt
      rw [cell_set _ _ _ _ _ (kindAt_lt h4), if_neg]
      rintro h; rw [h, hk] at h4; cases h4
    · unfold matAt
      have := cell_new w.heap [Cell.mat v] a (.entry { entryAt w.heap a with values := w.heap.length }) 0 hal
      rw [Nat.add_zero] at this
      rw [this]
      rfl

theorem Refines.assignTime {b : Bool} {name : String} {t : List Rat} :
    Refines b (assignTime b name t) (pureTime name t) := by
  intro own w hg
  show (Py.bind (DataHeap.ref b name) _ w).1 = _ ∧ (Py.bind (DataHeap.ref b name) _ w).2.view b = _
  unfold Py.bind pureTime Py.bind
  rw [ref_run, DataSet.entry_run, get?_view]
  cases hd : Dict.get? (dictAt w.heap (w.obj b)) name with
  | none => exact ⟨rfl, rfl⟩
  | some a =>
    refine ⟨rfl, ?_⟩
    have hk : kindAt w.heap a = some .entry := ((dict_fits hg b).2.2 _ (mem_of_get? hd)).2
    have hal := kindAt_lt hk
    show (setTimeRef a t w).view b = Dict.set (w.view b) name _
    unfold setTimeRef
    rw [view_set_entry hg hd]
    congr 1
    obtain ⟨⟨-, h2⟩, -, ⟨-, h4⟩⟩ := entry_fits hg hk
    unfold readEntry
    simp only [Entry.mk.injEq, true_and, and_true]
    refine ⟨?_, ?_, ?_⟩
    · unfold namesAt
      rw [cell_set _ _ _ _ _ (kindAt_lt h2), if_neg]
      rintro h; rw [h, hk] at h2; cases h2
    · unfold rowAt
      have := cell_new w.heap [Cell.row t] a (.entry { entryAt w.heap a with time := w.heap.length }) 0 hal
      rw [Nat.add_zero] at this
      rw [this]
      rfl
    · unfold matAt
      rw [cell_set _ _ _ _ _ (kindAt_lt h4), if_neg]
      rintro h; rw [h, hk] at h4; cases h4

theorem Refines.createEntry {b : Bool} {name : String} {size : Nat} {names : Option (List String)}
    {style : String} :
    Refines b (createEntry b name size names style) (DataSet.createEntry name size names style) := by
  intro own w hg
  refine ⟨rfl, ?_⟩
  have hb := hg.objs b
  have hbl := kindAt_lt hb.2
  have hf := dict_fits hg b
  show (createIn b name size _ style w).view b = Dict.set (w.view b) name _
  generalize names.getD (DataSet.defaultNames name size) = ns
  have h0 : 0 < w.heap.length := by omega
  have h1 : 1 < w.heap.length := kindAt_lt (k := .mat) (by unfold kindAt; rw [hg.values]; rfl)
  unfold createIn World.view
  simp only
  generalize hnews : [Cell.names ns, Cell.entry ⟨w.heap.length, size, defaultTime, defaultValues, style⟩] = news
  generalize hc : Cell.dict (Dict.set (dictAt w.heap (w.obj b)) name (w.heap.length + 1)) = c
  have hkind : kindAt w.heap (w.obj b) = some c.kind := by rw [← hc]; exact hb.2
  have hdict : dictAt ((w.heap ++ news).set (w.obj b) c) (w.obj b) =
      Dict.set (dictAt w.heap (w.obj b)) name (w.heap.length + 1) := by
    conv_lhs => unfold dictAt
    rw [cell_set _ _ _ _ _ hbl, if_pos rfl, ← hc]
  rw [hdict, map_set (dictAt w.heap (w.obj b)) name (w.heap.length + 1)
    (fun x => readEntry w.heap (entryAt w.heap x))
    (fun x => readEntry ((w.heap ++ news).set (w.obj b) c) (entryAt ((w.heap ++ news).set (w.obj b) c) x))
    (fun kv hkv => by
      have hkv' := (hf.2.2 kv hkv).2
      refine readEntry_other hg hkv' ?_ (.inr (by rw [← hc]; rfl)) hkind
      intro h
      rw [h, hb.2] at hkv'
      cases hkv')]
  congr 1
  have he : entryAt ((w.heap ++ news).set (w.obj b) c) (w.heap.length + 1) =
      ⟨w.heap.length, size, defaultTime, defaultValues, style⟩ := by
    unfold entryAt
    rw [cell_new _ _ _ _ _ hbl, ← hnews]
    rfl
  rw [he]
  unfold readEntry
  simp only [Entry.mk.injEq, true_and, and_true]
  refine ⟨?_, ?_, ?_⟩
  · unfold namesAt
    have := cell_new w.heap news (w.obj b) c 0 hbl
    rw [Nat.add_zero] at this
    rw [this, ← hnews]
    rfl
  · unfold rowAt defaultTime
    rw [cell_set _ _ _ _ _ h0, if_neg, hg.time]
    intro h
    exact (ne_default hg hb.2).1 (by simp) h.symm
  · unfold matAt defaultValues
    rw [cell_set _ _ _ _ _ h1, if_neg, hg.values]
    intro h
    exact (ne_default hg hb.2).2 (by simp) h.symm

theorem set_set {α : Type} (d : Dict String α) (k : String) (v v' : α) :
    Dict.set (Dict.set d k v) k v' = Dict.set d k v' := by
  induction d with
  | nil => simp [Dict.set]
  | cons kv d ih =>
    obtain ⟨k', v₀⟩ := kv
    by_cases h : k = k' <;> simp [Dict.set, h, ih]

theorem pure_insertData (name : String) (time : TimeArg) (value : Mat) :
    DataSet.insertData name time value =
      Py.bind (Py.lift time.toRow) fun time =>
      Py.bind (Py.raiseIf (decide (time.length ≠ value.cols.length)) .valueError) fun _ =>
      Py.bind (DataSet.entry name) fun e =>
      Py.bind (Py.lift (e.values.hcat value)) fun v =>
      Py.bind (pureValues name v) fun _ =>
      Py.bind (DataSet.entry name) fun e => pureTime name (e.time ++ time) := by
  unfold DataSet.insertData
  simp only [Py.bind_eq]
  congr 1
  funext time
  congr 1
  funext _
  funext d
  unfold pureValues pureTime
  unfold Py.bind
  rw [DataSet.entry_run]
  cases hd : Dict.get? d name with
  | none => rfl
  | some e =>
    simp only [Py.lift]
    cases hv : e.values.hcat value with
    | error err => rfl
    | ok v =>
      simp only
      rw [DataSet.entry_run, hd]
      simp only [Py.modify]
      rw [DataSet.entry_run, Dict.get?_set, if_pos rfl]
      simp only
      rw [DataSet.entry_run, Dict.get?_set, if_pos rfl]
      simp only
      rw [set_set]

theorem Refines.insertData {b : Bool} {name : String} {t : TimeArg} {v : Mat} :
    Refines b (insertData b name t v) (DataSet.insertData name t v) := by
  rw [pure_insertData]
  unfold DataHeap.insertData
  simp only [Py.bind_eq]
  exact .bind (.lift _) (.lift _) fun _ => .bind (.raiseIf _ _) (.raiseIf _ _) fun _ =>
    .bind .read .read fun _ => .bind (.lift _) (.lift _) fun _ => .bind .assignValues .assignValues fun _ =>
    .bind .read .read fun _ => .assignTime

theorem pure_sortEntry (name : String) :
    DataSet.sortEntry name =
      Py.bind (DataSet.entry name) fun e =>
      Py.bind (Py.raiseIf (decide (e.time.zip e.values.cols = [])) .valueError) fun _ =>
      Py.bind (pureTime name ((DataSet.sortSamples (e.time.zip e.values.cols)).map (·.1))) fun _ =>
      pureValues name ⟨e.values.rows, (DataSet.sortSamples (e.time.zip e.values.cols)).map (·.2)⟩ := by
  unfold DataSet.sortEntry
  simp only [Py.bind_eq]
  funext d
  unfold pureValues pureTime
  unfold Py.bind
  rw [DataSet.entry_run]
  cases hd : Dict.get? d name with
  | none => rfl
  | some e =>
    simp only
    by_cases hz : e.time.zip e.values.cols = []
    · simp only [hz, decide_true]
      rfl
    · simp only [hz, decide_false, Py.raiseIf, Bool.false_eq_true, if_false, Py.pure, Py.modify]
      rw [DataSet.entry_run, hd]
      simp only
      rw [DataSet.entry_run, Dict.get?_set, if_pos rfl]
      simp only
      rw [set_set]
      rfl

theorem Refines.sortEntry {b : Bool} {name : String} :
    Refines b (sortEntry b name) (DataSet.sortEntry name) := by
  rw [pure_sortEntry]
  unfold DataHeap.sortEntry
  simp only [Py.bind_eq]
  exact .bind .read .read fun _ => .bind (.raiseIf _ _) (.raiseIf _ _) fun _ =>
    .bind .assignTime .assignTime fun _ => .assignValues

theorem Refines.sort {b : Bool} {es : Option (List String)} :
    Refines b (sort b es) (DataSet.sort es) := by
  intro own w hg
  show (Py.forEach _ (DataHeap.sortEntry b) w).1 = (Py.forEach _ DataSet.sortEntry (w.view b)).1 ∧
    (Py.forEach _ (DataHeap.sortEntry b) w).2.view b = (Py.forEach _ DataSet.sortEntry (w.view b)).2
  rw [keys_view]
  exact Refines.forEach _ (fun _ => .sortEntry) (fun _ => .sortEntry) own w hg

theorem Refines.createIfMissing {b : Bool} {name : String} {o : Entry} :
    Refines b (createIfMissing b name o) (DataSet.createIfMissing name o) := by
  intro own w hg
  show ((if Dict.has (dictAt w.heap (w.obj b)) name then Py.pure () else _ : Py World Unit) w).1 =
      ((if Dict.has (w.view b) name then Py.pure () else _ : Py DataSet Unit) (w.view b)).1 ∧
    World.view ((if Dict.has (dictAt w.heap (w.obj b)) name then Py.pure () else _ : Py World Unit) w).2 b =
      ((if Dict.has (w.view b) name then Py.pure () else _ : Py DataSet Unit) (w.view b)).2
  have : Dict.has (w.view b) name = Dict.has (dictAt w.heap (w.obj b)) name := by
    rw [Bool.eq_iff_iff, Dict.has_iff, Dict.has_iff, keys_view]
  rw [this]
  cases Dict.has (dictAt w.heap (w.obj b)) name with
  | true => exact ⟨rfl, rfl⟩
  | false => exact Refines.createEntry own w hg

/-- One entry is extended, with the other entry as it is read when it is reached. -/
theorem refines_extendEntry {b other : Bool} {name : String} {o : Entry} {own : Nat → Bool} {w : World}
    (hg : Good own w) (ho : Dict.get? (w.view other) name = some o) :
    (extendEntry b other name w).1 = (DataSet.extendEntry (name, o) (w.view b)).1 ∧
    (extendEntry b other name w).2.view b = (DataSet.extendEntry (name, o) (w.view b)).2 := by
  have hread : read other name w = (.ok o, w) := by
    rw [read_run]
    rw [get?_view] at ho
    cases hd : Dict.get? (dictAt w.heap (w.obj other)) name with
    | none => rw [hd] at ho; simp at ho
    | some a => rw [hd] at ho; simp only [Option.map_some, Option.some.injEq] at ho; simp only [ho]
  unfold extendEntry DataSet.extendEntry
  simp only [Py.bind_eq]
  have hb := Refines.read (b := b) (name := name) own w hg
  have hstill := read_still b name w
  cases hr : read b name w with
  | mk r w' =>
    rw [hr] at hstill hb
    simp only at hstill
    subst hstill
    rw [DataSet.entry_run] at hb
    cases hv : Dict.get? (w'.view b) name with
    | none =>
      rw [hv] at hb
      simp only at hb
      rw [hb.1] at hr
      rw [Py.bind_error hr, Py.bind_error (e := .keyError) (s' := w'.view b) (by
        rw [DataSet.entry_run, hv])]
      exact ⟨rfl, rfl⟩
    | some e =>
      rw [hv] at hb
      simp only at hb
      rw [hb.1] at hr
      rw [Py.bind_ok hr, Py.bind_ok (a := e) (s' := w'.view b) (by rw [DataSet.entry_run, hv]),
        Py.bind_ok hread]
      exact Refines.bind (.raiseIf _ _) (.raiseIf _ _) (fun _ => .bind .createIfMissing .createIfMissing
        fun _ => .insertData) own w' hg

/-- Extending an entry changes only this entry. -/
theorem get?_extendEntry (kv : String × Entry) (d : DataSet) (k : String) (h : k ≠ kv.1) :
    Dict.get? (DataSet.extendEntry kv d).2 k = Dict.get? d k := by
  have hins : ∀ d', Dict.get? (DataSet.insertData kv.1 (.row kv.2.time) kv.2.values d').2 k =
      Dict.get? d' k := by
    intro d'
    unfold DataSet.insertData
    simp only [Py.bind_eq]
    unfold Py.bind
    simp only [Py.lift, TimeArg.toRow]
    cases decide (kv.2.time.length ≠ kv.2.values.cols.length) with
    | true => rfl
    | false =>
      simp only [Py.raiseIf, Bool.false_eq_true, if_false, Py.pure]
      rw [DataSet.entry_run]
      cases hd : Dict.get? d' kv.1 with
      | none => rfl
      | some e =>
        simp only
        cases e.values.hcat kv.2.values with
        | error err => rfl
        | ok v =>
          simp only [Py.modify]
          rw [Dict.get?_set, if_neg h]
  unfold DataSet.extendEntry
  simp only [Py.bind_eq]
  unfold Py.bind
  rw [DataSet.entry_run]
  cases hd : Dict.get? d kv.1 with
  | none => rfl
  | some e =>
    simp only
    cases decide (e.size ≠ kv.2.size) with
    | true => rfl
    | false =>
      simp only [Py.raiseIf, Bool.false_eq_true, if_false, Py.pure]
      have hc : DataSet.createIfMissing kv.1 kv.2 d = (.ok (), d) := by
        show (if Dict.has d kv.1 then Py.pure () else _ : Py DataSet Unit) d = _
        have : Dict.has d kv.1 = true := by
          rw [Dict.has_iff]
          by_contra hn
          rw [(Dict.get?_eq_none_iff d kv.1).mpr hn] at hd
          cases hd
        rw [if_pos this]
        rfl
      rw [hc]
      exact hins d

theorem get?_of_mem {α : Type} {d : Dict String α} (hn : (Dict.keys d).Nodup) {kv : String × α}
    (h : kv ∈ d) : Dict.get? d kv.1 = some kv.2 := by
  obtain ⟨i, hi⟩ := List.mem_iff_getElem?.mp h
  exact Dict.get?_of_getElem d hn i kv.1 kv.2 hi

theorem refines_extendAll {b other : Bool} (rest : DataSet) : ∀ (own : Nat → Bool) (w : World), Good own w →
    (Dict.keys rest).Nodup → (∀ kv ∈ rest, Dict.get? (w.view other) kv.1 = some kv.2) →
    (Py.forEach (Dict.keys rest) (extendEntry b other) w).1 =
      (Py.forEach rest DataSet.extendEntry (w.view b)).1 ∧
    (Py.forEach (Dict.keys rest) (extendEntry b other) w).2.view b =
      (Py.forEach rest DataSet.extendEntry (w.view b)).2 := by
  induction rest with
  | nil => exact fun _ _ _ _ _ => ⟨rfl, rfl⟩
  | cons kv rest ih =>
    intro own w hg hn hsnap
    have hn' : kv.1 ∉ Dict.keys rest ∧ (Dict.keys rest).Nodup := List.nodup_cons.mp hn
    obtain ⟨h₁, h₂⟩ := refines_extendEntry (b := b) (name := kv.1) (o := kv.2) hg
      (hsnap kv List.mem_cons_self)
    obtain ⟨own', h'⟩ := Local.extendEntry (b := b) (other := other) (name := kv.1) own w hg
    show (Py.bind (extendEntry b other kv.1) (fun _ => Py.forEach (Dict.keys rest) _) w).1 =
        (Py.bind (DataSet.extendEntry kv) (fun _ => Py.forEach rest _) (w.view b)).1 ∧
      World.view (Py.bind (extendEntry b other kv.1) (fun _ => Py.forEach (Dict.keys rest) _) w).2 b =
        (Py.bind (DataSet.extendEntry kv) (fun _ => Py.forEach rest _) (w.view b)).2
    have hsnap' : ∀ kv' ∈ rest, Dict.get? ((extendEntry b other kv.1 w).2.view other) kv'.1 = some kv'.2 := by
      intro kv' hkv'
      rw [← hsnap kv' (List.mem_cons_of_mem _ hkv')]
      by_cases ho : other = b
      · subst ho
        rw [h₂, get?_extendEntry (kv.1, kv.2)]
        rintro h
        exact hn'.1 (h ▸ List.mem_map_of_mem hkv')
      · rw [h'.view hg ho]
    unfold Py.bind
    match hr : extendEntry b other kv.1 w, hp : DataSet.extendEntry kv (w.view b) with
    | (.ok _, s), (.ok _, d) =>
      rw [hr] at h₁ h₂ h' hsnap'
      rw [show ((kv.1, kv.2) : String × Entry) = kv from rfl, hp] at h₁ h₂
      subst h₂
      exact ih own' s h'.good hn'.2 hsnap'
    | (.error e, s), (.error e', d) =>
      rw [hr, show ((kv.1, kv.2) : String × Entry) = kv from rfl, hp] at h₁ h₂
      cases h₁
      exact ⟨rfl, h₂⟩
    | (.ok a, s), (.error e, d) =>
      rw [hr, show ((kv.1, kv.2) : String × Entry) = kv from rfl, hp] at h₁; cases h₁
    | (.error e, s), (.ok a, d) =>
      rw [hr, show ((kv.1, kv.2) : String × Entry) = kv from rfl, hp] at h₁; cases h₁

theorem refines_extend {b other : Bool} {own : Nat → Bool} {w : World} (hg : Good own w) :
    (extend b other w).1 = (DataSet.extend (w.view other) (w.view b)).1 ∧
    (extend b other w).2.view b = (DataSet.extend (w.view other) (w.view b)).2 := by
  have hn : (Dict.keys (w.view other)).Nodup := by rw [keys_view]; exact (dict_fits hg other).1
  obtain ⟨h₁, h₂⟩ := refines_extendAll (b := b) (other := other) (w.view other) own w hg hn
    (fun kv hkv => get?_of_mem hn hkv)
  have hloc : Local b (Py.forEach (Dict.keys (w.view other)) (extendEntry b other)) :=
    .forEach _ _ fun _ _ => .extendEntry
  obtain ⟨own', h'⟩ := hloc own w hg
  show (Py.bind (Py.forEach (Dict.keys (dictAt w.heap (w.obj other))) (extendEntry b other))
      (fun _ => DataHeap.sort b none) w).1 =
      (Py.bind (Py.forEach (w.view other) DataSet.extendEntry) (fun _ => DataSet.sort none) (w.view b)).1 ∧
    World.view (Py.bind (Py.forEach (Dict.keys (dictAt w.heap (w.obj other))) (extendEntry b other))
      (fun _ => DataHeap.sort b none) w).2 b =
      (Py.bind (Py.forEach (w.view other) DataSet.extendEntry) (fun _ => DataSet.sort none) (w.view b)).2
  rw [← keys_view]
  unfold Py.bind
  match hr : Py.forEach (Dict.keys (w.view other)) (extendEntry b other) w,
      hp : Py.forEach (w.view other) DataSet.extendEntry (w.view b) with
  | (.ok _, s), (.ok _, d) =>
    rw [hr] at h₁ h₂ h'
    rw [hp] at h₁ h₂
    subst h₂
    exact Refines.sort own' s h'.good
  | (.error e, s), (.error e', d) => rw [hr, hp] at h₁ h₂; cases h₁; exact ⟨rfl, h₂⟩
  | (.ok a, s), (.error e, d) => rw [hr, hp] at h₁; cases h₁
  | (.error e, s), (.ok a, d) => rw [hr, hp] at h₁; cases h₁

end DataHeap
end Verif
