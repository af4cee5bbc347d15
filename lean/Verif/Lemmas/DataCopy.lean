import Verif.Model.DataCopy
import Verif.Lemmas.DataSet
/-! Lemmas on the heap of data sets. -/
namespace Verif
namespace DataHeap
open Py

/-- The kinds of objects. -/
inductive Kind
  | names
  | row
  | mat
  | entry
  | dict
  deriving DecidableEq

/-- The kind of an object. -/
def Cell.kind : Cell → Kind
  | .names _ => .names
  | .row _ => .row
  | .mat _ => .mat
  | .entry _ => .entry
  | .dict _ => .dict

/-- The kind of the object at an address. -/
def kindAt (h : List Cell) (a : Nat) : Option Kind := h[a]?.map Cell.kind

theorem kindAt_lt {h : List Cell} {a : Nat} {k : Kind} (hk : kindAt h a = some k) : a < h.length := by
  unfold kindAt at hk
  by_contra hn
  rw [List.getElem?_eq_none (by omega)] at hk
  simp at hk

/-- The references of an object go to objects of the right kind that have the same owner, or to the
default matrices. -/
def Fits (own : Nat → Bool) (h : List Cell) (x : Nat) : Cell → Prop
  | .dict d => (Dict.keys d).Nodup ∧ (d.map (·.2)).Nodup ∧
      ∀ kv ∈ d, own kv.2 = own x ∧ kindAt h kv.2 = some .entry
  | .entry e => (own e.names = own x ∧ kindAt h e.names = some .names) ∧
      ((e.time = defaultTime ∨ own e.time = own x) ∧ kindAt h e.time = some .row) ∧
      ((e.values = defaultValues ∨ own e.values = own x) ∧ kindAt h e.values = some .mat)
  | _ => True

/-- Every object belongs to one of the data sets. -/
structure Good (own : Nat → Bool) (w : World) : Prop where
  time : w.heap[0]? = some (.row [])
  values : w.heap[1]? = some (.mat {})
  objs : ∀ b, own (w.obj b) = b ∧ kindAt w.heap (w.obj b) = some .dict
  fits : ∀ x c, w.heap[x]? = some c → Fits own w.heap x c

/-- New objects belong to `b`. -/
def grow (own : Nat → Bool) (n : Nat) (b : Bool) : Nat → Bool := fun x => if x < n then own x else b

/-- What may change when only data set `b` is used. -/
structure Framed (b : Bool) (own₀ : Nat → Bool) (w₀ : World) (own : Nat → Bool) (w : World) : Prop where
  good : Good own w
  obj : w.obj = w₀.obj
  same : ∀ a < w₀.heap.length, own a = own₀ a
  long : w₀.heap.length ≤ w.heap.length
  cells : ∀ a < w₀.heap.length, own₀ a ≠ b → w.heap[a]? = w₀.heap[a]?

theorem Framed.refl {b : Bool} {own : Nat → Bool} {w : World} (h : Good own w) : Framed b own w own w :=
  ⟨h, rfl, fun _ _ => rfl, le_refl _, fun _ _ _ => rfl⟩

theorem Framed.trans {b : Bool} {own₀ own own' : Nat → Bool} {w₀ w w' : World}
    (h : Framed b own₀ w₀ own w) (h' : Framed b own w own' w') : Framed b own₀ w₀ own' w' where
  good := h'.good
  obj := h'.obj.trans h.obj
  same := fun a ha => (h'.same a (ha.trans_le h.long)).trans (h.same a ha)
  long := h.long.trans h'.long
  cells := fun a ha hn => (h'.cells a (ha.trans_le h.long) (by rw [h.same a ha]; exact hn)).trans
    (h.cells a ha hn)

theorem Fits.mono {own own' : Nat → Bool} {h h' : List Cell} {x : Nat} {c : Cell} (hf : Fits own h x c)
    (hx : x < h.length) (hk : ∀ y < h.length, kindAt h' y = kindAt h y)
    (ho : ∀ y < h.length, own' y = own y) : Fits own' h' x c := by
  have key : ∀ (y : Nat) (k : Kind), kindAt h y = some k → kindAt h' y = some k := fun y k hy => by
    rw [hk y (kindAt_lt hy), hy]
  have keyo : ∀ (y : Nat) (k : Kind), kindAt h y = some k → own y = own x → own' y = own' x :=
    fun y k hy he => by rw [ho y (kindAt_lt hy), he, ho x hx]
  cases c with
  | dict d =>
    exact ⟨hf.1, hf.2.1, fun kv hkv => ⟨keyo _ _ (hf.2.2 kv hkv).2 (hf.2.2 kv hkv).1,
      key _ _ (hf.2.2 kv hkv).2⟩⟩
  | entry e =>
    obtain ⟨⟨h1, h2⟩, ⟨h3, h4⟩, ⟨h5, h6⟩⟩ := hf
    exact ⟨⟨keyo _ _ h2 h1, key _ _ h2⟩, ⟨h3.imp id (keyo _ _ h4), key _ _ h4⟩,
      ⟨h5.imp id (keyo _ _ h6), key _ _ h6⟩⟩
  | _ => trivial

/-- The cells after new ones have been added and one has been replaced. -/
theorem cell_set (h news : List Cell) (a : Nat) (c : Cell) (x : Nat) (hx : x < h.length) :
    ((h ++ news).set a c)[x]? = if x = a then some c else h[x]? := by
  rw [List.getElem?_set]
  by_cases hxa : x = a
  · subst hxa
    simp only [if_true, List.length_append]
    rw [if_pos (by omega)]
  · rw [if_neg (fun hh => hxa hh.symm), if_neg hxa, List.getElem?_append_left hx]

theorem cell_new (h news : List Cell) (a : Nat) (c : Cell) (i : Nat) (ha : a < h.length) :
    ((h ++ news).set a c)[h.length + i]? = news[i]? := by
  rw [List.getElem?_set, if_neg (by omega), List.getElem?_append_right (by omega)]
  congr 1
  omega

theorem kind_set {h news : List Cell} {a : Nat} {c : Cell} (hk : kindAt h a = some c.kind) (x : Nat)
    (hx : x < h.length) : kindAt ((h ++ news).set a c) x = kindAt h x := by
  unfold kindAt
  rw [cell_set h news a c x hx]
  split
  · next hh => subst hh; exact hk.symm
  · rfl

/-- Objects of `b` are changed and created. -/
theorem Good.update {own : Nat → Bool} {w : World} (hg : Good own w) {a : Nat} {c : Cell}
    {news : List Cell} {b : Bool} (ha : own a = b) (hk : kindAt w.heap a = some c.kind)
    (h0 : a ≠ 0) (h1 : a ≠ 1)
    (hc : Fits (grow own w.heap.length b) ((w.heap ++ news).set a c) a c)
    (hn : ∀ i c', news[i]? = some c' →
      Fits (grow own w.heap.length b) ((w.heap ++ news).set a c) (w.heap.length + i) c') :
    Framed b own w (grow own w.heap.length b) { w with heap := (w.heap ++ news).set a c } := by
  have hl : a < w.heap.length := kindAt_lt hk
  have ho : ∀ y < w.heap.length, grow own w.heap.length b y = own y := fun y hy => by
    unfold grow
    rw [if_pos hy]
  refine ⟨⟨?_, ?_, fun b' => ?_, fun x c' hx => ?_⟩, rfl, ho, by simp, fun x hx hne => ?_⟩
  · show ((w.heap ++ news).set a c)[0]? = _
    rw [cell_set _ _ _ _ _ (by omega), if_neg (fun hh => h0 hh.symm), hg.time]
  · have : 1 < w.heap.length := kindAt_lt (k := .mat) (by unfold kindAt; rw [hg.values]; rfl)
    show ((w.heap ++ news).set a c)[1]? = _
    rw [cell_set _ _ _ _ _ this, if_neg (fun hh => h1 hh.symm), hg.values]
  · have hb := hg.objs b'
    exact ⟨by
      show grow own w.heap.length b (w.obj b') = b'
      rw [ho _ (kindAt_lt hb.2)]; exact hb.1, by
      show kindAt ((w.heap ++ news).set a c) (w.obj b') = _
      rw [kind_set hk _ (kindAt_lt hb.2)]; exact hb.2⟩
  · change ((w.heap ++ news).set a c)[x]? = some c' at hx
    by_cases hxl : x < w.heap.length
    · rw [cell_set _ _ _ _ _ hxl] at hx
      by_cases hxa : x = a
      · subst hxa
        simp only [if_true, Option.some.injEq] at hx
        subst hx
        exact hc
      · rw [if_neg hxa] at hx
        exact (hg.fits x c' hx).mono hxl (fun y hy => kind_set hk y hy) ho
    · obtain ⟨i, rfl⟩ : ∃ i, x = w.heap.length + i := ⟨x - w.heap.length, by omega⟩
      rw [cell_new _ _ _ _ _ hl] at hx
      exact hn i c' hx
  · show ((w.heap ++ news).set a c)[x]? = _
    rw [cell_set _ _ _ _ _ hx, if_neg]
    rintro rfl
    exact hne ha

/-- What data set `b` refers to. -/
theorem dict_cell {own : Nat → Bool} {w : World} (hg : Good own w) (b : Bool) :
    w.heap[w.obj b]? = some (.dict (dictAt w.heap (w.obj b))) := by
  have := (hg.objs b).2
  unfold kindAt at this
  unfold dictAt
  cases hc : w.heap[w.obj b]? with
  | none => rw [hc] at this; simp at this
  | some c =>
    rw [hc] at this
    cases c <;> simp [Cell.kind] at this
    rfl

theorem entry_cell {h : List Cell} {a : Nat} (hk : kindAt h a = some .entry) :
    h[a]? = some (.entry (entryAt h a)) := by
  unfold kindAt at hk
  unfold entryAt
  cases hc : h[a]? with
  | none => rw [hc] at hk; simp at hk
  | some c =>
    rw [hc] at hk
    cases c <;> simp [Cell.kind] at hk
    rfl

theorem row_cell {h : List Cell} {a : Nat} (hk : kindAt h a = some .row) :
    h[a]? = some (.row (rowAt h a)) := by
  unfold kindAt at hk
  unfold rowAt
  cases hc : h[a]? with
  | none => rw [hc] at hk; simp at hk
  | some c =>
    rw [hc] at hk
    cases c <;> simp [Cell.kind] at hk
    rfl

theorem mat_cell {h : List Cell} {a : Nat} (hk : kindAt h a = some .mat) :
    h[a]? = some (.mat (matAt h a)) := by
  unfold kindAt at hk
  unfold matAt
  cases hc : h[a]? with
  | none => rw [hc] at hk; simp at hk
  | some c =>
    rw [hc] at hk
    cases c <;> simp [Cell.kind] at hk
    rfl

theorem names_cell {h : List Cell} {a : Nat} (hk : kindAt h a = some .names) :
    h[a]? = some (.names (namesAt h a)) := by
  unfold kindAt at hk
  unfold namesAt
  cases hc : h[a]? with
  | none => rw [hc] at hk; simp at hk
  | some c =>
    rw [hc] at hk
    cases c <;> simp [Cell.kind] at hk
    rfl

theorem dict_fits {own : Nat → Bool} {w : World} (hg : Good own w) (b : Bool) :
    (Dict.keys (dictAt w.heap (w.obj b))).Nodup ∧ ((dictAt w.heap (w.obj b)).map (·.2)).Nodup ∧
    ∀ kv ∈ dictAt w.heap (w.obj b), own kv.2 = b ∧ kindAt w.heap kv.2 = some .entry := by
  have := hg.fits _ _ (dict_cell hg b)
  refine ⟨this.1, this.2.1, fun kv hkv => ⟨?_, (this.2.2 kv hkv).2⟩⟩
  rw [(this.2.2 kv hkv).1, (hg.objs b).1]

theorem entry_fits {own : Nat → Bool} {w : World} (hg : Good own w) {a : Nat}
    (hk : kindAt w.heap a = some .entry) : Fits own w.heap a (.entry (entryAt w.heap a)) :=
  hg.fits _ _ (entry_cell hk)

theorem mem_of_get? {κ : Type} {α : Type} [DecidableEq κ] {d : Dict κ α} {k : κ} {v : α}
    (h : Dict.get? d k = some v) : (k, v) ∈ d := by
  induction d with
  | nil => simp [Dict.get?] at h
  | cons kv d ih =>
    obtain ⟨k', v'⟩ := kv
    simp only [Dict.get?] at h
    split at h
    · next hk => cases h; subst hk; simp
    · exact List.mem_cons_of_mem _ (ih h)

/-- The other data set reads the same. -/
theorem Framed.view {b : Bool} {own₀ own : Nat → Bool} {w₀ w : World} (h : Framed b own₀ w₀ own w)
    (hg : Good own₀ w₀) {c : Bool} (hc : c ≠ b) : w.view c = w₀.view c := by
  have cell : ∀ a k, kindAt w₀.heap a = some k → own₀ a = c → w.heap[a]? = w₀.heap[a]? :=
    fun a k hk ho => h.cells a (kindAt_lt hk) (by rw [ho]; exact hc)
  unfold World.view
  have hd : dictAt w.heap (w.obj c) = dictAt w₀.heap (w₀.obj c) := by
    unfold dictAt
    rw [h.obj, cell _ _ (hg.objs c).2 (hg.objs c).1]
  rw [hd]
  refine List.map_congr_left fun kv hkv => ?_
  obtain ⟨hown, hkind⟩ := (dict_fits hg c).2.2 kv hkv
  have he : entryAt w.heap kv.2 = entryAt w₀.heap kv.2 := by
    unfold entryAt
    rw [cell _ _ hkind hown]
  obtain ⟨⟨h1, h2⟩, ⟨h3, h4⟩, ⟨h5, h6⟩⟩ := entry_fits hg hkind
  rw [he]
  unfold readEntry
  have hn : namesAt w.heap (entryAt w₀.heap kv.2).names = namesAt w₀.heap (entryAt w₀.heap kv.2).names := by
    unfold namesAt
    rw [cell _ _ h2 (h1.trans hown)]
  have ht : rowAt w.heap (entryAt w₀.heap kv.2).time = rowAt w₀.heap (entryAt w₀.heap kv.2).time := by
    unfold rowAt
    rcases h3 with h3 | h3
    · rw [h3]
      show (match w.heap[0]? with | some (Cell.row t) => t | _ => []) =
        (match w₀.heap[0]? with | some (Cell.row t) => t | _ => [])
      rw [h.good.time, hg.time]
    · rw [cell _ _ h4 (h3.trans hown)]
  have hv : matAt w.heap (entryAt w₀.heap kv.2).values = matAt w₀.heap (entryAt w₀.heap kv.2).values := by
    unfold matAt
    rcases h5 with h5 | h5
    · rw [h5]
      show (match w.heap[1]? with | some (Cell.mat t) => t | _ => {}) =
        (match w₀.heap[1]? with | some (Cell.mat t) => t | _ => {})
      rw [h.good.values, hg.values]
    · rw [cell _ _ h6 (h5.trans hown)]
  rw [hn, ht, hv]

/-! ## Each action uses only its own data set -/

/-- A computation that uses only data set `b`. -/
def Local (b : Bool) {α : Type} (m : Py World α) : Prop :=
  ∀ own w, Good own w → ∃ own', Framed b own w own' (m w).2

theorem Local.bind {b : Bool} {α β : Type} {m : Py World α} {f : α → Py World β} (hm : Local b m)
    (hf : ∀ a, Local b (f a)) : Local b (Py.bind m f) := by
  intro own w hg
  obtain ⟨own', h'⟩ := hm own w hg
  unfold Py.bind
  match hr : m w with
  | (.ok a, s) =>
    rw [hr] at h'
    obtain ⟨own'', h''⟩ := hf a own' s h'.good
    exact ⟨own'', h'.trans h''⟩
  | (.error e, s) => rw [hr] at h'; exact ⟨own', h'⟩

theorem Local.still {b : Bool} {α : Type} {m : Py World α} (h : ∀ w, (m w).2 = w) : Local b m :=
  fun own w hg => ⟨own, by rw [h w]; exact .refl hg⟩

theorem Local.pure {b : Bool} {α : Type} (a : α) : Local b (Py.pure a) := .still fun _ => rfl
theorem Local.get {b : Bool} : Local b (Py.get : Py World World) := .still fun _ => rfl
theorem Local.lift {b : Bool} {α : Type} (r : Except Err α) : Local b (Py.lift r) := .still fun _ => rfl
theorem Local.raiseIf {b : Bool} (c : Bool) (e : Err) : Local b (Py.raiseIf c e : Py World Unit) :=
  .still fun _ => by unfold Py.raiseIf; split <;> rfl

theorem Local.forEach {b : Bool} {ι : Type} (l : List ι) (f : ι → Py World Unit)
    (h : ∀ i ∈ l, Local b (f i)) : Local b (Py.forEach l f) := by
  induction l with
  | nil => exact .pure _
  | cons a l ih => exact .bind (h a (by simp)) fun _ => ih fun i hi => h i (by simp [hi])

theorem ref_still (b : Bool) (name : String) (w : World) : (ref b name w).2 = w := by
  unfold ref
  split <;> rfl

theorem read_run (b : Bool) (name : String) (w : World) :
    read b name w = match Dict.get? (dictAt w.heap (w.obj b)) name with
      | some a => (.ok (readEntry w.heap (entryAt w.heap a)), w)
      | none => (.error .keyError, w) := by
  show Py.bind (ref b name) _ w = _
  unfold Py.bind ref
  cases Dict.get? (dictAt w.heap (w.obj b)) name <;> rfl

theorem read_still (b : Bool) (name : String) (w : World) : (read b name w).2 = w := by
  rw [read_run]
  split <;> rfl

theorem Local.ref {b c : Bool} {name : String} : Local b (ref c name) := .still fun _ => ref_still _ _ _
theorem Local.read {b c : Bool} {name : String} : Local b (read c name) := .still fun _ => read_still _ _ _

/-- What is done with a reference. -/
theorem Local.onRef {b : Bool} {name : String} {α : Type} {f : Nat → Py World α}
    (hf : ∀ own w a, Good own w → own a = b → kindAt w.heap a = some .entry →
      ∃ own', Framed b own w own' (f a w).2) :
    Local b (Py.bind (DataHeap.ref b name) f) := by
  intro own w hg
  unfold Py.bind DataHeap.ref
  cases hd : Dict.get? (dictAt w.heap (w.obj b)) name with
  | none => exact ⟨own, .refl hg⟩
  | some a =>
    have := (dict_fits hg b).2.2 _ (mem_of_get? hd)
    exact hf own w a hg this.1 this.2

theorem ne_default {own : Nat → Bool} {w : World} (hg : Good own w) {a : Nat} {k : Kind}
    (hk : kindAt w.heap a = some k) : (k ≠ .row → a ≠ 0) ∧ (k ≠ .mat → a ≠ 1) := by
  constructor
  · rintro hn rfl
    unfold kindAt at hk
    rw [hg.time] at hk
    simp [Cell.kind] at hk
    exact hn hk.symm
  · rintro hn rfl
    unfold kindAt at hk
    rw [hg.values] at hk
    simp [Cell.kind] at hk
    exact hn hk.symm

theorem grow_new {own : Nat → Bool} {n : Nat} {b : Bool} {x : Nat} (h : n ≤ x) : grow own n b x = b := by
  unfold grow
  rw [if_neg (by omega)]

theorem grow_old {own : Nat → Bool} {n : Nat} {b : Bool} {x : Nat} (h : x < n) :
    grow own n b x = own x := by
  unfold grow
  rw [if_pos h]

theorem kind_new {h news : List Cell} {a : Nat} {c : Cell} (ha : a < h.length) (i : Nat) :
    kindAt ((h ++ news).set a c) (h.length + i) = news[i]?.map Cell.kind := by
  unfold kindAt
  rw [cell_new _ _ _ _ _ ha]

theorem Framed.setValuesRef {own : Nat → Bool} {w : World} (hg : Good own w) {b : Bool} {a : Nat}
    (ha : own a = b) (hk : kindAt w.heap a = some .entry) (v : Mat) :
    ∃ own', Framed b own w own' (setValuesRef a v w) := by
  have hl := kindAt_lt hk
  refine ⟨_, hg.update (c := .entry _) (news := [.mat v]) ha hk ((ne_default hg hk).1 (by simp))
    ((ne_default hg hk).2 (by simp)) ?_ ?_⟩
  · have hf := (entry_fits hg hk).mono hl (fun y hy => kind_set
      (news := [.mat v]) (c := .entry { entryAt w.heap a with values := w.heap.length }) hk y hy)
      (fun y hy => grow_old (own := own) (b := b) hy)
    refine ⟨hf.1, hf.2.1, .inr ?_, ?_⟩
    · rw [grow_new (le_refl _), grow_old hl, ha]
    · exact kind_new hl 0
  · intro i c' hc
    cases i with
    | zero => cases hc; trivial
    | succ i => simp at hc

theorem Framed.setTimeRef {own : Nat → Bool} {w : World} (hg : Good own w) {b : Bool} {a : Nat}
    (ha : own a = b) (hk : kindAt w.heap a = some .entry) (t : List Rat) :
    ∃ own', Framed b own w own' (setTimeRef a t w) := by
  have hl := kindAt_lt hk
  refine ⟨_, hg.update (c := .entry _) (news := [.row t]) ha hk ((ne_default hg hk).1 (by simp))
    ((ne_default hg hk).2 (by simp)) ?_ ?_⟩
  · have hf := (entry_fits hg hk).mono hl (fun y hy => kind_set
      (news := [.row t]) (c := .entry { entryAt w.heap a with time := w.heap.length }) hk y hy)
      (fun y hy => grow_old (own := own) (b := b) hy)
    refine ⟨hf.1, ⟨.inr ?_, ?_⟩, hf.2.2⟩
    · rw [grow_new (le_refl _), grow_old hl, ha]
    · exact kind_new hl 0
  · intro i c' hc
    cases i with
    | zero => cases hc; trivial
    | succ i => simp at hc

theorem values_set {κ : Type} [DecidableEq κ] (d : Dict κ Nat) (k : κ) (v : Nat)
    (hn : (d.map (·.2)).Nodup) (hv : v ∉ d.map (·.2)) : ((Dict.set d k v).map (·.2)).Nodup ∧
    ∀ x ∈ (Dict.set d k v), x ∈ d ∨ x.2 = v := by
  induction d with
  | nil => simp [Dict.set]
  | cons kv d ih =>
    obtain ⟨k', v'⟩ := kv
    simp only [List.map_cons, List.nodup_cons, List.mem_cons, not_or] at hn hv
    by_cases hk : k = k'
    · simp only [Dict.set, if_pos hk, List.map_cons, List.nodup_cons]
      refine ⟨⟨hv.2, hn.2⟩, fun x hx => ?_⟩
      rcases List.mem_cons.mp hx with rfl | hx
      · exact .inr rfl
      · exact .inl (List.mem_cons_of_mem _ hx)
    · obtain ⟨i₁, i₂⟩ := ih hn.2 hv.2
      simp only [Dict.set, if_neg hk, List.map_cons, List.nodup_cons]
      refine ⟨⟨fun hm => ?_, i₁⟩, fun x hx => ?_⟩
      · obtain ⟨x, hx, hxv⟩ := List.mem_map.mp hm
        rcases i₂ x hx with h | h
        · exact hn.1 (hxv ▸ List.mem_map_of_mem h)
        · exact hv.1 (h.symm.trans hxv)
      · rcases List.mem_cons.mp hx with rfl | hx
        · exact .inl (by simp)
        · exact (i₂ x hx).imp (List.mem_cons_of_mem _) id

theorem nodup_keys_set {κ : Type} {α : Type} [DecidableEq κ] (d : Dict κ α) (k : κ) (v : α)
    (h : (Dict.keys d).Nodup) : (Dict.keys (Dict.set d k v)).Nodup := by
  rw [Dict.keys_set]
  split
  · exact h
  · next hk => exact List.nodup_append.mpr ⟨h, by simp, by
      intro a ha b hb
      simp only [List.mem_singleton] at hb
      subst hb
      rintro rfl
      exact hk ha⟩

theorem Framed.createIn {own : Nat → Bool} {w : World} (hg : Good own w) (b : Bool) (name : String)
    (size : Nat) (names : List String) (style : String) :
    ∃ own', Framed b own w own' (createIn b name size names style w) := by
  have ho := hg.objs b
  have hl := kindAt_lt ho.2
  have hd := dict_fits hg b
  refine ⟨_, hg.update (c := .dict _) (news := [.names names,
    .entry ⟨w.heap.length, size, defaultTime, defaultValues, style⟩]) ho.1 ho.2
    ((ne_default hg ho.2).1 (by simp)) ((ne_default hg ho.2).2 (by simp)) ?_ ?_⟩
  · have hv := values_set (dictAt w.heap (w.obj b)) name (w.heap.length + 1) hd.2.1 (fun hm => by
      obtain ⟨x, hx, hxv⟩ := List.mem_map.mp hm
      have := kindAt_lt (hd.2.2 x hx).2
      omega)
    refine ⟨nodup_keys_set _ _ _ hd.1, hv.1, fun kv hkv => ?_⟩
    rcases hv.2 kv hkv with h | h
    · have := hd.2.2 kv h
      have hlt := kindAt_lt this.2
      exact ⟨by rw [grow_old hlt, grow_old hl, this.1, ho.1], by
        rw [kind_set (by exact ho.2) _ hlt]; exact this.2⟩
    · rw [h]
      exact ⟨by rw [grow_new (by omega), grow_old hl, ho.1], kind_new hl 1⟩
  · intro i c' hc
    match i with
    | 0 => cases hc; trivial
    | 1 =>
      cases hc
      have h0 : 0 < w.heap.length := by omega
      have h1 : 1 < w.heap.length := kindAt_lt (k := .mat) (by unfold kindAt; rw [hg.values]; rfl)
      refine ⟨⟨by rw [grow_new (by simp), grow_new (by simp)], kind_new hl 0⟩, ⟨.inl rfl, ?_⟩,
        ⟨.inl rfl, ?_⟩⟩
      · show kindAt _ 0 = _
        rw [kind_set (by exact ho.2) _ h0]
        unfold kindAt
        rw [hg.time]
        rfl
      · show kindAt _ 1 = _
        rw [kind_set (by exact ho.2) _ h1]
        unfold kindAt
        rw [hg.values]
        rfl
    | i + 2 => simp at hc

/-- An object that belongs to `b` is changed in place. -/
theorem Framed.setCell {own : Nat → Bool} {w : World} (hg : Good own w) {b : Bool} {a : Nat} {c : Cell}
    (ha : own a = b) (hk : kindAt w.heap a = some c.kind) (h0 : a ≠ 0) (h1 : a ≠ 1)
    (hc : Fits own w.heap a c) : ∃ own', Framed b own w own' (setCell a c w) := by
  have hl := kindAt_lt hk
  have := hg.update (c := c) (news := []) ha hk h0 h1
    (hc.mono hl (fun y hy => kind_set hk y hy) (fun y hy => grow_old (own := own) (b := b) hy))
    (by simp)
  rw [List.append_nil] at this
  exact ⟨_, this⟩

theorem Local.createEntry {b : Bool} {name : String} {size : Nat} {names : Option (List String)}
    {style : String} : Local b (createEntry b name size names style) :=
  fun _ _ hg => Framed.createIn hg b name size _ style

theorem Local.assignValues {b : Bool} {name : String} {v : Mat} : Local b (assignValues b name v) :=
  .onRef fun _ _ _ hg ha hk => Framed.setValuesRef hg ha hk v

theorem Local.assignTime {b : Bool} {name : String} {t : List Rat} : Local b (assignTime b name t) :=
  .onRef fun _ _ _ hg ha hk => Framed.setTimeRef hg ha hk t

theorem Local.insertData {b : Bool} {name : String} {t : TimeArg} {v : Mat} :
    Local b (insertData b name t v) :=
  .bind (.lift _) fun _ => .bind (.raiseIf _ _) fun _ => .bind .read fun _ => .bind (.lift _) fun _ =>
    .bind .assignValues fun _ => .bind .read fun _ => .assignTime

theorem Local.sortEntry {b : Bool} {name : String} : Local b (sortEntry b name) :=
  .bind .read fun _ => .bind (.raiseIf _ _) fun _ => .bind .assignTime fun _ => .assignValues

theorem Local.sort {b : Bool} {es : Option (List String)} : Local b (sort b es) :=
  .bind .get fun _ => .forEach _ _ fun _ _ => .sortEntry

theorem Local.createIfMissing {b : Bool} {name : String} {o : Entry} :
    Local b (createIfMissing b name o) :=
  .bind .get fun w => by
    by_cases h : Dict.has (dictAt w.heap (w.obj b)) name = true
    · rw [if_pos h]; exact .pure _
    · rw [if_neg h]; exact .createEntry

theorem Local.extendEntry {b other : Bool} {name : String} : Local b (extendEntry b other name) :=
  .bind .read fun _ => .bind .read fun _ => .bind (.raiseIf _ _) fun _ =>
    .bind .createIfMissing fun _ => .insertData

theorem Local.extend {b other : Bool} : Local b (extend b other) := by
  unfold DataHeap.extend
  simp only [Py.bind_eq]
  refine .bind .get fun w => ?_
  refine .bind (.forEach _ _ fun _ _ => .extendEntry) fun _ => ?_
  exact .sort

theorem Framed.raiseIf {own : Nat → Bool} {w : World} (hg : Good own w) {b c : Bool} {e : Err}
    {f : Unit → Py World Unit} (h : c = false → ∃ own', Framed b own w own' (f () w).2) :
    ∃ own', Framed b own w own' (Py.bind (Py.raiseIf c e) f w).2 := by
  cases c with
  | true => exact ⟨own, .refl hg⟩
  | false => exact h rfl

theorem Local.run (b : Bool) (c : Action) : Local b (c.run b) := by
  cases c with
  | createEntry e n names s => exact .createEntry
  | insertData e t v => exact .insertData
  | sort es => exact .sort
  | extend o => exact .extend
  | setName e i s =>
    refine .onRef fun own w a hg ha hk => ?_
    obtain ⟨⟨h1, h2⟩, -, -⟩ := entry_fits hg hk
    refine Framed.raiseIf hg fun _ => ?_
    exact Framed.setCell (c := .names _) hg (h1.trans ha) h2 ((ne_default hg h2).1 (by simp))
      ((ne_default hg h2).2 (by simp)) trivial
  | appendName e s =>
    refine .onRef fun own w a hg ha hk => ?_
    obtain ⟨⟨h1, h2⟩, -, -⟩ := entry_fits hg hk
    exact Framed.setCell (c := .names _) hg (h1.trans ha) h2 ((ne_default hg h2).1 (by simp))
      ((ne_default hg h2).2 (by simp)) trivial
  | setTime e i r =>
    refine .onRef fun own w a hg ha hk => ?_
    obtain ⟨-, ⟨h1, h2⟩, -⟩ := entry_fits hg hk
    refine Framed.raiseIf hg fun hlen => ?_
    have h0 : (entryAt w.heap a).time ≠ 0 := by
      intro h0
      refine of_decide_eq_false hlen ?_
      simp only [readEntry, h0]
      unfold rowAt
      rw [hg.time]
      simp
    exact Framed.setCell (c := .row _) hg ((h1.resolve_left h0).trans ha) h2 h0
      ((ne_default hg h2).2 (by simp)) trivial
  | setValue e i j r =>
    refine .onRef fun own w a hg ha hk => ?_
    obtain ⟨-, -, ⟨h1, h2⟩⟩ := entry_fits hg hk
    refine Framed.raiseIf hg fun hlen => ?_
    have h0 : (entryAt w.heap a).values ≠ 1 := by
      intro h0
      refine of_decide_eq_false hlen ?_
      simp only [readEntry, h0]
      unfold matAt
      rw [hg.values]
      simp
    exact Framed.setCell (c := .mat _) hg ((h1.resolve_left h0).trans ha) h2
      ((ne_default hg h2).1 (by simp)) h0 trivial
  | setStyle e s =>
    refine .onRef fun own w a hg ha hk => ?_
    exact Framed.setCell (c := .entry _) hg ha hk ((ne_default hg hk).1 (by simp))
      ((ne_default hg hk).2 (by simp)) (entry_fits hg hk)

end DataHeap
end Verif
