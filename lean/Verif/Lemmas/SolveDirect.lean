import Verif.Spec.SolveDirect
import Verif.Props.Layout
/-! Lemmas on the decision vector, the bounds and the parameters of the nonlinear program of a direct
method. -/
namespace Verif
namespace Layout
open SolveDirect Spec

/-- The call returns from every state. -/
def Succeeds {β : Type} (m : Py Nlp β) : Prop := ∀ n, ∃ b n', m n = (.ok b, n')

theorem Succeeds.pure {β : Type} (b : β) : Succeeds (Py.pure b) := fun n => ⟨b, n, rfl⟩

theorem Succeeds.bind {β γ : Type} {m : Py Nlp β} {f : β → Py Nlp γ} (h₁ : Succeeds m)
    (h₂ : ∀ b, Succeeds (f b)) : Succeeds (Py.bind m f) := by
  intro n
  obtain ⟨b, n', hb⟩ := h₁ n
  obtain ⟨c, n'', hc⟩ := h₂ b n'
  exact ⟨c, n'', by rw [Py.bind_ok hb, hc]⟩

theorem Succeeds.collectFrom {β : Type} {f : Nat → Py Nlp β} (h : ∀ i, Succeeds (f i)) (k i : Nat) :
    Succeeds (collectFrom k i f) := by
  induction k generalizing i with
  | zero => exact .pure []
  | succ k ih => exact .bind (h i) fun b => .bind (ih (i + 1)) fun bs => .pure _

theorem spread_self (n : Nat) (l : List DmEntry) (h : l.length = n) : (Col.dm l).spread n = .dm l := by
  subst h
  rcases l with _ | ⟨a, _ | ⟨b, l⟩⟩ <;> rfl

theorem succeeds_create_dm (v : List Sym) (lo hi : List XRat) (h : PairFits v.length lo hi) :
    Succeeds (create v (numbers lo, numbers hi)) := by
  intro n
  refine ⟨v, { n with
      x := n.x ++ v
      xLb := n.xLb ++ (Col.dm (lo.map .num)).entries
      xUb := n.xUb ++ (Col.dm (hi.map .num)).entries }, ?_⟩
  have hr : Nlp.createVariable v (numbers lo) (numbers hi) n = (.ok (), { n with
      x := n.x ++ v
      xLb := n.xLb ++ (Col.dm (lo.map .num)).entries
      xUb := n.xUb ++ (Col.dm (hi.map .num)).entries }) := by
    refine Nlp.includeVariable_ok_iff.mpr ⟨.dm (lo.map .num), .dm (hi.map .num), rfl, rfl, ?_⟩
    rw [spread_self _ _ (by simpa using h.lower), spread_self _ _ (by simpa using h.upper)]
    refine ⟨by simp [Col.numel, h.lower], by simp [Col.numel, h.upper], rfl, ?_, rfl⟩
    simp only [Nlp.compareStored]
    rw [if_neg]
    simp only [List.any_eq_true, decide_eq_true_eq, not_exists, not_and, not_lt]
    rintro ⟨a, b⟩ hab
    have : ∀ l : List XRat, (l.map DmEntry.num).filterMap DmEntry.stored = l := by
      intro l
      induction l with
      | nil => rfl
      | cons a l ih => simp [DmEntry.stored, ih]
    rw [this, this] at hab
    obtain ⟨i, hi⟩ := List.getElem?_of_mem hab
    rw [List.getElem?_zip_eq_some] at hi
    exact h.uncrossed i a b hi.1 hi.2
  unfold create
  rw [Py.bind_ok hr]
  rfl

theorem succeeds_create_unbounded (v : List Sym) : Succeeds (create v unbounded) := by
  have h := succeeds_create_dm v (List.replicate v.length ⊥) (List.replicate v.length ⊤)
    ⟨by simp, by simp, by
      intro i a b ha hb
      rw [List.getElem?_replicate] at ha hb
      split at ha <;> simp_all
      rw [← ha]; exact bot_le⟩
  have he : create v unbounded =
      create v (numbers (List.replicate v.length ⊥), numbers (List.replicate v.length ⊤)) := by
    simp [create, unbounded, numbers, Nlp.createVariable, Nlp.repeated]
  rw [he]
  exact h

/-- The variables can be created when the bounds fit. -/
theorem succeeds_createVariables (d : Dims) (xe xp yp : Nat) (var : Kind → Nat → Nat → List Sym) (hs : SymSizes d var)
    (b : VarBounds) {xl xu yl yu ul uu pl pu tl tu : List XRat}
    (hb : b = ⟨(numbers xl, numbers xu), (numbers yl, numbers yu), (numbers ul, numbers uu),
      (numbers pl, numbers pu), (numbers tl, numbers tu)⟩)
    (hx : PairFits d.nX xl xu) (hy : PairFits d.nY yl yu) (hu : PairFits d.nU ul uu)
    (hp : PairFits d.nPOpt pl pu) (ht : PairFits d.nThetaOpt tl tu) :
    Succeeds (createVariables d xe xp yp var b) := by
  subst hb
  have grid : ∀ (e k size : Nat) (sym : Nat → Nat → List Sym) (lo hi : List XRat),
      (∀ a b, (sym a b).length = size) → PairFits size lo hi →
      Succeeds (createGrid e k sym (numbers lo, numbers hi)) := fun e k size sym lo hi hl h =>
    .collectFrom (fun a => .collectFrom (fun b => succeeds_create_dm _ _ _ (by rw [hl a b]; exact h)) k 0)
      e 0
  unfold createVariables
  simp only [Py.bind_eq]
  exact .bind (grid _ _ _ _ _ _ hs.x hx) fun _ => .bind (grid _ _ _ _ _ _ hs.y hy) fun _ =>
    .bind (grid _ _ _ _ _ _ hs.u hu) fun _ => .bind (succeeds_create_unbounded _) fun _ =>
    .bind (succeeds_create_dm _ _ _ (by rw [hs.pOpt]; exact hp)) fun _ =>
    .bind (.collectFrom (fun el => succeeds_create_dm _ _ _ (by rw [hs.thetaOpt]; exact ht)) _ _)
      fun _ => .pure _

theorem succeeds_createCollocation (d : Dims) (var : Kind → Nat → Nat → List Sym) (hs : SymSizes d var)
    (b : VarBounds) {xl xu yl yu ul uu pl pu tl tu : List XRat}
    (hb : b = ⟨(numbers xl, numbers xu), (numbers yl, numbers yu), (numbers ul, numbers uu),
      (numbers pl, numbers pu), (numbers tl, numbers tu)⟩)
    (hx : PairFits d.nX xl xu) (hy : PairFits d.nY yl yu) (hu : PairFits d.nU ul uu)
    (hp : PairFits d.nPOpt pl pu) (ht : PairFits d.nThetaOpt tl tu) :
    Succeeds (createCollocation d var b) :=
  succeeds_createVariables d _ _ _ var hs b hb hx hy hu hp ht

theorem boundColumn_numbers (n : Nat) (l : List XRat) (h : l.length = n) :
    boundColumn n (numbers l) = l.map BVal.num := by
  have := boundColumn_eq (n := n) (b := numbers l) (l := .dm (l.map .num)) rfl
    (by rw [spread_self _ _ (by simpa using h)]; simp [Col.numel, h])
  rw [← this, spread_self _ _ (by simpa using h)]
  simp [Col.entries, DmEntry.value]

end Layout

namespace SolveDirect
open Spec Layout

variable {K : Type}

/-! ## Decision vectors and blocks -/

theorem lookup_zip_nodup {α : Type} [DecidableEq α] (keys : List α) (values : List K) (hn : keys.Nodup)
    (i : Nat) (h₁ : i < keys.length) (h₂ : i < values.length) :
    List.lookup keys[i] (keys.zip values) = some values[i] := by
  induction keys generalizing values i with
  | nil => simp at h₁
  | cons k keys ih =>
    cases values with
    | nil => simp at h₂
    | cons v values =>
      obtain ⟨hk, hn⟩ := List.nodup_cons.mp hn
      cases i with
      | zero => simp
      | succ i =>
        have h₁' : i < keys.length := by simpa using h₁
        have hne : (keys[i] == k) = false := by
          rw [beq_eq_false_iff_ne]
          exact fun h => hk (h ▸ List.getElem_mem h₁')
        simp only [List.getElem_cons_succ, List.zip_cons_cons, List.lookup, hne]
        exact ih values hn i h₁' (by simpa using h₂)

theorem map_valueIn {α : Type} [DecidableEq α] [Zero K] (keys : List α) (values : List K)
    (hn : keys.Nodup) (hl : values.length = keys.length) : keys.map (valueIn keys values) = values := by
  refine List.ext_getElem (by simp [hl]) fun i h₁ h₂ => ?_
  simp only [List.length_map] at h₁
  rw [List.getElem_map, valueIn]
  rw [lookup_zip_nodup keys values hn i h₁ h₂]
  rfl

theorem readVars_eq (ρ : Sym → K) (b : Blocks Sym) : readVars ρ b = mapBlocks ρ b := rfl

/-- Collocation data is determined by its stack. -/
theorem data_inj [Field K] {d : Dims} (hd : 0 < d.elements) {a b : Blocks K} (ha : CollocationData d a)
    (hb : CollocationData d b) (h : stacked a = stacked b) : a = b := by
  have h₁ := collocationBlocks_stacked hd ha.toSharedShape ha.x ha.y
  have h₂ := collocationBlocks_stacked hd hb.toSharedShape hb.x hb.y
  rw [h, h₂, Except.ok.injEq] at h₁
  simp only [withFinal] at h₁
  obtain ⟨ax, ay, au, ae, ap, at'⟩ := a
  obtain ⟨bx, by', bu, be, bp, bt⟩ := b
  simp only [Blocks.mk.injEq] at h₁ ⊢
  obtain ⟨h₁, h₂, h₃, h₄, h₅, h₆⟩ := h₁
  exact ⟨(List.append_inj' h₁ rfl).1.symm, h₂.symm, h₃.symm, h₄.symm, h₅.symm, h₆.symm⟩

section Vars
variable [Field K] {d : Dims} {var : Kind → Nat → Nat → List Sym}

/-- The blocks of variables. -/
abbrev varsOf (d : Dims) (var : Kind → Nat → Nat → List Sym) : Blocks Sym :=
  variableBlocks d d.elements (d.degree + 1) d.degree var

omit [Field K] in
theorem data_readVars (hv : SymSizes d var) (ρ : Sym → K) :
    CollocationData d (readVars ρ (varsOf d var)) :=
  ⟨sharedShape_map ρ (variableBlocks_shared hv _ _ _), grid_map ρ (grid_table _ _ _ _ hv.x),
    grid_map ρ (grid_table _ _ _ _ hv.y)⟩

theorem stacked_readVars (hv : NewVariables d var) (v : List K)
    (hl : v.length = (stacked (varsOf d var)).length) :
    stacked (readVars (valueIn (stacked (varsOf d var)) v) (varsOf d var)) = v := by
  rw [readVars_eq, stacked_map]
  exact map_valueIn _ _ hv.different hl

omit [Field K] in
theorem stacked_data_length (hv : SymSizes d var) {b : Blocks K} (hb : CollocationData d b) :
    (stacked b).length = (stacked (varsOf d var)).length := by
  have hs := variableBlocks_shared hv d.elements (d.degree + 1) d.degree
  have hx : Grid d.elements (d.degree + 1) d.nX (varsOf d var).x := grid_table _ _ _ _ hv.x
  have hy : Grid d.elements d.degree d.nY (varsOf d var).y := grid_table _ _ _ _ hv.y
  simp only [stacked, List.length_append, flatten_length_of_columns hb.thetaOpt, hb.pOpt, hb.eta,
    grid_length hb.u, grid_length hb.x, grid_length hb.y, flatten_length_of_columns hs.thetaOpt, hs.pOpt,
    hs.eta, grid_length hs.u, grid_length hx, grid_length hy]

theorem readVars_stacked (hd : 0 < d.elements) (hv : NewVariables d var) {b : Blocks K}
    (hb : CollocationData d b) :
    readVars (valueIn (stacked (varsOf d var)) (stacked b)) (varsOf d var) = b :=
  data_inj hd (data_readVars hv.toSymSizes _) hb
    (stacked_readVars hv _ (stacked_data_length hv.toSymSizes hb))

end Vars

/-! ## Bounds -/

/-- Every entry of `v` and the entries at its place in `lo` and `hi` satisfy `R`. -/
def Entrywise {α : Type} (R : α → α → K → Prop) (lo hi : List α) (v : List K) : Prop :=
  ∀ (i : Nat) (a : K) (l h : α), v[i]? = some a → lo[i]? = some l → hi[i]? = some h → R l h a

theorem entrywise_append {α : Type} {R : α → α → K → Prop} {l₁ l₂ h₁ h₂ : List α} {v₁ v₂ : List K}
    (hl : l₁.length = v₁.length) (hh : h₁.length = v₁.length) :
    Entrywise R (l₁ ++ l₂) (h₁ ++ h₂) (v₁ ++ v₂) ↔ Entrywise R l₁ h₁ v₁ ∧ Entrywise R l₂ h₂ v₂ := by
  constructor
  · refine fun h => ⟨fun i a l u ha hl' hu => ?_, fun i a l u ha hl' hu => ?_⟩
    · have hi := (List.getElem?_eq_some_iff.mp ha).1
      exact h i a l u (by rw [List.getElem?_append_left hi]; exact ha)
        (by rw [List.getElem?_append_left (by omega)]; exact hl')
        (by rw [List.getElem?_append_left (by omega)]; exact hu)
    · refine h (v₁.length + i) a l u ?_ ?_ ?_
      · rw [List.getElem?_append_right (by omega), Nat.add_sub_cancel_left]; exact ha
      · rw [List.getElem?_append_right (by omega), hl, Nat.add_sub_cancel_left]; exact hl'
      · rw [List.getElem?_append_right (by omega), hh, Nat.add_sub_cancel_left]; exact hu
  · rintro ⟨hL, hR⟩ i a l u ha hl' hu
    by_cases hi : i < v₁.length
    · rw [List.getElem?_append_left hi] at ha
      rw [List.getElem?_append_left (by omega)] at hl' hu
      exact hL i a l u ha hl' hu
    · rw [List.getElem?_append_right (by omega)] at ha
      rw [List.getElem?_append_right (by omega), hl] at hl'
      rw [List.getElem?_append_right (by omega), hh] at hu
      exact hR _ a l u ha hl' hu

theorem entrywise_flatten {α : Type} {R : α → α → K → Prop} {lc hc : List α} {n : Nat}
    (hl : lc.length = n) (hh : hc.length = n) (L H : List (List α)) (G : List (List K))
    (hL : L.length = G.length) (hH : H.length = G.length) (heL : ∀ c ∈ L, c = lc) (heH : ∀ c ∈ H, c = hc)
    (hG : ∀ c ∈ G, c.length = n) :
    Entrywise R L.flatten H.flatten G.flatten ↔ ∀ c ∈ G, Entrywise R lc hc c := by
  induction G generalizing L H with
  | nil =>
    simp only [List.flatten_nil, List.not_mem_nil, false_implies, implies_true, iff_true]
    intro i a l h ha
    simp at ha
  | cons c G ih =>
    obtain _ | ⟨a, L⟩ := L
    · simp at hL
    obtain _ | ⟨b, H⟩ := H
    · simp at hH
    simp only [List.flatten_cons, List.mem_cons, forall_eq_or_imp] at heL heH hG ⊢
    rw [entrywise_append (by rw [heL.1, hl, hG.1]) (by rw [heH.1, hh, hG.1]),
      ih L H (by simpa using hL) (by simpa using hH) heL.2 heH.2 hG.2, heL.1, heH.1]

theorem entrywise_grid {α : Type} {R : α → α → K → Prop} {lc hc : List α} {e k n : Nat}
    (hl : lc.length = n) (hh : hc.length = n) {g : List (List (List K))} (hg : Grid e k n g) :
    Entrywise R (table e k fun _ _ => lc).flatten.flatten (table e k fun _ _ => hc).flatten.flatten
      g.flatten.flatten ↔ ∀ el ∈ g, ∀ col ∈ el, Entrywise R lc hc col := by
  have hc' := grid_columns hg
  have len : ∀ c : List α, (table e k fun _ _ => c).flatten.length = g.flatten.length := by
    intro c
    rw [hc'.1, (grid_columns (n := c.length) (grid_table e k c.length (fun _ _ => c) fun _ _ => rfl)).1]
  have mem : ∀ c : List α, ∀ d ∈ (table e k fun _ _ => c).flatten, d = c := by
    intro c d hd
    simp only [table, List.mem_flatten, List.mem_map] at hd
    obtain ⟨_, ⟨_, _, rfl⟩, hd⟩ := hd
    obtain ⟨_, _, rfl⟩ := List.mem_map.mp hd
    rfl
  rw [entrywise_flatten hl hh _ _ _ (len lc) (len hc) (mem lc) (mem hc) hc'.2]
  simp only [List.mem_flatten, forall_exists_index, and_imp]
  exact ⟨fun h el he col hm => h col el he hm, fun h col el he hm => h el he col hm⟩

/-- The blocks have these sizes. -/
structure Shaped {α : Type} (d : Dims) (xe xp yp : Nat) (b : Blocks α) : Prop extends SharedShape d b where
  x : Grid xe xp d.nX b.x
  y : Grid d.elements yp d.nY b.y

section Bounds
variable [Field K] [LinearOrder K]

theorem entrywise_numbers (ops : Expr.Ops K) (lo hi : List XRat) (v : List K) :
    Entrywise (fun l u a => Between ops (fun _ => 0) l u a) (lo.map BVal.num) (hi.map BVal.num) v ↔
      ColumnWithin lo hi v := by
  constructor
  · intro h i a l u ha hl hu
    exact h i a _ _ ha (by rw [List.getElem?_map, hl]; rfl) (by rw [List.getElem?_map, hu]; rfl)
  · intro h i a l u ha hl hu
    rw [List.getElem?_map, Option.map_eq_some_iff] at hl hu
    obtain ⟨l', hl, rfl⟩ := hl
    obtain ⟨u', hu, rfl⟩ := hu
    exact h i a l' u' ha hl hu

/-- The bounds of the nonlinear program at the stack of the data are those of the problem. -/
theorem shaped_bounds (ops : Expr.Ops K) {d : Dims} {xe xp yp : Nat} {b : Blocks K}
    (hb : Shaped d xe xp yp b)
    {xl xu yl yu ul uu pl pu tl tu : List XRat} {vb : Layout.VarBounds}
    (hv : vb = ⟨(numbers xl, numbers xu), (numbers yl, numbers yu), (numbers ul, numbers uu),
      (numbers pl, numbers pu), (numbers tl, numbers tu)⟩)
    (hx : PairFits d.nX xl xu) (hy : PairFits d.nY yl yu) (hu : PairFits d.nU ul uu)
    (hp : PairFits d.nPOpt pl pu) (ht : PairFits d.nThetaOpt tl tu) :
    Entrywise (fun l u a => Between ops (fun _ => 0) l u a)
        (stacked (lowerBlocks d xe xp yp vb))
        (stacked (upperBlocks d xe xp yp vb)) (stacked b) ↔
      (∀ el ∈ b.x, ∀ col ∈ el, ColumnWithin xl xu col) ∧ (∀ el ∈ b.y, ∀ col ∈ el, ColumnWithin yl yu col) ∧
      (∀ el ∈ b.u, ∀ col ∈ el, ColumnWithin ul uu col) ∧ ColumnWithin pl pu b.pOpt ∧
      ∀ col ∈ b.thetaOpt, ColumnWithin tl tu col := by
  subst hv
  have len : ∀ (e k n : Nat) (c : List BVal), c.length = n →
      (table e k fun _ _ => c).flatten.flatten.length = e * (k * n) := fun e k n c hc =>
    grid_length (grid_table e k n (fun _ _ => c) fun _ _ => hc)
  have clen : ∀ (e n : Nat) (c : List BVal), c.length = n →
      ((List.range e).map fun _ => c).flatten.length = e * n := fun e n c hc =>
    flatten_length_of_columns (columns_map e n (fun _ => c) fun _ => hc)
  simp only [stacked, lowerBlocks, upperBlocks, boundBlocks, boundColumn_numbers _ _ hx.lower,
    boundColumn_numbers _ _ hx.upper, boundColumn_numbers _ _ hy.lower, boundColumn_numbers _ _ hy.upper,
    boundColumn_numbers _ _ hu.lower, boundColumn_numbers _ _ hu.upper, boundColumn_numbers _ _ hp.lower,
    boundColumn_numbers _ _ hp.upper, boundColumn_numbers _ _ ht.lower, boundColumn_numbers _ _ ht.upper]
  have mlen : ∀ (l : List XRat) (n : Nat), l.length = n → (l.map BVal.num).length = n := by simp
  have e₁ := mlen _ _ hx.lower
  have e₂ := mlen _ _ hx.upper
  have e₃ := mlen _ _ hy.lower
  have e₄ := mlen _ _ hy.upper
  have e₅ := mlen _ _ hu.lower
  have e₆ := mlen _ _ hu.upper
  have e₇ := mlen _ _ hp.lower
  have e₈ := mlen _ _ hp.upper
  have e₉ := mlen _ _ ht.lower
  have e₀ := mlen _ _ ht.upper
  rw [entrywise_append, entrywise_append, entrywise_append, entrywise_append, entrywise_append,
    entrywise_grid e₁ e₂ hb.x, entrywise_grid e₃ e₄ hb.y, entrywise_grid e₅ e₆ hb.u, entrywise_numbers,
    entrywise_flatten e₉ e₀ _ _ _ (by simp [hb.thetaOpt.1]) (by simp [hb.thetaOpt.1]) (by simp)
      (by simp) hb.thetaOpt.2]
  · simp only [entrywise_numbers]
    have heta : Entrywise (fun l u a => Between ops (fun _ => 0) l u a)
        (boundColumn d.nEta (.float ⊥)) (boundColumn d.nEta (.float ⊤)) b.eta := by
      intro i a l u _ hl hu
      have key : ∀ (v : XRat) (c : BVal), (boundColumn d.nEta (.float v))[i]? = some c → c = .num v := by
        intro v c hc
        have := List.mem_of_getElem? hc
        simp only [boundColumn, List.mem_filterMap] at this
        obtain ⟨_, _, hc⟩ := this
        exact (Option.some.inj hc).symm
      rw [key _ _ hl, key _ _ hu]
      exact ⟨bot_le, le_top⟩
    tauto
  all_goals simp only [List.length_append, len _ _ _ _ e₁, len _ _ _ _ e₂, len _ _ _ _ e₃, len _ _ _ _ e₄,
    len _ _ _ _ e₅, len _ _ _ _ e₆, e₇, e₈, grid_length hb.x, grid_length hb.y, grid_length hb.u, hb.eta,
    hb.pOpt, boundColumn_float]

omit [Field K] [LinearOrder K] in
/-- There is a lower bound for every variable. -/
theorem shaped_length {d : Dims} {xe xp yp : Nat} {b : Blocks K} (hb : Shaped d xe xp yp b)
    {xl xu yl yu ul uu pl pu tl tu : List XRat} {vb : Layout.VarBounds}
    (hv : vb = ⟨(numbers xl, numbers xu), (numbers yl, numbers yu), (numbers ul, numbers uu),
      (numbers pl, numbers pu), (numbers tl, numbers tu)⟩)
    (hx : PairFits d.nX xl xu) (hy : PairFits d.nY yl yu) (hu : PairFits d.nU ul uu)
    (hp : PairFits d.nPOpt pl pu) (ht : PairFits d.nThetaOpt tl tu) :
    (stacked (lowerBlocks d xe xp yp vb)).length = (stacked b).length := by
  subst hv
  have len : ∀ (e k n : Nat) (c : List BVal), c.length = n →
      (table e k fun _ _ => c).flatten.flatten.length = e * (k * n) := fun e k n c hc =>
    grid_length (grid_table e k n (fun _ _ => c) fun _ _ => hc)
  have clen : ∀ (e n : Nat) (c : List BVal), c.length = n →
      ((List.range e).map fun _ => c).flatten.length = e * n := fun e n c hc =>
    flatten_length_of_columns (columns_map e n (fun _ => c) fun _ => hc)
  have mlen : ∀ (l : List XRat) (n : Nat), l.length = n → (l.map BVal.num).length = n := by simp
  simp only [stacked, lowerBlocks, boundBlocks, boundColumn_numbers _ _ hx.lower,
    boundColumn_numbers _ _ hy.lower, boundColumn_numbers _ _ hu.lower, boundColumn_numbers _ _ hp.lower,
    boundColumn_numbers _ _ ht.lower, List.length_append, len _ _ _ _ (mlen _ _ hx.lower),
    len _ _ _ _ (mlen _ _ hy.lower), len _ _ _ _ (mlen _ _ hu.lower), mlen _ _ hp.lower,
    clen _ _ _ (mlen _ _ ht.lower), grid_length hb.x, grid_length hb.y, grid_length hb.u, hb.eta,
    hb.pOpt, boundColumn_float, flatten_length_of_columns hb.thetaOpt]

theorem bounds_iff (ops : Expr.Ops K) {d : Dims} {b : Blocks K} (hb : CollocationData d b)
    {xl xu yl yu ul uu pl pu tl tu : List XRat} {vb : Layout.VarBounds}
    (hv : vb = ⟨(numbers xl, numbers xu), (numbers yl, numbers yu), (numbers ul, numbers uu),
      (numbers pl, numbers pu), (numbers tl, numbers tu)⟩)
    (hx : PairFits d.nX xl xu) (hy : PairFits d.nY yl yu) (hu : PairFits d.nU ul uu)
    (hp : PairFits d.nPOpt pl pu) (ht : PairFits d.nThetaOpt tl tu) :
    Entrywise (fun l u a => Between ops (fun _ => 0) l u a)
        (stacked (lowerBlocks d d.elements (d.degree + 1) d.degree vb))
        (stacked (upperBlocks d d.elements (d.degree + 1) d.degree vb)) (stacked b) ↔
      (∀ el ∈ b.x, ∀ col ∈ el, ColumnWithin xl xu col) ∧ (∀ el ∈ b.y, ∀ col ∈ el, ColumnWithin yl yu col) ∧
      (∀ el ∈ b.u, ∀ col ∈ el, ColumnWithin ul uu col) ∧ ColumnWithin pl pu b.pOpt ∧
      ∀ col ∈ b.thetaOpt, ColumnWithin tl tu col :=
  shaped_bounds ops ⟨hb.toSharedShape, hb.x, hb.y⟩ hv hx hy hu hp ht

omit [Field K] [LinearOrder K] in
theorem lower_length {d : Dims} {b : Blocks K} (hb : CollocationData d b)
    {xl xu yl yu ul uu pl pu tl tu : List XRat} {vb : Layout.VarBounds}
    (hv : vb = ⟨(numbers xl, numbers xu), (numbers yl, numbers yu), (numbers ul, numbers uu),
      (numbers pl, numbers pu), (numbers tl, numbers tu)⟩)
    (hx : PairFits d.nX xl xu) (hy : PairFits d.nY yl yu) (hu : PairFits d.nU ul uu)
    (hp : PairFits d.nPOpt pl pu) (ht : PairFits d.nThetaOpt tl tu) :
    (stacked (lowerBlocks d d.elements (d.degree + 1) d.degree vb)).length = (stacked b).length :=
  shaped_length ⟨hb.toSharedShape, hb.x, hb.y⟩ hv hx hy hu hp ht

end Bounds
end SolveDirect
end Verif
