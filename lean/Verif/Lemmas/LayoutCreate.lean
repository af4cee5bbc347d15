import Verif.Lemmas.Layout
import Verif.Lemmas.Nlp
/-!
# Creating the decision variables
-/
namespace Verif
namespace Layout

variable {α β γ : Type}

/-- When the call returns, it returned `val` and appended these variables and bounds. -/
def Creates (m : Py Nlp β) (val : β) (x : List Sym) (lb ub : List BVal) : Prop :=
  ∀ n b n', m n = (.ok b, n') →
    b = val ∧ n'.x = n.x ++ x ∧ n'.xLb = n.xLb ++ lb ∧ n'.xUb = n.xUb ++ ub

theorem creates_pure (val : β) : Creates (Py.pure val) val [] [] [] := by
  intro n b n' h
  simp only [Py.pure, Prod.mk.injEq, Except.ok.injEq] at h
  obtain ⟨rfl, rfl⟩ := h
  simp

theorem creates_bind {m : Py Nlp β} {f : β → Py Nlp γ} {v₁ : β} {v₂ : γ} {x₁ x₂ : List Sym}
    {l₁ l₂ u₁ u₂ : List BVal} (h₁ : Creates m v₁ x₁ l₁ u₁) (h₂ : Creates (f v₁) v₂ x₂ l₂ u₂) :
    Creates (Py.bind m f) v₂ (x₁ ++ x₂) (l₁ ++ l₂) (u₁ ++ u₂) := by
  intro n c n' h
  obtain ⟨b, n₁, hb, hc⟩ := Py.bind_eq_ok.mp h
  obtain ⟨rfl, hx, hl, hu⟩ := h₁ _ _ _ hb
  obtain ⟨rfl, hx', hl', hu'⟩ := h₂ _ _ _ hc
  exact ⟨rfl, by rw [hx', hx, List.append_assoc], by rw [hl', hl, List.append_assoc],
    by rw [hu', hu, List.append_assoc]⟩

theorem filterMap_range_getElem? (l : List α) :
    (List.range l.length).filterMap (fun i => l[i]?) = l := by
  induction l with
  | nil => rfl
  | cons a l ih =>
    rw [List.length_cons, List.range_succ_eq_map, List.filterMap_cons]
    simp only [List.getElem?_cons_zero, List.filterMap_map]
    congr 1

theorem filterMap_range_some (n : Nat) (a : α) :
    (List.range n).filterMap (fun _ => some a) = List.replicate n a := by
  induction n with
  | zero => rfl
  | succ n ih => rw [List.range_succ, List.filterMap_append, ih]; simp [List.replicate_succ']

theorem boundColumn_eq {n : Nat} {b : BoundArg} {l : Col}
    (h : Nlp.variableBound (Nlp.repeated n b) = .ok l) (hn : n = (l.spread n).numel) :
    (l.spread n).entries = Spec.boundColumn n b := by
  have key : ∀ c : Col, n = (c.spread n).numel →
      (c.spread n).entries = (List.range n).filterMap (Spec.entryAt c.entries) := by
    intro c hc
    have hent : ∀ c : Col, c.entries.length = c.numel := Nlp.entries_length
    have hmap : ∀ {γ δ : Type} (f : γ → δ) (l : List γ),
        (Ocp.broadcast n l).map f = Ocp.broadcast n (l.map f) := by
      intro γ δ f l
      rcases l with _ | ⟨a, _ | ⟨b, l⟩⟩
      · rfl
      · simp only [Ocp.broadcast, List.map_cons, List.map_nil]
        split <;> simp
      · rfl
    have hbc : (c.spread n).entries = Ocp.broadcast n c.entries := by
      cases c <;> simp only [Col.spread, Col.entries, hmap]
    rw [hbc]
    have hl : n = (Ocp.broadcast n c.entries).length := by rw [← hbc, hent]; exact hc
    generalize c.entries = es at hl ⊢
    rcases es with _ | ⟨a, _ | ⟨b, es⟩⟩
    · have : n = 0 := by simpa [Ocp.broadcast] using hl
      subst this
      rfl
    · have : Spec.entryAt [a] = fun _ => some a := by funext i; simp [Spec.entryAt]
      rw [this, filterMap_range_some]
      simp only [Ocp.broadcast] at hl ⊢
      by_cases h1 : n > 1
      · rw [if_pos h1]
      · rw [if_neg h1] at hl ⊢
        have : n = 1 := by simpa using hl
        subst this
        rfl
    · have : Spec.entryAt (a :: b :: es) = fun i => (a :: b :: es)[i]? := by
        funext i; simp [Spec.entryAt]
      rw [this]
      change n = (a :: b :: es).length at hl
      change a :: b :: es = _
      rw [hl, filterMap_range_getElem?]
  cases b with
  | float v =>
    simp only [Nlp.repeated, Nlp.variableBound, Except.ok.injEq] at h
    subst h
    rw [key _ hn, Spec.boundColumn]
    have : ∀ i ∈ List.range n, Spec.entryAt (Col.dm (List.replicate n (DmEntry.num v))).entries i =
        Spec.argAt (.float v) i := by
      intro i hi
      rw [List.mem_range] at hi
      simp only [Spec.entryAt, Col.entries, List.map_replicate, DmEntry.value, Spec.argAt,
        List.length_replicate]
      split <;> rw [List.getElem?_replicate, if_pos (by omega)]
    exact List.filterMap_congr this
  | int k =>
    simp only [Nlp.repeated, Nlp.variableBound, Except.ok.injEq] at h
    subst h
    rw [key _ hn, Spec.boundColumn]
    have : ∀ i ∈ List.range n,
        Spec.entryAt (Col.dm (List.replicate n (DmEntry.num (XRat.fin k)))).entries i =
        Spec.argAt (.int k) i := by
      intro i hi
      rw [List.mem_range] at hi
      simp only [Spec.entryAt, Col.entries, List.map_replicate, DmEntry.value, Spec.argAt,
        List.length_replicate]
      split <;> rw [List.getElem?_replicate, if_pos (by omega)]
    exact List.filterMap_congr this
  | col c =>
    simp only [Nlp.repeated, Nlp.variableBound, Except.ok.injEq] at h
    subst h
    rw [key _ hn]
    rfl

theorem creates_create (v : List Sym) (b : BoundArg × BoundArg) :
    Creates (create v b) v v (Spec.boundColumn v.length b.1) (Spec.boundColumn v.length b.2) := by
  intro n r n' h
  obtain ⟨_, n₁, h₁, h₂⟩ := Py.bind_eq_ok.mp h
  simp only [Py.pure, Prod.mk.injEq, Except.ok.injEq] at h₂
  obtain ⟨rfl, rfl⟩ := h₂
  obtain ⟨l, u, hl, hu, hnl, hnu, -, -, rfl⟩ := Nlp.includeVariable_ok_iff.mp h₁
  exact ⟨rfl, rfl, by rw [boundColumn_eq hl hnl], by rw [boundColumn_eq hu hnu]⟩

theorem creates_collectFrom {f : Nat → Py Nlp β} {val : Nat → β} {x : Nat → List Sym}
    {lb ub : Nat → List BVal} (h : ∀ i, Creates (f i) (val i) (x i) (lb i) (ub i)) (k i : Nat) :
    Creates (collectFrom k i f) ((List.range' i k).map val) ((List.range' i k).map x).flatten
      ((List.range' i k).map lb).flatten ((List.range' i k).map ub).flatten := by
  induction k generalizing i with
  | zero => exact creates_pure []
  | succ k ih =>
    have : Creates (collectFrom (k + 1) i f) _ _ _ _ := show Creates (Py.bind (f i) fun b => Py.bind (collectFrom k (i + 1) f) fun bs =>
        Py.pure (b :: bs)) _ _ _ _ from
      creates_bind (h i) (creates_bind (ih (i + 1)) (creates_pure _))
    simpa [List.range'_succ] using this

theorem creates_grid (e k : Nat) (sym : Nat → Nat → List Sym) (size : Nat)
    (hs : ∀ a b, (sym a b).length = size) (b : BoundArg × BoundArg) :
    Creates (createGrid e k sym b) (Spec.table e k sym) (Spec.table e k sym).flatten.flatten
      (Spec.table e k fun _ _ => Spec.boundColumn size b.1).flatten.flatten
      (Spec.table e k fun _ _ => Spec.boundColumn size b.2).flatten.flatten := by
  have h := creates_collectFrom (fun el => creates_collectFrom (fun n => creates_create (sym el n) b)
    k 0) e 0
  simp only [← List.range_eq_range', hs] at h
  have flat : ∀ {γ : Type} (f : Nat → List (List γ)), ((List.range e).map fun i => (f i).flatten).flatten
      = ((List.range e).map f).flatten.flatten := by
    intro γ f
    induction (List.range e) with
    | nil => rfl
    | cons a l ih => simp [ih]
  rw [flat fun el => (List.range k).map fun n => sym el n,
    flat fun el => (List.range k).map fun n => Spec.boundColumn size b.1,
    flat fun el => (List.range k).map fun n => Spec.boundColumn size b.2] at h
  exact h

theorem creates_variables (d : Dims) (xe xp yp : Nat) (sym : Kind → Nat → Nat → List Sym)
    (hs : Spec.SymSizes d sym) (b : VarBounds) :
    Creates (createVariables d xe xp yp sym b) (Spec.variableBlocks d xe xp yp sym)
      (stacked (Spec.variableBlocks d xe xp yp sym)) (stacked (Spec.lowerBlocks d xe xp yp b))
      (stacked (Spec.upperBlocks d xe xp yp b)) := by
  have h : Creates (createVariables d xe xp yp sym b) (Spec.variableBlocks d xe xp yp sym) _ _ _ :=
    creates_bind (creates_grid xe xp (sym .x) d.nX hs.x b.x) <|
    creates_bind (creates_grid d.elements yp (sym .y) d.nY hs.y b.y) <|
    creates_bind (creates_grid d.elements (Spec.controlPoints d) (sym .u) d.nU hs.u b.u) <|
    creates_bind (creates_create (sym .eta 0 0) unbounded) <|
    creates_bind (creates_create (sym .pOpt 0 0) b.pOpt) <|
    creates_bind (creates_collectFrom (fun el => creates_create (sym .thetaOpt el 0) b.thetaOpt)
      d.elements 0) (by rw [← List.range_eq_range']; exact creates_pure _)
  simp only [← List.range_eq_range', hs.eta, hs.pOpt, hs.thetaOpt, List.append_nil] at h
  simp only [stacked, List.append_assoc]
  exact h

end Layout
end Verif
