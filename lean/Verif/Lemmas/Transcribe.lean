import Verif.Spec.Transcribe
import Verif.Lemmas.Expr
import Verif.Lemmas.Collocation
import Verif.Lemmas.Direct
import Verif.Lemmas.Replace
/-! Lemmas on the functions of a problem. -/
namespace Verif
open Spec

/-! ## Functions -/

namespace Fun

theorem closed_iff (inputs : List (List Sym)) (outputs : List Expr) :
    (Fun.mk inputs outputs).closed = true ↔ ∀ e ∈ outputs, ∀ s ∈ e.syms, s ∈ inputs.flatten := by
  simp [closed, List.all_eq_true]

theorem make_ok_iff {inputs : List (List Sym)} {outputs : List Expr} {f : Fun} :
    make inputs outputs = .ok f ↔ (∀ e ∈ outputs, ∀ s ∈ e.syms, s ∈ inputs.flatten) ∧
      f = ⟨inputs, outputs⟩ := by
  rw [← closed_iff]
  unfold make
  split
  · next h => simp [h, eq_comm]
  · next h => simp [h]

theorem make_error {inputs : List (List Sym)} {outputs : List Expr} {e : Err} :
    make inputs outputs = .error e → e = .runtimeError := by
  unfold make
  split <;> simp [eq_comm]

end Fun

theorem mapM_ok_iff {α β : Type} {f : α → Except Err β} {g : α → β} {c : α → Prop}
    (hf : ∀ a b, f a = .ok b ↔ c a ∧ b = g a) (l : List α) (r : List β) :
    l.mapM f = .ok r ↔ (∀ a ∈ l, c a) ∧ r = l.map g := by
  induction l generalizing r with
  | nil => simp [List.mapM_nil, pure, Except.pure, eq_comm]
  | cons a l ih =>
    rw [List.mapM_cons]
    simp only [bind, Except.bind, pure, Except.pure]
    cases h : f a with
    | error e =>
      have : ¬ c a := fun hc => by rw [(hf a (g a)).mpr ⟨hc, rfl⟩] at h; cases h
      simp [this]
    | ok b =>
      obtain ⟨hc, rfl⟩ := (hf a b).mp h
      simp only
      cases h' : l.mapM f with
      | error e =>
        have : ¬ ∀ a ∈ l, c a := fun hc => by rw [(ih _).mpr ⟨hc, rfl⟩] at h'; cases h'
        simp only [List.forall_mem_cons, hc, true_and]
        simp only [reduceCtorEq, false_iff]
        exact fun h => this h.1
      | ok r' =>
        obtain ⟨hl, rfl⟩ := (ih _).mp h'
        simp only [Except.ok.injEq, List.forall_mem_cons, hc, true_and, List.map_cons]
        constructor
        · rintro rfl; exact ⟨fun _ h => hl _ h, rfl⟩
        · rintro ⟨-, rfl⟩; rfl

theorem mapM_only_error {α β : Type} {f : α → Except Err β} {e₀ : Err}
    (hf : ∀ a e, f a = .error e → e = e₀) (l : List α) (e : Err) (h : l.mapM f = .error e) :
    e = e₀ := by
  induction l with
  | nil => simp [List.mapM_nil, pure, Except.pure] at h
  | cons a l ih =>
    rw [List.mapM_cons] at h
    simp only [bind, Except.bind, pure, Except.pure] at h
    cases h₁ : f a with
    | error e' => rw [h₁] at h; cases h; exact hf a _ h₁
    | ok b =>
      rw [h₁] at h
      simp only at h
      cases h₂ : l.mapM f with
      | error e' => rw [h₂] at h; cases h; exact ih h₂
      | ok r => rw [h₂] at h; cases h

/-! ## Symbols of a converted expression -/

theorem mem_syms_convert (e : Expr) (t tau : Sym) (a b : Rat) (s : Sym) :
    s ∈ (convertTauToTime e t tau a b).syms ↔ (s ∈ e.syms ∧ s ≠ tau) ∨ (tau ∈ e.syms ∧ s = t) := by
  simp only [convertTauToTime, Expr.subst, Expr.mem_syms_mapSyms]
  constructor
  · rintro ⟨r, hr, hs⟩
    by_cases h : r = tau
    · subst h
      simp only [Expr.replacementOf, if_true, Expr.syms, List.append_nil, List.mem_singleton] at hs
      simp_all
    · rw [Expr.replacementOf_not_mem _ _ _ (by simpa using h)] at hs
      simp only [Expr.syms, List.mem_singleton] at hs
      subst hs
      exact .inl ⟨hr, h⟩
  · rintro (⟨h₁, h₂⟩ | ⟨h₁, rfl⟩)
    · exact ⟨s, h₁, by rw [Expr.replacementOf_not_mem _ _ _ (by simpa using h₂)]; simp [Expr.syms]⟩
    · exact ⟨tau, h₁, by simp [Expr.replacementOf, Expr.syms]⟩

theorem convert_closed (m : SysModel) (e : Expr) (a b : Rat) :
    (∀ s ∈ (convertTauToTime e m.t m.tau a b).syms, s ∈ m.allSym.flatten) ↔
      ∀ s ∈ e.syms, InScope m s := by
  simp only [mem_syms_convert]
  have hm : ∀ s, s ∈ m.allSym.flatten ↔ s = m.t ∨ s ∈ m.x ∨ s ∈ m.y ∨ s ∈ m.p ∨ s ∈ m.theta ∨
      s ∈ m.uPar := by
    intro s
    simp [SysModel.allSym]
  constructor
  · intro h s hs
    by_cases hc : s = m.tau
    · exact .inr (.inl hc)
    · have := (hm s).mp (h s (.inl ⟨hs, hc⟩))
      unfold InScope
      tauto
  · rintro h s (⟨h₁, h₂⟩ | ⟨h₁, rfl⟩)
    · have := h s h₁
      rw [hm]
      unfold InScope at this
      tauto
    · exact (hm _).mpr (.inl rfl)

/-! ## The functions of a problem -/

namespace Ocp

/-- An expression in the time of an element. -/
def inTime (o : Ocp) (N el : Nat) (e : Expr) : Expr :=
  convertTauToTime e o.model.t o.model.tau (o.timeBreakpoint N el) (o.timeBreakpoint N (el + 1))

/-- The algebraic equations that are handed over. -/
def algOf (o : Ocp) : List Expr := if o.model.y = [] then [] else o.model.alg

/-- The functions when all symbols are inputs. -/
def functionsOf (o : Ocp) (N : Nat) : Functions where
  initial := ⟨[o.model.x, o.model.x0], o.hInitial⟩
  dae := (List.range N).map fun el => (⟨o.model.allSym, o.model.odeVec.map (o.inTime N el)⟩,
    ⟨o.model.allSym, o.algOf.map (o.inTime N el)⟩)
  gIneq := o.gIneq.map fun e => (List.range N).map fun el => ⟨o.model.allSym, [o.inTime N el e]⟩
  gEq := o.gEq.map fun e => (List.range N).map fun el => ⟨o.model.allSym, [o.inTime N el e]⟩
  sCost := (List.range N).map fun el => ⟨o.model.allSym, [o.inTime N el o.S]⟩
  final := ⟨[o.model.x, o.eta, o.model.p], o.hFinal⟩
  timeless := ⟨[o.model.p], o.h⟩
  vCost := ⟨[o.model.x, o.model.p], [o.V]⟩

theorem expressionFunction_ok {o : Ocp} {N : Nat} {e : Expr} (el : Nat) (f : Fun) :
    o.expressionFunction N e el = .ok f ↔ (∀ s ∈ e.syms, InScope o.model s) ∧
      f = ⟨o.model.allSym, [o.inTime N el e]⟩ := by
  unfold expressionFunction
  rw [Fun.make_ok_iff]
  simp only [List.forall_mem_singleton, convert_closed]
  rfl

theorem elementFunctions_ok {o : Ocp} {N : Nat} (hN : 0 < N) (e : Expr) (r : List Fun) :
    o.elementFunctions N e = .ok r ↔ (∀ s ∈ e.syms, InScope o.model s) ∧
      r = (List.range N).map fun el => ⟨o.model.allSym, [o.inTime N el e]⟩ := by
  unfold elementFunctions
  rw [mapM_ok_iff (c := fun _ => ∀ s ∈ e.syms, InScope o.model s) expressionFunction_ok]
  constructor
  · rintro ⟨h, rfl⟩; exact ⟨h 0 (List.mem_range.mpr hN), rfl⟩
  · rintro ⟨h, rfl⟩; exact ⟨fun _ _ => h, rfl⟩

theorem daeFunctions_ok {o : Ocp} {N : Nat} (el : Nat) (f : Fun × Fun) :
    o.daeFunctions N el = .ok f ↔ ((∀ e ∈ o.model.odeVec, ∀ s ∈ e.syms, InScope o.model s) ∧
      ∀ e ∈ o.algOf, ∀ s ∈ e.syms, InScope o.model s) ∧
      f = (⟨o.model.allSym, o.model.odeVec.map (o.inTime N el)⟩,
        ⟨o.model.allSym, o.algOf.map (o.inTime N el)⟩) := by
  have hode : ∀ g, Fun.make o.model.allSym (o.model.odeVec.map (o.inTime N el)) = .ok g ↔
      (∀ e ∈ o.model.odeVec, ∀ s ∈ e.syms, InScope o.model s) ∧
        g = ⟨o.model.allSym, o.model.odeVec.map (o.inTime N el)⟩ := by
    intro g
    rw [Fun.make_ok_iff]
    simp only [List.forall_mem_map, inTime, convert_closed]
  have halg : ∀ g, Fun.make o.model.allSym (o.algOf.map (o.inTime N el)) = .ok g ↔
      (∀ e ∈ o.algOf, ∀ s ∈ e.syms, InScope o.model s) ∧
        g = ⟨o.model.allSym, o.algOf.map (o.inTime N el)⟩ := by
    intro g
    rw [Fun.make_ok_iff]
    simp only [List.forall_mem_map, inTime, convert_closed]
  have hd : o.daeFunctions N el = (Fun.make o.model.allSym (o.model.odeVec.map (o.inTime N el))).bind
      fun a => (Fun.make o.model.allSym (o.algOf.map (o.inTime N el))).bind fun b => .ok (a, b) := by
    have : (if o.model.isDae = true then o.model.alg else []) = o.algOf := by
      unfold algOf SysModel.isDae
      by_cases h : o.model.y = []
      · simp [h]
      · simp [h, List.length_pos_iff]
    simp only [daeFunctions, Dae.convertFromTau, SysModel.getDae, bind, Except.bind, this]
    rfl
  rw [hd]
  cases h₁ : Fun.make o.model.allSym (o.model.odeVec.map (o.inTime N el)) with
  | error e =>
    have : ¬ ∀ e ∈ o.model.odeVec, ∀ s ∈ e.syms, InScope o.model s := fun hc => by
      rw [(hode _).mpr ⟨hc, rfl⟩] at h₁; cases h₁
    simp only [Except.bind, reduceCtorEq, false_iff]
    exact fun h => this h.1.1
  | ok a =>
    obtain ⟨ha, rfl⟩ := (hode a).mp h₁
    cases h₂ : Fun.make o.model.allSym (o.algOf.map (o.inTime N el)) with
    | error e =>
      have : ¬ ∀ e ∈ o.algOf, ∀ s ∈ e.syms, InScope o.model s := fun hc => by
        rw [(halg _).mpr ⟨hc, rfl⟩] at h₂; cases h₂
      simp only [Except.bind, reduceCtorEq, false_iff]
      exact fun h => this h.1.2
    | ok b =>
      obtain ⟨hb, rfl⟩ := (halg b).mp h₂
      simp only [Except.bind, Except.ok.injEq]
      exact ⟨fun h => ⟨⟨ha, hb⟩, h.symm⟩, fun h => h.2.symm⟩

theorem bind_ok_iff {α β : Type} {x : Except Err α} {f : α → Except Err β} {b : β} :
    x.bind f = .ok b ↔ ∃ a, x = .ok a ∧ f a = .ok b := by
  cases x <;> simp [Except.bind]

theorem functions_ok {o : Ocp} {N : Nat} (hN : 0 < N) (f : Functions) :
    o.functions N = .ok f ↔ FunctionScope o ∧ f = o.functionsOf N := by
  unfold functions
  simp only [bind, bind_ok_iff, Fun.make_ok_iff, mapM_ok_iff daeFunctions_ok,
    mapM_ok_iff (elementFunctions_ok hN), elementFunctions_ok hN, Except.ok.injEq]
  constructor
  · rintro ⟨_, ⟨h₁, rfl⟩, _, ⟨h₂, rfl⟩, _, ⟨h₃, rfl⟩, _, ⟨h₄, rfl⟩, _, ⟨h₅, rfl⟩, _, ⟨h₆, rfl⟩, _,
      ⟨h₇, rfl⟩, _, ⟨h₈, rfl⟩, rfl⟩
    refine ⟨⟨?_, ?_, ?_, ?_, ?_⟩, rfl⟩
    · have h₂ := h₂ 0 (List.mem_range.mpr hN)
      intro e he
      simp only [List.mem_append, List.mem_singleton] at he
      rcases he with (((he | he) | he) | he) | rfl
      · exact h₂.1 e he
      · exact h₂.2 e he
      · exact h₃ e he
      · exact h₄ e he
      · exact h₅
    · simpa using h₁
    · simpa [or_assoc] using h₆
    · simpa using h₇
    · simpa using h₈
  · rintro ⟨⟨h₁, h₂, h₃, h₄, h₅⟩, rfl⟩
    refine ⟨_, ⟨by simpa using h₂, rfl⟩, _, ⟨?_, rfl⟩, _, ⟨?_, rfl⟩, _, ⟨?_, rfl⟩, _, ⟨?_, rfl⟩, _,
      ⟨by simpa [or_assoc] using h₃, rfl⟩, _, ⟨by simpa using h₄, rfl⟩, _, ⟨by simpa using h₅, rfl⟩, rfl⟩
    · exact fun _ _ => ⟨fun e he => h₁ e (by simp [he]), fun e he => h₁ e (by
        unfold algOf at he; simp [he])⟩
    · exact fun e he => h₁ e (by simp [he])
    · exact fun e he => h₁ e (by simp [he])
    · exact h₁ _ (by simp)

end Ocp

/-! ## Values -/

section Values
variable {K : Type} [Field K]

/-- The assignment gives the symbols the values listed beside them. -/
def Agrees (l : List Sym) (a : List K) (ρ : Sym → K) : Prop :=
  ∀ s ∈ l, (l.zip a).lookup s = some (ρ s)

omit [Field K] in
theorem Agrees.append {l₁ l₂ : List Sym} {a₁ a₂ : List K} {ρ : Sym → K} (h₁ : Agrees l₁ a₁ ρ)
    (h₂ : Agrees l₂ a₂ ρ) (hl : l₁.length = a₁.length) : Agrees (l₁ ++ l₂) (a₁ ++ a₂) ρ := by
  intro s hs
  rw [List.zip_append hl, List.lookup_append]
  by_cases h : s ∈ l₁
  · rw [h₁ s h]; rfl
  · have : (l₁.zip a₁).lookup s = none := by
      rw [List.lookup_eq_none_iff]
      rintro ⟨k, v⟩ hp
      have := (List.of_mem_zip hp).1
      simp only [bne_iff_ne, ne_eq]
      rintro rfl
      exact h this
    rw [this, h₂ s ((List.mem_append.mp hs).resolve_left h)]
    rfl

theorem agrees_of_index {l : List Sym} {a : List K} {ρ : Sym → K} (hl : a.length = l.length)
    (h : ∀ (i : Nat) (s : Sym), l[i]? = some s → ρ s = a.getD i 0) : Agrees l a ρ := by
  intro s hs
  have hi := List.idxOf_lt_length_of_mem hs
  rw [lookup_zip l a hl s hs, List.getElem?_eq_getElem (by omega)]
  have := h (l.idxOf s) s (by rw [List.getElem?_eq_getElem hi, List.getElem_idxOf])
  rw [this, List.getD_eq_getElem?_getD, List.getElem?_eq_getElem (by omega)]
  rfl

theorem call_eq (ops : Expr.Ops K) (f : Fun) (args : List (List K)) (ρ : Sym → K)
    (hc : ∀ e ∈ f.outputs, ∀ s ∈ e.syms, s ∈ f.inputs.flatten)
    (ha : Agrees f.inputs.flatten args.flatten ρ) :
    f.call ops args = f.outputs.map (Expr.eval ops ρ) := by
  unfold Fun.call
  refine List.map_congr_left fun e he => Expr.eval_congr ops _ _ _ fun s hs => ?_
  rw [Fun.argument, ha s (hc e he s hs)]
  rfl

/-- Replacing the position by the time of the element does not change the value. -/
theorem eval_inTime [CharZero K] (ops : Expr.Ops K) (o : Ocp) (N el : Nat) (hN : 0 < N)
    (ht : o.t0 < o.tf) (ρ : Sym → K) (tau : K)
    (h₁ : ρ o.model.t = ((o.tf : K) - (o.t0 : K)) / (N : K) * ((el : K) + tau))
    (h₂ : ρ o.model.tau = tau) (e : Expr) : (o.inTime N el e).eval ops ρ = e.eval ops ρ := by
  unfold Ocp.inTime convertTauToTime
  refine Expr.eval_subst ops ρ ρ _ _ (List.nodup_singleton _) rfl ?_ (fun _ _ => rfl) e
  intro i hi _
  have : i = 0 := by simpa using hi
  subst this
  have hN' : (N : K) ≠ 0 := Nat.cast_ne_zero.mpr hN.ne'
  have hd : (o.tf : K) - (o.t0 : K) ≠ 0 := by
    rw [sub_ne_zero]
    exact fun h => ht.ne' (Rat.cast_injective h)
  simp only [List.getElem_cons_zero, Expr.eval, h₁, h₂, Ocp.timeBreakpoint]
  push_cast
  field_simp
  ring

theorem through_single (r : K) (c : List K) (i : Nat) (tau : K) :
    (through [r] [c] i).eval tau = c.getD i 0 := by
  unfold through
  rw [Lagrange.interpolate_apply]
  have : (Finset.univ : Finset (Fin [r].length)) = {⟨0, by simp⟩} := rfl
  rw [this, Finset.sum_singleton]
  simp [Lagrange.basis]

end Values

/-! ## The prepared problem -/

namespace Direct
variable {K : Type} [Field K]

/-- The values of the symbols of the prepared problem. -/
def extend (ρ : Sym → K) (xc fresh base : Sym) (cost : K) (us : List K) : Sym → K := fun s =>
  if s = xc then cost else if s = fresh then 0
  else if base ≤ s then us.getD (s - base) 0 else ρ s

section
variable {o : Ocp} {xc fresh base : Sym} (hn : NewSymbols o xc fresh base) (ρ : Sym → K) (cost : K)
  (us : List K)
include hn

theorem extend_known (s : Sym) (hs : s ∈ problemSymbols o) :
    extend ρ xc fresh base cost us s = ρ s := by
  unfold extend
  rw [if_neg, if_neg, if_neg]
  · exact Nat.not_le.mpr (hn.points s (by simp [hs]))
  · rintro rfl; exact hn.initial hs
  · rintro rfl; exact hn.costState hs

omit hn in
theorem extend_cost : extend ρ xc fresh base cost us xc = cost := by simp [extend]

theorem extend_fresh : extend ρ xc fresh base cost us fresh = 0 := by
  simp [extend, hn.different.symm]

theorem extend_point (k : Nat) : extend ρ xc fresh base cost us (base + k) = us.getD k 0 := by
  have h₁ : xc < base := hn.points xc (by simp)
  have h₂ : fresh < base := hn.points fresh (by simp)
  unfold extend
  rw [if_neg, if_neg, if_pos (Nat.le_add_right base k)]
  · rw [Nat.add_sub_cancel_left]
  · rintro h
    exact absurd (Nat.le_add_right base k) (by rw [h]; exact Nat.not_le.mpr h₂)
  · rintro h
    exact absurd (Nat.le_add_right base k) (by rw [h]; exact Nat.not_le.mpr h₁)

/-- The polynomials of the controls at the values of the points. -/
theorem eval_polynomial (ops : Expr.Ops K) (roots : List Rat) (hr : 0 < roots.length) (n : Nat)
    (cols : List (List K)) (hc : Columns roots.length n cols) (i : Nat) (hi : i < n)
    (hl : i < (polynomials roots o.model.tau base n roots.length).length) :
    ((polynomials roots o.model.tau base n roots.length)[i]'hl).eval ops
        (extend ρ xc fresh base cost cols.flatten) =
      (through (inField roots) cols i).eval (ρ o.model.tau) := by
  have htau : extend ρ xc fresh base cost cols.flatten o.model.tau = ρ o.model.tau :=
    extend_known hn _ _ _ _ (by simp [problemSymbols])
  by_cases hd : roots.length = 1
  · obtain ⟨r, rfl⟩ := List.length_eq_one_iff.mp hd
    obtain ⟨c, rfl⟩ := List.length_eq_one_iff.mp hc.1
    show ((polynomials [r] o.model.tau base n 1)[i]'hl).eval ops _ = (through [(r : K)] [c] i).eval _
    rw [through_single]
    have : (polynomials [r] o.model.tau base n 1)[i]'hl = .sym (point base n i 0) := by
      simp [polynomials]
    rw [this]
    simp only [Expr.eval, point]
    rw [extend_point hn]
    simp
  · have h := polynomials_eval ops roots o.model.tau base n roots.length
      (extend ρ xc fresh base cost cols.flatten)
    have hp : (fun i j => extend ρ xc fresh base cost cols.flatten (point base n i j)) =
        matOf n cols.flatten := by
      funext i j
      unfold point matOf
      rw [extend_point hn]
    rw [hp, polyApprox_algebraics _ _ _ cols _ hd hc, htau] at h
    have h := congrArg (fun l : List K => l.getD i 0) (Except.ok.inj h)
    simp only [List.getD_eq_getElem?_getD, List.getElem?_map, List.getElem?_range hi,
      List.getElem?_eq_getElem hl, Option.map_some, Option.getD_some] at h
    exact h.symm

/-- The value of an expression of the user after the preparation. -/
theorem eval_prepared (ops : Expr.Ops K) (roots : List Rat) (hr : 0 < roots.length)
    (hu : o.model.u.Nodup) (cols : List (List K))
    (hc : o.model.u ≠ [] → Columns roots.length o.model.u.length cols)
    (hρ : ∀ (i : Nat) (s : Sym), o.model.u[i]? = some s →
      ρ s = (through (inField roots) cols i).eval (ρ o.model.tau))
    (e : Expr) (he : ∀ s ∈ e.syms, s ∈ problemSymbols o) :
    (e.subst o.model.u (polynomials roots o.model.tau base o.model.u.length roots.length)).eval ops
        (extend ρ xc fresh base cost cols.flatten) = e.eval ops ρ := by
  rw [Expr.eval_subst ops (extend ρ xc fresh base cost cols.flatten)
    (fun s => if s ∈ o.model.u then ρ s else extend ρ xc fresh base cost cols.flatten s) _ _ hu
    (polynomials_length ..).symm ?_ (fun s hs => if_neg hs) e]
  · refine Expr.eval_congr ops _ _ _ fun s hs => ?_
    split
    · rfl
    · exact extend_known hn _ _ _ _ (he s hs)
  · intro i h₁ h₂
    simp only [if_pos (List.getElem_mem h₁)]
    rw [eval_polynomial hn ρ cost ops roots hr o.model.u.length cols
      (hc (List.ne_nil_of_length_pos (by omega))) i h₁ h₂]
    exact hρ i _ (List.getElem?_eq_getElem h₁)

end
end Direct

namespace Direct

/-- The prepared problem in terms of the problem of the user. -/
structure Prepared (roots : List Rat) (xc fresh base : Sym) (o q : Ocp) (S : Expr → Expr) : Prop where
  subst : S = Expr.subst o.model.u
    (polynomials roots o.model.tau base o.model.u.length roots.length)
  times : q.t0 = o.t0 ∧ q.tf = o.tf
  symbols : q.model.t = o.model.t ∧ q.model.tau = o.model.tau ∧ q.model.x = o.model.x ++ [xc] ∧
    q.model.x0 = o.model.x0 ++ [fresh] ∧ q.model.y = o.model.y ∧ q.model.p = o.model.p ∧
    q.model.theta = o.model.theta ∧ q.model.u = o.model.u ∧
    q.model.uPar = newSyms base (o.model.u.length * roots.length)
  others : q.eta = o.eta ∧ q.pOpt = o.pOpt ∧ q.thetaOpt = o.thetaOpt
  limits : q.duMin = o.duMin ∧ q.duMax = o.duMax
  tags : q.timeGIneq = o.timeGIneq ∧ q.timeGEq = o.timeGEq
  ode : q.model.odeVec = (o.model.odeVec ++ [o.L]).map S
  alg : q.model.alg = o.model.alg.map S
  path : q.gIneq = o.gIneq.map S ∧ q.gEq = o.gEq.map S
  initial : q.hInitial = (o.hInitial ++ [Expr.sub (.sym fresh) (.sym xc)]).map S
  final : q.hFinal = o.hFinal.map S
  timeless : q.h = o.h.map S
  sCost : q.S = S o.S
  vCost : q.V = S (Expr.add o.V (.sym xc))

theorem approximated_odeVec (roots : List Rat) (degree : Nat) (base : Sym) (o : Ocp) :
    (approximated roots degree base o).model.odeVec = o.model.odeVec.map
      (Expr.subst o.model.u (polynomials roots o.model.tau base o.model.u.length degree)) := by
  have hl : o.model.u.length =
    (polynomials roots o.model.tau base o.model.u.length degree).length := (polynomials_length ..).symm
  rw [← odeVec_replace o.model _ _ hl]
  unfold SysModel.replaceVariable
  rw [if_neg (not_not.mpr hl)]
  rfl

theorem prepared_of {roots : List Rat} {xc fresh base : Sym} {s s' : Method}
    (hc : s.hasCostState = false) (h : prepare roots roots.length xc fresh base s = (.ok (), s'))
    (hn : NewSymbols s.problem xc fresh base) (hk : Complete s.problem.model) :
    ∃ S, Prepared roots xc fresh base s.problem s'.problem S := by
  obtain ⟨o₁, h₁, rfl⟩ := prepare_first hc h
  obtain ⟨-, hx, -, -, -, hx0, hI, -, -, hy, hu, hL, hV⟩ := C41_added xc fresh s.problem o₁ h₁
  obtain ⟨o₂, h₂, rfl⟩ := Ocp.createCostState_ok_iff.mp h₁
  obtain ⟨-, lo, hi, m', hh, hlo, hhi, -, -, -, h₆, h₇, rfl⟩ := Ocp.includeState_ok_iff.mp h₂
  obtain ⟨-, -, -, -, rfl⟩ := (SysModel.includeState_ok_iff ..).mp h₆
  have hxc : xc ∉ s.problem.model.ode.keys := by
    rw [hk.1]
    exact fun hm => hn.costState (by simp [problemSymbols, hm])
  have hode : SysModel.tableWith s.problem.model.ode [xc] (some [s.problem.L]) =
      s.problem.model.ode ++ [(xc, some s.problem.L)] := by
    have : SysModel.tableWith s.problem.model.ode [xc] (some [s.problem.L]) =
      (s.problem.model.ode ++ [(xc, none)]).set xc (some s.problem.L) := rfl
    rw [this]
    clear this h₇ h₆ h₂ h₁ h hx hx0 hI hy hu hL hV
    generalize s.problem.model.ode = d at hxc
    induction d with
    | nil => simp [Dict.set]
    | cons kv d ih =>
      obtain ⟨k, v⟩ := kv
      simp only [Dict.keys, List.map_cons, List.mem_cons, not_or] at hxc
      have := ih hxc.2
      simp only [List.cons_append, Dict.set]
      rw [if_neg (by simpa [eq_comm] using hxc.1)]
      rw [this]
  refine ⟨_, rfl, ⟨rfl, rfl⟩, ⟨rfl, rfl, hx, hx0, rfl, rfl, rfl, rfl, rfl⟩, ⟨rfl, rfl, rfl⟩, ⟨rfl, rfl⟩,
    ⟨rfl, rfl⟩, ?_, rfl, ⟨rfl, rfl⟩, ?_, rfl, rfl, rfl, rfl⟩
  · show (approximated _ _ _ _).model.odeVec = _
    rw [approximated_odeVec]
    show (((SysModel.tableWith s.problem.model.ode [xc] (some [s.problem.L])).values.filterMap id).map _)
      = _
    rw [hode]
    simp [SysModel.odeVec, Dict.values]
  · show (List.map _ _) = _
    simp only at hI
    rw [hI]
end Direct
end Verif
