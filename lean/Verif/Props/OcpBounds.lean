import Verif.Lemmas.Ocp
/-!
# C31, C37: bounds stay attached to their variables
-/
namespace Verif
open Spec

namespace Ocp

/-- A guess reduced to the variables that are kept. -/
theorem removeGuess_find (v l : List Sym) (g : List Rat) (h : g.length = l.length) :
    removeGuess ((findIndices v l).map Int.ofNat) (some g) = .ok (some (kept v l g)) := by
  simp only [removeGuess, removeByIndices_find v l g h]
  rfl

theorem bounds_kept {α : Type} (v l : List Sym) (b : List α) (h : b.length = l.length) :
    bounds (l.filter fun a => decide (a ∉ v)) (kept v l b) = boundsWithout v (bounds l b) :=
  zip_filter_snd v l b h

end Ocp

/-- C31. Removing inputs keeps every other input with its bounds and rate limits. -/
theorem C31_remove_control (v : List Sym) (o o' : Ocp) (h : Sized o)
    (hr : o.removeControl v = (.ok (), o')) :
    bounds o'.model.u o'.uMax = boundsWithout v (bounds o.model.u o.uMax) ∧
    bounds o'.model.u o'.uMin = boundsWithout v (bounds o.model.u o.uMin) ∧
    bounds o'.model.u o'.duMax = boundsWithout v (bounds o.model.u o.duMax) ∧
    bounds o'.model.u o'.duMin = boundsWithout v (bounds o.model.u o.duMin) ∧
    bounds o'.model.y o'.yMax = bounds o.model.y o.yMax ∧
    bounds o'.model.y o'.yMin = bounds o.model.y o.yMin ∧
    bounds o'.model.x o'.xMax = bounds o.model.x o.xMax ∧
    bounds o'.model.x o'.xMin = bounds o.model.x o.xMin := by
  obtain ⟨g, m', -, hm, rfl⟩ := (Ocp.removeControl_ok_iff h.uMax h.uMin h.duMax h.duMin).mp hr
  obtain ⟨hx, hy, hu⟩ := SysModel.removeControl_vars _ _ _ hm
  simp only [hx, hy, hu]
  exact ⟨Ocp.bounds_kept _ _ _ h.uMax, Ocp.bounds_kept _ _ _ h.uMin, Ocp.bounds_kept _ _ _ h.duMax,
    Ocp.bounds_kept _ _ _ h.duMin, by simp⟩

/-- C31. So does the guess for the inputs. -/
theorem C31_remove_control_guess (v : List Sym) (o o' : Ocp) (h : Sized o) (g : List Rat)
    (hg : o.uGuess = some g) (hl : g.length = o.model.u.length)
    (hr : o.removeControl v = (.ok (), o')) :
    ∃ g', o'.uGuess = some g' ∧ bounds o'.model.u g' = boundsWithout v (bounds o.model.u g) := by
  obtain ⟨g', m', hgg, hm, rfl⟩ := (Ocp.removeControl_ok_iff h.uMax h.uMin h.duMax h.duMin).mp hr
  obtain ⟨hx, hy, hu⟩ := SysModel.removeControl_vars _ _ _ hm
  rw [hg, Ocp.removeGuess_find v _ g hl] at hgg
  cases hgg
  refine ⟨_, rfl, ?_⟩
  simp only [hu]
  exact Ocp.bounds_kept _ _ _ hl

/-- C31. Removing algebraic variables keeps every other one with its bounds. -/
theorem C31_remove_algebraic (v : List Sym) (eq : Option (List Expr)) (o o' : Ocp) (h : Sized o)
    (hr : o.removeAlgebraic v eq = (.ok (), o')) :
    bounds o'.model.y o'.yMax = boundsWithout v (bounds o.model.y o.yMax) ∧
    bounds o'.model.y o'.yMin = boundsWithout v (bounds o.model.y o.yMin) ∧
    bounds o'.model.u o'.uMax = bounds o.model.u o.uMax ∧
    bounds o'.model.u o'.uMin = bounds o.model.u o.uMin ∧
    bounds o'.model.u o'.duMax = bounds o.model.u o.duMax ∧
    bounds o'.model.u o'.duMin = bounds o.model.u o.duMin ∧
    bounds o'.model.x o'.xMax = bounds o.model.x o.xMax ∧
    bounds o'.model.x o'.xMin = bounds o.model.x o.xMin := by
  obtain ⟨g, m', -, hm, rfl⟩ := (Ocp.removeAlgebraic_ok_iff h.yMax h.yMin).mp hr
  obtain ⟨hx, hy, hu, -⟩ := SysModel.removeAlgebraic_ok _ _ _ _ hm
  simp only [hx, hy, hu]
  exact ⟨Ocp.bounds_kept _ _ _ h.yMax, Ocp.bounds_kept _ _ _ h.yMin, by simp⟩

/-- C31. So does the guess for the algebraic variables. -/
theorem C31_remove_algebraic_guess (v : List Sym) (eq : Option (List Expr)) (o o' : Ocp)
    (h : Sized o) (g : List Rat) (hg : o.yGuess = some g) (hl : g.length = o.model.y.length)
    (hr : o.removeAlgebraic v eq = (.ok (), o')) :
    ∃ g', o'.yGuess = some g' ∧ bounds o'.model.y g' = boundsWithout v (bounds o.model.y g) := by
  obtain ⟨g', m', hgg, hm, rfl⟩ := (Ocp.removeAlgebraic_ok_iff h.yMax h.yMin).mp hr
  obtain ⟨hx, hy, hu, -⟩ := SysModel.removeAlgebraic_ok _ _ _ _ hm
  have := Ocp.removeGuess_find v _ g hl
  simp only [Ocp.removeGuess] at this
  simp only [hg, Ocp.removeGuess, removeByIndices_reverse, this] at hgg
  cases hgg
  refine ⟨_, rfl, ?_⟩
  simp only [hy]
  exact Ocp.bounds_kept _ _ _ hl

/-- C31. Connecting inputs keeps every other input with its bounds and rate limits, the algebraic
variables that were there with theirs, and the states with theirs. -/
theorem C31_connect (u : List Sym) (y : List Expr) (r : Bool) (o o' : Ocp) (h : Sized o)
    (hr : o.connect u y r = (.ok (), o')) :
    bounds o'.model.u o'.uMax = boundsWithout u (bounds o.model.u o.uMax) ∧
    bounds o'.model.u o'.uMin = boundsWithout u (bounds o.model.u o.uMin) ∧
    bounds o'.model.u o'.duMax = boundsWithout u (bounds o.model.u o.duMax) ∧
    bounds o'.model.u o'.duMin = boundsWithout u (bounds o.model.u o.duMin) ∧
    bounds o.model.y o.yMax <+: bounds o'.model.y o'.yMax ∧
    bounds o.model.y o.yMin <+: bounds o'.model.y o'.yMin ∧
    bounds o'.model.x o'.xMax = bounds o.model.x o.xMax ∧
    bounds o'.model.x o'.xMin = bounds o.model.x o.xMin := by
  obtain ⟨-, m', gy, gu, hm, -, -, rfl⟩ :=
    (Ocp.connect_ok_iff h.uMax h.uMin h.duMax h.duMin).mp hr
  obtain ⟨hx, hy, hv⟩ := SysModel.connect_vars _ _ _ _ _ hm
  simp only [hx, hy, hv]
  refine ⟨Ocp.bounds_kept _ _ _ h.uMax, Ocp.bounds_kept _ _ _ h.uMin,
    Ocp.bounds_kept _ _ _ h.duMax, Ocp.bounds_kept _ _ _ h.duMin, ?_, ?_, by simp⟩
  · cases r
    · simp only [Bool.false_eq_true, if_false]
      unfold bounds
      rw [List.zip_append h.yMax.symm]
      exact List.prefix_append _ _
    · simp
  · cases r
    · simp only [Bool.false_eq_true, if_false]
      unfold bounds
      rw [List.zip_append h.yMin.symm]
      exact List.prefix_append _ _
    · simp

/-- A pair of lists is what a lookup in another pair gives. -/
theorem Ocp.zip_gathered {α : Type} (u l : List Sym) (b : List α) (h : b.length = l.length)
    (hn : l.Nodup) (hu : ∀ v ∈ u, v ∈ l) :
    let new := u.zip ((findIndices u l).filterMap fun i => b[i]?)
    new.map Prod.fst = u ∧ ∀ p ∈ new, (l.zip b).lookup p.1 = some p.2 := by
  intro new
  have hg := gathered u l b h hn hu
  have hlen : ((findIndices u l).filterMap fun i => b[i]?).length = u.length := by
    have := congrArg List.length hg
    simpa using this
  refine ⟨by rw [List.map_fst_zip]; omega, ?_⟩
  intro p hp
  obtain ⟨i, hi, he⟩ := List.getElem_of_mem hp
  simp only [new, List.length_zip] at hi
  have h₁ : i < u.length := by omega
  have h₂ : i < ((findIndices u l).filterMap fun i => b[i]?).length := by omega
  have := congrArg (fun l => l[i]?) hg
  simp only [List.getElem?_map, List.getElem?_eq_getElem h₁, List.getElem?_eq_getElem h₂,
    Option.map_some, Option.some.injEq] at this
  simp only [new, List.getElem_zip] at he
  rw [← he]
  exact this.symm

/-- C37. Connecting inputs by an equation appends them to the algebraic variables, each with the
bounds it had as an input; their rate limits disappear with them. -/
theorem C37_moved (u : List Sym) (y : List Expr) (o o' : Ocp) (h : Sized o)
    (hn : o.model.u.Nodup) (hu : ∀ v ∈ u, v ∈ o.model.u)
    (hr : o.connect u y false = (.ok (), o')) :
    (∃ new, bounds o'.model.y o'.yMax = bounds o.model.y o.yMax ++ new ∧ new.map Prod.fst = u ∧
      ∀ p ∈ new, (bounds o.model.u o.uMax).lookup p.1 = some p.2) ∧
    (∃ new, bounds o'.model.y o'.yMin = bounds o.model.y o.yMin ++ new ∧ new.map Prod.fst = u ∧
      ∀ p ∈ new, (bounds o.model.u o.uMin).lookup p.1 = some p.2) ∧
    (∀ v ∈ u, (bounds o'.model.u o'.duMax).lookup v = none ∧
      (bounds o'.model.u o'.duMin).lookup v = none) := by
  have h31 := C31_connect u y false o o' h hr
  obtain ⟨-, m', gy, gu, hm, -, -, rfl⟩ :=
    (Ocp.connect_ok_iff h.uMax h.uMin h.duMax h.duMin).mp hr
  obtain ⟨hx, hy, hv⟩ := SysModel.connect_vars _ _ _ _ _ hm
  refine ⟨⟨_, ?_, Ocp.zip_gathered u _ _ h.uMax hn hu⟩,
    ⟨_, ?_, Ocp.zip_gathered u _ _ h.uMin hn hu⟩, ?_⟩
  · simp only [hy, Bool.false_eq_true, if_false]
    exact List.zip_append h.yMax.symm
  · simp only [hy, Bool.false_eq_true, if_false]
    exact List.zip_append h.yMin.symm
  · intro v hv
    rw [h31.2.2.1, h31.2.2.2.1]
    constructor <;>
    · unfold boundsWithout
      rw [List.lookup_eq_none_iff]
      intro p hp
      have := (List.mem_filter.mp hp).2
      simp only [decide_eq_true_eq] at this
      simp only [bne_iff_ne, ne_eq]
      rintro rfl
      exact this hv

/-- C37. Connecting inputs by replacement adds no algebraic variable and no bound. -/
theorem C37_replaced (u : List Sym) (y : List Expr) (o o' : Ocp) (h : Sized o)
    (hr : o.connect u y true = (.ok (), o')) :
    o'.model.y = o.model.y ∧ o'.yMax = o.yMax ∧ o'.yMin = o.yMin := by
  obtain ⟨-, m', gy, gu, hm, -, -, rfl⟩ :=
    (Ocp.connect_ok_iff h.uMax h.uMin h.duMax h.duMin).mp hr
  obtain ⟨hx, hy, hv⟩ := SysModel.connect_vars _ _ _ _ _ hm
  exact ⟨by simpa using hy, by simp, by simp⟩

/-- C37. The guesses of connected inputs move too, when both kinds of guesses are present. -/
theorem C37_guess (u : List Sym) (y : List Expr) (o o' : Ocp) (h : Sized o) (gu gy : List Rat)
    (hgu : o.uGuess = some gu) (hgy : o.yGuess = some gy) (hlu : gu.length = o.model.u.length)
    (hly : gy.length = o.model.y.length) (hn : o.model.u.Nodup) (hu : ∀ v ∈ u, v ∈ o.model.u)
    (hr : o.connect u y false = (.ok (), o')) :
    (∃ gu', o'.uGuess = some gu' ∧
      bounds o'.model.u gu' = boundsWithout u (bounds o.model.u gu)) ∧
    ∃ gy' new, o'.yGuess = some gy' ∧ bounds o'.model.y gy' = bounds o.model.y gy ++ new ∧
      new.map Prod.fst = u ∧ ∀ p ∈ new, (bounds o.model.u gu).lookup p.1 = some p.2 := by
  obtain ⟨-, m', gy', gu', hm, h₁, h₂, rfl⟩ :=
    (Ocp.connect_ok_iff h.uMax h.uMin h.duMax h.duMin).mp hr
  obtain ⟨hx, hy, hv⟩ := SysModel.connect_vars _ _ _ _ _ hm
  constructor
  · rw [hgu, Ocp.removeGuess_find u _ gu hlu] at h₂
    cases h₂
    refine ⟨_, rfl, ?_⟩
    simp only [hv]
    exact Ocp.bounds_kept _ _ _ hlu
  · simp only [Bool.false_eq_true, if_false, hgu, hgy, Ocp.connectGuess,
      gather_find u _ gu hlu] at h₁
    cases h₁
    refine ⟨_, _, rfl, ?_, Ocp.zip_gathered u _ _ hlu hn hu⟩
    simp only [hy, Bool.false_eq_true, if_false]
    exact List.zip_append hly.symm

/-- A problem with three inputs and one algebraic variable, with different bounds. -/
def Example.bounded : Ocp where
  model := { SysModel.new 0 1 with
    u := [20, 21, 22]
    uExpr := [.sym 20, .sym 21, .sym 22]
    uPar := [20, 21, 22]
    y := [30]
    alg := [.sub (.sym 30) (.sym 21)] }
  uMin := [XRat.fin 0, XRat.fin 1, XRat.fin 2]
  uMax := [XRat.fin 10, XRat.fin 11, ⊤]
  duMin := [XRat.fin (-1), ⊥, ⊥]
  duMax := [XRat.fin 1, ⊤, ⊤]
  uGuess := some [5, 6, 7]
  yMin := [XRat.fin 3]
  yMax := [XRat.fin 4]
  yGuess := some [8]

/-- Connecting the first and third inputs, in the other order. -/
example : ∃ o', Example.bounded.connect [22, 20] [.sym 30, .sym 30] false = (.ok (), o') ∧
    Sized Example.bounded ∧ o'.model.y = [30, 22, 20] ∧ o'.yMax = [XRat.fin 4, ⊤, XRat.fin 10] ∧
    o'.yGuess = some [8, 7, 5] ∧ o'.model.u = [21] ∧ o'.uMin = [XRat.fin 1] := by
  refine ⟨(Example.bounded.connect [22, 20] [.sym 30, .sym 30] false).2,
    Prod.ext (by decide +kernel) rfl, by constructor <;> decide +kernel, ?_⟩
  decide +kernel

/-- Removing the middle input, and the algebraic variable. -/
example : (Example.bounded.removeControl [21]).1 = .ok () ∧
    (Example.bounded.removeControl [21]).2.uMax = [XRat.fin 10, ⊤] ∧
    (Example.bounded.removeAlgebraic [30] none).1 = .ok () ∧
    (Example.bounded.removeAlgebraic [30] none).2.yMax = [] := by decide +kernel

end Verif
