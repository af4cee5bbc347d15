import Verif.Spec.Plant
import Verif.Lemmas.DataSet
import Mathlib.Tactic.Ring
import Mathlib.Tactic.Linarith
import Mathlib.Algebra.Order.Ring.Rat
import Mathlib.Algebra.BigOperators.Group.List.Lemmas
/-! Lemmas about the simulated plant. -/
namespace Verif
namespace Plant

/-- The entry `name` of the data set holds exactly the samples `l`, all of size `n`. -/
def Holds (d : DataSet) (name : String) (n : Nat) (l : List (Rat × List Rat)) : Prop :=
  ∃ e, Dict.get? d name = some e ∧ Spec.Aligned e ∧ Spec.samples e = l ∧
    ((e.values = {} ∧ l = []) ∨ (e.values.rows = n ∧ e.values.cols ≠ []))

theorem Holds.congr {d d' : DataSet} {name : String} {n l} (h : Holds d name n l)
    (hg : Dict.get? d' name = Dict.get? d name) : Holds d' name n l := by
  obtain ⟨e, h1, h2⟩ := h
  exact ⟨e, hg.trans h1, h2⟩

theorem Holds.samplesOf {d : DataSet} {name : String} {n l} (h : Holds d name n l) :
    Spec.samplesOf d name = l := by
  obtain ⟨e, h1, _, h2, _⟩ := h
  simp [Spec.samplesOf, h1, h2]

theorem record_run {s : State} {name : String} {v : List Rat} {l} (h : Holds s.data name v.length l) :
    ∃ d', record name v s = (.ok (), { s with data := d' }) ∧
      Holds d' name v.length (l ++ [(s.t, v)]) ∧
      ∀ k, k ≠ name → Dict.get? d' k = Dict.get? s.data k := by
  obtain ⟨e, h1, h2, h3, h4⟩ := h
  have hcat : e.values.hcat (column v) = .ok ⟨v.length, e.values.cols ++ [v]⟩ := by
    rcases h4 with ⟨h4, _⟩ | ⟨hr, hc⟩
    · simp [Mat.hcat, h4, column]
    · simp [Mat.hcat, hr, hc, column]
  refine ⟨Dict.set s.data name { e with values := ⟨v.length, e.values.cols ++ [v]⟩
                                        time := e.time ++ [s.t] }, ?_, ?_, ?_⟩
  · simp only [record, Py.bind_eq, Py.get_bind, onData, DataSet.insertData_run, TimeArg.toRow, h1,
      hcat]
    simp [column]
  · refine ⟨_, by rw [Dict.get?_set, if_pos rfl], ?_, ?_, .inr ⟨rfl, by simp⟩⟩
    · simp only [Spec.Aligned] at h2 ⊢; simp [h2]
    · simp only [Spec.Aligned] at h2
      simp only [Spec.samples] at h3 ⊢
      rw [List.zip_append h2, h3]; rfl
  · intro k hk
    rw [Dict.get?_set, if_neg hk]

/-- The five entries of the data set and what they hold. -/
structure Logs (env : Env) (d : DataSet) (x y u meas clean : List (Rat × List Rat)) : Prop where
  x : Holds d "x" env.nX x
  y : Holds d "y" env.nY y
  u : Holds d "u" env.nU u
  meas : Holds d "meas" env.cRows.length meas
  clean : Holds d "meas_wo_noise" env.cRows.length clean

theorem saveData_run {env : Env} {s : State} {x y u : List Rat} {lx ly lu lm lc}
    (h : Logs env s.data lx ly lu lm lc) (hx : x.length = env.nX) (hy : y.length = env.nY)
    (hu : u.length = env.nU) :
    ∃ d', saveData x y u s = (.ok (), { s with data := d' }) ∧
      Logs env d' (lx ++ [(s.t, x)]) (ly ++ [(s.t, y)]) (lu ++ [(s.t, u)]) lm lc := by
  obtain ⟨d1, r1, a1, b1⟩ := record_run (s := s) (v := x) (hx ▸ h.x)
  obtain ⟨d2, r2, a2, b2⟩ := record_run (s := { s with data := d1 }) (name := "y") (v := y) (l := ly)
    (hy ▸ h.y.congr (b1 "y" (by decide)))
  obtain ⟨d3, r3, a3, b3⟩ := record_run (s := { s with data := d2 }) (name := "u") (v := u) (l := lu)
    (hu ▸ (h.u.congr (b1 "u" (by decide))).congr (b2 "u" (by decide)))
  refine ⟨d3, ?_, ?_, ?_, ?_, ?_, ?_⟩
  · simp only [saveData, Py.bind_eq]
    rw [Py.bind_ok r1, Py.bind_ok r2, r3]
  · exact hx ▸ (a1.congr (b2 _ (by decide))).congr (b3 _ (by decide))
  · exact hy ▸ a2.congr (b3 _ (by decide))
  · exact hu ▸ a3
  · exact ((h.meas.congr (b1 _ (by decide))).congr (b2 _ (by decide))).congr (b3 _ (by decide))
  · exact ((h.clean.congr (b1 _ (by decide))).congr (b2 _ (by decide))).congr (b3 _ (by decide))

theorem saveMeasurement_run {env : Env} {s : State} {m : List Rat × List Rat} {lx ly lu lm lc}
    (h : Logs env s.data lx ly lu lm lc) (h1 : m.1.length = env.cRows.length)
    (h2 : m.2.length = env.cRows.length) :
    ∃ d', saveMeasurement m s = (.ok (), { s with data := d' }) ∧
      Logs env d' lx ly lu (lm ++ [(s.t, m.1)]) (lc ++ [(s.t, m.2)]) := by
  obtain ⟨d1, r1, a1, b1⟩ := record_run (s := s) (name := "meas") (v := m.1) (h1 ▸ h.meas)
  obtain ⟨d2, r2, a2, b2⟩ := record_run (s := { s with data := d1 }) (name := "meas_wo_noise")
    (v := m.2) (l := lc) (h2 ▸ h.clean.congr (b1 _ (by decide)))
  refine ⟨d2, ?_, ?_, ?_, ?_, ?_, ?_⟩
  · simp only [saveMeasurement, Py.bind_eq]
    rw [Py.bind_ok r1, r2]
  · exact (h.x.congr (b1 _ (by decide))).congr (b2 _ (by decide))
  · exact (h.y.congr (b1 _ (by decide))).congr (b2 _ (by decide))
  · exact (h.u.congr (b1 _ (by decide))).congr (b2 _ (by decide))
  · exact h1 ▸ a1.congr (b2 _ (by decide))
  · exact h2 ▸ a2

theorem addNoise_run {hasNoise : Bool} {stream : Nat → List Rat} {v : List Rat} (s : State)
    (h : ∀ n, (stream n).length = v.length) :
    ∃ v' k, addNoise hasNoise stream v s = (.ok v', { s with draws := k }) ∧ v'.length = v.length ∧
      (hasNoise = false → v' = v ∧ k = s.draws) := by
  cases hasNoise with
  | false => exact ⟨v, s.draws, rfl, rfl, fun _ => ⟨rfl, rfl⟩⟩
  | true =>
    refine ⟨List.zipWith (· + ·) v (stream s.draws), s.draws + 1, ?_, ?_, by simp⟩
    · simp [addNoise, Py.bind_ok (show draw stream s = _ from rfl), Py.lift, addVec, h]
    · simp [h]

theorem trajectory_append {env : Env} {l : List (Rat × List Rat)} {a b : Rat × List Rat}
    (hl : Spec.Trajectory env l) (hlast : l.getLast? = some a)
    (hab : ∃ u r, env.simulate a.2 a.1 b.1 u = .ok r ∧ r.1 = b.2) :
    Spec.Trajectory env (l ++ [b]) := by
  intro i c d hc hd
  have hlen : i + 1 < (l ++ [b]).length := by
    rcases Nat.lt_or_ge (i + 1) (l ++ [b]).length with h | h
    · exact h
    · rw [List.getElem?_eq_none h] at hd; simp at hd
  rw [List.length_append, List.length_singleton] at hlen
  rw [List.getElem?_append_left (by omega)] at hc
  rcases Nat.lt_or_ge (i + 1) l.length with h | h
  · rw [List.getElem?_append_left h] at hd
    exact hl i c d hc hd
  · have hi : i + 1 = l.length := by omega
    rw [List.getElem?_append_right h] at hd
    simp only [hi, Nat.sub_self, List.getElem?_cons_zero, Option.some.injEq] at hd
    have : l.getLast? = some c := by
      rw [List.getLast?_eq_getElem?, ← hi]; simpa using hc
    rw [hlast] at this
    simp only [Option.some.injEq] at this
    rw [← this, ← hd]; exact hab

/-- A plant between two sampling points. -/
structure Running (env : Env) (s : State) (x y u meas clean : List (Rat × List Rat)) : Prop where
  logs : Logs env s.data x y u meas clean
  size : s.x.length = env.nX
  current : x.getLast? = some (s.t, s.x)
  function : ∀ f, s.uFunction = some f → Spec.FunctionFits env f

theorem advanceTo_run {env : Env} (he : Spec.PlantFits env) {s : State} {lx ly lu lm lc}
    (h : Running env s lx ly lu lm lc)
    (hu : s.uFunction = none → s.u.length = env.nUPar) (tF : Rat) :
    ∃ s' y u, advanceTo env tF s = (.ok (s'.x, y), s') ∧ s'.t = tF ∧ s'.uFunction = s.uFunction ∧
      y.length = env.nY ∧ (s'.uFunction = none → s'.u.length = env.nUPar) ∧
      Running env s' (lx ++ [(tF, s'.x)]) (ly ++ [(tF, y)]) (lu ++ [(tF, u)]) lm lc ∧
      s'.measurement = s.measurement ∧
      (env.hasNoise = false → Spec.Trajectory env lx → Spec.Trajectory env (lx ++ [(tF, s'.x)])) := by
  obtain ⟨u1, hr, hu1, hu1'⟩ : ∃ u1, refreshControl s = (.ok (), { s with u := u1 }) ∧
      u1.length = env.nUPar ∧ (s.uFunction = none → u1 = s.u) := by
    cases hf : s.uFunction with
    | none => exact ⟨s.u, by cases s; simp_all [refreshControl], hu hf, fun _ => rfl⟩
    | some f => exact ⟨f s.t, by simp [refreshControl, hf], h.function f hf s.t, by simp⟩
  obtain ⟨r, hsim, h1, h2, h3⟩ := he.simulate s.x s.t tF u1 h.size hu1
  obtain ⟨x', k, hn, hxl, hxn⟩ := addNoise_run (hasNoise := env.hasNoise) (stream := env.processNoise)
    (v := r.1) { s with u := u1 } (fun n => (he.processNoise n).trans h1.symm)
  obtain ⟨d', hsave, hlogs⟩ := saveData_run (env := env)
    (s := { s with u := u1, draws := k, t := tF, x := x' }) (x := x') (y := r.2.1) (u := r.2.2)
    h.logs (hxl.trans h1) h2 h3
  refine ⟨{ s with u := u1, draws := k, t := tF, x := x', data := d' }, r.2.1, r.2.2, ?_, rfl, rfl,
    h2, fun _ => hu1, ⟨hlogs, hxl.trans h1, by simp, h.function⟩, rfl, ?_⟩
  · simp only [advanceTo, Py.bind_eq]
    rw [Py.bind_ok hr]
    have hs : simulateTo env tF { s with u := u1 } = (.ok r, { s with u := u1 }) := by
      simp [simulateTo, hsim, Py.lift]
    rw [Py.bind_ok hs, Py.bind_ok hn, Py.modify_bind, Py.bind_ok hsave]
    rfl
  · intro hno ht
    obtain ⟨hx, _⟩ := hxn hno
    exact trajectory_append ht h.current ⟨u1, r, hsim, hx.symm⟩

theorem advanceLoop_run {env : Env} (he : Spec.PlantFits env) (tStart : Rat) (ds : List Rat) :
    ∀ {s : State} {lx ly lu lm lc} (last : Option (List Rat × List Rat)),
      Running env s lx ly lu lm lc → (s.uFunction = none → s.u.length = env.nUPar) →
    ∃ s' kx ky ku last', advanceLoop env tStart ds last s = (.ok last', s') ∧
      Running env s' (lx ++ kx) (ly ++ ky) (lu ++ ku) lm lc ∧
      s'.uFunction = s.uFunction ∧
      s'.measurement = s.measurement ∧
      kx.map (·.1) = ds.map (fun d => tStart + d * env.tS) ∧
      ky.map (·.1) = ds.map (fun d => tStart + d * env.tS) ∧
      ku.map (·.1) = ds.map (fun d => tStart + d * env.tS) ∧
      s'.t = (ds.map (fun d => tStart + d * env.tS)).getLast?.getD s.t ∧
      (ds = [] → last' = last) ∧
      (ds ≠ [] → ∃ y, last' = some (s'.x, y) ∧ y.length = env.nY ∧
        (ly ++ ky).getLast? = some (s'.t, y)) ∧
      (env.hasNoise = false → Spec.Trajectory env lx → Spec.Trajectory env (lx ++ kx)) := by
  induction ds with
  | nil =>
    intro s lx ly lu lm lc last h hu
    exact ⟨s, [], [], [], last, rfl, by simpa using h, rfl, rfl, rfl, rfl, rfl, rfl, fun _ => rfl,
      by simp, by simp⟩
  | cons d ds ih =>
    intro s lx ly lu lm lc last h hu
    obtain ⟨s1, y, u, hrun, ht, hf, hy, hu1, h1, hm, htr⟩ :=
      advanceTo_run he h hu (tStart + d * env.tS)
    obtain ⟨s2, kx, ky, ku, last', hrun', h2, hf2, hm2, hkx, hky, hku, ht2, hl0, hl1, htr2⟩ :=
      ih (some (s1.x, y)) h1 hu1
    refine ⟨s2, _ :: kx, _ :: ky, _ :: ku, last', ?_, by simpa using h2, hf2.trans hf,
      hm2.trans hm, by simpa using hkx, by simpa using hky, by simpa using hku, ?_, by simp, ?_, ?_⟩
    · simp only [advanceLoop, Py.bind_eq]
      rw [Py.bind_ok hrun, hrun']
    · rw [ht2, ht, List.map_cons, List.getLast?_cons]
      rfl
    · intro _
      by_cases hd : ds = []
      · subst hd
        simp only [advanceLoop, Py.pure_apply, Prod.mk.injEq, Except.ok.injEq] at hrun'
        have hky' : ky = [] := by simpa using hky
        refine ⟨y, by rw [← hrun'.1, ← hrun'.2], hy, ?_⟩
        rw [hky', ← hrun'.2, ht]; simp
      · simpa using hl1 hd
    · intro hn ht
      simpa using htr2 hn (htr hn ht)

/-- `_advance` of a plant that fits: it succeeds, and what the data set holds afterwards. -/
theorem advance_run {env : Env} (he : Spec.PlantFits env) {s : State} {lx ly lu lm lc}
    (h : Running env s lx ly lu lm lc) (hu : s.uFunction = none → s.u.length = env.nUPar)
    (hp : env.points ≠ []) :
    ∃ s' kx ky ku y v w, advance env s = (.ok (), s') ∧
      Running env s' (lx ++ kx) (ly ++ ky) (lu ++ ku) (lm ++ [(s'.t, v)]) (lc ++ [(s'.t, w)]) ∧
      s'.uFunction = s.uFunction ∧
      kx.map (·.1) = env.points.map (fun d => s.t + d * env.tS) ∧
      ky.map (·.1) = env.points.map (fun d => s.t + d * env.tS) ∧
      ku.map (·.1) = env.points.map (fun d => s.t + d * env.tS) ∧
      s'.t = s.t + env.points.getLast hp * env.tS ∧
      y.length = env.nY ∧
      (ly ++ ky).getLast? = some (s'.t, y) ∧
      w = env.cRows.map (fun r => dot r (s'.x ++ y)) ∧
      s'.measurement = v ∧
      (env.hasNoise = false → v = w) ∧
      (env.hasNoise = false → Spec.Trajectory env lx → Spec.Trajectory env (lx ++ kx)) := by
  obtain ⟨s1, kx, ky, ku, last', hrun, h1, hf, hm, hkx, hky, hku, ht, _, hl1, htr⟩ :=
    advanceLoop_run he s.t env.points none h hu
  obtain ⟨y, hl, hy, hyl⟩ := hl1 hp
  have hclean : mulVec env.cRows env.cCols (s1.x ++ y) =
      .ok (env.cRows.map fun r => dot r (s1.x ++ y)) := by
    simp [mulVec, he.matrix, h1.size, hy]
  obtain ⟨v, k, hn, hvl, hvn⟩ := addNoise_run (hasNoise := env.hasNoise)
    (stream := env.measurementNoise) (v := env.cRows.map fun r => dot r (s1.x ++ y)) s1
    (fun n => by simp [he.measurementNoise n])
  obtain ⟨d', hsave, hlogs⟩ := saveMeasurement_run (env := env) (s := { s1 with draws := k })
    (m := (v, env.cRows.map fun r => dot r (s1.x ++ y))) h1.logs (by simpa using hvl) (by simp)
  refine ⟨{ s1 with draws := k, data := d', measurement := v }, kx, ky, ku, y, v, _, ?_,
    ⟨hlogs, h1.size, h1.current, h1.function⟩, hf, hkx, hky, hku, ?_, hy, hyl, rfl, rfl,
    fun hno => (hvn hno).1, htr⟩
  · simp only [advance, Py.bind_eq, Py.get_bind]
    rw [Py.bind_ok hrun, hl]
    simp only [bound, Py.pure_bind]
    have hmeas : measure env s1.x y s1 =
        (.ok (v, env.cRows.map fun r => dot r (s1.x ++ y)), { s1 with draws := k }) := by
      simp only [measure, Py.bind_eq, hclean, Py.lift_ok_bind]
      rw [Py.bind_ok hn]; rfl
    rw [Py.bind_ok hmeas, Py.bind_ok hsave]
    rfl
  · simp only [ht]
    rw [List.getLast?_map, List.getLast?_eq_getLast_of_ne_nil hp]
    rfl

theorem fillData_run {env : Env} (he : Spec.PlantFits env) (names : String → List String) (t0 : Rat)
    {x0 u0 : List Rat} (f : Option (Rat → List Rat)) (hx : x0.length = env.nX)
    (hy : env.yGuess.length = env.nY) (hu : u0.length = env.nU)
    (hf : ∀ g, f = some g → Spec.FunctionFits env g) :
    ∃ s w, new env names t0 x0 u0 f = .ok s ∧ s.t = t0 ∧ s.x = x0 ∧ s.measurement = x0 ∧ s.u = u0 ∧
      s.uFunction = f ∧ w = env.cRows.map (fun r => dot r (x0 ++ env.yGuess)) ∧
      Running env s [(t0, x0)] [(t0, env.yGuess)] [(t0, u0)] [(t0, w)] [(t0, w)] := by
  obtain ⟨d0, hd0, hlogs0⟩ : ∃ d0, initialData env names [] = (.ok (), d0) ∧
      Logs env d0 [] [] [] [] [] := by
    refine ⟨_, rfl, ?_, ?_, ?_, ?_, ?_⟩ <;>
      exact ⟨_, rfl, rfl, rfl, .inl ⟨rfl, rfl⟩⟩
  have hclean : mulVec env.cRows env.cCols (x0 ++ env.yGuess) =
      .ok (env.cRows.map fun r => dot r (x0 ++ env.yGuess)) := by
    simp [mulVec, he.matrix, hx, hy]
  obtain ⟨d1, h1, hlogs1⟩ := saveData_run (env := env) (s := { blank t0 x0 u0 f with data := d0 })
    hlogs0 hx hy hu
  obtain ⟨d2, h2, hlogs2⟩ := saveMeasurement_run (env := env)
    (s := { blank t0 x0 u0 f with data := d1 })
    (m := (env.cRows.map (fun r => dot r (x0 ++ env.yGuess)),
      env.cRows.map (fun r => dot r (x0 ++ env.yGuess)))) hlogs1 (by simp) (by simp)
  refine ⟨{ blank t0 x0 u0 f with data := d2 }, _, ?_, rfl, rfl, rfl, rfl, rfl, rfl, ⟨hlogs2, hx,
    rfl, hf⟩⟩
  have : fillData env names (blank t0 x0 u0 f) = (.ok (), { blank t0 x0 u0 f with data := d2 }) := by
    simp only [fillData, Py.bind_eq]
    rw [Py.bind_ok (show onData (initialData env names) (blank t0 x0 u0 f) =
      (.ok (), { blank t0 x0 u0 f with data := d0 }) by
        simp only [onData, show (blank t0 x0 u0 f).data = [] from rfl, hd0])]
    simp only [Py.get_bind]
    have e1 : (blank t0 x0 u0 f).x = x0 := rfl
    have e2 : (blank t0 x0 u0 f).u = u0 := rfl
    simp only [e1, e2, hclean, Py.lift_ok_bind]
    exact (Py.bind_ok h1).trans h2
  simp only [new, this]

/-- One call on a running plant. -/
theorem call_run {env : Env} (he : Spec.PlantFits env) {s : State} {lx ly lu lm lc}
    (h : Running env s lx ly lu lm lc) (hp : env.points ≠ []) (c : Call)
    (hc : ∀ f, c = .function f → Spec.FunctionFits env f) :
    (Spec.accepted env c = false ∧ c.run env s = (.error .valueError, s)) ∨
    (Spec.accepted env c = true ∧ ∃ s' kx ky ku y v w, c.run env s = (.ok (), s') ∧
      Running env s' (lx ++ kx) (ly ++ ky) (lu ++ ku) (lm ++ [(s'.t, v)]) (lc ++ [(s'.t, w)]) ∧
      kx.map (·.1) = env.points.map (fun d => s.t + d * env.tS) ∧
      ky.map (·.1) = env.points.map (fun d => s.t + d * env.tS) ∧
      ku.map (·.1) = env.points.map (fun d => s.t + d * env.tS) ∧
      s'.t = s.t + env.points.getLast hp * env.tS ∧
      y.length = env.nY ∧
      (ly ++ ky).getLast? = some (s'.t, y) ∧
      w = env.cRows.map (fun r => dot r (s'.x ++ y)) ∧
      s'.measurement = v ∧
      (env.hasNoise = false → v = w) ∧
      (env.hasNoise = false → Spec.Trajectory env lx → Spec.Trajectory env (lx ++ kx))) := by
  cases c with
  | control u =>
    by_cases hl : u.length = env.nUPar
    · obtain ⟨s', kx, ky, ku, y, v, w, hrun, h1, _, h2⟩ := advance_run he
        (s := { s with u := u }) ⟨h.logs, h.size, h.current, h.function⟩ (fun _ => hl) hp
      refine .inr ⟨by simp [Spec.accepted, hl], s', kx, ky, ku, y, v, w, ?_, h1, h2⟩
      simp only [Call.run, setControl, Py.bind_eq, Py.raiseIf, hl]
      simpa using hrun
    · exact .inl ⟨by simp [Spec.accepted, hl], by simp [Call.run, setControl, Py.raiseIf, hl]⟩
  | function f =>
    obtain ⟨s', kx, ky, ku, y, v, w, hrun, h1, _, h2⟩ := advance_run he
      (s := { s with uFunction := some f }) ⟨h.logs, h.size, h.current, by
        intro g hg
        simp only [Option.some.injEq] at hg
        exact hg ▸ hc f rfl⟩ (by simp) hp
    refine .inr ⟨rfl, s', kx, ky, ku, y, v, w, ?_, h1, h2⟩
    simp only [Call.run, setControlFunction, Py.bind_eq]
    simpa using hrun

/-- Sample times when each control ends `d` sampling times after its start. -/
def timesWith (d tS : Rat) (points : List Rat) (t0 : Rat) : Nat → List Rat
  | 0 => [t0]
  | k + 1 => timesWith d tS points t0 k ++
      points.map fun p => t0 + (k : Rat) * (d * tS) + p * tS

/-- A running plant after `k` accepted calls. -/
structure Reached (env : Env) (d t0 : Rat) (k : Nat) (s : State) : Prop where
  time : s.t = t0 + (k : Rat) * (d * env.tS)
  run : ∃ lx ly lu lm lc, Running env s lx ly lu lm lc ∧
    lx.map (·.1) = timesWith d env.tS env.points t0 k ∧
    ly.map (·.1) = timesWith d env.tS env.points t0 k ∧
    lu.map (·.1) = timesWith d env.tS env.points t0 k ∧
    lm.map (·.1) = (List.range (k + 1)).map (fun i : Nat => t0 + (i : Rat) * (d * env.tS)) ∧
    lc.map (·.1) = (List.range (k + 1)).map (fun i : Nat => t0 + (i : Rat) * (d * env.tS)) ∧
    (env.hasNoise = false → Spec.Trajectory env lx) ∧
    (env.hasNoise = false → 0 < k → ∃ y, y.length = env.nY ∧ ly.getLast? = some (s.t, y) ∧
      s.measurement = env.cRows.map (fun r => dot r (s.x ++ y)))

theorem reached_call {env : Env} (he : Spec.PlantFits env) {d t0 : Rat} {k : Nat} {s : State}
    (hd : env.points.getLast? = some d) (h : Reached env d t0 k s) (c : Call)
    (hc : ∀ f, c = .function f → Spec.FunctionFits env f) :
    Reached env d t0 (k + if Spec.accepted env c then 1 else 0) (after env c s) := by
  have hp : env.points ≠ [] := by rintro h0; rw [h0] at hd; simp at hd
  have hd' : env.points.getLast hp = d := by
    rw [List.getLast?_eq_getLast_of_ne_nil hp] at hd; simpa using hd
  obtain ⟨lx, ly, lu, lm, lc, hr, hx, hy, hu, hm, hcl, htr, hme⟩ := h.run
  rcases call_run he hr hp c hc with ⟨ha, hrun⟩ | ⟨ha, s', kx, ky, ku, y, v, w, hrun, hr', hkx, hky,
    hku, ht, hyl, hlast, hw, hv, hvw, htr'⟩
  · simp only [ha, after, hrun]
    exact h
  · simp only [ha, after, hrun, if_true]
    have ht' : s'.t = t0 + ((k + 1 : Nat) : Rat) * (d * env.tS) := by
      rw [ht, hd', h.time]; push_cast; ring
    refine ⟨ht', _, _, _, _, _, hr', ?_, ?_, ?_, ?_, ?_, fun hn => htr' hn (htr hn), ?_⟩
    · rw [List.map_append, hx, hkx, h.time]; rfl
    · rw [List.map_append, hy, hky, h.time]; rfl
    · rw [List.map_append, hu, hku, h.time]; rfl
    · rw [List.map_append, hm, List.range_succ (n := k + 1), List.map_append]
      simp only [List.map_cons, List.map_nil, ht']
    · rw [List.map_append, hcl, List.range_succ (n := k + 1), List.map_append]
      simp only [List.map_cons, List.map_nil, ht']
    · intro hn _
      exact ⟨y, hyl, hlast, by rw [hv, hvw hn, hw]⟩

theorem reached_history {env : Env} (he : Spec.PlantFits env) {d t0 : Rat}
    (hd : env.points.getLast? = some d) (calls : List Call) :
    ∀ {k : Nat} {s : State}, Reached env d t0 k s → Spec.CallsFit env calls →
      Reached env d t0 (k + Spec.acceptedCount env calls) (runHistory (after env) calls s) := by
  induction calls with
  | nil => intro k s h _; exact h
  | cons c cs ih =>
    intro k s h hc
    have h1 := reached_call he hd h c (fun f hf => hc f (by simp [hf]))
    have h2 := ih h1 (fun f hf => hc f (by simp [hf]))
    simp only [runHistory]
    have : k + Spec.acceptedCount env (c :: cs) =
        k + (if Spec.accepted env c then 1 else 0) + Spec.acceptedCount env cs := by
      simp only [Spec.acceptedCount, List.countP_cons]; omega
    rw [this]; exact h2

theorem reached_new {env : Env} (he : Spec.PlantFits env) (names : String → List String) (d t0 : Rat)
    {x0 u0 : List Rat} (f : Option (Rat → List Rat)) (hx : x0.length = env.nX)
    (hy : env.yGuess.length = env.nY) (hu : u0.length = env.nU)
    (hf : ∀ g, f = some g → Spec.FunctionFits env g) :
    ∃ s, new env names t0 x0 u0 f = .ok s ∧ Reached env d t0 0 s ∧ s.x = x0 ∧ s.measurement = x0 ∧
      s.uFunction = f := by
  obtain ⟨s, w, h1, h2, h3, h4, h5, h6, h7, h8⟩ := fillData_run he names t0 f hx hy hu hf
  refine ⟨s, h1, ⟨by simp [h2], _, _, _, _, _, h8, rfl, rfl, rfl, by simp, by simp, ?_, by simp⟩, h3,
    h4, h6⟩
  intro _ i a b _ hb
  simp at hb

theorem timesWith_one (tS : Rat) (points : List Rat) (t0 : Rat) (k : Nat) :
    timesWith 1 tS points t0 k = Spec.sampleTimes tS points t0 k := by
  induction k with
  | zero => rfl
  | succ k ih => simp [timesWith, Spec.sampleTimes, ih]

theorem sampleTimes_le {tS t0 : Rat} {points : List Rat} (hS : 0 < tS)
    (hp : ∀ p ∈ points, p ≤ 1) (k : Nat) :
    ∀ t ∈ Spec.sampleTimes tS points t0 k, t ≤ t0 + k * tS := by
  induction k with
  | zero => simp [Spec.sampleTimes]
  | succ k ih =>
    intro t ht
    simp only [Spec.sampleTimes, List.mem_append, List.mem_map] at ht
    push_cast
    rcases ht with ht | ⟨d, hd, rfl⟩
    · have := ih t ht; nlinarith
    · have := hp d hd; nlinarith

theorem dot_unit (n i : Nat) (v : List Rat) (hv : v.length = n) (hi : i < n) :
    dot ((List.range n).map fun j => if i = j then (1 : Rat) else 0) v = v[i]'(hv ▸ hi) := by
  induction v generalizing n i with
  | nil => simp at hv; omega
  | cons a v ih =>
    subst hv
    simp only [List.length_cons, List.range_succ_eq_map, List.map_cons, List.map_map, dot,
      List.zipWith_cons_cons, List.sum_cons]
    cases i with
    | zero =>
      have : List.zipWith (· * ·) (List.map ((fun j => if 0 = j then (1 : Rat) else 0) ∘ Nat.succ)
          (List.range v.length)) v = v.map fun _ => 0 := by
        apply List.ext_getElem
        · simp
        · intro j h1 h2; simp
      rw [this]; simp [List.sum_replicate]
    | succ i =>
      have hi' : i < v.length := by simpa using hi
      have := ih v.length i rfl hi'
      simp only [dot] at this
      simp only [Nat.add_eq_zero_iff, one_ne_zero, and_false, if_false, zero_mul, zero_add,
        List.getElem_cons_succ, ← this]
      congr 2
      apply List.map_congr_left
      intro j _
      simp

theorem eye_mul (n : Nat) (v : List Rat) (hv : v.length = n) :
    (eyeRows n).map (fun r => dot r v) = v := by
  apply List.ext_getElem
  · simp [eyeRows, hv]
  · intro i h1 h2
    simp only [eyeRows, List.map_map, List.getElem_map, List.getElem_range, Function.comp]
    exact dot_unit n i v hv (by simpa [eyeRows] using h1)

end Plant
end Verif
