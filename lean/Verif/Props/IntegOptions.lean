import Verif.Lemmas.IntegOptions
/-!
# C155: the options of the integrator
-/
namespace Verif
open IntegOptions
open SolverOptions (DictRef)

/-- C155: when a simulation returns, one integrator has been made, of the chosen kind, with the options of
the user, the requested times and the configured options, in this order of precedence. -/
theorem C155_options (d : Dae) (r : DictRef) (ty : String) (t0 tf : Rat) (w w' : World) (c : Created)
    (given config : Dict String OptVal) (hr : w.heap[r]? = some given)
    (hc : w.heap[configDict]? = some config) (hn : given.keys.Nodup)
    (h : simulate d (some r) ty t0 tf w = (.ok c, w')) :
    Spec.OptionsOf given config t0 tf c ∧ choosePlugin d ty = .ok c.plugin ∧ Spec.Made w w' [c] := by
  have hne : w.heap ≠ [] := by
    intro h0
    rw [h0] at hc
    cases hc
  have hg : (((some r).map w.dict).getD [] : Dict String OptVal) = given := by simp [World.dict, hr]
  have hcfg : w.dict configDict = config := by simp [World.dict, hc]
  rcases simulate_cases d (some r) ty t0 tf w hne with ⟨e, h', he⟩ | ⟨_, _, pl, hp, c', hc', hnm, ho, he⟩
  · rw [he] at h
    cases h
  · rw [he] at h
    cases h
    rw [hg] at hnm ho
    rw [hcfg] at ho
    refine ⟨⟨?_, ?_⟩, by rw [hp, hc'], rfl⟩
    · rw [hnm, get?_merged _ _ _ hn]
      cases given.get? "name" <;> rfl
    · intro k hk
      rw [ho, get?_finalOpts _ _ _ hk, get?_merged _ _ _ hn]

/-- C155: without options, the integrator gets the requested times and the configured options. -/
theorem C155_defaults (d : Dae) (ty : String) (t0 tf : Rat) (w w' : World) (c : Created)
    (config : Dict String OptVal) (hc : w.heap[configDict]? = some config)
    (h : simulate d none ty t0 tf w = (.ok c, w')) :
    Spec.OptionsOf [] config t0 tf c := by
  have hne : w.heap ≠ [] := by
    intro h0
    rw [h0] at hc
    cases hc
  have hcfg : w.dict configDict = config := by simp [World.dict, hc]
  rcases simulate_cases d none ty t0 tf w hne with ⟨e, h', he⟩ | ⟨_, _, pl, hp, c', hc', hnm, ho, he⟩
  · rw [he] at h
    cases h
  · rw [he] at h
    cases h
    simp only [Option.map_none, Option.getD_none] at hnm ho
    rw [hcfg] at ho
    refine ⟨by rw [hnm, get?_merged _ _ _ (by simp [Dict.keys])]; rfl, ?_⟩
    intro k hk
    rw [ho, get?_finalOpts _ _ _ hk, get?_merged _ _ _ (by simp [Dict.keys])]

/-- C155: a simulation is rejected exactly for an empty interval, equations that depend on `tau` or an unknown
kind of integrator; then no integrator has been made. -/
theorem C155_rejected (d : Dae) (given : Option DictRef) (ty : String) (t0 tf : Rat) (w : World)
    (hc : w.heap ≠ []) :
    (¬ (simulate d given ty t0 tf).succeeds w ↔
      (tf = t0 ∨ tauUsed d = true ∨ ∃ e, choosePlugin d ty = .error e)) ∧
    (¬ (simulate d given ty t0 tf).succeeds w → Spec.Made w (simulate d given ty t0 tf w).2 []) := by
  rcases simulate_cases d given ty t0 tf w hc with ⟨e, h, he⟩ | ⟨h1, h2, pl, hp, c, _, _, _, he⟩
  · refine ⟨⟨fun _ => ?_, fun _ => by simp [Py.succeeds, he]⟩, fun _ => by simp [Spec.Made, he]⟩
    by_contra hcon
    simp only [not_or, Bool.not_eq_true, not_exists] at hcon
    obtain ⟨h1, h2, h3⟩ := hcon
    cases hp : choosePlugin d ty with
    | error e => exact h3 e hp
    | ok pl =>
      have := create_eq d ty w (merged t0 tf ((given.map w.dict).getD [])) hc
      simp [simulate, Py.raiseIf, h1, h2, Py.bind_eq, Py.bind, Py.pure, Py.get, newDict, this, hp] at he
  · refine ⟨⟨fun h => absurd ⟨c, by rw [he]⟩ h, ?_⟩, fun h => absurd ⟨c, by rw [he]⟩ h⟩
    rintro (h | h | ⟨e, h⟩)
    · exact absurd h h1
    · rw [h2] at h
      cases h
    · rw [hp] at h
      cases h

/-- C155: whatever the outcome of a simulation over a list of times, the dictionary of the user and the
configuration are as before. -/
theorem C155_unchanged (d : Dae) (given : Option DictRef) (ty : String) (t0 : Rat) (ts : List Rat)
    (w : World) (hc : w.heap ≠ []) : Spec.Untouched w (simulateAll d given ty t0 ts w).2 := by
  obtain ⟨h, m, he⟩ := simulateAll_untouched d given ty ts t0 w hc
  rw [he]
  exact untouched_append w h m

/-- C155, partial: in a simulation over a list of times, with options that say nothing about times, there is
one integrator for each interval, from the end of the interval before to the end of this. -/
theorem C155_interval_partial (d : Dae) (r : DictRef) (ty : String) (t0 : Rat) (ts : List Rat)
    (w w' : World) (given : Dict String OptVal) (hr : w.heap[r]? = some given) (hn : given.keys.Nodup)
    (h0 : given.get? "t0" = none) (hf : given.get? "tf" = none)
    (h : simulateAll d (some r) ty t0 ts w = (.ok (), w')) :
    ∃ cs, Spec.Made w w' cs ∧ cs.length = ts.length ∧
      ∀ (k : Nat) (c : Created) (a b : Rat), cs[k]? = some c → (t0 :: ts)[k]? = some a → ts[k]? = some b →
        Spec.Interval a b c := by
  have hlt : r < w.heap.length := (List.getElem?_eq_some_iff.1 hr).1
  have hg : (((some r).map w.dict).getD [] : Dict String OptVal) = given := by simp [World.dict, hr]
  refine simulateAll_made d (some r) ty Spec.Interval ts t0 w w' (fun h => by simp [h] at hlt)
    (fun _ h => by cases h; exact hlt) ?_ h
  intro a b c hc
  rw [hg] at hc
  constructor
  · rw [hc, get?_finalOpts _ _ _ (by decide), get?_merged _ _ _ hn, h0]
    rfl
  · rw [hc, get?_finalOpts _ _ _ (by decide), get?_merged _ _ _ hn, hf]
    rfl

/-- C155 fails when the options of the user give a final time: every integrator of the list stops at that
time, not at the time for which its result is recorded. -/
theorem C155_interval_fails (d : Dae) (r : DictRef) (ty : String) (t0 tEnd : Rat) (ts : List Rat)
    (w w' : World) (given : Dict String OptVal) (hr : w.heap[r]? = some given) (hn : given.keys.Nodup)
    (hf : given.get? "tf" = some (.time tEnd))
    (h : simulateAll d (some r) ty t0 ts w = (.ok (), w')) :
    ∃ cs, Spec.Made w w' cs ∧ cs.length = ts.length ∧
      ∀ (k : Nat) (c : Created) (b : Rat), cs[k]? = some c → ts[k]? = some b → b ≠ tEnd →
        ∀ a, ¬ Spec.Interval a b c := by
  have hlt : r < w.heap.length := (List.getElem?_eq_some_iff.1 hr).1
  have hg : (((some r).map w.dict).getD [] : Dict String OptVal) = given := by simp [World.dict, hr]
  obtain ⟨cs, hm, hl, hcs⟩ := simulateAll_made d (some r) ty
    (fun _ _ c => c.opts.get? "tf" = some (.time tEnd)) ts t0 w w' (fun h => by simp [h] at hlt)
    (fun _ h => by cases h; exact hlt) (by
      intro a b c hc
      rw [hg] at hc
      show c.opts.get? "tf" = _
      rw [hc, get?_finalOpts _ _ _ (by decide), get?_merged _ _ _ hn, hf]
      rfl) h
  refine ⟨cs, hm, hl, ?_⟩
  rintro k c b hk hb hne a ⟨-, hi⟩
  have hk' : k < ts.length := (List.getElem?_eq_some_iff.1 hb).1
  have := hcs k c ((t0 :: ts)[k]'(by simp; omega)) b hk (by simp) hb
  rw [this] at hi
  simp only [Option.some.injEq, OptVal.time.injEq] at hi
  exact hne hi.symm

/-- A configuration with a tolerance and two dictionaries of the user. -/
def Example.integWorld : World :=
  { heap := [[("abstol", .other "1e-10")],
      [("name", .other "step"), ("abstol", .other "1e-6"), ("max_num_steps", .other "99")],
      [("tf", .time 5)]] }

/-- `x' = x`. -/
def Example.growth : Dae := { x := [0], ode := [.sym 0], t := 1 }

example : (simulateAll Example.growth (some 1) "implicit" 0 [1, 2] Example.integWorld).1.toOption = some () ∧
    (simulateAll Example.growth (some 1) "implicit" 0 [1, 2] Example.integWorld).2.made =
      [⟨.other "step", .cvodes,
        [("tf", .time 1), ("t0", .time 0), ("abstol", .other "1e-6"), ("max_num_steps", .other "99")]⟩,
       ⟨.other "step", .cvodes,
        [("tf", .time 2), ("t0", .time 1), ("abstol", .other "1e-6"), ("max_num_steps", .other "99")]⟩] := by
  decide +kernel

example : (simulateAll Example.growth (some 2) "explicit" 0 [1, 2] Example.integWorld).2.made =
      [⟨.other "integrator", .rk, [("tf", .time 5), ("t0", .time 0), ("abstol", .other "1e-10")]⟩,
       ⟨.other "integrator", .rk, [("tf", .time 5), ("t0", .time 1), ("abstol", .other "1e-10")]⟩] := by
  decide +kernel

example : (simulate Example.growth none "bdf" 0 1 Example.integWorld).1.toOption = none := by decide +kernel

end Verif
