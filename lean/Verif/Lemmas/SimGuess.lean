import Verif.Spec.SimGuess
import Verif.Lemmas.Export
/-!
# The initial guess by simulation
-/
namespace Verif
namespace SimGuess
open Spec Transcription

set_option linter.unusedSectionVars false

variable {K : Type} [Field K] [LinearOrder K] [IsStrictOrderedRing K]

theorem control_eq (d : Dims) (u uGuess lastU : Option (List K)) :
    control d u uGuess lastU = guessControl d.nU u uGuess lastU := by
  cases u <;> cases uGuess <;> cases lastU <;> rfl

theorem controlParameters_eq (d : Dims) (u : List K) :
    controlParameters d u = (constantControl d u).flatten := by
  unfold controlParameters constantControl controlPoints Layout.repmat
  split <;> rfl

/-- What a run through the times of an element is. -/
structure Ran (d : Dims) (step : Step K) (el : Nat) (q : List K) (t0 : K) (ts : List K) (x0 : List K)
    (r : List (List K × List K)) : Prop where
  length : r.length = ts.length
  sizes : ∀ s ∈ r, s.1.length = d.nX ∧ s.2.length = d.nY
  steps : ∀ j < ts.length, step el ((t0 :: ts).getD j 0) ((t0 :: ts).getD (j + 1) 0)
    ((x0 :: r.map Prod.fst).getD j []) q =
      .ok ((x0 :: r.map Prod.fst).getD (j + 1) [], (r.map Prod.snd).getD j [])

theorem runTimes_ok {d : Dims} {step : Step K} (hs : Simulates d step) (el : Nat) (q : List K)
    (ts : List K) (t0 : K) (x0 : List K) (hx : x0.length = d.nX) :
    ∃ r, runTimes step el q t0 x0 ts = .ok r ∧ Ran d step el q t0 ts x0 r := by
  induction ts generalizing t0 x0 with
  | nil => exact ⟨[], rfl, rfl, by simp, by simp⟩
  | cons t ts ih =>
    obtain ⟨r, hr, h1, h2⟩ := hs el t0 t x0 q hx
    obtain ⟨rest, hrest, hran⟩ := ih t r.1 h1
    refine ⟨r :: rest, ?_, by simp [hran.length], ?_, ?_⟩
    · unfold runTimes
      rw [hr]
      simp only [bind, Except.bind]
      rw [hrest]
    · intro s hs
      rcases List.mem_cons.1 hs with rfl | hs
      · exact ⟨h1, h2⟩
      · exact hran.sizes s hs
    · intro j hj
      cases j with
      | zero => exact hr
      | succ j => exact hran.steps j (by simpa using hj)

theorem Ran.end_size {d : Dims} {step : Step K} {el : Nat} {q : List K} {t0 : K} {ts : List K}
    {x0 : List K} {r : List (List K × List K)} (h : Ran d step el q t0 ts x0 r)
    (hx : x0.length = d.nX) : (endState x0 r).length = d.nX := by
  unfold endState
  cases hr : r.getLast? with
  | none => exact hx
  | some s => exact (h.sizes s (List.mem_of_getLast? hr)).1

theorem endState_eq (x0 : List K) (r : List (List K × List K)) :
    endState x0 r = (x0 :: r.map Prod.fst).getD r.length [] := by
  unfold endState
  rcases List.eq_nil_or_concat r with rfl | ⟨l, a, rfl⟩
  · rfl
  · rw [List.concat_eq_append, List.getLast?_concat]
    simp [List.getD_eq_getElem?_getD]

/-- What a run through the elements is. -/
structure RanAll (d : Dims) (step : Step K) (q : Nat → List K) (start : Nat → K) (times : Nat → List K)
    (k n : Nat) (x0 : List K) (out : List (List K × List (List K × List K))) : Prop where
  length : out.length = n
  first : 0 < n → (out.getD 0 ([], [])).1 = x0
  sizes : ∀ e ∈ out, e.1.length = d.nX
  runs : ∀ i < n, Ran d step (k + i) (q (k + i)) (start (k + i)) (times (k + i))
    (out.getD i ([], [])).1 (out.getD i ([], [])).2
  joined : ∀ i, i + 1 < n →
    (out.getD (i + 1) ([], [])).1 = endState (out.getD i ([], [])).1 (out.getD i ([], [])).2

theorem runElements_ok {d : Dims} {step : Step K} (hs : Simulates d step)
    (parameters : Nat → Except Err (List K)) (q : Nat → List K) (start : Nat → K)
    (times : Nat → List K) (n k : Nat) (hq : ∀ el, k ≤ el → el < k + n → parameters el = .ok (q el))
    (x0 : List K) (hx : x0.length = d.nX) :
    ∃ out, runElements step parameters start times (List.range' k n) x0 = .ok out ∧
      RanAll d step q start times k n x0 out := by
  induction n generalizing k x0 with
  | zero => exact ⟨[], rfl, rfl, by simp, by simp, by simp, by simp⟩
  | succ n ih =>
    obtain ⟨r, hr, hran⟩ := runTimes_ok hs k (q k) (times k) (start k) x0 hx
    obtain ⟨out, hout, ho⟩ := ih (k + 1) (fun el h1 h2 => hq el (by omega) (by omega))
      (endState x0 r) (hran.end_size hx)
    refine ⟨(x0, r) :: out, ?_, by simp [ho.length], fun _ => rfl, ?_, ?_, ?_⟩
    · rw [List.range'_succ]
      unfold runElements
      rw [hq k le_rfl (by omega)]
      simp only [bind, Except.bind]
      rw [hr]
      simp only
      rw [hout]
    · intro e he
      rcases List.mem_cons.1 he with rfl | he
      · exact hx
      · exact ho.sizes e he
    · intro i hi
      cases i with
      | zero => exact hran
      | succ i =>
        have := ho.runs i (by omega)
        rw [show k + (i + 1) = k + 1 + i by omega]
        exact this
    · intro i hi
      cases i with
      | zero => exact ho.first (by omega)
      | succ i => exact ho.joined i (by omega)

/-- The first failing simulation or missing parameter stops the guess. -/
theorem runElements_error {step : Step K} {parameters : Nat → Except Err (List K)} {start : Nat → K}
    {times : Nat → List K} {el : Nat} {els : List Nat} {x0 : List K} {e : Err}
    (h : parameters el = .error e) :
    runElements step parameters start times (el :: els) x0 = .error e := by
  unfold runElements
  rw [h]
  rfl

theorem assemble_ok {d : Dims} {g : Layout.GuessInfo K} {p : List K} {theta : Dict Nat (List K)}
    {u : List K} (h : GuessFits d g (some p) (some theta)) (x y : List (List (List K))) :
    assemble d g (some p) (some theta) (constantControl d u).flatten x y =
      .ok (Layout.stacked ⟨x, y, List.replicate d.elements (constantControl d u),
        List.replicate d.nEta 0, g.pOptIndices.map fun i => p.getD i 0,
        (List.range d.elements).map fun el =>
          g.thetaOptIndices.map fun i => ((theta.get? el).getD []).getD i 0⟩) := by
  unfold assemble
  rw [Layout.pOptInit_eq 0 h.pOptIndices h.p, Layout.thetaOptInit_eq 0 h.thetaOptIndices h.theta]
  simp only [bind, Except.bind, Layout.stacked]
  congr 2
  · congr 1
    · congr 1
      · congr 1
        unfold Layout.repmat
        rw [List.flatten_flatten, List.map_replicate]
  · congr 1
    refine List.map_congr_left fun el hel => ?_
    obtain ⟨v, hv, _⟩ := h.theta theta rfl el (List.mem_range.1 hel)
    simp [valuesAt, hv, picked]

theorem rest_shape {d : Dims} {g : Layout.GuessInfo K} {p : List K} {theta : Dict Nat (List K)}
    {u : List K} (h : GuessFits d g (some p) (some theta)) (hu : u.length = d.nU) {b : Blocks K}
    (hb : GuessedRest d g p theta u b) : SharedShape d b := by
  refine ⟨?_, by rw [hb.eta]; simp, by rw [hb.pOpt]; simp [h.pOptIndices], ?_⟩
  · rw [hb.controls]
    refine ⟨by simp, fun l hl => ?_⟩
    obtain rfl := List.eq_of_mem_replicate hl
    refine ⟨by simp [constantControl], fun c hc => ?_⟩
    obtain rfl := List.eq_of_mem_replicate hc
    exact hu
  · rw [hb.thetaOpt]
    exact Layout.columns_map _ _ _ fun _ => by simp [h.thetaOptIndices]

theorem getD_map {α β : Type} (f : α → β) (l : List α) (i : Nat) (a : α) (c : β) (h : i < l.length) :
    (l.map f).getD i c = f (l.getD i a) := by
  simp [List.getD_eq_getElem?_getD, h]

theorem putValues_own (ind : List Nat) (p : List K) (h : ∀ i ∈ ind, i < p.length) :
    Ocp.putValues ind (ind.map fun i => p.getD i 0) p = p := by
  induction ind with
  | nil => rfl
  | cons i ind ih =>
    have hi := h i (by simp)
    have e : p.set i (p.getD i 0) = p := by
      rw [List.getD_eq_getElem?_getD, List.getElem?_eq_getElem hi]
      simp
    have : Ocp.putValues (i :: ind) ((i :: ind).map fun i => p.getD i 0) p =
        Ocp.putValues ind (ind.map fun i => p.getD i 0) (p.set i (p.getD i 0)) := rfl
    rw [this, e, ih fun j hj => h j (by simp [hj])]

end SimGuess
end Verif
