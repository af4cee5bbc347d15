import Verif.Spec.DataCopy
import Verif.Lemmas.DataCopyCalls
/-!
# C170: a copy of a data set is independent of it
-/
namespace Verif
open Spec DataHeap

theorem DataHeap.good_reached {w : World} (h : DataReached w) : ∃ own, Good own w := by
  induction h with
  | start => exact ⟨_, good_start⟩
  | act w b c _ ih =>
    obtain ⟨own, hg⟩ := ih
    obtain ⟨own', hf⟩ := Local.run b c own w hg
    exact ⟨own', hf.good⟩
  | copy w b _ ih =>
    obtain ⟨own, hg⟩ := ih
    exact ⟨_, good_getCopy hg b⟩

/-- The copy reads like the original, and the original is not changed. -/
theorem C170_same (w : World) (h : DataReached w) (b c : Bool) : (w.getCopy b).view c = w.view b := by
  obtain ⟨own, hg⟩ := good_reached h
  exact view_getCopy hg b c

/-- Whatever is done with one of two data sets (calls of methods, also of `extend` with the other one
and calls that raise, and in-place changes of the names, times and values that its accessors return)
does not change the other one. -/
theorem C170_other (w : World) (h : DataReached w) (b : Bool) (c : Action) :
    (c.run b w).2.view (!b) = w.view (!b) := by
  obtain ⟨own, hg⟩ := good_reached h
  obtain ⟨own', hf⟩ := Local.run b c own w hg
  exact hf.view hg (by cases b <;> simp)

/-- After a copy, whatever is done with one of the two leaves the other one as it was at the copy. -/
theorem C170_independent (w : World) (h : DataReached w) (b c : Bool) (prog : List Action) :
    ((w.getCopy b).runAll (prog.map fun a => (c, a))).view (!c) = w.view b := by
  have key : ∀ (prog : List Action) (w : World), DataReached w →
      (w.runAll (prog.map fun a => (c, a))).view (!c) = w.view (!c) := by
    intro prog
    induction prog with
    | nil => exact fun _ _ => rfl
    | cons a prog ih =>
      intro w hw
      exact (ih _ (.act w c a hw)).trans (C170_other w hw c a)
  rw [key prog _ (.copy w b h), C170_same w h]

/-- The calls of methods give and raise what they do on a data set of its own. -/
theorem C170_outcome (w : World) (h : DataReached w) (b : Bool) (c : Action) (call : DataSet.Call)
    (hc : methodCall w.view c = some call) :
    (c.run b w).1 = (call.run (w.view b)).1 ∧ (c.run b w).2.view b = (call.run (w.view b)).2 := by
  obtain ⟨own, hg⟩ := good_reached h
  cases c with
  | createEntry e n names s => cases hc; exact Refines.createEntry own w hg
  | insertData e t v => cases hc; exact Refines.insertData own w hg
  | sort es => cases hc; exact Refines.sort own w hg
  | extend o => cases hc; exact refines_extend hg
  | _ => cases hc

/-- After a copy, in whatever order methods of the two are called, both are what two data sets with
nothing in common would be. -/
theorem C170_interleaved (w : World) (h : DataReached w) (b : Bool) (prog : List (Bool × Action))
    (hm : ∀ bc ∈ prog, (methodCall w.view bc.2).isSome) :
    ((w.getCopy b).runAll prog).view = apart (fun _ => w.view b) prog := by
  have key : ∀ (prog : List (Bool × Action)) (w : World), DataReached w →
      (∀ bc ∈ prog, ∀ d, (methodCall d bc.2).isSome) → (w.runAll prog).view = apart w.view prog := by
    intro prog
    induction prog with
    | nil => exact fun _ _ _ => rfl
    | cons bc prog ih =>
      obtain ⟨b, c⟩ := bc
      intro w hw hm
      obtain ⟨call, hcall⟩ := Option.isSome_iff_exists.mp (hm (b, c) List.mem_cons_self w.view)
      rw [World.runAll, ih _ (.act w b c hw) fun bc hbc => hm bc (List.mem_cons_of_mem _ hbc)]
      show _ = apart (fun x => match methodCall w.view c with
        | some call => if x = b then (call.run (w.view b)).2 else w.view x
        | none => w.view x) prog
      congr 1
      funext x
      rw [hcall]
      simp only
      by_cases hx : x = b
      · subst hx
        rw [if_pos rfl]
        exact (C170_outcome w hw x c call hcall).2
      · rw [if_neg hx]
        have : x = !b := by cases b <;> cases x <;> first | rfl | exact absurd rfl hx
        rw [this]
        exact C170_other w hw b c
  rw [key prog _ (.copy w b h)]
  · congr 1
    funext c
    exact C170_same w h b c
  · intro bc hbc d
    have := hm bc hbc
    cases hc : bc.2 <;> rw [hc] at this <;> first | rfl | cases this

/-- What the accessors return is what the data set has, or `KeyError`. -/
theorem C170_read (w : World) (b : Bool) (name : String) :
    DataHeap.read b name w = match Dict.get? (w.view b) name with
      | some e => (.ok e, w)
      | none => (.error .keyError, w) := by
  rw [read_run, get?_view]
  cases Dict.get? (dictAt w.heap (w.obj b)) name <;> rfl

/-- It takes the copy of the dictionary: with `copy.copy` alone an entry inserted in the copy appears
in the original. -/
theorem C170_needs_deep_copy : ∃ (w : World) (c : Action), DataReached w ∧
    (c.run true (w.shallowCopy false)).2.view false ≠ w.view false := by
  refine ⟨World.start, .createEntry "x" 1 none "plot", .start, ?_⟩
  decide +kernel

namespace Example

/-- A data set with a sample. -/
def measured : World :=
  World.start.runAll [(false, .createEntry "x" 1 (some ["h"]) "plot"),
    (false, .insertData "x" (.number 0) ⟨1, [[5]]⟩)]

theorem measured_reached : DataReached measured :=
  .act _ false (.insertData "x" (.number 0) ⟨1, [[5]]⟩)
    (.act _ false (.createEntry "x" 1 (some ["h"]) "plot") .start)

/-- The copy has the sample; it is changed in place and a name and a sample are added; the original
still has its own sample. -/
example : (((measured.getCopy false).runAll [(true, .setValue "x" 0 0 7), (true, .appendName "x" "v"),
      (true, .insertData "x" (.number 1) ⟨1, [[6]]⟩)]).view true =
      [("x", { names := ["h", "v"], size := 1, time := [0, 1], values := ⟨1, [[7], [6]]⟩ })]) ∧
    (((measured.getCopy false).runAll [(true, .setValue "x" 0 0 7), (true, .appendName "x" "v"),
      (true, .insertData "x" (.number 1) ⟨1, [[6]]⟩)]).view false =
      [("x", { names := ["h"], size := 1, time := [0], values := ⟨1, [[5]]⟩ })]) := by
  decide +kernel

/-- Methods on both in turn, with one extended by the other. -/
example : ((measured.getCopy false).runAll [(true, .insertData "x" (.number 1) ⟨1, [[6]]⟩),
      (false, .extend true), (true, .extend true)]).view =
    apart (fun _ => measured.view false) [(true, .insertData "x" (.number 1) ⟨1, [[6]]⟩),
      (false, .extend true), (true, .extend true)] :=
  C170_interleaved measured measured_reached false _ (by decide +kernel)

example : Dict.get? (((measured.getCopy false).runAll [(true, .insertData "x" (.number 1) ⟨1, [[6]]⟩),
      (false, .extend true), (true, .extend true)]).view false) "x" =
    some { names := ["h"], size := 1, time := [0, 0, 1], values := ⟨1, [[5], [5], [6]]⟩ } := by
  decide +kernel

end Example
end Verif
