import Verif.Lemmas.Copy
/-!
# C20: `get_copy` gives an independent model
-/
namespace Verif
open SysModel

/-- The calls of a program that go to object `b`. -/
def Spec.callsOn (b : Bool) (prog : List (Bool × Call)) : List Call :=
  prog.filterMap fun bc => if bc.1 = b then some bc.2 else none

/-- A model on its own, going through a list of calls. -/
def Spec.alone (m : SysModel) (calls : List Call) : SysModel :=
  runHistory (fun c => Py.stateAfter (Call.run c)) calls m

/-- C20. The copy reads like the original. -/
theorem C20_copy_same (w : World) (h : (w.obj false).cell < w.heap.length) :
    w.getCopy.view true = w.view false ∧ w.getCopy.view false = w.view false := by
  constructor
  · simp [World.getCopy, World.setObj, World.view]
  · simp [World.getCopy, World.setObj, World.view, List.getElem?_append_left h]

/-- C20. After `get_copy`, whatever sequence of methods is called on the two objects in whatever
order (also with calls that raise), each of them is what it would be if only its own calls had
been made on a model of its own. -/
theorem C20_independent (w : World) (h : (w.obj false).cell < w.heap.length)
    (prog : List (Bool × Call)) (b : Bool) :
    (w.getCopy.runAll prog).view b = Spec.alone (w.view false) (Spec.callsOn b prog) := by
  have key : ∀ (prog : List (Bool × Call)) (w : World), Separate w →
      (w.runAll prog).view b = Spec.alone (w.view b) (Spec.callsOn b prog) := by
    intro prog
    induction prog with
    | nil => intro w _; rfl
    | cons bc prog ih =>
      obtain ⟨c, call⟩ := bc
      intro w hw
      rw [World.runAll, ih (w.call c call) (effects_separate c _ w hw).1]
      by_cases hb : c = b
      · subst hb
        rw [view_call w hw]
        simp only [Spec.callsOn, List.filterMap_cons, if_true, Spec.alone, runHistory]
        rfl
      · have hc : b = !c := by cases b <;> cases c <;> simp_all
        have : (w.call c call).view b = w.view b := by
          rw [hc]; exact (effects_separate c _ w hw).2
        rw [this]
        simp [Spec.callsOn, hb]
  rw [key prog _ (separate_getCopy w h)]
  cases b
  · rw [(C20_copy_same w h).2]
  · rw [(C20_copy_same w h).1]

/-- The statement is not empty: with `copy.copy` alone (a shared dictionary) it is false, removing a
state of the copy changes the original. -/
theorem C20_needs_own_dictionary : ∃ (w : World) (prog : List (Bool × Call)),
    (w.obj false).cell < w.heap.length ∧
    (w.shallowCopy.runAll prog).view false ≠ Spec.alone (w.view false) (Spec.callsOn false prog) := by
  refine ⟨⟨[[(2, none)]], fun _ => ⟨{ t := 0, tau := 1, x := [2] }, 0⟩⟩, [(true, .removeState [2])],
    by simp, ?_⟩
  decide +kernel

/-- Non-vacuity: a program on both objects. -/
example :
    let w : World := ⟨[[(2, some (.sym 3))]], fun _ => ⟨{ t := 0, tau := 1, x := [2] }, 0⟩⟩
    ((w.getCopy.runAll [(true, .removeState [2]), (false, .replaceVariable [3] [.sym 4])]).view
      false).ode = [(2, some (.sym 4))] := by decide +kernel

end Verif
