import Verif.Model.Transcribe
import Verif.Model.Indirect
/-!
# What the collocation scheme discretises for an indirect method

methods/classic/collocationscheme.py:230-422 and 466-485 with `solution_class == "indirect"`
(methods/classic/indirectmethod.py).
-/
namespace Verif
namespace Ocp

/-- `f_u` of an element for an indirect method, collocationscheme.py:462-485: a function of all
symbols of the model that returns the control law. -/
def lawFunction (o : Ocp) (elements el : Nat) : Except Err Fun :=
  Fun.make o.model.allSym (o.model.uExpr.map fun e => convertTauToTime e o.model.t o.model.tau
    (o.timeBreakpoint elements el) (o.timeBreakpoint elements (el + 1)))

/-- What the collocation scheme discretises for an indirect method, collocationscheme.py:230-422: the
same functions as for a direct method besides that of the final cost (408-417), and the control law
of each element; the objective is zero. The degree of the control is that of the states
(indirectmethod.py:39-41). Simplification: the law is made after the other functions; every failure to
make a function is the same exception, and nothing else happens in between. -/
def indirectTranscription {K : Type} [Field K] (ops : Expr.Ops K) (o : Ocp) (roots : List Rat)
    (elements : Nat) : Except Err (Transcription K) := do
  let m ← { o with V := .const 0 }.transcription ops roots elements roots.length roots.length
  let _ ← (List.range elements).mapM (o.lawFunction elements)
  .ok { m with
    sCost := fun _ _ => 0
    vCost := fun _ _ => 0 }

end Ocp
end Verif
