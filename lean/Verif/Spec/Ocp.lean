import Verif.Model.Ocp
/-!
# What a problem should satisfy
-/
namespace Verif

/-- Every bound vector has the size of the vector it bounds, and there is one initial value per
state. -/
structure Spec.Sized (o : Ocp) : Prop where
  x0 : o.x0.length = o.model.x.length
  xMax : o.xMax.length = o.model.x.length
  xMin : o.xMin.length = o.model.x.length
  yMax : o.yMax.length = o.model.y.length
  yMin : o.yMin.length = o.model.y.length
  uMax : o.uMax.length = o.model.u.length
  uMin : o.uMin.length = o.model.u.length
  duMax : o.duMax.length = o.model.u.length
  duMin : o.duMin.length = o.model.u.length
  pOptMax : o.pOptMax.length = o.pOpt.length
  pOptMin : o.pOptMin.length = o.pOpt.length
  thetaOptMax : o.thetaOptMax.length = o.thetaOpt.length
  thetaOptMin : o.thetaOptMin.length = o.thetaOpt.length

/-- Each call of the list satisfies `P` in the state in which it is made. -/
def Spec.Follows {σ ι : Type} (run : ι → Py σ Unit) (P : ι → σ → Prop) : List ι → σ → Prop
  | [], _ => True
  | c :: cs, s => P c s ∧ Spec.Follows run P cs (run c s).2

/-- Each variable with its bound. -/
def Spec.bounds {α : Type} (vars : List Sym) (b : List α) : List (Sym × α) := vars.zip b

/-- The bounds of the variables that are not in `var`. -/
def Spec.boundsWithout {α : Type} (var : List Sym) (l : List (Sym × α)) : List (Sym × α) :=
  l.filter fun p => decide (p.1 ∉ var)

/-- What the caller has to respect for the sizes: problems that are merged have the right sizes
themselves, and only inputs of the problem are connected. Everything else is checked by the
calls. -/
def Spec.Admissible : Ocp.Call → Ocp → Prop
  | .merge ks, _ => ∀ k ∈ ks, Spec.Sized k
  | .connect u _ _, o => o.model.u.Nodup ∧ ∀ v ∈ u, v ∈ o.model.u
  | _, _ => True

end Verif
