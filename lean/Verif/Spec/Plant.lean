import Verif.Model.Plant
import Verif.Spec.DataSet
/-!
# What a simulated plant should do
-/
namespace Verif
namespace Spec
open Plant

/-- A plant whose parts fit together: the simulation answers every request that has the sizes of the
model with a final condition of the sizes of the model, the measurement matrix takes `[x; y]`, and
the noise vectors have the sizes of what they are added to. -/
structure PlantFits (env : Env) : Prop where
  simulate : ∀ x t tF u, x.length = env.nX → u.length = env.nUPar →
    ∃ r, env.simulate x t tF u = .ok r ∧ r.1.length = env.nX ∧ r.2.1.length = env.nY ∧
      r.2.2.length = env.nU
  matrix : env.cCols = env.nX + env.nY
  processNoise : ∀ n, (env.processNoise n).length = env.nX
  measurementNoise : ∀ n, (env.measurementNoise n).length = env.cRows.length

/-- A control function that gives controls of the size of the plant. -/
def FunctionFits (env : Env) (f : Rat → List Rat) : Prop := ∀ t, (f t).length = env.nUPar

/-- Control functions in a history of calls have the size of the plant; control vectors may have any
size. -/
def CallsFit (env : Env) (calls : List Call) : Prop :=
  ∀ f, Call.function f ∈ calls → FunctionFits env f

/-- The calls the plant accepts: every control function, and control vectors of the right size. -/
def accepted (env : Env) : Call → Bool
  | .control u => decide (u.length = env.nUPar)
  | .function _ => true

/-- Number of accepted calls. -/
def acceptedCount (env : Env) (calls : List Call) : Nat := calls.countP (accepted env)

/-- Sample times after `k` accepted controls: the initial time, then for each control the sampling
points scaled by the sampling time and moved to the time of that control. -/
def sampleTimes (tS : Rat) (points : List Rat) (t0 : Rat) : Nat → List Rat
  | 0 => [t0]
  | k + 1 => sampleTimes tS points t0 k ++ points.map fun d => t0 + (k : Rat) * tS + d * tS

/-- Measurement times after `k` accepted controls. -/
def measurementTimes (tS t0 : Rat) (k : Nat) : List Rat :=
  (List.range (k + 1)).map fun i : Nat => t0 + (i : Rat) * tS

/-- The times at which an entry of the data set has samples. -/
def timesOf (s : State) (name : String) : List Rat := (samplesOf s.data name).map (·.1)

/-- Consecutive samples are linked by the simulation from one to the other under some control. -/
def Trajectory (env : Env) (l : List (Rat × List Rat)) : Prop :=
  ∀ (i : Nat) (a b : Rat × List Rat), l[i]? = some a → l[i + 1]? = some b →
    ∃ u r, env.simulate a.2 a.1 b.1 u = .ok r ∧ r.1 = b.2

end Spec
end Verif
