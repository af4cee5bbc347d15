import Verif.Model.OptResult
/-!
# The property `dataset` of an `OptimizationResult` (methods/base/optimizationresult.py)
-/
namespace Verif

/-- An `OptimizationResult` with its attribute `_dataset`, optimizationresult.py:63. -/
structure ResultCache where
  result : OptResult
  cache : Option DataSet := none

namespace ResultCache

/-- Property `dataset`, optimizationresult.py:68-72. When `to_dataset()` raises nothing is kept. -/
def dataset : Py ResultCache DataSet := fun h =>
  match h.cache with
  | some d => (.ok d, h)
  | none =>
    match h.result.toDataset [] with
    | (.ok _, d) => (.ok d, { h with cache := some d })
    | (.error e, _) => (.error e, h)

/-- What a user may do: read the data set, assign to attributes of the result, or change the data set that
reading returns, which is the object that is kept (`result.dataset.insert_data(...)`). -/
inductive Act
  | read
  | assign (f : OptResult → OptResult)
  | edit (f : DataSet → DataSet)

/-- The object after an operation. A reading that raises leaves it as it is. -/
def Act.run : Act → ResultCache → ResultCache
  | .read, h => (dataset h).2
  | .assign f, h => { h with result := f h.result }
  | .edit f, h =>
    match dataset h with
    | (.ok d, h') => { h' with cache := some (f d) }
    | (.error _, h') => h'

/-- The object after a history. -/
def runAll (ops : List Act) (h : ResultCache) : ResultCache := ops.foldl (fun h o => o.run h) h

end ResultCache
end Verif
