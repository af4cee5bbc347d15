import Verif.Model.SystemModel
/-!
# Which calls a property ranges over
-/
namespace Verif

namespace SysModel

/-- Calls that change controls (C15), and calls that do not touch them at all. Direct use of
`replace_variable`, `connect(replace=True)` and merging are about equations, see C16, C18, C19. -/
def Call.isControlCall : Call → Bool
  | .includeControl .. => true
  | .removeControl .. => true
  | .parametrizeControl .. => true
  | .includeState .. => true
  | .removeState .. => true
  | .includeAlgebraic .. => true
  | .removeAlgebraic .. => true
  | .includeParameter .. => true
  | .removeParameter .. => true
  | .includeTheta .. => true
  | .removeTheta .. => true
  | .includeEquations .. => true
  | .includeVariables .. => true
  | .connect _ _ r => !r
  | _ => false

end SysModel
end Verif
