import Verif.Model.Stochastic
import Verif.Model.DataSet
/-!
# The constructors of the filters (estimation/*.py)

Statement by statement, as far as they can raise. What CasADi and `get_ls_factor` do with the given matrices is
opaque: the outcome of these calls is part of the arguments.
-/
namespace Verif
namespace Estimators
open StochasticOcp (symbols)

/-- The keyword arguments, unscented_kalman_filter.py:26-34, extended_kalman_filter.py:17-24 and
pce_kalman_filter.py:14-25, as far as the constructors read them: the number of values of `y_guess`, of outputs
of `h_function` and of rows of `c_matrix`, and the numbers for the polynomial chaos. -/
structure Args where
  yGuess : Option Nat := none
  hFunction : Option Nat := none
  cMatrix : Option Nat := none
  nSamples : Option Nat := none
  nUncertain : Option Nat := none
  order : Nat := 4

/-- `self.dataset.data[entry][field] = value`: the first look-up is in the dictionary of the dataset
(dataset.py:53), and an `Entry` (dataset.py:18-29) has no item assignment. -/
def assign (d : DataSet) (entry : String) : Except Err DataSet :=
  match Dict.get? d entry with
  | none => .error .keyError
  | some _ => .error .typeError

/-- `[prefix + model.attr[i].name() for i in range(n)]`: without variables the attribute is not read. -/
def readNames (m : SysModel) (attr : String) (n : Nat) : Except Err Unit :=
  if n = 0 then .ok () else do
    let _ ← symbols m attr
    .ok ()

/-- Property `n_meas`, unscented_kalman_filter.py:99-114 and extended_kalman_filter.py:102-117. -/
def nMeas (a : Args) : Except Err Nat :=
  match a.hFunction, a.cMatrix with
  | some n, _ => .ok n
  | none, some n => .ok n
  | none, none => .error .exception

/-- The dataset of the unscented and of the extended filter, unscented_kalman_filter.py:62-91 and
extended_kalman_filter.py:71-100: a new dataset is empty. Values are evaluated before the entry is looked up. -/
def storage (m : SysModel) (a : Args) : Except Err DataSet := do
  let d ← assign [] "x"
  readNames m "x_sym" m.x.length
  let d ← assign d "x"
  let d ← assign d "y"
  readNames m "y_sym" m.y.length
  let d ← assign d "y"
  let d ← assign d "P"
  let d ← assign d "P"
  let d ← assign d "P_y"
  let d ← assign d "P_y"
  let _ ← nMeas a
  let d ← assign d "meas"
  assign d "meas"

/-- `UnscentedKalmanFilter(model, **kwargs)`, unscented_kalman_filter.py:36-97. -/
def unscented (m : SysModel) (a : Args) : Except Err DataSet := storage m a

/-- `_create_augmented_model_and_p_update(model)`, extended_kalman_filter.py:236-309: the attributes it reads
first; `rest` is what follows. -/
def augmented {α : Type} (m : SysModel) (rest : Except Err α) : Except Err α := do
  let _ ← symbols m "x_sym"
  let _ ← symbols m "y_sym"
  let _ ← symbols m "u_sym"
  let _ ← symbols m "p_sym"
  let _ ← symbols m "theta_sym"
  rest

/-- `ExtendedKalmanFilter(model, **kwargs)`, extended_kalman_filter.py:26-100. `block` is the outcome of writing
`p_k` into the covariance (lines 51-52), `rest` that of the remainder of the augmented model. -/
def extended {α : Type} (m : SysModel) (a : Args) (block : Except Err Unit) (rest : Except Err α) :
    Except Err DataSet := do
  block
  if m.y.length > 0 ∧ a.yGuess = none then .error .valueError
  let _ ← augmented m rest
  storage m a

/-- `PCEKalmanFilter(model, **kwargs)`, pce_kalman_filter.py:27-85. `types` is the outcome of `_fix_types()`, the
number of values of `x_mean`; `factor` is that of `get_ls_factor`. -/
def chaos (m : SysModel) (a : Args) (types : Except Err Nat) (factor : Except Err Unit) : Except Err DataSet := do
  let n ← types
  let uncertain := a.nUncertain.getD n
  let samples := a.nSamples.getD (Pce.nPol uncertain a.order)
  if samples < Pce.nPol uncertain a.order then .error .valueError
  factor
  let d ← assign [] "x"
  readNames m "x_sym" m.x.length
  let d ← assign d "x"
  let d ← assign d "P"
  assign d "P"

end Estimators
end Verif
