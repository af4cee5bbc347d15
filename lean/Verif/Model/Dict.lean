import Verif.Model.Py
/-!
# Python dictionaries

Association lists in insertion order. Assigning to an existing key keeps its place, assigning to a
new key appends.
-/
namespace Verif

abbrev Dict (κ : Type u) (α : Type v) := List (κ × α)

namespace Dict
variable {κ : Type u} {α : Type v} [DecidableEq κ]

/-- `d.keys()`. -/
def keys (d : Dict κ α) : List κ := d.map (·.1)

/-- `d.values()`. -/
def values (d : Dict κ α) : List α := d.map (·.2)

/-- `d.get(k)` / `d[k]` (`none`: `KeyError`). -/
def get? : Dict κ α → κ → Option α
  | [], _ => none
  | (k', v) :: d, k => if k = k' then some v else get? d k

/-- `k in d`. -/
def has (d : Dict κ α) (k : κ) : Bool := d.any fun kv => decide (kv.1 = k)

/-- `d[k] = v`. -/
def set : Dict κ α → κ → α → Dict κ α
  | [], k, v => [(k, v)]
  | (k', v') :: d, k, v => if k = k' then (k', v) :: d else (k', v') :: set d k v

/-- `del d[k]` when `k in d`. -/
def del (d : Dict κ α) (k : κ) : Dict κ α := d.filter fun kv => decide (kv.1 ≠ k)

/-- `{**d, **dict(zip(keys, values))}`. -/
def update (d : Dict κ α) (kvs : List (κ × α)) : Dict κ α :=
  kvs.foldl (fun d kv => set d kv.1 kv.2) d

end Dict
end Verif
