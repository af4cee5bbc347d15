import Verif.Model.Network
/-!
# Blocks of the distributed augmented Lagrangian

`/repo/yaocptool/methods/network/distributedaugmetedlagrangian.py`.
-/
namespace Verif
namespace Net

/-- `itertools.groupby(coloring.items(), key=lambda item: item[1])`: maximal runs of equal colours. -/
def groupRuns : List (Nat × Nat) → List (Nat × List Nat)
  | [] => []
  | (r, c) :: l => match groupRuns l with
    | [] => [(c, [r])]
    | (c', rs) :: g => if c = c' then (c', r :: rs) :: g else (c, [r]) :: (c', rs) :: g

/-- The dict comprehension over the runs, distributedaugmetedlagrangian.py:89-94: a later run with the
same colour replaces an earlier one. -/
def blocksOf (colouring : Dict Nat Nat) : Dict Nat (List Nat) := Dict.update [] (groupRuns colouring)

/-- `self.blocks` when the user gives none, distributedaugmetedlagrangian.py:83-94: the colouring is
that of the directed graph. -/
def defaultBlocks (g : Graph) : Dict Nat (List Nat) :=
  blocksOf (greedyColour (successors g) (largestFirst (directedDegree g) g.nodes))

end Net
end Verif
