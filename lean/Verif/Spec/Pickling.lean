import Verif.Model.Pickling
/-! # What a user expects of expressions sent between processes -/
namespace Verif.Spec
open Pickling

/-- A message arrived as it was sent: the parts of its expressions have the same texts, and two of them are
one part exactly when they were one part before. -/
structure ArrivedIntact (text : Part → String) (msg : List (List Part)) (got : List (List Arrival)) : Prop where
  texts : got.map (·.map Prod.snd) = msg.map (·.map text)
  shared : ∀ (i j : Nat) (a b : Part) (x y : Arrival), msg.flatten[i]? = some a → msg.flatten[j]? = some b →
    got.flatten[i]? = some x → got.flatten[j]? = some y → (x.1 = y.1 ↔ a = b)

/-- The processes take turns: no process sends two messages in succession. -/
def TakeTurns (l : List (Bool × List (List Part))) : Prop :=
  ∀ (i : Nat) (m n : Bool × List (List Part)), l[i]? = some m → l[i + 1]? = some n → m.1 ≠ n.1

/-- No part occurs twice in a message. -/
def NothingShared (msg : List (List Part)) : Prop := msg.flatten.Nodup

end Verif.Spec
