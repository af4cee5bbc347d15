import Verif.Lemmas.Pickling
/-!
# C197: expressions sent between processes arrive as they were sent

The claim would be: in every conversation of two processes every message arrives as it was sent. It is false
as soon as a process sends two messages in succession: the receiver keeps the parts of the first message, and
takes them for the repeated parts of the second one. It holds when the processes take turns, because a process
that sends starts afresh as a receiver too, and for messages in which nothing is shared.
-/
namespace Verif
open Spec Pickling

/-- Two messages in succession: the second one arrives without an error, but where it repeats its first part
the receiver has the first part of the first message. -/
theorem C197_fails (text : Part → String) (toRight : Bool) (a b : Part) (e e' : List Part) (l : List (List Part))
    (h : text a ≠ text b) :
    ∃ got first more, conversation text [(toRight, (a :: e) :: l), (toRight, [[b], b :: e'])] {} =
        [.ok got, .ok [first, (0, text a) :: more]] ∧
      ¬ ArrivedIntact text [[b], b :: e'] [first, (0, text a) :: more] := by
  obtain ⟨got, w, h₁, -, -, h₂⟩ := transfer_fresh (text := text) toRight ((a :: e) :: l) {} (by cases toRight <;> rfl)
  obtain ⟨rest, h₃⟩ := h₂ a e l rfl
  obtain ⟨first, more, w', h₄⟩ := transfer_stale (text := text) toRight b e' w h₃
  refine ⟨got, first, more, ?_, fun hi => ?_⟩
  · simp only [conversation, h₁, h₄]
  · have := hi.texts
    simp only [List.map_cons, List.map_nil, List.cons.injEq] at this
    exact h this.2.1.1

/-- When the processes take turns, every message arrives as it was sent. -/
theorem C197_turns_partial (text : Part → String) (l : List (Bool × List (List Part))) (h : TakeTurns l) :
    ∀ (i : Nat) (m : Bool × List (List Part)), l[i]? = some m →
      ∃ got, (conversation text l {})[i]? = some (.ok got) ∧ ArrivedIntact text m.2 got := by
  have main : ∀ (l : List (Bool × List (List Part))) (w : Pair), TakeTurns l →
      (∀ m, l.head? = some m → (if m.1 then w.right else w.left).read = []) →
      ∀ (i : Nat) (m : Bool × List (List Part)), l[i]? = some m →
      ∃ got, (conversation text l w)[i]? = some (.ok got) ∧ ArrivedIntact text m.2 got := by
    intro l
    induction l with
    | nil => intro w _ _ i m hm; simp at hm
    | cons n l ih =>
      intro w ht hw i m hm
      obtain ⟨got, w', h₁, h₂, h₃, -⟩ := transfer_fresh (text := text) n.1 n.2 w (hw n rfl)
      rw [conversation, h₁]
      cases i with
      | zero =>
        cases hm
        exact ⟨got, rfl, h₂⟩
      | succ i =>
        refine ih w' (fun j p q hp hq => ht (j + 1) p q hp hq) ?_ i m hm
        intro k hk
        have hne : n.1 ≠ k.1 := ht 0 n k rfl (by rw [List.head?_eq_getElem?] at hk; exact hk)
        cases hn : n.1 <;> cases hk' : k.1 <;> simp_all
  exact main l {} h fun m _ => by cases m.1 <;> rfl

/-- A message in which no part occurs twice arrives as it was sent, whatever was sent before. -/
theorem C197_unshared_partial (text : Part → String) (before : List (Bool × List (List Part))) (toRight : Bool)
    (msg : List (List Part)) (h : NothingShared msg) :
    ∃ results got, conversation text (before ++ [(toRight, msg)]) {} = results ++ [.ok got] ∧
      ArrivedIntact text msg got := by
  suffices ∀ w, ∃ results got, conversation text (before ++ [(toRight, msg)]) w = results ++ [.ok got] ∧
      ArrivedIntact text msg got from this {}
  induction before with
  | nil =>
    intro w
    obtain ⟨got, w', h₁, h₂⟩ := transfer_new (text := text) toRight msg h w
    exact ⟨[], got, by simp [conversation, h₁], h₂⟩
  | cons m l ih =>
    intro w
    obtain ⟨results, got, h₁, h₂⟩ := ih (transfer text m.1 m.2 w).2
    exact ⟨(transfer text m.1 m.2 w).1 :: results, got, by simp only [List.cons_append, conversation, h₁], h₂⟩

/-- The sharing of a message is kept: an expression that repeats a symbol arrives with that symbol. -/
example : conversation (fun a => toString a) [(true, [[7], [7, 8]]), (false, [[3], [3]]), (true, [[9], [9]])] {} =
    [.ok [[(0, "7")], [(0, "7"), (1, "8")]], .ok [[(0, "3")], [(0, "3")]], .ok [[(0, "9")], [(0, "9")]]] := by
  decide +kernel

/-- Without an answer between them the second message arrives with a symbol of the first one. -/
example : conversation (fun a => toString a) [(true, [[7], [7, 8]]), (true, [[9], [9]])] {} =
    [.ok [[(0, "7")], [(0, "7"), (1, "8")]], .ok [[(2, "9")], [(0, "7")]]] := by
  decide +kernel

example : (fun a : Part => toString a) 7 ≠ (fun a : Part => toString a) 9 := by decide +kernel

example : TakeTurns [(true, [[7], [7, 8]]), (false, [[3], [3]]), (true, [[9], [9]])] := by
  intro i m n hm hn
  match i, hm, hn with
  | 0, hm, hn => cases hm; cases hn; simp
  | 1, hm, hn => cases hm; cases hn; simp
  | i + 2, hm, hn => simp at hn

example : NothingShared [[7, 8], [9]] := by
  unfold NothingShared
  decide

end Verif
