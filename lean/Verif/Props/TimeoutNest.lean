import Verif.Model.TimeoutNest
/-!
# C204: a timeout block ends in time

The claim would be: code in `with timeout(seconds)` leaves the block at most `seconds` later, and is interrupted
only when that time is up. It holds for code without timeout blocks in it. An inner block takes the only alarm
there is and cancels it at its end, so from its beginning on the outer limit is not in force; and its exception is
taken for one of the outer block.
-/
namespace Verif
open TimeoutNest

/-- Code without timeout blocks. -/
def Spec.Plain : Code → Prop
  | .work _ => True
  | .seq a b => Plain a ∧ Plain b
  | .block .. => False

/-- How long code takes that is not interrupted. -/
def Spec.duration : Code → Nat
  | .work n => n
  | .seq a b => duration a + duration b
  | .block _ _ body => duration body

namespace TimeoutNest

theorem plain_run {c : Code} (h : Spec.Plain c) (now d : Nat) (hd : now ≤ d) :
    (now + Spec.duration c ≤ d → c.run ⟨now, some d⟩ = (.normal, ⟨now + Spec.duration c, some d⟩)) ∧
    (d < now + Spec.duration c → c.run ⟨now, some d⟩ = (.timedOut, ⟨d, none⟩)) := by
  induction c generalizing now with
  | work n =>
    constructor
    · intro hn
      have : ¬ d < now + n := by simp only [Spec.duration] at hn; omega
      simp [Code.run, work, Spec.duration, this]
    · intro hn
      have : d < now + n := hn
      simp [Code.run, work, this]
  | seq a b iha ihb =>
    simp only [Spec.duration]
    obtain ⟨ha₁, ha₂⟩ := iha h.1 now hd
    constructor
    · intro hn
      obtain ⟨hb, -⟩ := ihb h.2 (now + Spec.duration a) (by omega)
      simp [Code.run, ha₁ (by omega), hb (by omega), Nat.add_assoc]
    · intro hn
      by_cases hc : now + Spec.duration a ≤ d
      · obtain ⟨-, hb⟩ := ihb h.2 (now + Spec.duration a) hc
        simp [Code.run, ha₁ hc, hb (by omega)]
      · simp [Code.run, ha₂ (by omega)]
  | block => exact h.elim

theorem free_run {c : Code} (h : Spec.Plain c) (now : Nat) :
    c.run ⟨now, none⟩ = (.normal, ⟨now + Spec.duration c, none⟩) := by
  induction c generalizing now with
  | work n => rfl
  | seq a b iha ihb => simp [Code.run, iha h.1, ihb h.2, Spec.duration, Nat.add_assoc]
  | block => exact h.elim

end TimeoutNest

/-- Code without inner timeouts: a block of at least a second ends in time. It is interrupted exactly when the code
takes longer, at the end of its time, and then passes `TimeoutError` on exactly when asked to. -/
theorem C204_partial (s : Nat) (hs : 0 < s) (r : Bool) (body : Code) (h : Spec.Plain body) (c : Clock) :
    (Code.block s r body).run c =
      if Spec.duration body ≤ s then (.normal, ⟨c.now + Spec.duration body, none⟩)
      else (if r then .timedOut else .normal, ⟨c.now + s, none⟩) := by
  have hs' : s ≠ 0 := by omega
  obtain ⟨h₁, h₂⟩ := plain_run h c.now (c.now + s) (by omega)
  by_cases hd : Spec.duration body ≤ s
  · simp [Code.run, setAlarm, hs', h₁ (by omega), hd]
  · simp [Code.run, setAlarm, hs', h₂ (by omega), hd]

/-- After any block no alarm is left, whatever is in it. -/
theorem C204_cancelled (s : Nat) (r : Bool) (body : Code) (c : Clock) :
    ((Code.block s r body).run c).2.alarm = none := by
  simp only [Code.run]
  split <;> rfl

/-- The claim is false: after an inner block, whatever is in it, code may take any time, whatever the outer
limit. -/
theorem C204_fails (s t : Nat) (r q : Bool) (inner after : Code) (h : Spec.Plain after) (c : Clock)
    (hinner : ((Code.block t q inner).run (setAlarm s c)).1 = .normal) :
    (Code.block s r (.seq (.block t q inner) after)).run c =
      (.normal, ⟨((Code.block t q inner).run (setAlarm s c)).2.now + Spec.duration after, none⟩) := by
  have ha := C204_cancelled t q inner (setAlarm s c)
  rw [Code.run, Code.run.eq_def (.seq ..)]
  simp only
  generalize (Code.block t q inner).run (setAlarm s c) = o at hinner ha
  obtain ⟨e, now, alarm⟩ := o
  simp only at hinner ha
  subst hinner ha
  simp [free_run h, setAlarm]

/-- Inside an inner block only its own limit is in force. -/
theorem C204_inner_fails (s t : Nat) (ht : 0 < t) (r q : Bool) (body : Code) (h : Spec.Plain body)
    (hd : Spec.duration body ≤ t) (c : Clock) :
    (Code.block s r (.block t q body)).run c = (.normal, ⟨c.now + Spec.duration body, none⟩) := by
  rw [Code.run, C204_partial t ht q body h]
  simp [hd, setAlarm]

/-- An inner block that is interrupted ends the outer one too, before its time is up; and the outer one keeps the
exception when it is to keep its own. -/
theorem C204_blame_fails (s t : Nat) (ht : 0 < t) (r : Bool) (body after : Code) (h : Spec.Plain body)
    (hd : t < Spec.duration body) (c : Clock) :
    (Code.block s r (.seq (.block t true body) after)).run c =
      (if r then .timedOut else .normal, ⟨c.now + t, none⟩) := by
  have hd' : ¬ Spec.duration body ≤ t := by omega
  rw [Code.run, Code.run.eq_def (.seq ..)]
  simp only [C204_partial t ht true body h, hd', if_false]
  simp [setAlarm]

/-- A limit of zero seconds is none. -/
theorem C204_zero_fails (r : Bool) (body : Code) (h : Spec.Plain body) (c : Clock) :
    (Code.block 0 r body).run c = (.normal, ⟨c.now + Spec.duration body, none⟩) := by
  simp [Code.run, setAlarm, free_run h]

/-- Ten seconds of work in a block of three are interrupted; with an inner block of two seconds before them that
ends after one they take their time. -/
example : (Code.block 3 true (.work 10)).run ⟨0, none⟩ = (.timedOut, ⟨3, none⟩) := by decide +kernel

example : (Code.block 3 true (.seq (.block 2 true (.work 1)) (.work 10))).run ⟨0, none⟩ =
    (.normal, ⟨11, none⟩) := by decide +kernel

example : Spec.Plain (.seq (.work 1) (.work 2)) ∧
    (Code.block 3 false (.seq (.work 1) (.work 2))).run ⟨5, none⟩ = (.normal, ⟨8, none⟩) :=
  ⟨⟨trivial, trivial⟩, by decide +kernel⟩

end Verif
