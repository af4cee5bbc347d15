import Verif.Model.Timeout
/-!
# Property C08 (`util/timeout.py`)
-/
namespace Verif

/-- Number of links of the cause chain. -/
def Spec.links : PyExc → Nat
  | .mk _ none => 0
  | .mk _ (some c) => Spec.links c + 1

/-- Class of the exception at the end of the cause chain. -/
def Spec.rootKind : PyExc → ExcKind
  | .mk k none => k
  | .mk _ (some c) => Spec.rootKind c

theorem walk_root (n : Nat) (e : PyExc) (h : Spec.links e ≤ n) :
    (PyExc.walk n e).kind = Spec.rootKind e := by
  induction n generalizing e with
  | zero =>
      match e with
      | .mk k none => rfl
      | .mk k (some c) => simp [Spec.links] at h
  | succ n ih =>
      match e with
      | .mk k none => rfl
      | .mk k (some c) =>
          simp only [Spec.links, Nat.add_le_add_iff_right] at h
          simpa [PyExc.walk, PyExc.cause, Spec.rootKind] using ih c h

/-- A body that finishes normally: nothing is raised, whether or not the alarm fired. -/
theorem C08_normal_body (t : TimeoutObj) (fired : Bool) :
    (t.withBlock ⟨fired, none⟩).1 = none := by
  cases fired <;> rfl

/-- An exception not rooted in a `TimeoutError` is propagated unchanged and reported as "did not
time out", whatever `raise_exc` says and whether or not the alarm fired. -/
theorem C08_unrelated_propagates (t : TimeoutObj) (fired : Bool) (e : PyExc)
    (hl : Spec.links e ≤ 20) (hk : Spec.rootKind e ≠ .timeout) :
    (t.withBlock ⟨fired, some e⟩).1 = some e ∧
    (t.withBlock ⟨fired, some e⟩).2.timedout = some false := by
  have hw := walk_root 20 e hl
  cases fired <;>
    simp [TimeoutObj.withBlock, TimeoutObj.exit, TimeoutObj.enter, TimeoutObj.handle, hw, hk]

/-- An exception rooted in a `TimeoutError` is reported as timed out; it is swallowed iff
`raise_exc` is false and propagated unchanged otherwise. -/
theorem C08_timeout_reported (t : TimeoutObj) (fired : Bool) (e : PyExc)
    (hl : Spec.links e ≤ 20) (hk : Spec.rootKind e = .timeout) :
    (t.withBlock ⟨fired, some e⟩).2.timedout = some true ∧
    (t.raiseExc = false → (t.withBlock ⟨fired, some e⟩).1 = none) ∧
    (t.raiseExc = true → (t.withBlock ⟨fired, some e⟩).1 = some e) := by
  have hw := walk_root 20 e hl
  cases fired <;> cases hr : t.raiseExc <;>
    simp [TimeoutObj.withBlock, TimeoutObj.exit, TimeoutObj.enter, TimeoutObj.handle, hw, hk, hr]

/-- The alarm is disarmed after the block, whatever the body did. -/
theorem C08_alarm_cancelled (t : TimeoutObj) (b : BodyRun) :
    (t.withBlock b).2.alarmArmed = false := by
  obtain ⟨fired, leaves⟩ := b
  cases leaves with
  | none => cases fired <;> rfl
  | some e =>
      by_cases hk : (PyExc.walk 20 e).kind = .timeout
      · cases fired <;>
          simp [TimeoutObj.withBlock, TimeoutObj.exit, TimeoutObj.enter, TimeoutObj.handle, hk]
      · cases fired <;>
          simp [TimeoutObj.withBlock, TimeoutObj.exit, TimeoutObj.enter, TimeoutObj.handle, hk]

/-- Chains of any length: the class that decides is the one after 20 links. -/
theorem C08_long_chain (t : TimeoutObj) (fired : Bool) (e : PyExc) :
    (t.withBlock ⟨fired, some e⟩).2.timedout = some (decide ((PyExc.walk 20 e).kind = .timeout)) := by
  by_cases hk : (PyExc.walk 20 e).kind = .timeout
  · cases fired <;>
      simp [TimeoutObj.withBlock, TimeoutObj.exit, TimeoutObj.enter, TimeoutObj.handle, hk]
  · cases fired <;>
      simp [TimeoutObj.withBlock, TimeoutObj.exit, TimeoutObj.enter, TimeoutObj.handle, hk]

/-- The alarm is armed while the body runs; it fires once, and then the block is known to have timed
out. -/
theorem C08_armed (t : TimeoutObj) :
    t.enter.alarmArmed = true ∧ t.enter.timedout = t.timedout ∧
    t.enter.handle.alarmArmed = false ∧ t.enter.handle.timedout = some true := ⟨rfl, rfl, rfl, rfl⟩

/-- A body that finishes normally is reported as timed out exactly when the alarm fired (and the body
swallowed the `TimeoutError`); otherwise the report is what it was before the block. -/
theorem C08_normal_report (t : TimeoutObj) (fired : Bool) :
    (t.withBlock ⟨fired, none⟩).2.timedout = if fired then some true else t.timedout := by
  cases fired <;> rfl

/-- Non-vacuity: a solver error caused by an error caused by the timeout. -/
example : let e := PyExc.mk .other (some (.mk .other (some (.mk .timeout none))))
    Spec.links e = 2 ∧ Spec.rootKind e = .timeout ∧
    ((TimeoutObj.mk false none false).withBlock ⟨true, some e⟩).1 = none := by
  refine ⟨rfl, rfl, ?_⟩
  simp [TimeoutObj.withBlock, TimeoutObj.exit, TimeoutObj.enter, TimeoutObj.handle, PyExc.walk,
    PyExc.cause, PyExc.kind]

example : Spec.rootKind (.mk .timeout (some (.mk .other none))) ≠ .timeout := by decide

end Verif
