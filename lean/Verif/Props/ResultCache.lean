import Verif.Model.ResultCache
import Verif.Props.OptResult
/-!
# C201: the data set of a result shows the result

The claim would be: whatever was read and assigned before, `result.dataset` is the data set of the result as it
is now, the one `to_dataset()` returns. It is that of the result at the first reading that succeeded.
-/
namespace Verif
open ResultCache

/-- What `to_dataset()` returns for a result. -/
def Spec.shown (r : OptResult) : Except Err DataSet :=
  match r.toDataset [] with
  | (.ok _, d) => .ok d
  | (.error e, _) => .error e

/-- The data set of the result at the first reading in the history that succeeds, or at its end. -/
def Spec.firstShown : OptResult → List Act → Except Err DataSet
  | r, [] => Spec.shown r
  | r, .assign f :: ops => firstShown (f r) ops
  | r, _ :: ops =>
    match Spec.shown r with
    | .ok d => .ok d
    | .error _ => firstShown r ops

theorem ResultCache.dataset_new (r : OptResult) :
    (dataset { result := r }).1 = Spec.shown r ∧
    (∀ d, Spec.shown r = .ok d → dataset { result := r } = (.ok d, { result := r, cache := some d })) ∧
    (∀ e, Spec.shown r = .error e → dataset { result := r } = (.error e, { result := r })) := by
  unfold dataset Spec.shown
  rcases r.toDataset [] with ⟨o, d⟩
  cases o with
  | ok u => exact ⟨rfl, by rintro d ⟨⟩; rfl, by rintro e ⟨⟩⟩
  | error e => exact ⟨rfl, by rintro d ⟨⟩, by rintro e ⟨⟩; rfl⟩

theorem ResultCache.kept (ops : List Act) (hops : ∀ f, .edit f ∉ ops) (r : OptResult) (d : DataSet) :
    (runAll ops { result := r, cache := some d }).cache = some d := by
  induction ops generalizing r with
  | nil => rfl
  | cons o ops ih =>
    have ih := ih fun f hf => hops f (List.mem_cons_of_mem _ hf)
    cases o with
    | read => exact ih r
    | assign f => exact ih (f r)
    | edit f => exact absurd (List.mem_cons_self ..) (hops f)

/-- After any history of readings and assignments a reading gives the data set of the result at the first
reading that succeeded. -/
theorem C201_first (ops : List Act) (hops : ∀ f, .edit f ∉ ops) (r : OptResult) :
    (dataset (runAll ops { result := r })).1 = Spec.firstShown r ops := by
  induction ops generalizing r with
  | nil => exact (dataset_new r).1
  | cons o ops ih =>
    have htail : ∀ f, .edit f ∉ ops := fun f hf => hops f (List.mem_cons_of_mem _ hf)
    cases o with
    | assign f => exact ih htail (f r)
    | edit f => exact absurd (List.mem_cons_self ..) (hops f)
    | read =>
      show (dataset (runAll ops (dataset { result := r }).2)).1 = _
      cases h : Spec.shown r with
      | ok d =>
        rw [(dataset_new r).2.1 d h]
        simp only [Spec.firstShown, h]
        unfold dataset
        rw [kept ops htail r d]
      | error e =>
        rw [(dataset_new r).2.2 e h]
        simp only [Spec.firstShown, h]
        exact ih htail r

/-- The claim is false: after a reading, no assignment shows. -/
theorem C201_fails (r : OptResult) (d : DataSet) (h : Spec.shown r = .ok d) (fs : List (OptResult → OptResult)) :
    (dataset (runAll (.read :: fs.map .assign) { result := r })).1 = .ok d := by
  rw [C201_first _ (by simp)]
  simp [Spec.firstShown, h]

/-- What a user does with the data set they read is in every later reading. -/
theorem C201_shared_fails (r : OptResult) (d : DataSet) (h : Spec.shown r = .ok d) (f : DataSet → DataSet) :
    (dataset (runAll [.edit f] { result := r })).1 = .ok (f d) := by
  show (dataset (Act.run (.edit f) { result := r })).1 = _
  simp only [Act.run, (dataset_new r).2.1 d h]
  rfl

/-- The claim holds when every assignment comes before the first reading, for any number of readings. -/
theorem C201_partial (r : OptResult) (fs : List (OptResult → OptResult)) (n : Nat) :
    (dataset (runAll (fs.map .assign ++ List.replicate n .read) { result := r })).1 =
      Spec.shown (fs.foldl (fun r f => f r) r) := by
  rw [C201_first _ (by simp [List.mem_replicate])]
  induction fs generalizing r with
  | nil =>
    simp only [List.map_nil, List.nil_append, List.foldl_nil]
    induction n with
    | zero => rfl
    | succ n ih =>
      rw [List.replicate_succ, Spec.firstShown]
      · cases h : Spec.shown r with
        | ok d => rfl
        | error e => exact ih.trans h
      · rintro f ⟨⟩
  | cons f fs ih => exact ih (f r)

/-- And as long as every reading so far has raised, the next one shows the result as it is. -/
theorem C201_raised_partial (r : OptResult) (e : Err) (h : Spec.shown r = .error e) (f : OptResult → OptResult) :
    (dataset (runAll [.read, .assign f] { result := r })).1 = Spec.shown (f r) := by
  rw [C201_first _ (by simp)]
  simp [Spec.firstShown, h]

/-- A result that is read, given another final time and read again: the second reading is the first one. -/
example : ∃ d, Spec.shown sampleResult = .ok d ∧
    (dataset (runAll [.read, .assign fun r => { r with tf := 7 }] { result := sampleResult })).1 = .ok d ∧
    Spec.shown { sampleResult with tf := 7 } ≠ .ok d := by
  have h : ∃ d, Spec.shown sampleResult = .ok d ∧
      Spec.shown { sampleResult with tf := 7 } ≠ .ok d := by
    refine ⟨(sampleResult.toDataset []).2, ?_, ?_⟩ <;> decide +kernel
  obtain ⟨d, h₁, h₂⟩ := h
  exact ⟨d, h₁, C201_fails _ d h₁ [_], h₂⟩

/-- A result without values for its states raises, and shows the values once they are there. -/
example : ∃ e, Spec.shown { sampleResult with x := ⟨[], []⟩ } = .error e := by
  refine ⟨.indexError, ?_⟩
  decide +kernel

end Verif
