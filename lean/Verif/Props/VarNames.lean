import Verif.Model.VarNames
import Mathlib.Data.List.Nodup
import Mathlib.Data.List.TakeWhile
import Mathlib.Tactic.IntervalCases
import Mathlib.Tactic.Ring
/-!
# C202: created variables have different names

The claim would be: in models with different names that put their name in front, variables created with different
names have different names, also when the models are put into one. Underscores break it: in the name of a model
or of a variable they cannot be told from those that join the parts.
-/
namespace Verif
open VarNames

namespace VarNames

/-- The number a list of digits stands for. -/
def value (l : Name) : Nat := l.foldl (fun a c => 10 * a + (c.toNat - 48)) 0

theorem value_append (l : Name) (c : Char) : value (l ++ [c]) = 10 * value l + (c.toNat - 48) := by
  simp [value]

theorem digit_toNat {d : Nat} (h : d < 10) : (digit d).toNat - 48 = d := by
  interval_cases d <;> decide

theorem value_decimal (n : Nat) : value (decimal n) = n := by
  induction n using Nat.strongRecOn with
  | ind n ih =>
    rw [decimal]
    split
    · rename_i h
      simp [value, digit_toNat h]
    · rw [value_append, ih _ (by omega), digit_toNat (Nat.mod_lt _ (by omega))]
      omega

theorem decimal_injective {i j : Nat} (h : decimal i = decimal j) : i = j := by
  rw [← value_decimal i, h, value_decimal]

/-- What is before the first underscore. -/
theorem before (a l : Name) (h : '_' ∉ a) : (a ++ '_' :: l).takeWhile (· != '_') = a := by
  induction a with
  | nil => simp
  | cons c a ih =>
    have hc : c ≠ '_' := fun e => h (by simp [e])
    have := ih fun hm => h (List.mem_cons_of_mem _ hm)
    simp [hc, this]

theorem before_all (a : Name) (h : '_' ∉ a) : a.takeWhile (· != '_') = a := by
  rw [List.takeWhile_eq_self_iff]
  intro c hc
  have : c ≠ '_' := fun e => h (e ▸ hc)
  simpa using this

theorem mem_symNames {name : Name} {size : Nat} {n : Name} (h : n ∈ symNames name size) :
    n = name ∨ ∃ i, n = name ++ '_' :: decimal i := by
  unfold symNames at h
  split at h
  · exact .inl (by simpa using h)
  · obtain ⟨i, -, rfl⟩ := List.mem_map.1 h
    exact .inr ⟨i, rfl⟩

theorem symNames_nodup (name : Name) (size : Nat) : (symNames name size).Nodup := by
  unfold symNames
  split
  · simp
  · refine List.nodup_range.map fun i j h => decimal_injective ?_
    simpa using h

/-- Names of a model that puts its name in front. -/
theorem create_prefix {o : Owner} (ho : o.asPrefix = true) (name : Name) (size : Nat) :
    create o name size = (symNames name size).map fun n => o.name ++ '_' :: n := by
  simp only [create, nameVariable, ho, if_true, symNames]
  split <;> simp

theorem symNames_disjoint {a b : Name} (ha : '_' ∉ a) (hb : '_' ∉ b) (hab : a ≠ b) (s t : Nat) :
    (symNames a s).Disjoint (symNames b t) := by
  have key : ∀ {c : Name} {u : Nat} {n : Name}, '_' ∉ c → n ∈ symNames c u → n.takeWhile (· != '_') = c := by
    intro c u n hc hn
    rcases mem_symNames hn with rfl | ⟨i, rfl⟩
    · exact before_all _ hc
    · exact before _ _ hc
  intro n h₁ h₂
  exact hab ((key ha h₁).symm.trans (key hb h₂))

end VarNames

/-- Underscores in names: another model's variable has the same name, for any names and sizes. -/
theorem C202_fails (a b c : Name) (size : Nat) :
    create { name := a, asPrefix := true } (b ++ '_' :: c) size =
      create { name := a ++ '_' :: b, asPrefix := true } c size := by
  simp [create, nameVariable]

/-- An entry of a vector has the name of a variable with the number at its end, in any one model. -/
theorem C202_vector_fails (o : Owner) (a : Name) (size i : Nat) (hi : i < size) (hs : size ≠ 1) :
    ∀ n ∈ create o (a ++ '_' :: decimal i) 1, n ∈ create o a size := by
  intro n hn
  simp only [create, symNames, if_true, List.mem_singleton] at hn
  subst hn
  simp only [create, symNames, hs, if_false, List.mem_map, List.mem_range]
  refine ⟨i, hi, ?_⟩
  unfold nameVariable
  split <;> simp

/-- Names given without underscores to models named without underscores: when the models have different names and
put them in front, and the names given in each model are different, all names are different. -/
theorem C202_partial (models : List (Owner × List (Name × Nat)))
    (hprefix : ∀ m ∈ models, m.1.asPrefix = true)
    (hmodels : (models.map fun m => m.1.name).Nodup) (hplain : ∀ m ∈ models, '_' ∉ m.1.name)
    (hvars : ∀ m ∈ models, (m.2.map (·.1)).Nodup) (hnames : ∀ m ∈ models, ∀ v ∈ m.2, '_' ∉ v.1) :
    (together models).Nodup := by
  unfold together
  rw [List.nodup_flatMap]
  constructor
  · intro m hm
    rw [List.nodup_flatMap]
    constructor
    · intro v _
      rw [create_prefix (hprefix m hm)]
      exact (symNames_nodup _ _).map fun x y h => by simpa using h
    · have := hvars m hm
      rw [List.Nodup, List.pairwise_map] at this
      refine this.imp_of_mem fun {v w} hv hw hne n h₁ h₂ => ?_
      simp only [create_prefix (hprefix m hm), List.mem_map] at h₁ h₂
      obtain ⟨x, hx, rfl⟩ := h₁
      obtain ⟨y, hy, h⟩ := h₂
      have : y = x := by simpa using h
      subst this
      exact symNames_disjoint (hnames m hm v hv) (hnames m hm w hw) hne _ _ hx hy
  · rw [List.Nodup, List.pairwise_map] at hmodels
    refine hmodels.imp_of_mem fun {m k} hm hk hne n h₁ h₂ => hne ?_
    have key : ∀ l ∈ models, n ∈ l.2.flatMap (fun v => create l.1 v.1 v.2) →
        n.takeWhile (· != '_') = l.1.name := by
      intro l hl hn
      obtain ⟨v, _, hv⟩ := List.mem_flatMap.1 hn
      rw [create_prefix (hprefix l hl)] at hv
      obtain ⟨x, _, rfl⟩ := List.mem_map.1 hv
      exact before _ _ (hplain l hl)
    exact (key m hm h₁).symm.trans (key k hk h₂)

/-- Without the prefix, models that use one name share it, whatever they are called. -/
theorem C202_plain_fails (a b : Name) (name : Name) (size : Nat) :
    create { name := a } name size = create { name := b } name size := rfl

/-- In one model single variables have different names exactly when different names are given. -/
theorem C202_single (o : Owner) (a b : Name) : create o a 1 = create o b 1 ↔ a = b := by
  unfold create symNames nameVariable
  cases o.asPrefix <;> simp

/-- Two tanks with a level and a vector of two flows each. -/
example : (together [
    ({ name := "left".toList, asPrefix := true }, [("h".toList, 1), ("q".toList, 2)]),
    ({ name := "right".toList, asPrefix := true }, [("h".toList, 1), ("q".toList, 2)])]).Nodup := by
  apply C202_partial <;> decide

example : together [({ name := "left".toList, asPrefix := true }, [("h".toList, 1), ("q".toList, 2)])] =
    ["left_h".toList, "left_q_0".toList, "left_q_1".toList] := by decide +kernel

/-- The level `1_h` of `tank` and the level `h` of `tank_1`. -/
example : together [({ name := "tank".toList, asPrefix := true }, [("1_h".toList, 1)]),
    ({ name := "tank_1".toList, asPrefix := true }, [("h".toList, 1)])] =
      ["tank_1_h".toList, "tank_1_h".toList] := by decide +kernel

end Verif
