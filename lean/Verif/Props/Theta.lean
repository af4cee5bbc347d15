import Verif.Model.Util
import Mathlib.Data.List.Basic
import Mathlib.Data.List.Nodup
/-!
# Property C04 (`join_thetas`, `create_constant_theta`)
-/
namespace Verif

theorem Theta.get?_eq_none_iff {α : Type*} (th : Theta α) (i : Nat) :
    th.get? i = none ↔ i ∉ th.keys := by
  unfold Theta.get? Theta.keys
  rw [List.lookup_eq_none_iff]
  simp only [List.mem_map, not_exists, not_and, bne_iff_ne, ne_eq]
  constructor
  · rintro h x hx rfl
    exact h x hx rfl
  · intro h x hx hc
    exact h x hx hc.symm

theorem lookup_map_pair {α : Type*} (ks : List Nat) (f : Nat → α) (i : Nat) :
    (ks.map fun k => (k, f k)).lookup i = if i ∈ ks then some (f i) else none := by
  induction ks with
  | nil => simp
  | cons k ks ih =>
      rw [List.map_cons, List.lookup_cons]
      by_cases h : i = k
      · subst h; simp
      · have hb : (i == k) = false := by simpa using h
        simp [hb, h, ih]

theorem nodup_eraseDups {α : Type*} [DecidableEq α] (l : List α) : l.eraseDups.Nodup := by
  have : ∀ (n : Nat) (l : List α), l.length ≤ n → l.eraseDups.Nodup := by
    intro n
    induction n with
    | zero => intro l h; simp [List.length_eq_zero_iff.1 (Nat.le_zero.1 h)]
    | succ n ih =>
        intro l h
        cases l with
        | nil => simp
        | cons a as =>
            rw [List.eraseDups_cons, List.nodup_cons]
            refine ⟨?_, ih _ (Nat.le_trans (List.length_filter_le _ _) (by simpa using h))⟩
            rw [List.mem_eraseDups]
            simp
  exact this _ l (Nat.le_refl _)

theorem mem_joinThetasKeys {α : Type*} (args : List (Option (Theta α))) (i : Nat) :
    i ∈ joinThetasKeys args ↔ ∃ th, some th ∈ args ∧ i ∈ th.keys := by
  unfold joinThetasKeys
  rw [List.mem_eraseDups, List.mem_flatMap]
  constructor
  · rintro ⟨a, ha, hi⟩
    cases a with
    | none => simp [Theta.keysOf] at hi
    | some th => exact ⟨th, ha, hi⟩
  · rintro ⟨th, hth, hi⟩
    exact ⟨some th, hth, hi⟩

/-- The values found for element `i`, concatenated in argument order. -/
def Spec.concatAt {α : Type*} (args : List (Option (Theta α))) (i : Nat) : List α :=
  (args.filterMap fun a => a.bind fun th => th.lookup i).flatten

/-- Specification of the size requirement: tables that are not empty have the same number of
elements. -/
def Spec.sameSizes {α : Type*} (args : List (Option (Theta α))) : Prop :=
  ∀ a b, some a ∈ args → some b ∈ args → a ≠ [] → b ≠ [] → a.length = b.length

theorem flatMap_contribution {α : Type*} (args : List (Option (Theta α))) (i : Nat) :
    args.flatMap (Theta.contribution i) = Spec.concatAt args i := by
  unfold Spec.concatAt
  induction args with
  | nil => rfl
  | cons a as ih =>
      rw [List.flatMap_cons, ih]
      cases a with
      | none => simp [Theta.contribution]
      | some th =>
          cases h : List.lookup i th <;>
            simp [Theta.contribution, Theta.get?, h]

theorem joinThetasCheck_eq_ok {α : Type*} (args : List (Option (Theta α))) (n : Nat) :
    joinThetasCheck n args = .ok () ↔
      (n = 0 → Spec.sameSizes args) ∧
      (n ≠ 0 → ∀ a, some a ∈ args → a ≠ [] → a.length = n) := by
  induction args generalizing n with
  | nil => simp [joinThetasCheck, Spec.sameSizes]
  | cons a as ih =>
      cases a with
      | none =>
          simp only [joinThetasCheck, ih, Spec.sameSizes, List.mem_cons, reduceCtorEq, false_or]
      | some th =>
          simp only [joinThetasCheck, Theta.keys, List.length_map]
          by_cases hth : th = []
          · subst hth
            rw [if_neg (by simp), ih]; simp only [List.length_nil]
            by_cases hn : n = 0
            · subst hn
              simp only [if_true, true_imp_iff, ne_eq, not_true_eq_false, false_imp_iff, and_true]
              unfold Spec.sameSizes
              constructor
              · intro h a b ha hb hane hbne
                simp only [List.mem_cons, Option.some.injEq] at ha hb
                rcases ha with rfl | ha
                · exact absurd rfl hane
                · rcases hb with rfl | hb
                  · exact absurd rfl hbne
                  · exact h a b ha hb hane hbne
              · intro h a b ha hb
                exact h a b (List.mem_cons_of_mem _ ha) (List.mem_cons_of_mem _ hb)
            · simp only [hn, if_false, false_imp_iff, true_and, ne_eq, not_false_eq_true,
                true_imp_iff]
              constructor
              · intro h a ha hane
                simp only [List.mem_cons, Option.some.injEq] at ha
                rcases ha with rfl | ha
                · exact absurd rfl hane
                · exact h a ha hane
              · intro h a ha
                exact h a (List.mem_cons_of_mem _ ha)
          · have hlen : th.length ≠ 0 := by simpa using hth
            have hpos : th.length > 0 := Nat.pos_of_ne_zero hlen
            by_cases hn : n = 0
            · subst hn
              simp only [if_true, ne_eq, not_true_eq_false, and_false, if_false, ih, hlen,
                false_imp_iff, true_and, not_false_eq_true, true_imp_iff, and_true]
              unfold Spec.sameSizes
              constructor
              · intro h a b ha hb hane hbne
                simp only [List.mem_cons, Option.some.injEq] at ha hb
                have hA : a.length = th.length := by
                  rcases ha with rfl | ha
                  · rfl
                  · exact h a ha hane
                have hB : b.length = th.length := by
                  rcases hb with rfl | hb
                  · rfl
                  · exact h b hb hbne
                rw [hA, hB]
              · intro h a ha hane
                exact h a th (List.mem_cons_of_mem _ ha) (by simp) hane hth
            · simp only [hn, if_false, hpos, true_and, false_imp_iff, ne_eq, not_false_eq_true,
                true_imp_iff]
              by_cases hne : th.length = n
              · simp only [hne, not_true_eq_false, if_false, ih, hn, false_imp_iff, true_and,
                  ne_eq, not_false_eq_true, true_imp_iff]
                constructor
                · intro h a ha hane
                  simp only [List.mem_cons, Option.some.injEq] at ha
                  rcases ha with rfl | ha
                  · exact hne
                  · exact h a ha hane
                · intro h a ha
                  exact h a (List.mem_cons_of_mem _ ha)
              · simp only [hne, not_false_eq_true, if_true, reduceCtorEq, false_iff, not_forall]
                exact ⟨th, by simp, hth, hne⟩

/-! ## C04 -/

/-- `join_thetas` raises exactly when two non-empty tables have different numbers of elements, and
then it raises `ValueError`. -/
theorem C04_join_error_iff {α : Type*} (args : List (Option (Theta α))) :
    (joinThetas args = .error .valueError ↔ ¬ Spec.sameSizes args) ∧
    (∀ e, joinThetas args = .error e → e = .valueError) := by
  have herr : ∀ (args : List (Option (Theta α))) n e, joinThetasCheck n args = .error e →
      e = .valueError := by
    intro args
    induction args with
    | nil => intro n e h; cases h
    | cons a as ih =>
        intro n e h
        cases a with
        | none => exact ih n e h
        | some th =>
            simp only [joinThetasCheck] at h
            by_cases hc : th.keys.length > 0 ∧ th.keys.length ≠ (if n = 0 then th.keys.length else n)
            · rw [if_pos hc] at h; cases h; rfl
            · rw [if_neg hc] at h; exact ih _ e h
  have hiff := joinThetasCheck_eq_ok args 0
  simp only [true_imp_iff, ne_eq, not_true_eq_false, false_imp_iff, and_true] at hiff
  constructor
  · rw [← hiff]
    unfold joinThetas
    cases h : joinThetasCheck 0 args with
    | error e => simp [herr args 0 e h]
    | ok u => simp
  · intro e h
    unfold joinThetas at h
    cases hc : joinThetasCheck 0 args with
    | error e' =>
        rw [hc] at h
        simp only [Except.error.injEq] at h
        rw [← h]
        exact herr args 0 e' hc
    | ok u => rw [hc] at h; cases h

/-- Value at every element: present iff some argument has the element, and then it is the
concatenation of the arguments' values in argument order; the result is a proper dictionary. -/
theorem C04_join_value {α : Type*} (args : List (Option (Theta α))) (r : Theta α)
    (h : joinThetas args = .ok r) :
    r.WF ∧ ∀ i, ((∃ th, some th ∈ args ∧ i ∈ th.keys) → r.get? i = some (Spec.concatAt args i)) ∧
      ((¬ ∃ th, some th ∈ args ∧ i ∈ th.keys) → r.get? i = none) := by
  unfold joinThetas at h
  cases hc : joinThetasCheck 0 args with
  | error e => rw [hc] at h; cases h
  | ok u =>
      rw [hc] at h
      simp only [Except.ok.injEq] at h
      subst h
      constructor
      · unfold Theta.WF Theta.keys
        rw [List.map_map]
        have : ((fun x : Nat × List α => x.1) ∘ fun i => (i, args.flatMap (Theta.contribution i)))
            = id := rfl
        rw [this, List.map_id]
        unfold joinThetasKeys
        exact nodup_eraseDups _
      · intro i
        unfold Theta.get?
        rw [lookup_map_pair (joinThetasKeys args), flatMap_contribution]
        constructor
        · intro hi
          rw [if_pos ((mem_joinThetasKeys args i).2 hi)]
        · intro hi
          rw [if_neg (fun hm => hi ((mem_joinThetasKeys args i).1 hm))]

/-- Tables on the same elements `K` (empty tables and `None` allowed): joining succeeds, the result
is defined exactly on `K`, and at each element it is the concatenation of all non-empty arguments'
values, none missing. -/
theorem C04_join_same_elements {α : Type*} (args : List (Option (Theta α))) (K : List Nat)
    (hwf : ∀ th, some th ∈ args → th.WF) (hK : K.Nodup)
    (hsame : ∀ th, some th ∈ args → th ≠ [] → ∀ i, i ∈ th.keys ↔ i ∈ K)
    (hone : ∃ th, some th ∈ args ∧ th ≠ []) :
    ∃ r, joinThetas args = .ok r ∧ r.WF ∧ (∀ i, i ∈ r.keys ↔ i ∈ K) ∧
      ∀ i ∈ K, ∃ vals : List (List α), r.get? i = some vals.flatten ∧
        vals.map some = (args.filterMap fun a => a.bind fun th => if th = [] then none else some th).map
          fun th => Theta.get? th i := by
  have hlen : ∀ th, some th ∈ args → th ≠ [] → th.length = K.length := by
    intro th hth hne
    have hp : List.Perm th.keys K := (List.perm_ext_iff_of_nodup (hwf th hth) hK).2 (hsame th hth hne)
    have := hp.length_eq
    simpa [Theta.keys] using this
  have hss : Spec.sameSizes args := by
    intro a b ha hb hane hbne
    rw [hlen a ha hane, hlen b hb hbne]
  cases hj : joinThetas args with
  | error e =>
      have he := (C04_join_error_iff args).2 e hj
      subst he
      exact absurd hss ((C04_join_error_iff args).1.1 hj)
  | ok r =>
      obtain ⟨hrwf, hr⟩ := C04_join_value args r hj
      refine ⟨r, rfl, hrwf, ?_, ?_⟩
      · intro i
        have h1 : i ∈ r.keys ↔ ∃ th, some th ∈ args ∧ i ∈ th.keys := by
          by_cases hi : ∃ th, some th ∈ args ∧ i ∈ th.keys
          · refine ⟨fun _ => hi, fun _ => ?_⟩
            by_contra hc
            have := (Theta.get?_eq_none_iff r i).2 hc
            rw [(hr i).1 hi] at this
            cases this
          · refine ⟨fun h => ?_, fun h => absurd h hi⟩
            exact absurd h ((Theta.get?_eq_none_iff r i).1 ((hr i).2 hi))
        rw [h1]
        constructor
        · rintro ⟨th, hth, hi⟩
          have hne : th ≠ [] := by rintro rfl; simp [Theta.keys] at hi
          exact (hsame th hth hne i).1 hi
        · intro hi
          obtain ⟨th, hth, hne⟩ := hone
          exact ⟨th, hth, (hsame th hth hne i).2 hi⟩
      · intro i hi
        refine ⟨args.filterMap fun a => a.bind fun th => th.lookup i, ?_, ?_⟩
        · obtain ⟨th, hth, hne⟩ := hone
          exact (hr i).1 ⟨th, hth, (hsame th hth hne i).2 hi⟩
        · have : ∀ (as : List (Option (Theta α))), (∀ a ∈ as, a ∈ args) →
              ((as.filterMap fun a => a.bind fun th => th.lookup i).map some
                = (as.filterMap fun a => a.bind fun th => if th = [] then none else some th).map
                  fun th => Theta.get? th i) := by
            intro as
            induction as with
            | nil => intro _; rfl
            | cons a as ih =>
                intro hsub
                have ih' := ih (fun b hb => hsub b (List.mem_cons_of_mem _ hb))
                cases a with
                | none => simpa using ih'
                | some th =>
                    by_cases hne : th = []
                    · subst hne
                      rw [List.filterMap_cons_none (by rfl), List.filterMap_cons_none (by simp)]
                      exact ih'
                    · have hmem : i ∈ th.keys :=
                        (hsame th (hsub _ (by simp)) hne i).2 hi
                      have hsome : th.get? i ≠ none := fun hc =>
                        (Theta.get?_eq_none_iff th i).1 hc hmem
                      obtain ⟨v, hv⟩ := Option.ne_none_iff_exists'.1 hsome
                      have hv' : List.lookup i th = some v := hv
                      simp only [List.filterMap_cons, Option.bind_some, hv', hne, if_false,
                        List.map_cons, hv]
                      rw [ih']
          exact this args (fun a ha => ha)

/-- `create_constant_theta` is defined exactly on `0..n-1` with `dim` copies of the constant. -/
theorem C04_constant {α : Type*} (c : α) (dim n i : Nat) :
    (createConstantTheta c dim n).WF ∧
    (i < n → (createConstantTheta c dim n).get? i = some (List.replicate dim c)) ∧
    (n ≤ i → (createConstantTheta c dim n).get? i = none) := by
  unfold createConstantTheta
  refine ⟨?_, ?_, ?_⟩
  · unfold Theta.WF Theta.keys
    rw [List.map_map]
    have : ((fun x : Nat × List α => x.1) ∘ fun i => (i, List.replicate dim c)) = id := rfl
    rw [this, List.map_id]
    exact List.nodup_range
  · intro h
    unfold Theta.get?
    rw [lookup_map_pair (List.range n) (fun _ => List.replicate dim c) i]
    simp [h]
  · intro h
    unfold Theta.get?
    rw [lookup_map_pair (List.range n) (fun _ => List.replicate dim c) i]
    simp [Nat.not_lt.2 h]

/-- Finding: tables with the same number of elements but different elements are accepted, although
the documentation requires equal keys; each element then only holds part of the arguments. -/
theorem C04_different_elements_accepted :
    joinThetas [some [(0, [10])], some [(1, [20])]] = .ok [(0, [10]), (1, [20])] := by decide

example : joinThetas [some [(0, [1, 2]), (1, [3])], none, some [], some [(1, [5]), (0, [4])]]
    = .ok [(0, [1, 2, 4]), (1, [3, 5])] := by decide
example : joinThetas [some [(0, [1]), (1, [3])], some [(1, [5])]]
    = (.error .valueError : Except Err (Theta Nat)) := by decide

end Verif
