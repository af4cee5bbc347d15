import Verif.Spec.DistAL
import Verif.Lemmas.Ocp
import Verif.Props.Poly
import Mathlib.Tactic.Ring
import Mathlib.Tactic.Linarith
namespace Verif.DistAL
open Verif Verif.Spec

theorem getElem?_flatMap_const {α β : Type} (F : List α) (g : α → List β) (d : Nat)
    (hg : ∀ a ∈ F, (g a).length = d) (p j : Nat) (hj : j < d) :
    (F.flatMap g)[p * d + j]? = F[p]?.bind fun a => (g a)[j]? := by
  induction F generalizing p with
  | nil => simp
  | cons a F ih =>
    rw [List.flatMap_cons]
    have ha := hg a (by simp)
    cases p with
    | zero => rw [List.getElem?_append_left (by omega)]; simp
    | succ p =>
      have : (p + 1) * d + j - d = p * d + j := by rw [Nat.add_mul]; omega
      rw [List.getElem?_append_right (by rw [ha, Nat.add_mul]; omega), ha, this,
        ih (fun a h => hg a (by simp [h]))]
      simp

theorem getElem?_flatMap_offset {α β : Type} (F : List α) (g : α → List β) (a k : Nat) (x : α)
    (hx : F[a]? = some x) (hk : k < (g x).length) :
    (F.flatMap g)[((F.take a).map fun l => (g l).length).sum + k]? = (g x)[k]? := by
  induction F generalizing a with
  | nil => simp at hx
  | cons y F ih =>
    rw [List.flatMap_cons]
    cases a with
    | zero =>
      simp only [List.getElem?_cons_zero, Option.some.injEq] at hx
      subst hx
      simp [List.getElem?_append_left hk]
    | succ a =>
      simp only [List.take_succ_cons, List.map_cons, List.sum_cons]
      rw [List.getElem?_append_right (by omega), ← ih a (by simpa using hx)]
      congr 1
      omega

/-- The variables of all connections, each with the neighbour's values. -/
def slots {K : Type} (links : List (Link K)) : List (Nat → Nat → K) :=
  links.flatMap fun l => l.vars.map fun v => neighbourValue l v

theorem linkTheta_found {K : Type} (degree el : Nat) (l : Link K) (h : Found l) :
    linkTheta degree el l =
      (l.vars.map fun v => neighbourValue l v).flatMap fun f => (List.range degree).map (f el) := by
  unfold linkTheta
  rw [findIndices_nodup l.vars l.vector h.1 h.2, List.flatMap_map, List.flatMap_map]
  rfl

theorem nodeTheta_found {K : Type} (degree el : Nat) (links : List (Link K))
    (h : ∀ l ∈ links, Found l) :
    nodeTheta degree links el = (slots links).flatMap fun f => (List.range degree).map (f el) := by
  unfold nodeTheta slots
  rw [List.flatMap_assoc]
  apply List.flatMap_congr
  intro l hl
  exact linkTheta_found degree el l (h l hl)

theorem slots_getElem {K : Type} (links : List (Link K)) (a k : Nat) (l : Link K) (v : Sym)
    (hl : links[a]? = some l) (hk : l.vars[k]? = some v) :
    (slots links)[offset links a + k]? = some (neighbourValue l v) := by
  have hlt := (List.getElem?_eq_some_iff.1 hk).1
  have := getElem?_flatMap_offset links (fun l => l.vars.map fun v => neighbourValue l v) a k l hl
    (by simpa using hlt)
  simp only [List.length_map] at this
  unfold slots offset
  rw [this]
  simp [hk]

/-- The value of a variable at a collocation point is at its place in `theta`. -/
theorem nodeTheta_getElem {K : Type} (degree el : Nat) (links : List (Link K))
    (h : ∀ l ∈ links, Found l) (a k j : Nat) (l : Link K) (v : Sym)
    (hl : links[a]? = some l) (hk : l.vars[k]? = some v) (hj : j < degree) :
    (nodeTheta degree links el)[(offset links a + k) * degree + j]? =
      some (neighbourValue l v el j) := by
  rw [nodeTheta_found degree el links h, getElem?_flatMap_const _ _ degree (by simp) _ _ hj,
    slots_getElem links a k l v hl hk]
  simp [hj]

theorem findIndices_length {l : List Sym} (hn : l.Nodup) (u : List Sym) :
    (findIndices u l).length = (u.filter fun v => decide (v ∈ l)).length := by
  induction u with
  | nil => rfl
  | cons v u ih =>
    have hc : findIndices (v :: u) l = findIndices [v] l ++ findIndices u l := by
      simp [findIndices]
    rw [hc, List.length_append, ih]
    by_cases hv : v ∈ l
    · rw [findIndices_nodup [v] l hn (by simpa using hv)]
      simp [hv]; omega
    · have : findIndices [v] l = [] := by
        apply List.eq_nil_iff_forall_not_mem.2
        intro i hi
        obtain ⟨w, hw, hs⟩ := mem_findIndices.1 hi
        simp only [List.mem_singleton] at hw
        subst hw
        exact hv (List.mem_of_getElem? hs)
      simp [this, hv]

theorem linkTheta_length {K : Type} (degree el : Nat) (l : Link K) :
    (linkTheta degree el l).length = (findIndices l.vars l.vector).length * degree := by
  simp [linkTheta, List.length_flatMap]

/-! ### Interpolation -/

theorem poly_at_root {K : Type} [Field K] (roots : List K) (degree size : Nat)
    (hl : roots.length = degree) (hn : roots.Nodup) (points : Nat → Nat → K) (j : Nat)
    (hj : j < degree) :
    polyApproxUtil roots size degree false points (roots[j]?.getD 0) =
      (List.range size).map fun s => points s j := by
  by_cases h1 : degree = 1
  · have : j = 0 := by omega
    subst this
    rw [polyApproxUtil, if_pos h1]
  · have hj' : j < (interpolationNodes roots false).length := by
      simpa [interpolationNodes, hl] using hj
    have := C06_util_interpolates roots size degree false points h1
      (by simpa [interpolationNodes] using hn) j hj'
    rw [← this]
    congr 1
    simp [interpolationNodes, show j < roots.length by omega]

/-! ### Solving nodes -/

theorem foldl_store {N R : Type} [DecidableEq N] (f : N → Option R) (l : List N)
    (last : N → Option R) (m : N) :
    l.foldl (fun new n => store new n (f n)) last m =
      if m ∈ l then (f m).orElse fun _ => last m else last m := by
  induction l generalizing last with
  | nil => simp
  | cons n l ih =>
    simp only [List.foldl_cons]
    rw [ih]
    by_cases hm : m = n
    · subst hm
      simp only [store, if_true, List.mem_cons, true_or]
      cases f m <;> simp
    · simp [store, hm]

theorem serial_independent {N R : Type} [DecidableEq N] (connected : N → N → Prop)
    (solve : NodeSolver N R) (hr : ReadsNeighbours connected solve) (l : List N)
    (hi : Independent connected l) (cur last : N → Option R)
    (hc : ∀ n ∈ l, ∀ m, m = n ∨ connected n m → cur m = last m) :
    l.foldl (fun last n => store last n (solve n last)) cur =
      l.foldl (fun new n => store new n (solve n last)) cur := by
  induction l generalizing cur with
  | nil => rfl
  | cons n l ih =>
    simp only [List.foldl_cons]
    rw [hr n cur last (hc n (by simp))]
    obtain ⟨h1, h2⟩ := List.pairwise_cons.1 hi
    apply ih h2
    intro n' hn' m hm
    have hne : m ≠ n := by
      rintro rfl
      rcases hm with rfl | hm
      · exact (h1 _ hn').1 rfl
      · exact (h1 _ hn').2.2 hm
    simp only [store, if_neg hne]
    exact hc n' (by simp [hn']) m hm

/-- Serial solution of one block of nodes that are not connected. -/
theorem serial_block {N R : Type} [DecidableEq N] (connected : N → N → Prop)
    (solve : NodeSolver N R) (hr : ReadsNeighbours connected solve) (l : List N)
    (hi : Independent connected l) (last : N → Option R) (m : N) :
    l.foldl (fun last n => store last n (solve n last)) last m =
      if m ∈ l then (solve m last).orElse fun _ => last m else last m := by
  rw [serial_independent connected solve hr l hi last last (fun _ _ _ _ => rfl), foldl_store]

section Ordered
variable {K : Type} [Field K] [LinearOrder K]

theorem innerLoop_spec (tol : K) (objective : Nat → K) (n k : Nat) (last : Option K) :
    k ≤ innerLoop tol objective n k last ∧ innerLoop tol objective n k last ≤ k + n ∧
    (0 < n → k < innerLoop tol objective n k last) ∧
    (∀ i, k ≤ i → i + 1 < innerLoop tol objective n k last →
      innerStop tol (if i = k then last else some (objective (i - 1))) (objective i) = false) ∧
    (innerLoop tol objective n k last < k + n →
      ∃ i, innerLoop tol objective n k last = i + 1 ∧
        innerStop tol (if i = k then last else some (objective (i - 1))) (objective i) = true) := by
  induction n generalizing k last with
  | zero => simp [innerLoop]; intros; omega
  | succ n ih =>
    unfold innerLoop
    split
    · next hs =>
      refine ⟨by omega, by omega, by omega, fun i _ h => by omega, fun _ => ⟨k, rfl, ?_⟩⟩
      rw [if_pos rfl]; exact hs
    · next hs =>
      obtain ⟨h1, h2, h3, h4, h5⟩ := ih (k + 1) (some (objective k))
      refine ⟨by omega, by omega, fun _ => by omega, ?_, ?_⟩
      · intro i hi hlt
        by_cases hik : i = k
        · subst hik; rw [if_pos rfl]; simpa using hs
        · have := h4 i (by omega) hlt
          rw [if_neg hik]
          by_cases hik' : i = k + 1
          · subst hik'
            simpa using this
          · rwa [if_neg hik'] at this
      · intro hlt
        obtain ⟨i, hi, hst⟩ := h5 (by omega)
        refine ⟨i, hi, ?_⟩
        have hik : i ≠ k := by omega
        rw [if_neg hik]
        by_cases hik' : i = k + 1
        · subst hik'; simpa using hst
        · rwa [if_neg hik'] at hst

theorem maxStar_ok {α : Type} [LinearOrder α] (l : List α) (h : 2 ≤ l.length) :
    ∃ m, maxStar l = .ok m ∧ m ∈ l ∧ ∀ x ∈ l, x ≤ m := by
  have key : ∀ (l : List α) (a : α), l.foldl max a ∈ a :: l ∧ ∀ x ∈ a :: l, x ≤ l.foldl max a := by
    intro l
    induction l with
    | nil => intro a; simp
    | cons b l ih =>
      intro a
      simp only [List.foldl_cons]
      obtain ⟨h1, h2⟩ := ih (max a b)
      have hm : max a b ≤ l.foldl max (max a b) := h2 _ (by simp)
      refine ⟨?_, ?_⟩
      · rcases List.mem_cons.1 h1 with h | h
        · rw [h]
          rcases max_choice a b with h' | h' <;> rw [h'] <;> simp
        · simp [h]
      · intro x hx
        rcases List.mem_cons.1 hx with rfl | hx
        · exact le_trans (le_max_left _ _) hm
        · rcases List.mem_cons.1 hx with rfl | hx
          · exact le_trans (le_max_right _ _) hm
          · exact h2 x (by simp [hx])
  match l, h with
  | a :: b :: l, _ => exact ⟨_, rfl, key (b :: l) a⟩

theorem maxAbs_le [IsStrictOrderedRing K] (l : List K) (c : K) (hc : 0 ≤ c) :
    AugLag.maxAbs l ≤ c ↔ ∀ x ∈ l, |x| ≤ c := by
  have key : ∀ (l : List K) (a : K),
      l.foldl (fun m v => max m |v|) a ≤ c ↔ a ≤ c ∧ ∀ x ∈ l, |x| ≤ c := by
    intro l
    induction l with
    | nil => intro a; simp
    | cons y l ih => intro a; simp [ih, and_assoc]
  unfold AugLag.maxAbs
  rw [key]; simp [hc]

theorem foldl_dual_le [IsStrictOrderedRing K] (own : Nat) (ins : List (Exogenous K)) (c : K)
    (hc : 0 ≤ c) (s : WithBot K) :
    ins.foldl (fun (s : WithBot K) d => if d.block < own then s
        else max s (AugLag.maxAbs (List.zipWith (· - ·) d.data d.previous) : K)) s ≤ (c : WithBot K) ↔
      s ≤ (c : WithBot K) ∧
      ∀ d ∈ ins, own ≤ d.block → ∀ x ∈ List.zipWith (· - ·) d.data d.previous, |x| ≤ c := by
  induction ins generalizing s with
  | nil => simp
  | cons e ins ih =>
    rw [List.foldl_cons, ih]
    simp only [List.forall_mem_cons]
    split
    · next h =>
      constructor
      · exact fun ⟨h1, h2⟩ => ⟨h1, fun h' => by omega, h2⟩
      · exact fun ⟨h1, _, h2⟩ => ⟨h1, h2⟩
    · next h =>
      rw [max_le_iff, WithBot.coe_le_coe, maxAbs_le _ _ hc]
      constructor
      · exact fun ⟨⟨h1, h3⟩, h2⟩ => ⟨h1, fun _ => h3, h2⟩
      · exact fun ⟨h1, h3, h2⟩ => ⟨⟨h1, h3 (by omega)⟩, h2⟩

end Ordered

/-! ### Updates of all nodes -/

theorem largest_ok {K : Type} [LinearOrder K] (l : List K) (h : l ≠ []) :
    ∃ m, largest l = .ok m ∧ m ∈ l ∧ ∀ x ∈ l, x ≤ m := by
  match l, h with
  | a :: l, _ =>
    refine ⟨l.foldl max a, rfl, ?_⟩
    induction l generalizing a with
    | nil => simp
    | cons b l ih =>
      obtain ⟨h1, h2⟩ := ih (max a b) (by simp)
      rw [List.foldl_cons]
      refine ⟨?_, ?_⟩
      · rw [List.mem_cons] at h1
        rcases h1 with h1 | h1
        · rw [h1]
          rcases max_choice a b with h | h <;> rw [h] <;> simp
        · simp [h1]
      · intro x hx
        simp only [List.mem_cons] at hx
        have h3 := h2 (max a b) (by simp)
        rcases hx with rfl | rfl | hx
        · exact (le_max_left _ _).trans h3
        · exact (le_max_right _ _).trans h3
        · exact h2 x (by simp [hx])

/-- The penalties of all nodes have a largest one. -/
theorem largest_all {K : Type} [LinearOrder K] (mus : List (List K)) (h : mus ≠ [])
    (hm : ∀ mu ∈ mus, mu ≠ []) :
    ∃ tops top, mus.mapM (fun mu => largest mu) = .ok tops ∧ largest tops = .ok top ∧
      Spec.LargestPenalty mus top := by
  have key : ∃ tops, mus.mapM (fun mu => largest mu) = .ok tops ∧ tops.length = mus.length ∧
      (∀ t ∈ tops, ∃ mu ∈ mus, t ∈ mu) ∧ ∀ mu ∈ mus, ∃ t ∈ tops, ∀ x ∈ mu, x ≤ t := by
    clear h
    induction mus with
    | nil => exact ⟨[], rfl, rfl, by simp, by simp⟩
    | cons mu mus ih =>
      obtain ⟨tops, h1, h2, h3, h4⟩ := ih fun m hm' => hm m (by simp [hm'])
      obtain ⟨t, t1, t2, t3⟩ := largest_ok mu (hm mu (by simp))
      refine ⟨t :: tops, ?_, by simp [h2], ?_, ?_⟩
      · simp [List.mapM_cons, h1, t1, bind, Except.bind, pure, Except.pure]
      · intro x hx
        rw [List.mem_cons] at hx
        rcases hx with rfl | hx
        · exact ⟨mu, by simp, t2⟩
        · obtain ⟨m, hm', hx'⟩ := h3 x hx
          exact ⟨m, by simp [hm'], hx'⟩
      · intro m hm'
        rw [List.mem_cons] at hm'
        rcases hm' with rfl | hm'
        · exact ⟨t, by simp, t3⟩
        · obtain ⟨t', ht', hx⟩ := h4 m hm'
          exact ⟨t', by simp [ht'], hx⟩
  obtain ⟨tops, h1, h2, h3, h4⟩ := key
  have hne : tops ≠ [] := by
    rintro rfl
    exact h (List.length_eq_zero_iff.1 h2.symm)
  obtain ⟨top, t1, t2, t3⟩ := largest_ok tops hne
  refine ⟨tops, top, h1, t1, h3 top t2, fun mu hmu m hm' => ?_⟩
  obtain ⟨t, ht, hx⟩ := h4 mu hmu
  exact (hx m hm').trans (t3 t ht)

/-- The distributed update of nodes that have penalties. -/
theorem updateDistributed_eq {K : Type} [Field K] [LinearOrder K]
    (nodes : List (Py (AugLag.St K) (List K) × AugLag.St K))
    (r : List (List K × AugLag.St K)) (h : updateSerial nodes = .ok r) (hr : r ≠ [])
    (hm : ∀ n ∈ r, n.2.mu ≠ []) :
    ∃ top, Spec.LargestPenalty (r.map fun n => n.2.mu) top ∧
      updateDistributed nodes = .ok (r.map (levelled top)) := by
  obtain ⟨tops, top, h1, h2, h3⟩ := largest_all (r.map fun n => n.2.mu) (by simpa using hr)
    (fun mu hmu => by obtain ⟨n, hn, rfl⟩ := List.mem_map.1 hmu; exact hm n hn)
  refine ⟨top, h3, ?_⟩
  have h1' : r.mapM (fun n => largest n.2.mu) = .ok tops := by
    rw [← h1, List.mapM_map]
    rfl
  simp only [updateDistributed, h, h1', h2, bind, Except.bind]

/-- An update with the constant or the bounded-increase rule treats all penalties alike. -/
theorem updateParameters_mu {K : Type} [Field K] [LinearOrder K] (o : AugLag.Opts K)
    (viol : List (List (List K))) (s s' : AugLag.St K) (e : List K)
    (hr : o.rule = "constant" ∨ o.rule = "bounded-increase")
    (h : AugLag.updateParameters o viol s = (.ok e, s')) :
    s'.mu = s.mu.map fun m => if o.skipUpdateMu = true ∨ o.rule = "constant" then m
      else min o.muMax (m * o.beta) := by
  have h1 : Py.Always (fun t : AugLag.St K => t.mu = s.mu) (AugLag.computeNu o viol) := by
    unfold AugLag.computeNu
    split
    · exact Py.Always.pure _
    · refine Py.Always.bind Py.Always.get fun t => ?_
      simp only
      split
      · exact Py.Always.bind (Py.Always.pure _) fun _ => Py.Always.pure _
      · refine Py.Always.bind ?_ fun _ => Py.Always.pure _
        unfold AugLag.storeNu
        refine Py.Always.bind Py.Always.get fun t => ?_
        split
        · refine Py.Always.forEach _ _ fun e _ => ?_
          unfold AugLag.improveEntry
          split
          · refine Py.Always.bind (Py.Always.modify _ fun _ h => h) fun _ => ?_
            unfold AugLag.copyEntry
            refine Py.Always.bind Py.Always.get fun t => ?_
            split
            · exact Py.Always.throw _
            · exact Py.Always.modify _ fun _ h => h
          · exact Py.Always.pure _
        · exact Py.Always.modify _ fun _ h => h
  unfold AugLag.updateParameters at h
  obtain ⟨e', s₁, h₁, h₂⟩ := Py.bind_eq_ok.mp h
  rw [Py.bind_eq, Py.get_bind] at h₂
  obtain ⟨_, s₂, h₃, h₄⟩ := Py.bind_eq_ok.mp h₂
  cases h₄
  have hs : s₁.mu = s.mu := by
    have := h1 s rfl
    rw [h₁] at this
    exact this
  unfold AugLag.updateMu at h₃
  by_cases hk : o.skipUpdateMu = true
  · rw [if_pos hk] at h₃
    cases h₃
    simp [hs, hk]
  · rw [if_neg hk] at h₃
    rcases hr with hr | hr
    · rw [if_pos hr] at h₃
      cases h₃
      simp [hs, hr]
    · simp only [hr] at h₃
      simp only [String.reduceEq, if_false, if_true] at h₃
      cases h₃
      simp [hs, hr, hk]

end Verif.DistAL
