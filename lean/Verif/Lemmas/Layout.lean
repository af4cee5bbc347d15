import Verif.Spec.Layout
import Verif.Lemmas.Py
import Verif.Lemmas.Ocp
/-!
# Reading a vector block by block
-/
namespace Verif
namespace Layout

variable {α β γ : Type}

/-- Reading `len` entries: succeeds exactly when they are there, and then the entries of the result
are those of the vector. -/
def Reads (v : List α) (m : Py Nat β) (out : β → List α) (shape : β → Prop) (len : Nat) : Prop :=
  ∀ o, o ≤ v.length →
    (o + len ≤ v.length → ∃ b, m o = (.ok b, o + len) ∧ out b = (v.drop o).take len ∧ shape b) ∧
    (v.length < o + len → (m o).1 = .error .runtimeError)

theorem reads_readNext (v : List α) (n : Nat) :
    Reads v (readNext v n) id (fun b => b.length = n) n := by
  intro o ho
  constructor
  · intro h
    refine ⟨(v.drop o).take n, ?_, rfl, by simp; omega⟩
    simp only [readNext, slice, Py.get_bind, Py.bind_eq, if_pos h]
    rw [Py.lift_ok_bind, Py.modify_bind]
    simp only [Py.pure, List.drop_take]
    congr 3
    omega
  · intro h
    simp only [readNext, slice, Py.get_bind, Py.bind_eq, if_neg (by omega : ¬ o + n ≤ v.length)]
    rw [Py.lift_error_bind]

theorem take_add_drop (v : List α) (o a b : Nat) :
    (v.drop o).take (a + b) = (v.drop o).take a ++ (v.drop (o + a)).take b := by
  rw [List.take_add, List.drop_drop]

theorem reads_bind {v : List α} {m : Py Nat β} {f : β → Py Nat γ} {o₁ : β → List α}
    {s₁ : β → Prop} {n₁ n₂ : Nat} {out : γ → List α} {shape : γ → Prop}
    (h₁ : Reads v m o₁ s₁ n₁)
    (h₂ : ∀ b, s₁ b → ∃ o₂ s₂, Reads v (f b) o₂ s₂ n₂ ∧
      ∀ c, s₂ c → out c = o₁ b ++ o₂ c ∧ shape c) :
    Reads v (Py.bind m f) out shape (n₁ + n₂) := by
  intro o ho
  obtain ⟨hok, herr⟩ := h₁ o ho
  constructor
  · intro h
    obtain ⟨b, hb, hout, hs⟩ := hok (by omega)
    obtain ⟨o₂, s₂, hr, hc⟩ := h₂ b hs
    obtain ⟨c, hfc, hoc, hsc⟩ := (hr (o + n₁) (by omega)).1 (by omega)
    refine ⟨c, ?_, ?_, (hc c hsc).2⟩
    · rw [Py.bind_ok hb, hfc, Nat.add_assoc]
    · rw [(hc c hsc).1, hout, hoc, take_add_drop]
  · intro h
    by_cases h' : o + n₁ ≤ v.length
    · obtain ⟨b, hb, hout, hs⟩ := hok h'
      obtain ⟨o₂, s₂, hr, hc⟩ := h₂ b hs
      rw [Py.bind_ok hb]
      exact (hr (o + n₁) h').2 (by omega)
    · have := herr (by omega)
      have he : m o = (.error .runtimeError, (m o).2) := Prod.ext this rfl
      rw [Py.bind_error he]

theorem reads_pure (v : List α) (b : β) (out : β → List α) (shape : β → Prop) (ho : out b = [])
    (hs : shape b) : Reads v (Py.pure b) out shape 0 := by
  intro o h
  exact ⟨fun _ => ⟨b, rfl, by simp [ho], hs⟩, fun h' => by omega⟩

theorem reads_collect {v : List α} {m : Py Nat β} {out : β → List α} {shape : β → Prop} {n : Nat}
    (h : Reads v m out shape n) (k : Nat) :
    Reads v (collect k m) (fun bs => (bs.map out).flatten)
      (fun bs => bs.length = k ∧ ∀ b ∈ bs, shape b) (k * n) := by
  induction k with
  | zero => rw [Nat.zero_mul]; exact reads_pure v [] _ _ rfl (by simp)
  | succ k ih =>
    rw [Nat.succ_mul, Nat.add_comm (k * n)]
    refine reads_bind h fun b hb => ?_
    refine ⟨fun bs => (bs.tail.map out).flatten,
      fun bs => (bs.head? = some b) ∧ bs.tail.length = k ∧ ∀ b ∈ bs.tail, shape b, ?_, ?_⟩
    · have := reads_bind (f := fun bs => Py.pure (b :: bs)) (n₂ := 0)
        (out := fun bs => (bs.tail.map out).flatten)
        (shape := fun bs => (bs.head? = some b) ∧ bs.tail.length = k ∧ ∀ b ∈ bs.tail, shape b)
        ih (fun bs hbs => ⟨fun _ => [], fun c => c = b :: bs,
          reads_pure v _ _ _ rfl rfl, by rintro c rfl; simpa using hbs⟩)
      simpa using this
    · rintro (_ | ⟨c, cs⟩) ⟨h1, h2, h3⟩
      · simp at h1
      · simp only [List.head?_cons, Option.some.injEq] at h1
        subst h1
        simp only [List.tail_cons] at h2 h3
        exact ⟨by simp, by simp [h2], by simpa using ⟨hb, h3⟩⟩

theorem reads_grid (v : List α) (e k n : Nat) :
    Reads v (collect e (collect k (readNext v n))) (fun g => g.flatten.flatten) (Spec.Grid e k n)
      (e * (k * n)) := by
  have h := reads_collect (reads_collect (reads_readNext v n) k) e
  have : (fun bs : List (List (List α)) => (bs.map fun b => (b.map id).flatten).flatten) =
      fun g => g.flatten.flatten := by
    funext g
    simp only [List.map_id_fun, id]
    induction g with
    | nil => rfl
    | cons a g ih => simp [ih]
  rw [this] at h
  exact h

theorem reads_columns (v : List α) (k n : Nat) :
    Reads v (collect k (readNext v n)) List.flatten (Spec.Columns k n) (k * n) := by
  have h := reads_collect (reads_readNext v n) k
  simp only [List.map_id_fun, id] at h
  exact h

/-- Reading the rest of a vector and checking that nothing is left. -/
def Parses (v : List α) (m : Py Nat β) (P : β → List α → Prop) (len : Nat) : Prop :=
  ∀ o, o ≤ v.length →
    (o + len = v.length → ∃ b, (m o).1 = .ok b ∧ P b (v.drop o)) ∧
    (v.length < o + len → (m o).1 = .error .runtimeError) ∧
    (o + len < v.length → (m o).1 = .error .assertionError)

theorem parses_bind {v : List α} {m : Py Nat β} {f : β → Py Nat γ} {out : β → List α}
    {shape : β → Prop} {n₁ n₂ : Nat} {P : γ → List α → Prop} (h₁ : Reads v m out shape n₁)
    (h₂ : ∀ b, shape b → Parses v (f b) (fun c w => P c (out b ++ w)) n₂) :
    Parses v (Py.bind m f) P (n₁ + n₂) := by
  intro o ho
  obtain ⟨hok, herr⟩ := h₁ o ho
  by_cases h : o + n₁ ≤ v.length
  · obtain ⟨b, hb, hout, hs⟩ := hok h
    obtain ⟨h1, h2, h3⟩ := h₂ b hs (o + n₁) h
    rw [Py.bind_ok hb]
    refine ⟨fun h' => ?_, fun h' => h2 (by omega), fun h' => h3 (by omega)⟩
    obtain ⟨c, hc, hp⟩ := h1 (by omega)
    refine ⟨c, hc, ?_⟩
    rw [hout, ← List.drop_drop, List.take_append_drop] at hp
    exact hp
  · have he : m o = (.error .runtimeError, (m o).2) := Prod.ext (herr (by omega)) rfl
    rw [Py.bind_error he]
    exact ⟨fun h' => by omega, fun _ => rfl, fun h' => by omega⟩

theorem parses_end (v : List α) (b : β) (P : β → List α → Prop) (h : P b []) :
    Parses v (do
      let o ← Py.get
      Py.raiseIf (decide (o ≠ v.length)) .assertionError
      Py.pure b) P 0 := by
  intro o ho
  simp only [Py.bind_eq, Py.get_bind, Nat.add_zero]
  refine ⟨fun h' => ⟨b, ?_, ?_⟩, fun h' => by omega, fun h' => ?_⟩
  · simp [Py.raiseIf, h', Py.pure_bind, Py.pure]
  · rw [h', List.drop_length]; exact h
  · have : o ≠ v.length := by omega
    simp [Py.raiseIf, this, Py.throw, Py.bind]

theorem parses_lift {v : List α} {r : Except Err β} {a : β} {f : β → Py Nat γ}
    {P : γ → List α → Prop} {n : Nat} (hr : r = .ok a) (h : Parses v (f a) P n) :
    Parses v (Py.bind (Py.lift r) f) P n := by
  subst hr
  have : Py.bind (Py.lift (.ok a)) f = f a := by funext o; rw [Py.lift_ok_bind]
  rw [this]
  exact h

theorem lastPoint_grid {xs : List (List (List α))} {e k n : Nat} (h : Spec.Grid (e + 1) (k + 1) n xs) :
    ∃ before front last, xs = before ++ [front ++ [last]] ∧ lastPoint xs = .ok last := by
  obtain ⟨hl, hc⟩ := h
  rcases List.eq_nil_or_concat xs with rfl | ⟨before, lst, rfl⟩
  · simp at hl
  · have := (hc lst (by simp)).1
    rcases List.eq_nil_or_concat lst with rfl | ⟨front, last, rfl⟩
    · simp at this
    · exact ⟨before, front, last, by simp, by simp [lastPoint]⟩

/-- The entries of collocation data in the order of the decision vector. -/
theorem repack_eq (b : Blocks α) : repack b = b.x.dropLast.flatten.flatten ++ b.y.flatten.flatten ++
    b.u.flatten.flatten ++ b.eta ++ b.pOpt ++ b.thetaOpt.flatten := by
  simp [repack]

theorem parses_collocation (d : Dims) (hd : 0 < d.elements) (v : List α) :
    Parses v (unpackCollocation d v) (fun b w => w = repack b ∧ Spec.CollocationShape d b)
      (Spec.collocationSize d) := by
  obtain ⟨e, he⟩ : ∃ e, d.elements = e + 1 := ⟨d.elements - 1, by omega⟩
  have hsize : Spec.collocationSize d = d.elements * ((d.degree + 1) * d.nX) +
      (d.elements * (d.degree * d.nY) + (d.elements * (Spec.controlPoints d * d.nU) +
        (d.nEta + (d.nPOpt + (d.elements * d.nThetaOpt + 0))))) := by
    simp only [Spec.collocationSize, Spec.sharedSize]; omega
  rw [hsize]
  refine parses_bind (reads_grid v _ _ _) fun xs hxs => ?_
  have hx' := hxs
  rw [he] at hx'
  obtain ⟨before, front, last, hxe, hlast⟩ := lastPoint_grid hx'
  refine parses_lift hlast ?_
  refine parses_bind (reads_grid v _ _ _) fun y hy => ?_
  refine parses_bind (reads_grid v _ _ _) fun u hu => ?_
  refine parses_bind (reads_readNext v _) fun eta heta => ?_
  refine parses_bind (reads_readNext v _) fun pOpt hp => ?_
  refine parses_bind (reads_columns v _ _) fun th hth => ?_
  refine parses_end v _ _ ⟨?_, ?_⟩
  · simp [repack_eq]
  · exact ⟨⟨hu, heta, hp, hth⟩, ⟨before, front, last, by rw [hxe], by rw [← hxe]; exact hxs⟩, hy⟩

theorem parses_shooting (d : Dims) (v : List α) :
    Parses v (unpackShooting d v) (fun b w => w = stacked b ∧ Spec.ShootingShape d b)
      (Spec.shootingSize d) := by
  have hsize : Spec.shootingSize d = (d.elements + 1) * (1 * d.nX) +
      (d.elements * (1 * d.nY) + (d.elements * (Spec.controlPoints d * d.nU) +
        (d.nEta + (d.nPOpt + (d.elements * d.nThetaOpt + 0))))) := by
    simp only [Spec.shootingSize, Spec.sharedSize, Nat.one_mul]; omega
  rw [hsize]
  refine parses_bind (reads_grid v _ _ _) fun x hx => ?_
  refine parses_bind (reads_grid v _ _ _) fun y hy => ?_
  refine parses_bind (reads_grid v _ _ _) fun u hu => ?_
  refine parses_bind (reads_readNext v _) fun eta heta => ?_
  refine parses_bind (reads_readNext v _) fun pOpt hp => ?_
  refine parses_bind (reads_columns v _ _) fun th hth => ?_
  refine parses_end v _ _ ⟨?_, ?_⟩
  · simp [stacked]
  · exact ⟨⟨hu, heta, hp, hth⟩, hx, hy⟩

/-! ## Blocks of equal shape with the same entries are equal -/

theorem flatten_length_of_columns {k n : Nat} {a : List (List α)} (h : Spec.Columns k n a) :
    a.flatten.length = k * n := by
  obtain ⟨rfl, h⟩ := h
  induction a with
  | nil => simp
  | cons x a ih =>
    rw [List.flatten_cons, List.length_append, h x (by simp), ih fun c hc => h c (by simp [hc]),
      List.length_cons, Nat.succ_mul, Nat.add_comm]

theorem columns_inj {k n : Nat} {a b : List (List α)} (ha : Spec.Columns k n a)
    (hb : Spec.Columns k n b) (h : a.flatten = b.flatten) : a = b := by
  obtain ⟨rfl, ha⟩ := ha
  obtain ⟨hl, hb⟩ := hb
  induction a generalizing b with
  | nil => exact (List.length_eq_zero_iff.mp (by simpa using hl)).symm
  | cons x a ih =>
    cases b with
    | nil => simp at hl
    | cons y b =>
      simp only [List.flatten_cons] at h
      obtain ⟨rfl, h'⟩ := List.append_inj h (by rw [ha x (by simp), hb y (by simp)])
      rw [ih h' (fun c hc => ha c (by simp [hc])) (by simpa using hl)
        fun c hc => hb c (by simp [hc])]

theorem grid_columns {e k n : Nat} {g : List (List (List α))} (h : Spec.Grid e k n g) :
    Spec.Columns (e * k) n g.flatten := by
  obtain ⟨rfl, h⟩ := h
  constructor
  · have : Spec.Columns g.length k g := ⟨rfl, fun c hc => (h c hc).1⟩
    exact flatten_length_of_columns this
  · intro c hc
    obtain ⟨l, hl, hcl⟩ := List.mem_flatten.mp hc
    exact (h l hl).2 c hcl

theorem grid_inj {e k n : Nat} {a b : List (List (List α))} (ha : Spec.Grid e k n a)
    (hb : Spec.Grid e k n b) (h : a.flatten.flatten = b.flatten.flatten) : a = b := by
  have h' := columns_inj (grid_columns ha) (grid_columns hb) h
  exact columns_inj (k := e) (n := k) ⟨ha.1, fun c hc => (ha.2 c hc).1⟩
    ⟨hb.1, fun c hc => (hb.2 c hc).1⟩ h'

theorem grid_length {e k n : Nat} {g : List (List (List α))} (h : Spec.Grid e k n g) :
    g.flatten.flatten.length = e * (k * n) := by
  rw [flatten_length_of_columns (grid_columns h), Nat.mul_assoc]

theorem collocationStates_inj {d : Dims} {a b : List (List (List α))}
    (ha : Spec.CollocationStates d a) (hb : Spec.CollocationStates d b)
    (h : a.dropLast = b.dropLast) : a = b := by
  obtain ⟨a₁, a₂, a₃, rfl, -⟩ := ha
  obtain ⟨b₁, b₂, b₃, rfl, -⟩ := hb
  simp only [List.append_assoc, List.cons_append, List.nil_append] at h
  rw [List.dropLast_append_of_ne_nil (by simp), List.dropLast_append_of_ne_nil (by simp)] at h
  simp only [List.dropLast_cons_cons, List.dropLast_singleton] at h
  obtain ⟨h1, h2⟩ := List.append_inj' h rfl
  simp only [List.cons.injEq, and_true] at h2
  obtain ⟨h3, h4⟩ := List.append_inj' h2 rfl
  simp only [List.cons.injEq, and_true] at h4
  rw [h1, h3, h4]

theorem collocationStates_dropLast {d : Dims} {x : List (List (List α))}
    (h : Spec.CollocationStates d x) : Spec.Grid d.elements (d.degree + 1) d.nX x.dropLast := by
  obtain ⟨a₁, a₂, a₃, rfl, h⟩ := h
  rw [List.dropLast_concat]
  exact h

theorem repack_inj {d : Dims} {a b : Blocks α} (ha : Spec.CollocationShape d a)
    (hb : Spec.CollocationShape d b) (h : repack a = repack b) : a = b := by
  simp only [repack_eq] at h
  obtain ⟨h, hth⟩ := List.append_inj' h (by
    rw [flatten_length_of_columns ha.thetaOpt, flatten_length_of_columns hb.thetaOpt])
  obtain ⟨h, hp⟩ := List.append_inj' h (by rw [ha.pOpt, hb.pOpt])
  obtain ⟨h, he⟩ := List.append_inj' h (by rw [ha.eta, hb.eta])
  obtain ⟨h, hu⟩ := List.append_inj' h (by rw [grid_length ha.u, grid_length hb.u])
  obtain ⟨hx, hy⟩ := List.append_inj' h (by rw [grid_length ha.y, grid_length hb.y])
  have hx' := collocationStates_inj ha.x hb.x
    (grid_inj (collocationStates_dropLast ha.x) (collocationStates_dropLast hb.x) hx)
  have hy' := grid_inj ha.y hb.y hy
  have hu' := grid_inj ha.u hb.u hu
  have hth' := columns_inj ha.thetaOpt hb.thetaOpt hth
  cases a
  cases b
  simp_all

theorem stacked_inj {d : Dims} {a b : Blocks α} (ha : Spec.ShootingShape d a)
    (hb : Spec.ShootingShape d b) (h : stacked a = stacked b) : a = b := by
  simp only [stacked] at h
  obtain ⟨h, hth⟩ := List.append_inj' h (by
    rw [flatten_length_of_columns ha.thetaOpt, flatten_length_of_columns hb.thetaOpt])
  obtain ⟨h, hp⟩ := List.append_inj' h (by rw [ha.pOpt, hb.pOpt])
  obtain ⟨h, he⟩ := List.append_inj' h (by rw [ha.eta, hb.eta])
  obtain ⟨h, hu⟩ := List.append_inj' h (by rw [grid_length ha.u, grid_length hb.u])
  obtain ⟨hx, hy⟩ := List.append_inj' h (by rw [grid_length ha.y, grid_length hb.y])
  have hx' := grid_inj ha.x hb.x hx
  have hy' := grid_inj ha.y hb.y hy
  have hu' := grid_inj ha.u hb.u hu
  have hth' := columns_inj ha.thetaOpt hb.thetaOpt hth
  cases a
  cases b
  simp_all

theorem repack_length {d : Dims} {b : Blocks α} (h : Spec.CollocationShape d b) :
    (repack b).length = Spec.collocationSize d := by
  rw [repack_eq]
  simp only [List.length_append, flatten_length_of_columns h.thetaOpt, h.pOpt, h.eta,
    grid_length h.u, grid_length h.y, grid_length (collocationStates_dropLast h.x),
    Spec.collocationSize, Spec.sharedSize]
  omega

theorem stacked_length {d : Dims} {b : Blocks α} (h : Spec.ShootingShape d b) :
    (stacked b).length = Spec.shootingSize d := by
  simp only [stacked, List.length_append, flatten_length_of_columns h.thetaOpt, h.pOpt, h.eta,
    grid_length h.u, grid_length h.y, grid_length h.x, Spec.shootingSize, Spec.sharedSize,
    Nat.one_mul]
  omega

theorem elements_pos {d : Dims} {b : Blocks α} (h : Spec.CollocationShape d b) :
    0 < d.elements := by
  obtain ⟨a₁, a₂, a₃, -, h⟩ := h.x
  have := h.1
  simp at this
  omega

end Layout
end Verif
