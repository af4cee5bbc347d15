import Verif.Lemmas.Simulate
import Verif.Lemmas.Dict
/-!
# C24: simulation over a list of times
-/
namespace Verif
open SimArgs

/-- The element-wise description of a chained simulation: one sample per time plus the initial one,
and element `k` integrates from the previous time and the previous final state, with the parameters
`[p; theta_k; u_k]` and the previous algebraic variables as guess. -/
structure Spec.Chained (m : SysModel) (integ : Plugin → Integrator) (ty : String)
    (fu : ControlFn) (x0 : Vec) (tf : List Rat) (t0 : Rat) (u : Nat → Option Vec) (p : Vec)
    (theta : Nat → Option Vec) (y0 : Option Vec) (o : SimOut) : Prop where
  times : o.tx = t0 :: tf ∧ o.tyu = tf
  sizes : o.x.length = tf.length + 1 ∧ o.y.length = tf.length ∧ o.u.length = tf.length
  start : o.x.head? = some x0
  element : ∀ k (hk : k < tf.length), ∃ th uk xk xk' yk' tk,
    theta k = some th ∧ u k = some uk ∧ o.x[k]? = some xk ∧ o.x[k + 1]? = some xk' ∧
    o.y[k]? = some yk' ∧ o.tx[k]? = some tk ∧
    m.getDae.simulate integ ty xk tf[k] tk (p ++ th ++ uk) (if k = 0 then y0 else o.y[k - 1]?) =
      .ok (xk', yk') ∧
    o.u[k]? = some (fu tf[k] xk' yk' p th uk)

/-- The dictionary `theta` that `simulate` uses. -/
def Spec.thetaOf (theta : Option (Dict Nat Vec)) (n : Nat) : Dict Nat Vec :=
  theta.getD ((List.range n).map fun k => (k, []))

/-- C24. A simulation that returns is chained. -/
theorem C24_chained (m : SysModel) (integ : Plugin → Integrator) (ty : Option String)
    (fu : ControlFn) (x0 : Vec) (tf : List Rat) (t0 : Rat) (u : UArg) (p : Vec)
    (theta : Option (Dict Nat Vec)) (y0 : Option Vec) (o : SimOut)
    (h : m.simulate integ ty fu x0 tf t0 u p theta y0 = .ok o) :
    Spec.Chained m integ (ty.getD "implicit") fu x0 tf t0 (u.toDict tf.length).get? p
      (Spec.thetaOf theta tf.length).get? y0 o := by
  unfold SysModel.simulate at h
  simp only at h
  split at h
  · simp at h
  · generalize ha : SimArgs.mk _ _ _ _ _ _ _ = a at h
    split at h
    · simp at h
    · next s hs =>
      split at h
      · simp at h
      · simp only [Except.ok.injEq] at h
        obtain ⟨xs, ys, us, ho, hx, hy, hu, -, hj⟩ := loop_ok a 0 tf _ s hs
        simp only [List.nil_append, List.cons_append] at ho
        rw [h] at ho
        subst ho
        refine ⟨⟨rfl, rfl⟩, ⟨by simp [hx], hy, hu⟩, rfl, fun k hk => ?_⟩
        have hxk : k < xs.length := by omega
        have hyk : k < ys.length := by omega
        have huk : k < us.length := by omega
        have hx0 : k < (x0 :: xs).length := by simp; omega
        have ht0 : k < (t0 :: tf).length := by simp; omega
        have hy0 : k < (y0 :: ys.map some).length := by simp; omega
        obtain ⟨th, uk, h₁, h₂, h₃, h₄⟩ := hj k _ _ _ _ _ _ _
          (List.getElem?_eq_getElem ht0) (List.getElem?_eq_getElem hk)
          (List.getElem?_eq_getElem hx0) (List.getElem?_eq_getElem hy0)
          (List.getElem?_eq_getElem hxk) (List.getElem?_eq_getElem hyk)
          (List.getElem?_eq_getElem huk)
        rw [Nat.zero_add] at h₁ h₂
        rw [← ha] at h₁ h₂ h₃ h₄
        refine ⟨th, uk, _, _, _, _, h₁, h₂, List.getElem?_eq_getElem hx0,
          by rw [List.getElem?_cons_succ]; exact List.getElem?_eq_getElem hxk,
          List.getElem?_eq_getElem hyk, List.getElem?_eq_getElem ht0, ?_, ?_⟩
        · simp only at h₃
          rw [← h₃]
          congr 1
          cases k with
          | zero => rfl
          | succ k =>
            simp only [Nat.add_one_ne_zero, if_false, Nat.add_sub_cancel, List.getElem_cons_succ,
              List.getElem_map]
            exact List.getElem?_eq_getElem (by omega)
        · rw [List.getElem?_eq_getElem huk, h₄]

/-- C24. Restarting: simulating over `tf ++ tf'` gives the states of simulating over `tf` followed by
those of simulating over `tf'` from the final point reached, with the inputs of the remaining
elements. -/
theorem C24_restart (m : SysModel) (integ : Plugin → Integrator) (ty : Option String)
    (fu : ControlFn) (x0 : Vec) (tf tf' : List Rat) (t0 : Rat) (u u₁ u₂ : UArg) (p : Vec)
    (th th₁ th₂ : Dict Nat Vec) (y0 : Option Vec) (o : SimOut) (hne : tf ≠ []) (hne' : tf' ≠ [])
    (hu₁ : ∀ k < tf.length, (u₁.toDict tf.length).get? k = (u.toDict (tf ++ tf').length).get? k)
    (hu₂ : ∀ k < tf'.length, (u₂.toDict tf'.length).get? k =
      (u.toDict (tf ++ tf').length).get? (tf.length + k))
    (hl₁ : (u₁.toDict tf.length).length = tf.length)
    (hl₂ : (u₂.toDict tf'.length).length = tf'.length)
    (ht₁ : ∀ k < tf.length, th₁.get? k = th.get? k)
    (ht₂ : ∀ k < tf'.length, th₂.get? k = th.get? (tf.length + k))
    (h : m.simulate integ ty fu x0 (tf ++ tf') t0 u p (some th) y0 = .ok o) :
    ∃ o₁ o₂ xm ym, m.simulate integ ty fu x0 tf t0 u₁ p (some th₁) y0 = .ok o₁ ∧
      o₁.x.getLast? = some xm ∧ o₁.y.getLast? = some ym ∧
      m.simulate integ ty fu xm tf' (tf.getLast hne) u₂ p (some th₂) (some ym) = .ok o₂ ∧
      o.tx = o₁.tx ++ o₂.tx.tail ∧ o.x = o₁.x ++ o₂.x.tail ∧ o.tyu = o₁.tyu ++ o₂.tyu ∧
      o.y = o₁.y ++ o₂.y ∧ o.u = o₁.u ++ o₂.u := by
  unfold SysModel.simulate at h
  simp only [Option.getD_some] at h
  split at h
  · simp at h
  · generalize ha : SimArgs.mk _ _ _ _ _ _ _ = a at h
    split at h
    · simp at h
    · next s hs =>
      rw [if_neg (by simp [hne])] at h
      simp only [Except.ok.injEq] at h
      obtain ⟨s₁, h₁, h₂⟩ := (loop_append ..).mp hs
      obtain ⟨xs, ys, us, ho, hx, hy, hu, hlast, -⟩ := loop_ok a 0 tf _ s₁ h₁
      simp only [List.nil_append, List.cons_append] at ho
      -- first part
      have ha₁ : a.loop 0 tf = ({ a with theta := th₁, u := u₁.toDict tf.length }).loop 0 tf := by
        funext s
        have := loop_shift a { a with theta := th₁, u := u₁.toDict tf.length } 0 0 tf s rfl
          (fun j _ hj => by
            simp only [Nat.zero_add] at hj ⊢
            rw [ht₁ j hj, ← ha])
          (fun j _ hj => by
            simp only [Nat.zero_add] at hj ⊢
            rw [hu₁ j hj, ← ha])
        simpa using this
      have hsim₁ : m.simulate integ ty fu x0 tf t0 u₁ p (some th₁) y0 = .ok s₁.out := by
        unfold SysModel.simulate
        simp only [Option.getD_some]
        rw [if_neg (by simp [hl₁])]
        have : (SimArgs.mk m.getDae integ (ty.getD "implicit") fu p th₁ (u₁.toDict tf.length)) =
            { a with theta := th₁, u := u₁.toDict tf.length } := by rw [← ha]
        rw [this, ← ha₁, h₁]
        simp [hne]
      -- second part
      have ha₂ : ∀ s, a.loop (tf.length + 0) tf' s =
          ({ a with theta := th₂, u := u₂.toDict tf'.length }).loop 0 tf' s := by
        intro s
        refine loop_shift a { a with theta := th₂, u := u₂.toDict tf'.length } 0 tf.length tf' s rfl
          (fun j _ hj => ?_) (fun j _ hj => ?_)
        · simp only [Nat.zero_add] at hj ⊢
          rw [ht₂ j hj, ← ha]
        · simp only [Nat.zero_add] at hj ⊢
          rw [hu₂ j hj, ← ha]
      have hysne : ys ≠ [] := by
        intro h0
        rw [h0] at hy
        exact hne (List.eq_nil_of_length_eq_zero hy.symm)
      have ht : s₁.t = tf.getLast hne := by
        rw [hlast.1, List.getLast_cons hne]
      have hxk : s₁.out.x.getLast? = some s₁.xk := by
        rw [hlast.2.1, ho]
        exact List.getLast?_eq_getLast_of_ne_nil _
      have hyk : s₁.yk = some (ys.getLast hysne) := by
        rw [hlast.2.2, List.getLast_cons (by simpa using hysne)]
        exact List.getLast_map ..
      have h₂' : a.loop (tf.length + 0) tf' ⟨s₁.t, s₁.xk, s₁.yk, s₁.out⟩ = .ok s := by
        simpa using h₂
      obtain ⟨xs', ys', us', e₁, e₂⟩ := loop_out a _ tf' s₁.t s₁.xk s₁.yk s₁.out
        ⟨[s₁.t], [], [s₁.xk], [], []⟩ s h₂'
      refine ⟨s₁.out, ⟨s₁.t :: tf', tf', s₁.xk :: xs', ys', us'⟩, s₁.xk, ys.getLast hysne, hsim₁,
        hxk, ?_, ?_, ?_⟩
      · rw [ho]; exact List.getLast?_eq_getLast_of_ne_nil _
      · unfold SysModel.simulate
        simp only [Option.getD_some]
        rw [if_neg (by simp [hl₂])]
        have : (SimArgs.mk m.getDae integ (ty.getD "implicit") fu p th₂ (u₂.toDict tf'.length)) =
            { a with theta := th₂, u := u₂.toDict tf'.length } := by rw [← ha]
        rw [this, ← ha₂, ← ht, ← hyk, e₂]
        simp [hne']
      · rw [← h, e₁]
        exact ⟨rfl, rfl, rfl, rfl, rfl⟩

/-- C24. Two equal consecutive times raise `ValueError`; so does a number of inputs that differs
from the number of times. -/
theorem C24_rejected (m : SysModel) (integ : Plugin → Integrator) (ty : Option String)
    (fu : ControlFn) (x0 : Vec) (t0 : Rat) (p : Vec) (y0 : Option Vec) :
    (∀ ts u, m.simulate integ ty fu x0 (t0 :: ts) t0 (.const u) p none y0 = .error .valueError) ∧
    (∀ (tf : List Rat) (d : Dict Nat Vec) th, 1 < tf.length → d.length ≠ tf.length →
      m.simulate integ ty fu x0 tf t0 (.dict d) p th y0 = .error .valueError) ∧
    (∀ u th, m.simulate integ ty fu x0 [] t0 u p th y0 = .error .indexError) := by
  refine ⟨fun ts u => ?_, fun tf d th h₁ h₂ => ?_, fun u th => ?_⟩
  · unfold SysModel.simulate
    simp only
    rw [if_neg (by simp [UArg.toDict])]
    simp only [UArg.toDict]
    rw [SimArgs.loop, SimArgs.step]
    have hg : ∀ (v : Vec) n, 0 < n → dictGet ((List.range n).map fun k => (k, v)) 0 = .ok v := by
      intro v n hn
      obtain ⟨n, rfl⟩ := Nat.exists_eq_succ_of_ne_zero hn.ne'
      rw [List.range_succ_eq_map]
      simp [dictGet, Dict.get?]
    simp only [Option.getD_none]
    rw [hg _ _ (by simp), hg _ _ (by simp)]
    simp [bind, Except.bind, Dae.simulate]
  · unfold SysModel.simulate
    simp only
    rw [if_pos ⟨h₁, h₂⟩]
  · unfold SysModel.simulate
    simp [SimArgs.loop]

/-- C24. A dictionary of inputs without the first element is a `KeyError`, and so is one of element
parameters. -/
theorem C24_missing (m : SysModel) (integ : Plugin → Integrator) (ty : Option String)
    (fu : ControlFn) (x0 : Vec) (t0 t : Rat) (ts : List Rat) (p : Vec) (y0 : Option Vec)
    (d th : Dict Nat Vec) (hd : d.length = ts.length + 1) (h : d.get? 0 = none ∨ th.get? 0 = none) :
    m.simulate integ ty fu x0 (t :: ts) t0 (.dict d) p (some th) y0 = .error .keyError := by
  unfold SysModel.simulate
  simp only
  rw [if_neg (fun hc => hc.2 hd)]
  simp only [UArg.toDict, Option.getD_some]
  rw [SimArgs.loop, SimArgs.step]
  unfold dictGet
  cases e : th.get? 0 with
  | none => simp [bind, Except.bind]
  | some v =>
    have : d.get? 0 = none := by rcases h with h | h <;> simp_all
    simp [this, bind, Except.bind]

/-- C24. A model whose equations mention element time cannot be simulated. -/
theorem C24_tau (d : Dae) (integ : Plugin → Integrator) (ty : String) (x0 : Vec) (tf t0 : Rat)
    (p : Vec) (y0 : Option Vec) (tau : Sym) (ht : d.tau = some tau) (hd : d.dependsOn [tau] = true)
    (hne : tf ≠ t0) : d.simulate integ ty x0 tf t0 p y0 = .error .attributeError := by
  simp [Dae.simulate, hne, ht, hd]

/-- C24. The integrator follows the kind of the system: with the default type, `idas` exactly when
there are algebraic equations. -/
theorem C24_plugin (d : Dae) : choosePlugin d "implicit" =
    .ok (if d.alg.length ≠ 0 then .idas else .cvodes) := by
  unfold choosePlugin Dae.isDae
  by_cases h : d.alg.length = 0 <;> simp [h]

/-- C24. The other types name their integrator, whatever the system; `explicit` stands for `rk`, and an
unknown type is rejected. -/
theorem C24_named (d : Dae) (ty : String) (hi : ty ≠ "implicit") : choosePlugin d ty =
    if ty = "explicit" ∨ ty = "rk" then .ok .rk else if ty = "collocation" then .ok .collocation
    else if ty = "cvodes" then .ok .cvodes else if ty = "idas" then .ok .idas
    else .error .valueError := by
  unfold choosePlugin
  by_cases he : ty = "explicit"
  · subst he
    simp
  · simp [he, hi]

/-- A misspelt type. -/
example (d : Dae) : choosePlugin d "RK" = .error .valueError :=
  (C24_named d "RK" (by decide)).trans (by decide)

/-- An explicit Euler integrator on a model with one state: three elements, chained. -/
example : (SysModel.simulate
    { t := 0, tau := 1, x := [2], ode := [(2, some (.sym 3))], u := [3], uExpr := [.sym 3] }
    (fun _ t0 tf x p _ => (x.map fun a => a + (tf - t0) * p.headD 0, []))
    none (fun _ _ _ _ _ u => u) [1] [1, 2, 4] 0 (.const [10]) [] none none) =
    .ok ⟨[0, 1, 2, 4], [1, 2, 4], [[1], [11], [21], [41]], [[], [], []], [[10], [10], [10]]⟩ := by
  decide +kernel

end Verif
