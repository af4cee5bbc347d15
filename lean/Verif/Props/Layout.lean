import Verif.Lemmas.LayoutGuess
/-!
# The layout of decision vectors (C47, C48, C49, C90)
-/
namespace Verif
open Layout

variable {α β : Type}

/-! ## C47: collocation packing and unpacking are inverse -/

/-- **C47**: unpacking a vector and repacking gives the vector back, and what was unpacked is well
shaped. -/
theorem C47_unpack_repack (d : Dims) (v : List α) (b : Blocks α)
    (h : collocationBlocks d v = .ok b) : repack b = v ∧ Spec.CollocationShape d b :=
  collocationBlocks_ok h

/-- **C47**: packing well-shaped data and unpacking returns the data. -/
theorem C47_repack_unpack (d : Dims) (b : Blocks α) (h : Spec.CollocationShape d b) :
    collocationBlocks d (repack b) = .ok b :=
  collocationBlocks_repack h

/-- **C47**: a vector can be unpacked exactly when it has the right length; a shorter one raises
CasADi's out-of-bounds error and a longer one fails the assertion. -/
theorem C47_length (d : Dims) (hd : 0 < d.elements) (v : List α) :
    (v.length = Spec.collocationSize d → ∃ b, collocationBlocks d v = .ok b) ∧
    (v.length < Spec.collocationSize d → collocationBlocks d v = .error .runtimeError) ∧
    (Spec.collocationSize d < v.length → collocationBlocks d v = .error .assertionError) := by
  obtain ⟨h1, h2, h3⟩ := parses_collocation d hd v 0 (Nat.zero_le _)
  rw [Nat.zero_add] at h1 h2 h3
  refine ⟨fun h => ?_, h2, h3⟩
  obtain ⟨b, hb, -⟩ := h1 h.symm
  exact ⟨b, hb⟩

/-- **C47**: the variables are created in the order in which the vector is unpacked: whatever values
the solver gives them, unpacking returns for each element and point the values of the variable
created for it (and the last state once more). -/
theorem C47_created (d : Dims) (hd : 0 < d.elements) (sym : Kind → Nat → Nat → List Sym)
    (hs : Spec.SymSizes d sym) (bounds : VarBounds) (vars : Blocks Sym) (nlp : Nlp)
    (h : createCollocation d sym bounds {} = (.ok vars, nlp)) :
    vars = Spec.variableBlocks d d.elements (d.degree + 1) d.degree sym ∧ nlp.x = stacked vars ∧
    ∀ ρ : Sym → β, collocationBlocks d (nlp.x.map ρ) =
      .ok (Spec.withFinal (Spec.mapBlocks ρ vars)) := by
  obtain ⟨rfl, hx, -, -⟩ := creates_variables d _ _ _ sym hs bounds _ _ _ h
  rw [show ({} : Nlp).x = [] from rfl, List.nil_append] at hx
  refine ⟨rfl, hx, fun ρ => ?_⟩
  rw [hx, ← stacked_map]
  exact collocationBlocks_stacked hd (sharedShape_map ρ (variableBlocks_shared hs _ _ _))
    (grid_map ρ (grid_table _ _ _ _ hs.x)) (grid_map ρ (grid_table _ _ _ _ hs.y))

/-- Two elements, degree 2, two states, one algebraic, one control of degree 1, one of each other
kind. -/
def layoutExample : Dims := ⟨2, 2, 1, 2, 1, 1, 1, 1, 1, 1⟩

example : Spec.collocationSize layoutExample = 22 := by decide

example : collocationBlocks layoutExample (List.range 22) = .ok
    ⟨[[[0, 1], [2, 3], [4, 5]], [[6, 7], [8, 9], [10, 11]], [[10, 11]]],
      [[[12], [13]], [[14], [15]]], [[[16]], [[17]]], [18], [19], [[20], [21]]⟩ := by
  decide +kernel

example : repack (⟨[[[0, 1], [2, 3], [4, 5]], [[6, 7], [8, 9], [10, 11]], [[10, 11]]],
      [[[12], [13]], [[14], [15]]], [[[16]], [[17]]], [18], [19], [[20], [21]]⟩ : Blocks Nat) =
    List.range 22 := by decide +kernel

example : collocationBlocks layoutExample (List.range 21) = .error .runtimeError ∧
    collocationBlocks layoutExample (List.range 23) = .error .assertionError := by
  constructor <;> decide +kernel

/-- Symbols for the example: all different. -/
def layoutSyms : Kind → Nat → Nat → List Sym
  | .x, k, n => [100 + 10 * k + n, 200 + 10 * k + n]
  | .y, k, n => [300 + 10 * k + n]
  | .u, k, n => [400 + 10 * k + n]
  | .eta, _, _ => [500]
  | .pOpt, _, _ => [600]
  | .thetaOpt, k, _ => [700 + k]

/-- Bounds for the example: states between 0 and 1 and between 2 and 3, and so on. -/
def layoutBounds : VarBounds where
  x := (.col (.dm [.num (XRat.fin 0), .num (XRat.fin 2)]),
    .col (.dm [.num (XRat.fin 1), .num (XRat.fin 3)]))
  y := (.col (.dm [.num (XRat.fin 4)]), .col (.dm [.num (XRat.fin 5)]))
  u := (.col (.dm [.num (XRat.fin 6)]), .col (.dm [.num (XRat.fin 7)]))
  pOpt := (.float (XRat.fin 8), .float (XRat.fin 9))
  thetaOpt := (.col (.dm [.num ⊥]), .col (.dm [.num ⊤]))

example : Spec.SymSizes layoutExample layoutSyms :=
  ⟨fun _ _ => rfl, fun _ _ => rfl, fun _ _ => rfl, rfl, rfl, fun _ => rfl⟩

example : (createCollocation layoutExample layoutSyms layoutBounds {}).1 =
    .ok (Spec.variableBlocks layoutExample 2 3 2 layoutSyms) := by decide +kernel

/-! ## C48: multiple-shooting unpacking follows the creation order -/

/-- **C48**: unpacking a vector and stacking the blocks gives the vector back, and what was unpacked
is well shaped; well-shaped blocks are recovered from their stack. -/
theorem C48_unpack (d : Dims) :
    (∀ (v : List α) (b : Blocks α), shootingBlocks d v = .ok b →
      stacked b = v ∧ Spec.ShootingShape d b) ∧
    (∀ b : Blocks α, Spec.ShootingShape d b → shootingBlocks d (stacked b) = .ok b) :=
  ⟨fun _ _ h => shootingBlocks_ok h, fun _ h => shootingBlocks_stacked h⟩

/-- **C48**: vectors of the wrong length are rejected, and only those. -/
theorem C48_length (d : Dims) (v : List α) :
    (v.length = Spec.shootingSize d → ∃ b, shootingBlocks d v = .ok b) ∧
    (v.length < Spec.shootingSize d → shootingBlocks d v = .error .runtimeError) ∧
    (Spec.shootingSize d < v.length → shootingBlocks d v = .error .assertionError) := by
  obtain ⟨h1, h2, h3⟩ := parses_shooting d v 0 (Nat.zero_le _)
  rw [Nat.zero_add] at h1 h2 h3
  refine ⟨fun h => ?_, h2, h3⟩
  obtain ⟨b, hb, -⟩ := h1 h.symm
  exact ⟨b, hb⟩

/-- **C48**: whatever values the solver gives the variables, unpacking returns for every node and
element the values of the variable that was created for it. -/
theorem C48_created (d : Dims) (sym : Kind → Nat → Nat → List Sym)
    (hs : Spec.SymSizes d sym) (bounds : VarBounds) (vars : Blocks Sym) (nlp : Nlp)
    (h : createShooting d sym bounds {} = (.ok vars, nlp)) :
    vars = Spec.variableBlocks d (d.elements + 1) 1 1 sym ∧ nlp.x = stacked vars ∧
    ∀ ρ : Sym → β, shootingBlocks d (nlp.x.map ρ) = .ok (Spec.mapBlocks ρ vars) := by
  obtain ⟨rfl, hx, -, -⟩ := creates_variables d _ _ _ sym hs bounds _ _ _ h
  rw [show ({} : Nlp).x = [] from rfl, List.nil_append] at hx
  refine ⟨rfl, hx, fun ρ => ?_⟩
  rw [hx, ← stacked_map]
  exact shootingBlocks_stacked ⟨sharedShape_map ρ (variableBlocks_shared hs _ _ _),
    grid_map ρ (grid_table _ _ _ _ hs.x), grid_map ρ (grid_table _ _ _ _ hs.y)⟩

example : Spec.shootingSize layoutExample = 14 ∧
    shootingBlocks layoutExample (List.range 14) = .ok
      ⟨[[[0, 1]], [[2, 3]], [[4, 5]]], [[[6]], [[7]]], [[[8]], [[9]]], [10], [11], [[12], [13]]⟩ := by
  constructor <;> decide +kernel

example : (createShooting layoutExample layoutSyms layoutBounds {}).1 =
    .ok (Spec.variableBlocks layoutExample 3 1 1 layoutSyms) := by decide +kernel

/-! ## C90: every decision variable carries the bounds of its own kind -/

/-- **C90** (collocation): unpacking the bounds of the discretised problem gives each element and
point the bounds the problem has for that kind of variable. -/
theorem C90_collocation (d : Dims) (hd : 0 < d.elements) (sym : Kind → Nat → Nat → List Sym)
    (hs : Spec.SymSizes d sym) (bounds : VarBounds) (hb : Spec.BoundSizes d bounds)
    (vars : Blocks Sym) (nlp : Nlp) (h : createCollocation d sym bounds {} = (.ok vars, nlp)) :
    collocationBlocks d nlp.xLb =
      .ok (Spec.withFinal (Spec.lowerBlocks d d.elements (d.degree + 1) d.degree bounds)) ∧
    collocationBlocks d nlp.xUb =
      .ok (Spec.withFinal (Spec.upperBlocks d d.elements (d.degree + 1) d.degree bounds)) := by
  obtain ⟨-, -, hl, hu⟩ := creates_variables d _ _ _ sym hs bounds _ _ _ h
  rw [show ({} : Nlp).xLb = [] from rfl, List.nil_append] at hl
  rw [show ({} : Nlp).xUb = [] from rfl, List.nil_append] at hu
  rw [hl, hu]
  exact ⟨collocationBlocks_stacked hd (lowerBlocks_shared hb _ _ _)
      (grid_table _ _ _ _ fun _ _ => hb.x.1) (grid_table _ _ _ _ fun _ _ => hb.y.1),
    collocationBlocks_stacked hd (upperBlocks_shared hb _ _ _)
      (grid_table _ _ _ _ fun _ _ => hb.x.2) (grid_table _ _ _ _ fun _ _ => hb.y.2)⟩

/-- **C90** (multiple shooting). -/
theorem C90_shooting (d : Dims) (sym : Kind → Nat → Nat → List Sym)
    (hs : Spec.SymSizes d sym) (bounds : VarBounds) (hb : Spec.BoundSizes d bounds)
    (vars : Blocks Sym) (nlp : Nlp) (h : createShooting d sym bounds {} = (.ok vars, nlp)) :
    shootingBlocks d nlp.xLb = .ok (Spec.lowerBlocks d (d.elements + 1) 1 1 bounds) ∧
    shootingBlocks d nlp.xUb = .ok (Spec.upperBlocks d (d.elements + 1) 1 1 bounds) := by
  obtain ⟨-, -, hl, hu⟩ := creates_variables d _ _ _ sym hs bounds _ _ _ h
  rw [show ({} : Nlp).xLb = [] from rfl, List.nil_append] at hl
  rw [show ({} : Nlp).xUb = [] from rfl, List.nil_append] at hu
  rw [hl, hu]
  exact ⟨shootingBlocks_stacked ⟨lowerBlocks_shared hb _ _ _,
      grid_table _ _ _ _ fun _ _ => hb.x.1, grid_table _ _ _ _ fun _ _ => hb.y.1⟩,
    shootingBlocks_stacked ⟨upperBlocks_shared hb _ _ _,
      grid_table _ _ _ _ fun _ _ => hb.x.2, grid_table _ _ _ _ fun _ _ => hb.y.2⟩⟩

example : Spec.BoundSizes layoutExample layoutBounds :=
  ⟨by decide, by decide, by decide, by decide, by decide⟩

example : (createShooting layoutExample layoutSyms layoutBounds {}).2.xUb.take 7 =
    [.num (XRat.fin 1), .num (XRat.fin 3), .num (XRat.fin 1), .num (XRat.fin 3),
      .num (XRat.fin 1), .num (XRat.fin 3), .num (XRat.fin 5)] := by decide +kernel

/-! ## C49: the initial guess has the layout of the decision vector -/

/-- **C49** (collocation): the guess from problem information unpacks into blocks that have the guess
of their own kind: the initial state, the algebraic and control guesses (or zeros), zeros for `eta`,
and the given values of the optimised parameters (or zeros). -/
theorem C49_collocation (zero : α) (d : Dims) (hd : 0 < d.elements) (g : GuessInfo α)
    (p : Option (List α)) (theta : Option (Dict Nat (List α))) (h : Spec.GuessFits d g p theta) :
    ∃ v, collocationGuess zero d g p theta = .ok v ∧ v.length = Spec.collocationSize d ∧
      collocationBlocks d v = .ok (Spec.withFinal
        (Spec.guessBlocks zero d d.elements (d.degree + 1) d.degree g p theta)) := by
  have hb := collocationBlocks_stacked hd
    (guessBlocks_shared zero d.elements (d.degree + 1) d.degree h)
    (grid_table _ _ _ _ fun _ _ => h.x0) (grid_table _ _ _ _ fun _ _ => guess_y zero h)
  refine ⟨_, initialGuess_eq zero d.elements (d.degree + 1) d.degree h, ?_, hb⟩
  obtain ⟨he, hs⟩ := collocationBlocks_ok hb
  rw [← he, repack_length hs]

/-- **C49** (multiple shooting). -/
theorem C49_shooting (zero : α) (d : Dims) (g : GuessInfo α)
    (p : Option (List α)) (theta : Option (Dict Nat (List α))) (h : Spec.GuessFits d g p theta) :
    ∃ v, shootingGuess zero d g p theta = .ok v ∧ v.length = Spec.shootingSize d ∧
      shootingBlocks d v = .ok (Spec.guessBlocks zero d (d.elements + 1) 1 1 g p theta) := by
  have hs : Spec.ShootingShape d (Spec.guessBlocks zero d (d.elements + 1) 1 1 g p theta) :=
    ⟨guessBlocks_shared zero _ _ _ h, grid_table _ _ _ _ fun _ _ => h.x0,
      grid_table _ _ _ _ fun _ _ => guess_y zero h⟩
  refine ⟨_, ?_, stacked_length hs, shootingBlocks_stacked hs⟩
  have := initialGuess_eq zero (d.elements + 1) 1 1 h
  rw [Nat.one_mul, Nat.one_mul] at this
  exact this

/-- Guesses for the example. -/
def guessExample : GuessInfo Nat := ⟨[1, 2], some [3], none, [1], [0]⟩

example : Spec.GuessFits layoutExample guessExample (some [7, 8]) (some [(0, [5]), (1, [6])]) where
  x0 := rfl
  yGuess := by rintro y ⟨rfl⟩; rfl
  uGuess := by rintro y ⟨⟩
  pOptIndices := rfl
  thetaOptIndices := rfl
  p := by rintro v ⟨rfl⟩; decide
  theta := by
    rintro th ⟨rfl⟩ el hel
    have hel : el < 2 := hel
    rcases (by omega : el = 0 ∨ el = 1) with rfl | rfl
    · exact ⟨[5], rfl, by decide⟩
    · exact ⟨[6], rfl, by decide⟩

example : shootingGuess 0 layoutExample guessExample (some [7, 8]) (some [(0, [5]), (1, [6])]) =
    .ok [1, 2, 1, 2, 1, 2, 3, 3, 0, 0, 0, 8, 5, 6] := by decide +kernel

end Verif
