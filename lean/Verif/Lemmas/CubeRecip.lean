import Verif.Lemmas.CubeBoundary
import Mathlib.Tactic.SplitIfs

namespace NDSL

local macro "fin" : tactic => `(tactic| first
  | omega | (simp; done) | (simp; omega)
  | (simp only [Option.some.injEq, exists_eq_left', Pos.mk.injEq]; simp; omega)
  | (exfalso; omega))

/-- The boundary type pointing back through a boundary crossed with `r` rotations. -/
def recipB (bt : BType) (r : Int) : BType :=
  match bt, r % 4 with
  | .west, 0 => .east | .west, 1 => .north | .west, 2 => .west | .west, _ => .south
  | .east, 0 => .west | .east, 1 => .south | .east, 2 => .east | .east, _ => .north
  | .north, 0 => .south | .north, 1 => .east | .north, 2 => .north | .north, _ => .west
  | .south, 0 => .north | .south, 1 => .west | .south, 2 => .south | .south, _ => .east
  | .northwest, 0 => .southeast | .northwest, 1 => .northeast | .northwest, 2 => .northwest
  | .northwest, _ => .southwest
  | .northeast, 0 => .southwest | .northeast, 1 => .southeast | .northeast, 2 => .northeast
  | .northeast, _ => .northwest
  | .southwest, 0 => .northeast | .southwest, 1 => .northwest | .southwest, 2 => .southwest
  | .southwest, _ => .southeast
  | .southeast, 0 => .northwest | .southeast, 1 => .southwest | .southeast, 2 => .southeast
  | .southeast, _ => .northeast

theorem recipB_dir (bt : BType) (r : Int) :
    (recipB bt r).dir = turnsCW (-r) (oppV bt.dir) := by
  have h : r % 4 = 0 ∨ r % 4 = 1 ∨ r % 4 = 2 ∨ r % 4 = 3 := by omega
  rcases h with h | h | h | h
  · have h' : (-r) % 4 = 0 := by omega
    cases bt <;> simp [recipB, h, turnsCW, h', BType.dir, oppV]
  · have h' : (-r) % 4 = 3 := by omega
    cases bt <;> simp [recipB, h, turnsCW, h', BType.dir, oppV, turnCW]
  · have h' : (-r) % 4 = 2 := by omega
    cases bt <;> simp [recipB, h, turnsCW, h', BType.dir, oppV, turnCW]
  · have h' : (-r) % 4 = 1 := by omega
    cases bt <;> simp [recipB, h, turnsCW, h', BType.dir, oppV, turnCW]


theorem exists_some_iff {α : Type} (o : Option α) (P : α → Prop) :
    (∃ x, o = some x ∧ P x) ↔ o.elim False P := by
  cases o <;> simp

/-- Flat closed forms of the four corners. -/
def cNW (n : Int) (p : Pos) : Option (Pos × Int) :=
  if p.i = 0 then
    if p.j = n - 1 then none
    else if p.t % 2 = 0 then some (⟨p.t - 2, n - 1, n - 2 - p.j⟩, 1)
    else some (⟨p.t - 1, p.j + 1, n - 1⟩, 0)
  else if p.j = n - 1 then
    if p.t % 2 = 0 then some (⟨p.t + 2, n - p.i, 0⟩, 3) else some (⟨p.t + 1, 0, p.i - 1⟩, 0)
  else some (⟨p.t, p.j + 1, p.i - 1⟩, 0)

def cNE (n : Int) (p : Pos) : Option (Pos × Int) :=
  if p.i = n - 1 then
    if p.j = n - 1 then none
    else if p.t % 2 = 0 then some (⟨p.t + 1, p.j + 1, 0⟩, 0)
    else some (⟨p.t + 2, 0, n - 2 - p.j⟩, 1)
  else if p.j = n - 1 then
    if p.t % 2 = 0 then some (⟨p.t + 2, n - 2 - p.i, 0⟩, 3) else some (⟨p.t + 1, 0, p.i + 1⟩, 0)
  else some (⟨p.t, p.j + 1, p.i + 1⟩, 0)

def cSW (n : Int) (p : Pos) : Option (Pos × Int) :=
  if p.i = 0 then
    if p.j = 0 then none
    else if p.t % 2 = 0 then some (⟨p.t - 2, n - 1, n - p.j⟩, 1)
    else some (⟨p.t - 1, p.j - 1, n - 1⟩, 0)
  else if p.j = 0 then
    if p.t % 2 = 0 then some (⟨p.t - 1, n - 1, p.i - 1⟩, 0)
    else some (⟨p.t - 2, n - p.i, n - 1⟩, 3)
  else some (⟨p.t, p.j - 1, p.i - 1⟩, 0)

def cSE (n : Int) (p : Pos) : Option (Pos × Int) :=
  if p.i = n - 1 then
    if p.j = 0 then none
    else if p.t % 2 = 0 then some (⟨p.t + 1, p.j - 1, 0⟩, 0)
    else some (⟨p.t + 2, 0, n - p.j⟩, 1)
  else if p.j = 0 then
    if p.t % 2 = 0 then some (⟨p.t - 1, n - 1, p.i + 1⟩, 0)
    else some (⟨p.t - 2, n - 2 - p.i, n - 1⟩, 3)
  else some (⟨p.t, p.j - 1, p.i + 1⟩, 0)

section
variable {n : Int} {p : Pos}

theorem nbr_nw (hp : p.Ok n) : nbr n .northwest p = cNW n p := by
  obtain ⟨t, j, i⟩ := p
  obtain ⟨a, b, c, d⟩ := hp
  simp only at a b c d
  simp only [nbr, comp2, cNW]
  by_cases hi : i = 0 <;> by_cases hj : j = n - 1 <;> by_cases ht : t % 2 = 0 <;>
    simp [hi, hj, ht, eW, eN] <;> (repeat' split) <;> fin

theorem nbr_ne (hp : p.Ok n) : nbr n .northeast p = cNE n p := by
  obtain ⟨t, j, i⟩ := p
  obtain ⟨a, b, c, d⟩ := hp
  simp only at a b c d
  simp only [nbr, comp2, cNE]
  by_cases hi : i = n - 1 <;> by_cases hj : j = n - 1 <;> by_cases ht : t % 2 = 0 <;>
    simp [hi, hj, ht, eE, eN, eS] <;> (repeat' split) <;> fin

theorem nbr_sw (hp : p.Ok n) : nbr n .southwest p = cSW n p := by
  obtain ⟨t, j, i⟩ := p
  obtain ⟨a, b, c, d⟩ := hp
  simp only at a b c d
  simp only [nbr, comp2, cSW]
  by_cases hi : i = 0 <;> by_cases hj : j = 0 <;> by_cases ht : t % 2 = 0 <;>
    simp [hi, hj, ht, eW, eN, eS] <;> (repeat' split) <;> fin

theorem nbr_se (hp : p.Ok n) : nbr n .southeast p = cSE n p := by
  obtain ⟨t, j, i⟩ := p
  obtain ⟨a, b, c, d⟩ := hp
  simp only at a b c d
  simp only [nbr, comp2, cSE]
  by_cases hi : i = n - 1 <;> by_cases hj : j = 0 <;> by_cases ht : t % 2 = 0 <;>
    simp [hi, hj, ht, eE, eS] <;> (repeat' split) <;> fin

/-- Reciprocity on closed forms. -/
theorem nbr_recip (hp : p.Ok n) (h0 : 0 ≤ p.t) (h6 : p.t < 6)
    {bt : BType} {q : Pos} {r : Int} (hq : nbr n bt p = some (q, r)) :
    ∃ x, nbr n (recipB bt r) q.red = some x ∧ x.1.red = p ∧ (r + x.2) % 4 = 0 := by
  have hok : q.red.Ok n := red_ok (nbr_ok hp hq)
  cases bt
  case northwest =>
    rw [nbr_nw hp] at hq
    obtain ⟨t, j, i⟩ := p
    obtain ⟨a, b, c, d⟩ := hp
    simp only at a b c d h0 h6
    simp only [cNW] at hq
    (repeat' split at hq) <;> simp only [Option.some.injEq, Prod.mk.injEq, reduceCtorEq] at hq <;>
      obtain ⟨rfl, rfl⟩ := hq <;>
      simp only [recipB, Int.reduceMod] <;>
      simp only [nbr_nw hok, nbr_ne hok, nbr_sw hok, nbr_se hok, exists_some_iff] <;>
      simp only [Pos.red, cNW, cNE, cSW, cSE, ↓reduceIte] <;> (try split_ifs) <;>
      simp only [Option.elim, Pos.mk.injEq] <;> omega
  case northeast =>
    rw [nbr_ne hp] at hq
    obtain ⟨t, j, i⟩ := p
    obtain ⟨a, b, c, d⟩ := hp
    simp only at a b c d h0 h6
    simp only [cNE] at hq
    (repeat' split at hq) <;> simp only [Option.some.injEq, Prod.mk.injEq, reduceCtorEq] at hq <;>
      obtain ⟨rfl, rfl⟩ := hq <;>
      simp only [recipB, Int.reduceMod] <;>
      simp only [nbr_nw hok, nbr_ne hok, nbr_sw hok, nbr_se hok, exists_some_iff] <;>
      simp only [Pos.red, cNW, cNE, cSW, cSE, ↓reduceIte] <;> (try split_ifs) <;>
      simp only [Option.elim, Pos.mk.injEq] <;> omega
  case southwest =>
    rw [nbr_sw hp] at hq
    obtain ⟨t, j, i⟩ := p
    obtain ⟨a, b, c, d⟩ := hp
    simp only at a b c d h0 h6
    simp only [cSW] at hq
    (repeat' split at hq) <;> simp only [Option.some.injEq, Prod.mk.injEq, reduceCtorEq] at hq <;>
      obtain ⟨rfl, rfl⟩ := hq <;>
      simp only [recipB, Int.reduceMod] <;>
      simp only [nbr_nw hok, nbr_ne hok, nbr_sw hok, nbr_se hok, exists_some_iff] <;>
      simp only [Pos.red, cNW, cNE, cSW, cSE, ↓reduceIte] <;> (try split_ifs) <;>
      simp only [Option.elim, Pos.mk.injEq] <;> omega
  case southeast =>
    rw [nbr_se hp] at hq
    obtain ⟨t, j, i⟩ := p
    obtain ⟨a, b, c, d⟩ := hp
    simp only at a b c d h0 h6
    simp only [cSE] at hq
    (repeat' split at hq) <;> simp only [Option.some.injEq, Prod.mk.injEq, reduceCtorEq] at hq <;>
      obtain ⟨rfl, rfl⟩ := hq <;>
      simp only [recipB, Int.reduceMod] <;>
      simp only [nbr_nw hok, nbr_ne hok, nbr_sw hok, nbr_se hok, exists_some_iff] <;>
      simp only [Pos.red, cNW, cNE, cSW, cSE, ↓reduceIte] <;> (try split_ifs) <;>
      simp only [Option.elim, Pos.mk.injEq] <;> omega
  all_goals
    obtain ⟨t, j, i⟩ := p
    obtain ⟨a, b, c, d⟩ := hp
    simp only at a b c d h0 h6
    simp only [nbr, eW, eE, eN, eS] at hq
    (repeat' split at hq) <;> simp only [Option.some.injEq, Prod.mk.injEq] at hq <;>
      obtain ⟨rfl, rfl⟩ := hq <;>
      simp [recipB, nbr, Pos.red, eE, eN, eW, eS] <;> (repeat' split) <;> fin

end

end NDSL
