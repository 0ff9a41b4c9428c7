import Verif.Lemmas.CubeRecip

namespace NDSL

/-- All flat closed forms. -/
def flat (n : Int) (bt : BType) (p : Pos) : Option (Pos × Int) :=
  match bt with
  | .west => some (eW n p)
  | .east => some (eE n p)
  | .north => some (eN n p)
  | .south => some (eS n p)
  | .northwest => cNW n p
  | .northeast => cNE n p
  | .southwest => cSW n p
  | .southeast => cSE n p

theorem nbr_flat {n : Int} {p : Pos} (hp : p.Ok n) (bt : BType) : nbr n bt p = flat n bt p := by
  cases bt
  case northwest => exact nbr_nw hp
  case northeast => exact nbr_ne hp
  case southwest => exact nbr_sw hp
  case southeast => exact nbr_se hp
  all_goals rfl

section
variable {n : Int} {p : Pos}

set_option maxHeartbeats 4000000 in
theorem flat_distinct (hp : p.Ok n) (h0 : 0 ≤ p.t) (h6 : p.t < 6)
    {bt bt' : BType} {x x' : Pos × Int} (h : flat n bt p = some x) (h' : flat n bt' p = some x')
    (e : x.1.red = x'.1.red) : bt = bt' := by
  obtain ⟨t, j, i⟩ := p
  obtain ⟨a, b, c, d⟩ := hp
  simp only at a b c d h0 h6
  obtain ⟨⟨qt, qj, qi⟩, r⟩ := x
  obtain ⟨⟨qt', qj', qi'⟩, r'⟩ := x'
  simp only [Pos.mk.injEq] at e
  cases bt <;> cases bt' <;> first
    | rfl
    | (exfalso
       simp only [flat, eW, eE, eN, eS, cNW, cNE, cSW, cSE] at h h'
       (repeat' split at h) <;> (try simp only [Option.some.injEq, Prod.mk.injEq, Pos.mk.injEq, reduceCtorEq] at h) <;>
       (repeat' split at h') <;> (try simp only [Option.some.injEq, Prod.mk.injEq, Pos.mk.injEq, reduceCtorEq] at h') <;>
       omega)

theorem flat_ne_self (hp : p.Ok n) (h0 : 0 ≤ p.t) (h6 : p.t < 6)
    {bt : BType} {x : Pos × Int} (h : flat n bt p = some x) : x.1.red ≠ p := by
  obtain ⟨t, j, i⟩ := p
  obtain ⟨a, b, c, d⟩ := hp
  simp only at a b c d h0 h6
  obtain ⟨⟨qt, qj, qi⟩, r⟩ := x
  simp only [ne_eq, Pos.mk.injEq]
  cases bt <;> simp only [flat, eW, eE, eN, eS, cNW, cNE, cSW, cSE] at h <;>
    (repeat' split at h) <;>
    (try simp only [Option.some.injEq, Prod.mk.injEq, Pos.mk.injEq, reduceCtorEq] at h) <;> omega

end
end NDSL
