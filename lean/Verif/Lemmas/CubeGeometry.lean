import Verif.Lemmas.CubeDistinct
import Verif.Spec.Cube

namespace NDSL

section
variable {n : Int} {p : Pos}

theorem six_cases {t : Int} (h0 : 0 ≤ t) (h6 : t < 6) :
    t = 0 ∨ t = 1 ∨ t = 2 ∨ t = 3 ∨ t = 4 ∨ t = 5 := by omega

set_option maxHeartbeats 2000000 in
/-- The neighbour's edge (or corner) is the same segment of the cube, walked backwards. -/
theorem flat_geometry (hp : p.Ok n) (h0 : 0 ≤ p.t) (h6 : p.t < 6)
    {bt : BType} {x : Pos × Int} (h : flat n bt p = some x) :
    edgeSeg n x.1.red.t x.1.red.j x.1.red.i (recipB bt x.2) =
      ((edgeSeg n p.t p.j p.i bt).2, (edgeSeg n p.t p.j p.i bt).1) := by
  obtain ⟨t, j, i⟩ := p
  obtain ⟨a, b, c, d⟩ := hp
  simp only at a b c d h0 h6
  rcases six_cases h0 h6 with rfl | rfl | rfl | rfl | rfl | rfl <;>
  cases bt <;> simp only [flat, eW, eE, eN, eS, cNW, cNE, cSW, cSE] at h <;>
    (repeat' split at h) <;>
    simp only [Option.some.injEq, reduceCtorEq] at h <;> subst h <;>
    simp [recipB, edgeSeg, corner, onCube, frame, V3.add, V3.smul] at * <;> omega

set_option maxHeartbeats 4000000 in
/-- A directed edge segment belongs to one position and one side only. -/
theorem edgeSeg_inj {p q : Pos} (hp : p.Ok n) (h0 : 0 ≤ p.t) (h6 : p.t < 6)
    (hq : q.Ok n) (h0' : 0 ≤ q.t) (h6' : q.t < 6) {bt bt' : BType}
    (hb : bt.isEdge = true) (hb' : bt'.isEdge = true)
    (e : edgeSeg n p.t p.j p.i bt = edgeSeg n q.t q.j q.i bt') : p = q ∧ bt = bt' := by
  obtain ⟨t, j, i⟩ := p
  obtain ⟨a, b, c, d⟩ := hp
  obtain ⟨t', j', i'⟩ := q
  obtain ⟨a', b', c', d'⟩ := hq
  simp only at a b c d h0 h6 a' b' c' d' h0' h6'
  simp only [Pos.mk.injEq]
  rcases six_cases h0 h6 with rfl | rfl | rfl | rfl | rfl | rfl <;>
  rcases six_cases h0' h6' with rfl | rfl | rfl | rfl | rfl | rfl <;>
  cases bt <;> simp only [BType.isEdge, Bool.false_eq_true] at hb <;>
  cases bt' <;> simp only [BType.isEdge, Bool.false_eq_true] at hb' <;>
  simp [edgeSeg, corner, onCube, frame, V3.add, V3.smul] at e ⊢ <;> omega

/-- A corner direction has no neighbour exactly when that corner is a vertex of the cube. -/
theorem flat_none_iff (hp : p.Ok n) (h0 : 0 ≤ p.t) (h6 : p.t < 6)
    {bt : BType} (hb : bt.isEdge = false) :
    flat n bt p = none ↔ IsCubeVertex n (corner n p.t p.j p.i bt.dir.1 bt.dir.2) := by
  obtain ⟨t, j, i⟩ := p
  obtain ⟨a, b, c, d⟩ := hp
  simp only at a b c d h0 h6
  rcases six_cases h0 h6 with rfl | rfl | rfl | rfl | rfl | rfl <;>
  cases bt <;> simp only [BType.isEdge, reduceCtorEq] at hb <;>
  simp only [flat, cNW, cNE, cSW, cSE] <;>
  (split_ifs) <;>
  simp [IsCubeVertex, corner, onCube, frame, V3.add, V3.smul, BType.dir] <;> omega

/-- Edge of the edge neighbour (reached through `e` with `r` rotations) which continues around the
vertex `bt` towards the corner neighbour. -/
def aroundEdge (bt e : BType) (r : Int) : BType :=
  recipB (recipB (if e = bt.cornerEdges.1 then bt.cornerEdges.2 else bt.cornerEdges.1) 0) r

set_option maxHeartbeats 4000000 in
/-- The corner neighbour is the next rank around the vertex after either edge neighbour. -/
theorem flat_around (hp : p.Ok n) (h0 : 0 ≤ p.t) (h6 : p.t < 6) {bt e : BType}
    (hb : bt.isEdge = false) (he : e = bt.cornerEdges.1 ∨ e = bt.cornerEdges.2)
    {x y : Pos × Int} (hx : flat n bt p = some x) (hy : flat n e p = some y) :
    (aroundEdge bt e y.2).isEdge = true ∧ aroundEdge bt e y.2 ≠ recipB e y.2 ∧
    (∃ z, flat n (aroundEdge bt e y.2) y.1.red = some z ∧ z.1.red = x.1.red) ∧
      ((edgeSeg n y.1.red.t y.1.red.j y.1.red.i (aroundEdge bt e y.2)).1
          = corner n p.t p.j p.i bt.dir.1 bt.dir.2 ∨
       (edgeSeg n y.1.red.t y.1.red.j y.1.red.i (aroundEdge bt e y.2)).2
          = corner n p.t p.j p.i bt.dir.1 bt.dir.2) := by
  obtain ⟨t, j, i⟩ := p
  obtain ⟨a, b, c, d⟩ := hp
  simp only at a b c d h0 h6
  rcases he with rfl | rfl <;>
  cases bt <;> simp only [BType.isEdge, reduceCtorEq] at hb <;>
  simp only [flat, BType.cornerEdges, eW, eE, eN, eS, cNW, cNE, cSW, cSE] at hx hy <;>
  rcases six_cases h0 h6 with rfl | rfl | rfl | rfl | rfl | rfl <;>
    (repeat' split at hx) <;> simp only [Option.some.injEq, reduceCtorEq] at hx <;>
    (repeat' split at hy) <;> simp only [Option.some.injEq] at hy <;>
    (first
     | (exfalso; omega)
     | (subst hx; subst hy
        simp [aroundEdge, BType.cornerEdges, recipB, BType.isEdge, edgeSeg, corner, onCube, frame,
          V3.add, V3.smul, BType.dir, flat, eW, eE, eN, eS]
        try split_ifs
        all_goals (try simp)
        all_goals omega))

end
end NDSL
