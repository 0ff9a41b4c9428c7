import Verif.Model.DerivedTerms
/-
Specification for the arrays derived from the positions of grid points: what they are on a whole tile of `N0` by
`N1` cells, as functions of the global indices. Cell `(I, J)` has the corners `(I, J)` to `(I + 1, J + 1)`; the
tile's cells have `0 ≤ I < N0` and `0 ≤ J < N1`, all others are ghost cells.
-/
namespace NDSL.Deriv

variable {P R : Type}

/-- Ghost cells beyond a corner of the tile. -/
abbrev BeyondCorner (N0 N1 I J : Int) : Prop := (I < 0 ∨ N0 ≤ I) ∧ (J < 0 ∨ N1 ≤ J)
/-- Sides between `I - 1` and `I` of ghost cells beyond a corner of the tile. -/
abbrev BeyondCornerI (N0 N1 I J : Int) : Prop := (I < 0 ∨ N0 < I) ∧ (J < 0 ∨ N1 ≤ J)
abbrev BeyondCornerJ (N0 N1 I J : Int) : Prop := (I < 0 ∨ N0 ≤ I) ∧ (J < 0 ∨ N1 < J)

/-- A line of sides or points on an edge of the tile. -/
abbrev OnEdge (N I : Int) : Prop := I = 0 ∨ I = N

/-- The unit vectors in the centre of a cell: perpendicular to the plane through the centre and to the great circle
through the middles of two opposite sides. -/
def centre1 (G : Geo P) (X : Int → Int → P) (I J : Int) : P :=
  G.unit (G.cross (G.mid4 (X I J) (X (I + 1) J) (X I (J + 1)) (X (I + 1) (J + 1)))
    (G.cross (G.mid (X (I + 1) J) (X (I + 1) (J + 1))) (G.mid (X I J) (X I (J + 1)))))
def centre2 (G : Geo P) (X : Int → Int → P) (I J : Int) : P :=
  G.unit (G.cross (G.mid4 (X I J) (X (I + 1) J) (X I (J + 1)) (X (I + 1) (J + 1)))
    (G.cross (G.mid (X I (J + 1)) (X (I + 1) (J + 1))) (G.mid (X I J) (X (I + 1) J))))

/-- The unit vectors in the middle of a side: across it, between the points `before` and `after`; and along it, from
corner `p` to corner `q`. -/
def across (G : Geo P) (before after p q : P) : P := G.unit (G.cross (G.cross before after) (G.mid p q))
def alongSide (G : Geo P) (p q : P) : P := G.unit (G.cross (G.cross p q) (G.mid p q))

/-- Across the west side of cell `(I, J)`: between the centres of cells; on an edge of the tile the middle of the side
takes the place of the centre outside. -/
def west1 (G : Geo P) (N0 : Int) (X A : Int → Int → P) (I J : Int) : P :=
  across G (if I = 0 then G.mid (X I J) (X I (J + 1)) else A (I - 1) J)
    (if I = N0 then G.mid (X I J) (X I (J + 1)) else A I J) (X I J) (X I (J + 1))
/-- Across the south side. -/
def south2 (G : Geo P) (N1 : Int) (X A : Int → Int → P) (I J : Int) : P :=
  across G (if J = 0 then G.mid (X I J) (X (I + 1) J) else A I (J - 1))
    (if J = N1 then G.mid (X I J) (X (I + 1) J) else A I J) (X I J) (X (I + 1) J)

/-- Along the grid lines through a corner: between its neighbours, or the corner itself instead of a neighbour
outside of the tile. -/
def throughX (G : Geo P) (N0 : Int) (X : Int → Int → P) (I J : Int) : P :=
  G.unit (G.cross (G.cross (if I = 0 then X I J else X (I - 1) J) (if I = N0 then X I J else X (I + 1) J)) (X I J))
def throughY (G : Geo P) (N1 : Int) (X : Int → Int → P) (I J : Int) : P :=
  G.unit (G.cross (G.cross (if J = 0 then X I J else X I (J - 1)) (if J = N1 then X I J else X I (J + 1))) (X I J))

variable [Add R] [Mul R] [Div R] [Neg R] [Zero R] [One R] [LT R] [DecidableLT R]

/-- Means of a cell's value and its neighbour's at a corner, a west side and a south side. -/
def meanCorner (K : Consts R) (c : Int → Int → Nat → R) (I J : Int) : R := mean K (c (I - 1) (J - 1) 7) (c I J 5)
def meanWest (K : Consts R) (c : Int → Int → Nat → R) (I J : Int) : R := mean K (c (I - 1) J 2) (c I J 0)
def meanSouth (K : Consts R) (c : Int → Int → Nat → R) (I J : Int) : R := mean K (c I (J - 1) 3) (c I J 1)

/-- The sine on a side and its reciprocal: squared in the interior of the tile; on its edge not squared, and the sine
itself is kept off zero. -/
def sinSide (K : Consts R) (edge : Prop) [Decidable edge] (x : R) : R := if edge then limit K x else x
def rsinSide (K : Consts R) (edge : Prop) [Decidable edge] (x : R) : R := if edge then 1 / limit K x else recipSquare K x

/-- The sine for the damping coefficients of a side: on an edge of the tile the mean of the two cells' values. -/
def sideSine (edge : Prop) [Decidable edge] (both sine : R) : R := if edge then both else sine

/-- A part of a tile along one axis: `n` cells from `x0` on of `N`, at least as wide as the halo if not the only
one; `first` and `last` tell whether it touches the tile's edges. -/
structure Part (h x0 n N : Int) (first last : Bool) : Prop where
  halo : 2 ≤ h
  pos : 1 ≤ n
  start : 0 ≤ x0
  inside : x0 + n ≤ N
  first_iff : first = true ↔ x0 = 0
  last_iff : last = true ↔ x0 + n = N
  before : first = false → h ≤ x0
  after : last = false → x0 + n + h ≤ N

/-- The array of a rank which holds the part of the field `F` of the tile from `(x0, y0)` on, with `n0` by `n1`
cells and a halo of `h`; `e0` and `e1` are 1 if there is one value more than cells. -/
def window {α : Type} (F : Int → Int → α) (h x0 y0 n0 n1 e0 e1 : Int) : Arr α :=
  ⟨n0 + 2 * h + e0, n1 + 2 * h + e1, fun i j => F (x0 + i - h) (y0 + j - h)⟩

end NDSL.Deriv
