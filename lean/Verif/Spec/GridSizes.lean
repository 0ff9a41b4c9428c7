import Verif.Spec.DerivedTerms
import Verif.Model.GridSizes
/-
Specification for lengths and areas of the grid: what they are on a whole tile of `N0` by `N1` cells, as functions of
the global indices. `X I J` is the corner `(I, J)` and `A I J` the centre of cell `(I, J)`, whose corners are `(I, J)` to
`(I + 1, J + 1)`.
-/
namespace NDSL.Sizes

variable {P R : Type}

/-- The centre of a cell. -/
def centreOf (S : Ops P R) (X : Int → Int → P) (I J : Int) : P :=
  S.centre (X (I + 1) (J + 1)) (X I J) (X (I + 1) J) (X I (J + 1))

/-- The area of a cell. -/
def cellArea (S : Ops P R) (X : Int → Int → P) (I J : Int) : R :=
  S.rect (X I J) (X I (J + 1)) (X (I + 1) (J + 1)) (X (I + 1) J)

/-- The lengths of the south and of the west side of a cell. -/
def southSide (S : Ops P R) (X : Int → Int → P) (I J : Int) : R := S.dist (X I J) (X (I + 1) J)
def westSide (S : Ops P R) (X : Int → Int → P) (I J : Int) : R := S.dist (X I J) (X I (J + 1))

/-- The width and the height of a cell through its centre, between the middles of opposite sides. -/
def cellWidth (S : Ops P R) (X : Int → Int → P) (I J : Int) : R :=
  S.dist (S.mid (X I J) (X I (J + 1))) (S.mid (X (I + 1) J) (X (I + 1) (J + 1)))
def cellHeight (S : Ops P R) (X : Int → Int → P) (I J : Int) : R :=
  S.dist (S.mid (X I J) (X (I + 1) J)) (S.mid (X I (J + 1)) (X (I + 1) (J + 1)))

/-- The distance of the centres of the cells on both sides of the west side of a cell; on an edge of the tile twice the
distance from the middle of the side to the centre of the cell inside. -/
def acrossWest (S : Ops P R) (N0 : Int) (X A : Int → Int → P) (I J : Int) : R :=
  if I = 0 then S.twice (S.dist (S.half (X I (J + 1)) (X I J)) (A I J))
  else if I = N0 then S.twice (S.dist (S.half (X I (J + 1)) (X I J)) (A (I - 1) J))
  else S.dist (A (I - 1) J) (A I J)
/-- ... of the south side. -/
def acrossSouth (S : Ops P R) (N1 : Int) (X A : Int → Int → P) (I J : Int) : R :=
  if J = 0 then S.twice (S.dist (S.half (X (I + 1) J) (X I J)) (A I J))
  else if J = N1 then S.twice (S.dist (S.half (X (I + 1) J) (X I J)) (A I (J - 1)))
  else S.dist (A I (J - 1)) (A I J)

/-- Half of the area around a corner on a west or east edge of the tile: between the middles of the two sides that meet
there and the centres of the cells `K` beside them. -/
def edgeAreaI (S : Ops P R) (X A : Int → Int → P) (K I J : Int) : R :=
  S.rect (S.half (X I (J - 1)) (X I J)) (A K (J - 1)) (A K J) (S.half (X I J) (X I (J + 1)))
/-- ... on a south or north edge. -/
def edgeAreaJ (S : Ops P R) (X A : Int → Int → P) (K I J : Int) : R :=
  S.rect (S.half (X (I - 1) J) (X I J)) (A (I - 1) K) (A I K) (S.half (X I J) (X (I + 1) J))

/-- The area around a corner: between the centres of the four cells that meet there; on an edge of the tile twice the
half inside. On a corner of the tile the edges take precedence in the order south, east, north, west. -/
def cornerArea (S : Ops P R) (N0 N1 : Int) (X A : Int → Int → P) (I J : Int) : R :=
  if J = 0 then S.twice (edgeAreaJ S X A 0 I J)
  else if I = N0 then S.twice (edgeAreaI S X A (N0 - 1) I J)
  else if J = N1 then S.twice (edgeAreaJ S X A (N1 - 1) I J)
  else if I = 0 then S.twice (edgeAreaI S X A 0 I J)
  else cellArea S A (I - 1) (J - 1)

end NDSL.Sizes
