import Verif.Model.MetricTerms
/-
Specification for the lazily computed grid terms: what every term is, as a function of the grid
alone, and which terms need communication.
-/
namespace NDSL.Metric

/-! Shorthand for parts of the grid: distances, coordinates, vectors. -/

def cornersXyz : V := .app .xyz [.grid64]
def centersXyz : V := .app .trimXyz [.agrid64]

/-- Distances between corners, on all ranks: exchanged as a vector field, signs dropped, corners
filled. Component 0 along x, 1 along y. -/
def sides (cart : Bool) (i : Nat) : V :=
  if cart then (if i = 0 then .dxConst else .dyConst)
  else .nth i (.app .cornersD
    [.app .abs [.nth 0 (.app .vectorHalo [.app .distX [.grid64], .app .distY [.grid64]])],
     .app .abs [.nth 1 (.app .vectorHalo [.app .distX [.grid64], .app .distY [.grid64]])]])

/-- Widths of cells. -/
def widths (cart : Bool) (i : Nat) : V :=
  let c := V.app .cornersA [.app .distX [.app .midY [.grid64]], .app .distY [.app .midX [.grid64]]]
  if cart then (if i = 0 then .dxConst else .dyConst)
  else .app .abs [.nth i (.app .vectorHalo [.nth 0 c, .nth 1 c])]

/-- Distances between cell centres. -/
def gaps (cart : Bool) (i : Nat) : V :=
  let h := V.app .vectorHalo
    [.app .borderX [.app .placeX [.app .distX [.agrid64]], cornersXyz, centersXyz],
     .app .borderY [.app .placeY [.app .distY [.agrid64]], cornersXyz, centersXyz]]
  if cart then (if i = 0 then .dxConst else .dyConst)
  else .nth i (.app .cornersC [.app .abs [.nth 0 h], .app .abs [.nth 1 h]])

def areas (cart : Bool) : V :=
  if cart then .app .times [.dxConst, .dyConst] else .app .scalarHalo [.app .cellArea [.grid64]]

def cornerAreas (cart : Bool) : V :=
  if cart then .app .times [.dxConst, .dyConst]
  else .app .cornersB [.app .scalarHalo [.app .borderArea
    [.app .triangles [.app .cornerArea [.agrid64], .agrid64], cornersXyz, centersXyz]]]

/-- Unit vectors in the centres of cells. -/
def centre (cart : Bool) (i : Nat) : V :=
  if cart then (if i = 0 then .unitX else .unitY) else .nth i (.app .centerVector [cornersXyz])

def eastNorth (cart : Bool) (i : Nat) : V :=
  if cart then .nan else .nth i (.app .lonLatUnit [.agrid64])

def rawCos : V := .app .supergridCos [cornersXyz, centersXyz, centre false 0, centre false 1]
def rawSin : V := .app .supergridSin [cornersXyz, centersXyz, centre false 0, centre false 1]

/-- Cosines and sines at the nine points of a cell. -/
def cosAt (cart : Bool) (i : Nat) : V :=
  if cart then .zero else .nth i (.app .cornerFixCos [.app .spoilCorners [rawCos], rawSin])
def sinAt (cart : Bool) (i : Nat) : V :=
  if cart then .one else .nth i (.app .cornerFixSin [.app .spoilCorners [rawCos], rawSin])

/-- The terms derived from them: `cosa`, `sina`, `cosa_u`, `cosa_v`, `cosa_s`, `sina_u`, `sina_v`,
`rsin_u`, `rsin_v`, `rsina`, `rsin2`, in this order. On the Cartesian grid `flat`. -/
def derived (cart : Bool) (flat : V) (i : Nat) : V :=
  if cart then flat else .nth i (.app .trigUV [cornersXyz, rawCos, rawSin])

/-- `divg_u`, `divg_v`, `del6_u`, `del6_v` before exchange. -/
def damping (cart : Bool) : V :=
  .app .divgDel6 [castOf (sinAt cart 0), castOf (sinAt cart 1), castOf (sinAt cart 2),
    castOf (sinAt cart 3), castOf (sinAt cart 4), derived cart .one 5, derived cart .one 6,
    sides cart 0, sides cart 1, gaps cart 0, gaps cart 1]

/-- A pair of these after the exchange of the v part (`v`, first) and the u part (`u`). -/
def exchanged (cart : Bool) (u v : Nat) (second : Bool) : V :=
  if cart then .nth (if second then u else v) (damping cart)
  else .app .abs [.nth (if second then 1 else 0)
    (.app .vectorHalo [.nth v (damping cart), .nth u (damping cart)])]

def edge (i : Nat) : V := .nth i (.app .edgeFactors [castOf .grid64, .agrid64])
def edgeVect (i : Nat) : V := castOf (.nth i (.app .vectFactors [castOf .grid64, .agrid64]))

/-- What each term is. -/
def value (cart : Bool) : Term → V
  | .grid | .gridvar | .dgridLonLat => castOf .grid64
  | .agrid | .agridLonLat => castOf .agrid64
  | .lon => .app .lonPart [castOf .grid64]
  | .lat => .app .latPart [castOf .grid64]
  | .lonAgrid => .app .lonPart [castOf .agrid64]
  | .latAgrid => .app .latPart [castOf .agrid64]
  | .dx => castOf (sides cart 0)
  | .dy => castOf (sides cart 1)
  | .dxa => castOf (widths cart 0)
  | .dya => castOf (widths cart 1)
  | .dxc => castOf (gaps cart 0)
  | .dyc => castOf (gaps cart 1)
  | .area => castOf (areas cart)
  | .area64 => areas cart
  | .areaC => castOf (cornerAreas cart)
  | .ec1 => castOf (centre cart 0)
  | .ec2 => castOf (centre cart 1)
  | .ew1 => castOf (if cart then .unitX else .nth 0 (.app .westVector [cornersXyz, centersXyz]))
  | .ew2 => castOf (if cart then .unitY else .nth 1 (.app .westVector [cornersXyz, centersXyz]))
  | .es1 => castOf (if cart then .unitX else .nth 0 (.app .southVector [cornersXyz, centersXyz]))
  | .es2 => castOf (if cart then .unitY else .nth 1 (.app .southVector [cornersXyz, centersXyz]))
  | .ee1 => castOf (if cart then .nan else .nth 0 (.app .xyUnit [cornersXyz]))
  | .ee2 => castOf (if cart then .nan else .nth 1 (.app .xyUnit [cornersXyz]))
  | .l2cV => castOf (if cart then .nan else .nth 0 (.app .l2c [.grid64]))
  | .l2cU => castOf (if cart then .nan else .nth 1 (.app .l2c [.grid64]))
  | .cosSg i => castOf (cosAt cart i.val)
  | .sinSg i => castOf (sinAt cart i.val)
  | .cosa => castOf (derived cart .zero 0)
  | .sina => castOf (derived cart .one 1)
  | .cosaU => castOf (derived cart .zero 2)
  | .cosaV => castOf (derived cart .zero 3)
  | .cosaS => castOf (derived cart .zero 4)
  | .sinaU => castOf (derived cart .one 5)
  | .sinaV => castOf (derived cart .one 6)
  | .rsinU => castOf (derived cart .one 7)
  | .rsinV => castOf (derived cart .one 8)
  | .rsina => castOf (derived cart .one 9)
  | .rsin2 => castOf (derived cart .one 10)
  | .divgU => castOf (exchanged cart 0 1 true)
  | .divgV => castOf (exchanged cart 0 1 false)
  | .del6U => castOf (exchanged cart 2 3 true)
  | .del6V => castOf (exchanged cart 2 3 false)
  | .vlon => castOf (eastNorth cart 0)
  | .vlat => castOf (eastNorth cart 1)
  | .z11 => castOf (.app .dot [centre cart 0, eastNorth cart 0])
  | .z12 => castOf (.app .dot [centre cart 0, eastNorth cart 1])
  | .z21 => castOf (.app .dot [centre cart 1, eastNorth cart 0])
  | .z22 => castOf (.app .dot [centre cart 1, eastNorth cart 1])
  | .a11 => castOf (.app .halfRatio [.app .dot [centre cart 1, eastNorth cart 1], sinAt cart 4])
  | .a12 => castOf (.app .minusHalfRatio [.app .dot [centre cart 0, eastNorth cart 1], sinAt cart 4])
  | .a21 => castOf (.app .minusHalfRatio [.app .dot [centre cart 1, eastNorth cart 0], sinAt cart 4])
  | .a22 => castOf (.app .halfRatio [.app .dot [centre cart 0, eastNorth cart 0], sinAt cart 4])
  | .edgeW => edge 0
  | .edgeE => edge 1
  | .edgeS => edge 2
  | .edgeN => edge 3
  | .edgeVectW1d => edgeVect 0
  | .edgeVectE1d => edgeVect 1
  | .edgeVectS => edgeVect 2
  | .edgeVectN => edgeVect 3
  | .edgeVectW => castOf (.app .repeat [edgeVect 0])
  | .edgeVectE => castOf (.app .repeat [edgeVect 1])
  | .daMin => .app .allMin [.app .minInner [castOf (areas cart)]]
  | .daMax => .app .allMax [.app .maxInner [castOf (areas cart)]]
  | .daMinC => .app .allMin [.app .minInner [castOf (cornerAreas cart)]]
  | .daMaxC => .app .allMax [.app .maxInner [castOf (cornerAreas cart)]]
  | .rarea => .app .recip [castOf (areas cart)]
  | .rareaC => .app .recip [castOf (cornerAreas cart)]
  | .rdx => .app .recip [castOf (sides cart 0)]
  | .rdy => .app .recip [castOf (sides cart 1)]
  | .rdxa => .app .recip [castOf (widths cart 0)]
  | .rdya => .app .recip [castOf (widths cart 1)]
  | .rdxc => .app .recip [castOf (gaps cart 0)]
  | .rdyc => .app .recip [castOf (gaps cart 1)]

/-- The terms whose computation communicates: distances, areas, damping coefficients, extreme areas
and reciprocals of these on the cubed sphere, only the extreme areas on the Cartesian grid. -/
def Collective (cart : Bool) : Term → Bool
  | .daMin | .daMax | .daMinC | .daMaxC => true
  | .dx | .dy | .dxa | .dya | .dxc | .dyc | .area | .area64 | .areaC
  | .del6U | .del6V | .divgU | .divgV
  | .rarea | .rareaC | .rdx | .rdy | .rdxa | .rdya | .rdxc | .rdyc => !cart
  | _ => false

/-- NaN in every point: functions of NaN that are NaN. -/
inductive IsNaN : V → Prop where
  | nan : IsNaN .nan
  | cast (v : V) : IsNaN v → IsNaN (castOf v)
  | dot (u v : V) : IsNaN v → IsNaN (.app .dot [u, v])
  | half (u v : V) : IsNaN u → IsNaN (.app .halfRatio [u, v])
  | minusHalf (u v : V) : IsNaN u → IsNaN (.app .minusHalfRatio [u, v])

end NDSL.Metric
