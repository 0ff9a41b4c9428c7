import Verif.Model.Basic
/-
Model of `ndsl/grid/generation.py`: `MetricTerms` (222-447 and 518-3463), the lazily computed terms of
the grid. An object holds one slot per attribute, empty at first; reading a property computes what is
missing, with the halo updates and reductions that belong to it.

Simplifications: numerical results are symbolic (which function of which inputs, as an expression
`V`); where in an array results are put is left out; the vertical coordinates (`ks`, `ak`, `bk`,
`ptop`), which are not lazy, are left out. The functions `_..._for_testing` are left out.
-/
namespace NDSL.Metric

/-- The functions of `geometry.py`, `gnomonic.py`, `corners.py` and numpy that are applied, and the
communications of the communicator, which give the received fields. -/
inductive Fn where
  | cast | xyz | trimXyz | distX | distY | midX | midY | abs | spread | placeX | placeY
  | vectorHalo | scalarHalo | cornersA | cornersB | cornersC | cornersD
  | cellArea | cornerArea | triangles | borderArea | borderX | borderY
  | centerVector | westVector | southVector | xyUnit | lonLatUnit | l2c
  | supergridCos | supergridSin | trigUV | spoilCorners | cornerFixCos | cornerFixSin | angle
  | dot | halfRatio | minusHalfRatio | divgDel6 | edgeFactors | vectFactors | repeat
  | recip | times | minInner | maxInner | allMin | allMax | lonPart | latPart
  deriving DecidableEq, Repr

/-- Symbolic values. `nth` selects a result of a function with several results. -/
inductive V where
  | grid64 | agrid64 | dxConst | dyConst | zero | one | nan | unitX | unitY
  | app (f : Fn) (args : List V)
  | nth (i : Nat) (v : V)

/-- The attributes of the object, 245-395, and those made by `functools.cached_property`. -/
inductive Attr where
  | grid | agrid | dx | dy | dxAgrid | dyAgrid | dxCenter | dyCenter | area | area64 | areaC
  | ec1 | ec2 | ew1 | ew2 | es1 | es2 | ee1 | ee2 | l2cV | l2cU
  | cosSg (i : Fin 9) | sinSg (i : Fin 9)
  | cosa | sina | cosaU | cosaV | cosaS | sinaU | sinaV | rsinU | rsinV | rsina | rsin2
  | del6U | del6V | divgU | divgV | vlon | vlat | z11 | z12 | z21 | z22 | a11 | a12 | a21 | a22
  | edgeW | edgeE | edgeS | edgeN | vectW | vectE | vectS | vectN | vectW2 | vectE2
  | daMin | daMax | daMinC | daMaxC
  | dx64 | dy64 | dxc64 | dyc64 | z1164 | z1264 | z2164 | z2264 | sinaU64 | sinaV64 | ec164 | ec264
  | sinSg564 | vlon64 | vlat64
  | dgridXyz | agridXyz | rarea | rareaC | rdx | rdy | rdxa | rdya | rdxc | rdyc
  deriving DecidableEq, Repr

/-- What a rank communicates: a scalar halo update of a field, a vector halo update of two fields, a
reduction of a number. -/
inductive Ev where
  | halo (field : Attr)
  | vectorHalo (x y : Attr)
  | allreduce (result : Attr)
  deriving DecidableEq, Repr

/-- The object: its attributes, what has been communicated and how many computations have set which
attribute. -/
structure S where
  attr : Attr → Option V
  log : List Ev
  sets : List Attr

/-- The object after construction, 245-395: nothing is computed. -/
def init : S := ⟨fun _ => none, [], []⟩

/-- Reading the data of an attribute; `None[...]` raises. -/
def S.get (s : S) (a : Attr) : Except Err V :=
  match s.attr a with
  | some v => .ok v
  | none => .error .typeError

/-- Assignment of attributes. -/
def S.set (s : S) : List (Attr × V) → S
  | [] => s
  | (a, v) :: l =>
    S.set ⟨fun b => if b = a then some v else s.attr b, s.log, s.sets ++ [a]⟩ l

/-- Communications. -/
def S.say (s : S) (l : List Ev) : S := { s with log := s.log ++ l }

/-- `if self._a is None: ...` -/
def S.unless (s : S) (a : Attr) (run : S → Except Err S) : Except Err S :=
  match s.attr a with
  | some _ => .ok s
  | none => run s

def castOf (v : V) : V := .app .cast [v]

/-- `_dgrid_xyz_64`, 1529-1532. -/
def runXyzD (s : S) : Except Err S := .ok (s.set [(.dgridXyz, .app .xyz [.grid64])])

/-- `_agrid_xyz_64`, 1534-1541. -/
def runXyzA (s : S) : Except Err S := .ok (s.set [(.agridXyz, .app .trimXyz [.agrid64])])

/-- `grid`, 518-524. -/
def runGrid (s : S) : Except Err S := .ok (s.set [(.grid, castOf .grid64)])

/-- `agrid`, 535-541. -/
def runAgrid (s : S) : Except Err S := .ok (s.set [(.agrid, castOf .agrid64)])

/-- `self._dx, self._dy = self._compute_dxdy()`: 1874-1922 and 1924-1946. -/
def runDxdy (cart : Bool) (s : S) : Except Err S :=
  if cart then
    .ok (s.set [(.dx64, .dxConst), (.dy64, .dyConst), (.dx, castOf .dxConst), (.dy, castOf .dyConst)])
  else
    let h := V.app .vectorHalo [.app .distX [.grid64], .app .distY [.grid64]]
    let c := V.app .cornersD [.app .abs [.nth 0 h], .app .abs [.nth 1 h]]
    let s := s.say [.vectorHalo .dx64 .dy64]
    .ok (s.set [(.dx64, .nth 0 c), (.dy64, .nth 1 c), (.dx, castOf (.nth 0 c)), (.dy, castOf (.nth 1 c))])

/-- `self._dx_agrid, self._dy_agrid = self._compute_dxdy_agrid()`: 1948-1995 and 1997-2017. -/
def runDxdyA (cart : Bool) (s : S) : Except Err S :=
  if cart then .ok (s.set [(.dxAgrid, castOf .dxConst), (.dyAgrid, castOf .dyConst)])
  else
    let c := V.app .cornersA [.app .distX [.app .midY [.grid64]], .app .distY [.app .midX [.grid64]]]
    let h := V.app .vectorHalo [.nth 0 c, .nth 1 c]
    let s := s.say [.vectorHalo .dxAgrid .dyAgrid]
    .ok (s.set [(.dxAgrid, castOf (.app .abs [.nth 0 h])), (.dyAgrid, castOf (.app .abs [.nth 1 h]))])

/-- `self._dx_center, self._dy_center = self._compute_dxdy_center()`: 2019-2092 and 2094-2116. -/
def runDxdyC (cart : Bool) (s : S) : Except Err S :=
  if cart then
    .ok (s.set [(.dxc64, .dxConst), (.dyc64, .dyConst), (.dxCenter, castOf .dxConst),
      (.dyCenter, castOf .dyConst)])
  else do
    let s ← s.unless .dgridXyz runXyzD
    let s ← s.unless .agridXyz runXyzA
    let d ← s.get .dgridXyz
    let a ← s.get .agridXyz
    let x := V.app .borderX [.app .placeX [.app .distX [.agrid64]], d, a]
    let y := V.app .borderY [.app .placeY [.app .distY [.agrid64]], d, a]
    let h := V.app .vectorHalo [x, y]
    let c := V.app .cornersC [.app .abs [.nth 0 h], .app .abs [.nth 1 h]]
    let s := s.say [.vectorHalo .dxc64 .dyc64]
    .ok (s.set [(.dxc64, .nth 0 c), (.dyc64, .nth 1 c), (.dxCenter, castOf (.nth 0 c)),
      (.dyCenter, castOf (.nth 1 c))])

/-- `self._area, self._area64 = self._compute_area()`: 2118-2135 and 2137-2145. -/
def runArea (cart : Bool) (s : S) : Except Err S :=
  if cart then
    let v := V.app .times [.dxConst, .dyConst]
    .ok (s.set [(.area, castOf v), (.area64, v)])
  else
    let v := V.app .scalarHalo [.app .cellArea [.grid64]]
    let s := s.say [.halo .area64]
    .ok (s.set [(.area, castOf v), (.area64, v)])

/-- `self._area_c = self._compute_area_c()`: 2147-2189 and 2191-2199. -/
def runAreaC (cart : Bool) (s : S) : Except Err S :=
  if cart then .ok (s.set [(.areaC, castOf (.app .times [.dxConst, .dyConst]))])
  else do
    let s ← s.unless .dgridXyz runXyzD
    let s ← s.unless .agridXyz runXyzA
    let d ← s.get .dgridXyz
    let a ← s.get .agridXyz
    let v := V.app .borderArea [.app .triangles [.app .cornerArea [.agrid64], .agrid64], d, a]
    let s := s.say [.halo .areaC]
    .ok (s.set [(.areaC, castOf (.app .cornersB [.app .scalarHalo [v]]))])

/-- `self._ec1, self._ec2 = self._calculate_center_vectors()`: 2229-2257 and 2259-2279. -/
def runCenter (cart : Bool) (s : S) : Except Err S :=
  if cart then
    .ok (s.set [(.ec164, .unitX), (.ec264, .unitY), (.ec1, castOf .unitX), (.ec2, castOf .unitY)])
  else do
    let s ← s.unless .dgridXyz runXyzD
    let d ← s.get .dgridXyz
    let c := V.app .centerVector [d]
    .ok (s.set [(.ec164, .nth 0 c), (.ec264, .nth 1 c), (.ec1, castOf (.nth 0 c)),
      (.ec2, castOf (.nth 1 c))])

/-- `self._ew1, self._ew2 = self._calculate_vectors_west()`: 2281-2308 and 2310-2328. -/
def runWest (cart : Bool) (s : S) : Except Err S :=
  if cart then .ok (s.set [(.ew1, castOf .unitX), (.ew2, castOf .unitY)])
  else do
    let s ← s.unless .dgridXyz runXyzD
    let s ← s.unless .agridXyz runXyzA
    let d ← s.get .dgridXyz
    let a ← s.get .agridXyz
    let c := V.app .westVector [d, a]
    .ok (s.set [(.ew1, castOf (.nth 0 c)), (.ew2, castOf (.nth 1 c))])

/-- `self._es1, self._es2 = self._calculate_vectors_south()`: 2330-2355 and 2357-2373. -/
def runSouth (cart : Bool) (s : S) : Except Err S :=
  if cart then .ok (s.set [(.es1, castOf .unitX), (.es2, castOf .unitY)])
  else do
    let s ← s.unless .dgridXyz runXyzD
    let s ← s.unless .agridXyz runXyzA
    let d ← s.get .dgridXyz
    let a ← s.get .agridXyz
    let c := V.app .southVector [d, a]
    .ok (s.set [(.es1, castOf (.nth 0 c)), (.es2, castOf (.nth 1 c))])

/-- `self._ee1, self._ee2 = self._calculate_xy_unit_vectors()`: 2967-2992 and 2994-3013. -/
def runXY (cart : Bool) (s : S) : Except Err S :=
  if cart then .ok (s.set [(.ee1, castOf .nan), (.ee2, castOf .nan)])
  else do
    let s ← s.unless .dgridXyz runXyzD
    let d ← s.get .dgridXyz
    let c := V.app .xyUnit [d]
    .ok (s.set [(.ee1, castOf (.nth 0 c)), (.ee2, castOf (.nth 1 c))])

/-- `self._l2c_v, self._l2c_u = self._calculate_latlon_momentum_correction()`: 2923-2944 and
2946-2965. -/
def runL2c (cart : Bool) (s : S) : Except Err S :=
  if cart then .ok (s.set [(.l2cV, castOf .nan), (.l2cU, castOf .nan)])
  else
    let c := V.app .l2c [.grid64]
    .ok (s.set [(.l2cV, castOf (.nth 0 c)), (.l2cU, castOf (.nth 1 c))])

/-- The attributes set by `_init_cell_trigonometry`, from the results of `calculate_trig_uv` (`t`) and
the cosines and sines at the nine points (`c`, `n`), 2602-2680 and 2750-2788. -/
def trigSets (t : Nat → V) (c n : Fin 9 → V) : List (Attr × V) :=
  [(.cosSg 0, castOf (c 0)), (.cosSg 1, castOf (c 1)), (.cosSg 2, castOf (c 2)),
   (.cosSg 3, castOf (c 3)), (.cosSg 4, castOf (c 4)), (.cosSg 5, castOf (c 5)),
   (.cosSg 6, castOf (c 6)), (.cosSg 7, castOf (c 7)), (.cosSg 8, castOf (c 8)),
   (.sinSg 0, castOf (n 0)), (.sinSg 1, castOf (n 1)), (.sinSg 2, castOf (n 2)),
   (.sinSg 3, castOf (n 3)), (.sinSg 4, castOf (n 4)), (.sinSg564, n 4), (.sinSg 5, castOf (n 5)),
   (.sinSg 6, castOf (n 6)), (.sinSg 7, castOf (n 7)), (.sinSg 8, castOf (n 8)),
   (.cosaU, castOf (t 2)), (.cosaV, castOf (t 3)), (.cosaS, castOf (t 4)),
   (.sinaU, castOf (t 5)), (.sinaU64, t 5), (.sinaV, castOf (t 6)), (.sinaV64, t 6),
   (.rsinU, castOf (t 7)), (.rsinV, castOf (t 8)), (.rsina, castOf (t 9)), (.rsin2, castOf (t 10)),
   (.cosa, castOf (t 0)), (.sina, castOf (t 1))]

/-- On the Cartesian grid: all cosines 0, all sines 1, 2683-2748. The reciprocals are ones, too. -/
def cartTrig (i : Nat) : V := if i = 0 ∨ i = 2 ∨ i = 3 ∨ i = 4 then .zero else .one

/-- `_init_cell_trigonometry`: 2477-2680 and 2682-2788. `calculate_trig_uv` writes to the corners of
the cosines it is given (`geometry.py` 358-364, through a view). -/
def runTrig (cart : Bool) (s : S) : Except Err S :=
  if cart then .ok (s.set (trigSets cartTrig (fun _ => .zero) (fun _ => .one)))
  else do
    let s ← s.unless .ec164 (runCenter cart)
    let s ← s.unless .dgridXyz runXyzD
    let s ← s.unless .agridXyz runXyzA
    let d ← s.get .dgridXyz
    let a ← s.get .agridXyz
    let e1 ← s.get .ec164
    let e2 ← s.get .ec264
    let c := V.app .supergridCos [d, a, e1, e2]
    let n := V.app .supergridSin [d, a, e1, e2]
    let t := V.app .trigUV [d, c, n]
    let c' := V.app .cornerFixCos [.app .spoilCorners [c], n]
    let n' := V.app .cornerFixSin [.app .spoilCorners [c], n]
    .ok (s.set (trigSets (fun i => .nth i t) (fun i => .nth i.val c') (fun i => .nth i.val n')))

/-- `self._vlon, self._vlat = self._calculate_unit_vectors_lonlat()`: 3154-3177 and 3179-3200. -/
def runLonLat (cart : Bool) (s : S) : Except Err S :=
  if cart then
    .ok (s.set [(.vlon64, .nan), (.vlat64, .nan), (.vlon, castOf .nan), (.vlat, castOf .nan)])
  else
    let c := V.app .lonLatUnit [.agrid64]
    .ok (s.set [(.vlon64, .nth 0 c), (.vlat64, .nth 1 c), (.vlon, castOf (.nth 0 c)),
      (.vlat, castOf (.nth 1 c))])

/-- `self._del6_u, self._del6_v, self._divg_u, self._divg_v = self._calculate_divg_del6()`,
3015-3087. -/
def runDivg (cart : Bool) (s : S) : Except Err S := do
  let s ← s.unless (.sinSg 0) (runTrig cart)
  let n1 ← s.get (.sinSg 0)
  let s ← s.unless (.sinSg 1) (runTrig cart)
  let n2 ← s.get (.sinSg 1)
  let s ← s.unless (.sinSg 2) (runTrig cart)
  let n3 ← s.get (.sinSg 2)
  let s ← s.unless (.sinSg 3) (runTrig cart)
  let n4 ← s.get (.sinSg 3)
  let s ← s.unless (.sinSg 4) (runTrig cart)
  let n5 ← s.get (.sinSg 4)
  let s ← s.unless .sinaU64 (runTrig cart)
  let s ← s.unless .dx64 (runDxdy cart)
  let s ← s.unless .dxc64 (runDxdyC cart)
  let su ← s.get .sinaU64
  let sv ← s.get .sinaV64
  let dx ← s.get .dx64
  let dy ← s.get .dy64
  let dxc ← s.get .dxc64
  let dyc ← s.get .dyc64
  let r := V.app .divgDel6 [n1, n2, n3, n4, n5, su, sv, dx, dy, dxc, dyc]
  if cart then
    .ok (s.set [(.del6U, castOf (.nth 2 r)), (.del6V, castOf (.nth 3 r)), (.divgU, castOf (.nth 0 r)),
      (.divgV, castOf (.nth 1 r))])
  else
    let g := V.app .vectorHalo [.nth 1 r, .nth 0 r]
    let h := V.app .vectorHalo [.nth 3 r, .nth 2 r]
    let s := s.say [.vectorHalo .divgV .divgU, .vectorHalo .del6V .del6U]
    .ok (s.set [(.del6U, castOf (.app .abs [.nth 1 h])), (.del6V, castOf (.app .abs [.nth 0 h])),
      (.divgU, castOf (.app .abs [.nth 1 g])), (.divgV, castOf (.app .abs [.nth 0 g]))])

/-- `self._z11, ... = self._calculate_grid_z()`, 3202-3255, `geometry.py` 572-577. -/
def runZ (cart : Bool) (s : S) : Except Err S := do
  let s ← s.unless .ec164 (runCenter cart)
  let s ← s.unless .vlon64 (runLonLat cart)
  let e1 ← s.get .ec164
  let e2 ← s.get .ec264
  let lon ← s.get .vlon64
  let lat ← s.get .vlat64
  let z11 := V.app .dot [e1, lon]
  let z12 := V.app .dot [e1, lat]
  let z21 := V.app .dot [e2, lon]
  let z22 := V.app .dot [e2, lat]
  .ok (s.set [(.z1164, z11), (.z1264, z12), (.z2164, z21), (.z2264, z22),
    (.z11, castOf z11), (.z12, castOf z12), (.z21, castOf z21), (.z22, castOf z22)])

/-- `self._a11, ... = self._calculate_grid_a()`, 3257-3306, `geometry.py` 580-585. -/
def runA (cart : Bool) (s : S) : Except Err S := do
  let s ← s.unless .z1164 (runZ cart)
  let s ← s.unless .sinSg564 (runTrig cart)
  let z11 ← s.get .z1164
  let z12 ← s.get .z1264
  let z21 ← s.get .z2164
  let z22 ← s.get .z2264
  let n ← s.get .sinSg564
  .ok (s.set [(.a11, castOf (.app .halfRatio [z22, n])), (.a12, castOf (.app .minusHalfRatio [z12, n])),
    (.a21, castOf (.app .minusHalfRatio [z21, n])), (.a22, castOf (.app .halfRatio [z11, n]))])

/-- `self._edge_w, ... = self._calculate_edge_factors()`, 3308-3355; reads `gridvar`. -/
def runEdge (s : S) : Except Err S := do
  let s ← s.unless .grid runGrid
  let g ← s.get .grid
  let r := V.app .edgeFactors [g, .agrid64]
  .ok (s.set [(.edgeW, .nth 0 r), (.edgeE, .nth 1 r), (.edgeS, .nth 2 r), (.edgeN, .nth 3 r)])

/-- `self._edge_vect_w, ... = self._calculate_edge_a2c_vect_factors()`, 3357-3410. -/
def runVect (s : S) : Except Err S := do
  let s ← s.unless .grid runGrid
  let g ← s.get .grid
  let r := V.app .vectFactors [g, .agrid64]
  .ok (s.set [(.vectW, castOf (.nth 0 r)), (.vectE, castOf (.nth 1 r)), (.vectS, castOf (.nth 2 r)),
    (.vectN, castOf (.nth 3 r))])

/-- `self._edge_vect_e_2d, self._edge_vect_w_2d = self._calculate_2d_edge_a2c_vect_factors()`,
3412-3441. -/
def runVect2 (s : S) : Except Err S := do
  let s ← s.unless .grid runGrid
  let s ← s.unless .vectE runVect
  let e ← s.get .vectE
  let s ← s.unless .vectW runVect
  let w ← s.get .vectW
  .ok (s.set [(.vectE2, castOf (.app .repeat [e])), (.vectW2, castOf (.app .repeat [w]))])

/-- `_reduce_global_area_minmaxes`, 3443-3463. -/
def runMinMax (cart : Bool) (s : S) : Except Err S := do
  let s ← s.unless .area (runArea cart)
  let a ← s.get .area
  let s ← s.unless .areaC (runAreaC cart)
  let c ← s.get .areaC
  let s := s.say [.allreduce .daMin]
  let s := s.set [(.daMin, .app .allMin [.app .minInner [a]])]
  let s := s.say [.allreduce .daMax]
  let s := s.set [(.daMax, .app .allMax [.app .maxInner [a]])]
  let s := s.say [.allreduce .daMinC]
  let s := s.set [(.daMinC, .app .allMin [.app .minInner [c]])]
  let s := s.say [.allreduce .daMaxC]
  .ok (s.set [(.daMaxC, .app .allMax [.app .maxInner [c]])])

/-- `rarea`, `rarea_c`, `rdx`, ..., 1543-1667: the reciprocal of the term `of`. -/
def runRecip (self of : Attr) (run : S → Except Err S) (s : S) : Except Err S := do
  let s ← s.unless of run
  let v ← s.get of
  .ok (s.set [(self, .app .recip [v])])

/-- The public properties, 518-1667. -/
inductive Term where
  | grid | gridvar | dgridLonLat | agrid | agridLonLat | lon | lat | lonAgrid | latAgrid
  | dx | dy | dxa | dya | dxc | dyc | area | area64 | areaC
  | ec1 | ec2 | ew1 | ew2 | es1 | es2 | ee1 | ee2 | l2cV | l2cU
  | cosSg (i : Fin 9) | sinSg (i : Fin 9)
  | cosa | sina | cosaU | cosaV | cosaS | sinaU | sinaV | rsinU | rsinV | rsina | rsin2
  | del6U | del6V | divgU | divgV | vlon | vlat | z11 | z12 | z21 | z22 | a11 | a12 | a21 | a22
  | edgeW | edgeE | edgeS | edgeN | edgeVectW1d | edgeVectE1d | edgeVectS | edgeVectN
  | edgeVectW | edgeVectE | daMin | daMax | daMinC | daMaxC
  | rarea | rareaC | rdx | rdy | rdxa | rdya | rdxc | rdyc
  deriving DecidableEq, Repr

/-- The attribute a property tests and returns, and what it runs if that is missing. -/
def slot (cart : Bool) : Term → Attr × (S → Except Err S)
  | .grid | .gridvar | .dgridLonLat | .lon | .lat => (.grid, runGrid)
  | .agrid | .agridLonLat | .lonAgrid | .latAgrid => (.agrid, runAgrid)
  | .dx => (.dx, runDxdy cart)
  | .dy => (.dy, runDxdy cart)
  | .dxa => (.dxAgrid, runDxdyA cart)
  | .dya => (.dyAgrid, runDxdyA cart)
  | .dxc => (.dxCenter, runDxdyC cart)
  | .dyc => (.dyCenter, runDxdyC cart)
  | .area => (.area, runArea cart)
  | .area64 => (.area64, runArea cart)
  | .areaC => (.areaC, runAreaC cart)
  | .ec1 => (.ec1, runCenter cart)
  | .ec2 => (.ec2, runCenter cart)
  | .ew1 => (.ew1, runWest cart)
  | .ew2 => (.ew2, runWest cart)
  | .es1 => (.es1, runSouth cart)
  | .es2 => (.es2, runSouth cart)
  | .ee1 => (.ee1, runXY cart)
  | .ee2 => (.ee2, runXY cart)
  | .l2cV => (.l2cV, runL2c cart)
  | .l2cU => (.l2cU, runL2c cart)
  | .cosSg i => (.cosSg i, runTrig cart)
  | .sinSg i => (.sinSg i, runTrig cart)
  | .cosa => (.cosa, runTrig cart)
  | .sina => (.sina, runTrig cart)
  | .cosaU => (.cosaU, runTrig cart)
  | .cosaV => (.cosaV, runTrig cart)
  | .cosaS => (.cosaS, runTrig cart)
  | .sinaU => (.sinaU, runTrig cart)
  | .sinaV => (.sinaV, runTrig cart)
  | .rsinU => (.rsinU, runTrig cart)
  | .rsinV => (.rsinV, runTrig cart)
  | .rsina => (.rsina, runTrig cart)
  | .rsin2 => (.rsin2, runTrig cart)
  | .del6U => (.del6U, runDivg cart)
  | .del6V => (.del6V, runDivg cart)
  | .divgU => (.divgU, runDivg cart)
  | .divgV => (.divgV, runDivg cart)
  | .vlon => (.vlon, runLonLat cart)
  | .vlat => (.vlat, runLonLat cart)
  | .z11 => (.z11, runZ cart)
  | .z12 => (.z12, runZ cart)
  | .z21 => (.z21, runZ cart)
  | .z22 => (.z22, runZ cart)
  | .a11 => (.a11, runA cart)
  | .a12 => (.a12, runA cart)
  | .a21 => (.a21, runA cart)
  | .a22 => (.a22, runA cart)
  | .edgeW => (.edgeW, runEdge)
  | .edgeE => (.edgeE, runEdge)
  | .edgeS => (.edgeS, runEdge)
  | .edgeN => (.edgeN, runEdge)
  | .edgeVectW1d => (.vectW, runVect)
  | .edgeVectE1d => (.vectE, runVect)
  | .edgeVectS => (.vectS, runVect)
  | .edgeVectN => (.vectN, runVect)
  | .edgeVectW => (.vectW2, runVect2)
  | .edgeVectE => (.vectE2, runVect2)
  | .daMin => (.daMin, runMinMax cart)
  | .daMax => (.daMax, runMinMax cart)
  | .daMinC => (.daMinC, runMinMax cart)
  | .daMaxC => (.daMaxC, runMinMax cart)
  | .rarea => (.rarea, runRecip .rarea .area (runArea cart))
  | .rareaC => (.rareaC, runRecip .rareaC .areaC (runAreaC cart))
  | .rdx => (.rdx, runRecip .rdx .dx (runDxdy cart))
  | .rdy => (.rdy, runRecip .rdy .dy (runDxdy cart))
  | .rdxa => (.rdxa, runRecip .rdxa .dxAgrid (runDxdyA cart))
  | .rdya => (.rdya, runRecip .rdya .dyAgrid (runDxdyA cart))
  | .rdxc => (.rdxc, runRecip .rdxc .dxCenter (runDxdyC cart))
  | .rdyc => (.rdyc, runRecip .rdyc .dyCenter (runDxdyC cart))

/-- What a property makes of the attribute: `lon` and `lat` are parts of it, 548-594. -/
def part : Term → V → V
  | .lon, v | .lonAgrid, v => .app .lonPart [v]
  | .lat, v | .latAgrid, v => .app .latPart [v]
  | _, v => v

/-- Reading a property. -/
def read (cart : Bool) (t : Term) (s : S) : Except Err (V × S) := do
  let s ← s.unless (slot cart t).1 (slot cart t).2
  let v ← s.get (slot cart t).1
  .ok (part t v, s)

/-- A history: reading properties one after the other. -/
def reads (cart : Bool) : List Term → S → Except Err S
  | [], s => .ok s
  | t :: ts, s => do
    let (_, s) ← read cart t s
    reads cart ts s

end NDSL.Metric
