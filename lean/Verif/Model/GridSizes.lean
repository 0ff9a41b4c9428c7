import Verif.Model.DerivedTerms
/-
Model of the lengths and areas of the grid, as far as a rank computes them before its halo is exchanged:
`MetricTerms._init_agrid`, `_compute_dxdy_cube_sphere`, `_compute_dxdy_agrid_cube_sphere`,
`_compute_dxdy_center_cube_sphere`, `_compute_area_cube_sphere`, `_compute_area_c_cube_sphere`,
`_reduce_global_area_minmaxes` (`ndsl/grid/generation.py` 1851-2200 and 3443-3455), and `get_area`,
`set_corner_area_to_triangle_area`, `set_c_grid_tile_border_area`, `set_tile_border_dxc`, `set_tile_border_dyc`,
`great_circle_distance_along_axis` (`ndsl/grid/gnomonic.py` 342-590).

Arrays and slices are those of `Model/DerivedTerms`. Simplifications: a position is of any type (the code keeps it as
longitude and latitude or as x, y, z); distances, areas and middles are any functions of positions; numbers are of any
type. A view which the code writes to is an array that is copied back afterwards.
-/
namespace NDSL.Sizes
open NDSL.Deriv

variable {α β P R : Type}

/-- `get_rectangle_area`, `get_triangle_area`, `great_circle_distance_...`, `lon_lat_midpoint`, `0.5 * (p + q)`, the
mean of four corners, `2 * x`, and the numbers 0 and -1e8. -/
structure Ops (P R : Type) where
  rect : P → P → P → P → R
  tri : P → P → P → R
  dist : P → P → R
  mid : P → P → P
  half : P → P → P
  centre : P → P → P → P → P
  twice : R → R
  zero : R
  unset : R

/-- `a[::-1, :]` -/
def flipI (a : Arr α) : Arr α := ⟨a.n0, a.n1, fun i j => a.get (a.n0 - 1 - i) j⟩
/-- `a[:, ::-1]` -/
def flipJ (a : Arr α) : Arr α := ⟨a.n0, a.n1, fun i j => a.get i (a.n1 - 1 - j)⟩
/-- `a.transpose(1, 0)` -/
def transp (a : Arr α) : Arr α := ⟨a.n1, a.n0, fun i j => a.get j i⟩
/-- `a[i, j]` for numbers, counted from the end if negative. -/
def at' (a : Arr α) (i j : Int) : α := a.get (if i < 0 then a.n0 + i else i) (if j < 0 then a.n1 + j else j)

/-- An operation on four arrays of the same shape. -/
def zip4 (f : α → α → α → α → β) (a b c d : Arr α) : Except Err (Arr β) := do
  let x ← zip (·, ·) a b
  let y ← zip (·, ·) c d
  zip (fun p q => f p.1 p.2 q.1 q.2) x y

/-- `lon_lat_corner_to_cell_center` (gnomonic.py 191-195, the mean of `_corner_to_center_mean` 156-164), and
`_init_agrid`, 1853-1859: the last line of the storage is left alone. -/
def agrid (S : Ops P R) (x a : Arr P) : Except Err (Arr P) := do
  let c ← zip4 S.centre (x.cut (Sl.from 1) (Sl.from 1)) (x.cut (Sl.span 0 1) (Sl.span 0 1))
    (x.cut (Sl.from 1) (Sl.span 0 1)) (x.cut (Sl.span 0 1) (Sl.from 1))
  a.put (Sl.span 0 1) (Sl.span 0 1) c

/-- `great_circle_distance_along_axis`, 342-361, along the first axis. -/
def distI (S : Ops P R) (x : Arr P) : Except Err (Arr R) := zip S.dist (x.cut (Sl.span 0 1) Sl.all) (x.cut (Sl.from 1) Sl.all)
/-- ... along the second axis: transposed there and back. -/
def distJ (S : Ops P R) (x : Arr P) : Except Err (Arr R) := (distI S (transp x)).map transp

/-- The compute domain (`view`) of an array with a halo `h` and `e` values more than cells; storage has one more. -/
def dom (h e : Int) : Sl := Sl.span h (h + 1 - e)

/-- `_compute_dxdy_cube_sphere`, 1882-1902: the compute domain. -/
def dxdy (S : Ops P R) (h : Int) (x : Arr P) : Except Err (Arr R × Arr R) := do
  let v := x.cut (dom h 1) (dom h 1)
  let r ← distI S v
  let dx ← (full x.n0 x.n1 S.zero).put (dom h 0) (dom h 1) r
  let r ← distJ S v
  let dy ← (full x.n0 x.n1 S.zero).put (dom h 1) (dom h 0) r
  return (dx, dy)

/-- `_compute_dxdy_agrid_cube_sphere`, 1961-1985, without the fill of corners. -/
def dxdyA (S : Ops P R) (x : Arr P) : Except Err (Arr R × Arr R) := do
  let yc ← zip S.mid (x.cut Sl.all (Sl.span 0 1)) (x.cut Sl.all (Sl.from 1))
  let dx ← distI S yc
  let xc ← zip S.mid (x.cut (Sl.span 0 1) Sl.all) (x.cut (Sl.from 1) Sl.all)
  let dy ← distJ S xc
  let a ← (full x.n0 x.n1 S.zero).put (Sl.span 0 1) (Sl.span 0 1) dx
  let b ← (full x.n0 x.n1 S.zero).put (Sl.span 0 1) (Sl.span 0 1) dy
  return (a, b)

/-- `_set_tile_west_dxc`, gnomonic.py 553-558. -/
def westDxc (S : Ops P R) (d a : Arr P) (dxc : Arr R) : Except Err (Arr R) := do
  let e ← zip S.half (d.cut (Sl.one 0) (Sl.from 1)) (d.cut (Sl.one 0) (Sl.span 0 1))
  let r ← zip S.dist e (a.cut (Sl.one 0) Sl.all)
  dxc.put (Sl.one 0) Sl.all (r.map S.twice)
/-- `_set_tile_east_dxc`, 561-562. -/
def eastDxc (S : Ops P R) (d a : Arr P) (dxc : Arr R) : Except Err (Arr R) :=
  (westDxc S (flipI d) (flipI a) (flipI dxc)).map flipI
/-- `_set_tile_north_dyc`, 572-579. -/
def northDyc (S : Ops P R) (d a : Arr P) (dyc : Arr R) : Except Err (Arr R) :=
  (eastDxc S (transp d) (transp a) (transp dyc)).map transp
/-- `_set_tile_south_dyc`, 582-589. -/
def southDyc (S : Ops P R) (d a : Arr P) (dyc : Arr R) : Except Err (Arr R) :=
  (westDxc S (transp d) (transp a) (transp dyc)).map transp

/-- A statement under a condition. -/
def doIf (b : Bool) (f : α → Except Err α) (x : α) : Except Err α := if b then f x else .ok x

/-- `set_tile_border_dxc`, 546-550. -/
def borderDxc (S : Ops P R) (on : OnTile) (d a : Arr P) (dxc : Arr R) : Except Err (Arr R) := do
  let dxc ← doIf on.left (westDxc S d a) dxc
  doIf on.right (eastDxc S d a) dxc
/-- `set_tile_border_dyc`, 565-569. -/
def borderDyc (S : Ops P R) (on : OnTile) (d a : Arr P) (dyc : Arr R) : Except Err (Arr R) := do
  let dyc ← doIf on.top (northDyc S d a) dyc
  doIf on.bottom (southDyc S d a) dyc

/-- `_compute_dxdy_center_cube_sphere`, 2033-2052: before the borders; `a` is `_agrid_64` in its storage. -/
def dxdyC0 (S : Ops P R) (a : Arr P) : Except Err (Arr R × Arr R) := do
  let a' := a.cut (Sl.span 0 1) (Sl.span 0 1)
  let tx ← distI S a'
  let ty ← distJ S a'
  let dx ← (full a.n0 a.n1 S.zero).put (Sl.span 1 1) (Sl.span 0 1) tx
  let dx ← dx.put (Sl.one 0) (Sl.span 0 1) (tx.cut (Sl.one 0) Sl.all)
  let dx ← dx.put (Sl.one (-1)) (Sl.span 0 1) (tx.cut (Sl.one (-1)) Sl.all)
  let dy ← (full a.n0 a.n1 S.zero).put (Sl.span 0 1) (Sl.span 1 1) ty
  let dy ← dy.put (Sl.span 0 1) (Sl.one 0) (ty.cut Sl.all (Sl.one 0))
  let dy ← dy.put (Sl.span 0 1) (Sl.one (-1)) (ty.cut Sl.all (Sl.one (-1)))
  return (dx, dy)

/-- `_compute_dxdy_center_cube_sphere`, 2033-2072: `x` holds the corners, `a` the cells. -/
def dxdyC (S : Ops P R) (on : OnTile) (x a : Arr P) : Except Err (Arr R × Arr R) := do
  let (dx, dy) ← dxdyC0 S a
  let d := x.cut (Sl.span 3 3) (Sl.span 3 3)
  let c := (a.cut (Sl.span 0 1) (Sl.span 0 1)).cut (Sl.span 3 3) (Sl.span 3 3)
  let v ← borderDxc S on d c (dx.cut (Sl.span 3 3) (Sl.span 3 4))
  let dx ← dx.put (Sl.span 3 3) (Sl.span 3 4) v
  let v ← borderDyc S on d c (dy.cut (Sl.span 3 4) (Sl.span 3 3))
  let dy ← dy.put (Sl.span 3 4) (Sl.span 3 3) v
  return (dx, dy)

/-- `get_area`, 374-385. -/
def getArea (S : Ops P R) (x : Arr P) : Except Err (Arr R) :=
  zip4 S.rect (x.cut (Sl.span 0 1) (Sl.span 0 1)) (x.cut (Sl.span 0 1) (Sl.from 1)) (x.cut (Sl.from 1) (Sl.from 1))
    (x.cut (Sl.from 1) (Sl.span 0 1))

/-- `_compute_area_cube_sphere`, 2125-2133. -/
def area (S : Ops P R) (x : Arr P) : Except Err (Arr R) := do
  let r ← getArea S (x.cut (Sl.span 3 3) (Sl.span 3 3))
  (full x.n0 x.n1 S.unset).put (Sl.span 3 4) (Sl.span 3 4) r

/-- `set_corner_area_to_triangle_area`, 388-415. -/
def triangles (S : Ops P R) (on : OnTile) (x : Arr P) (v : Arr R) : Arr R :=
  let ll := x.cut (Sl.span 0 1) (Sl.span 0 1)
  let lr := x.cut (Sl.from 1) (Sl.span 0 1)
  let ul := x.cut (Sl.span 0 1) (Sl.from 1)
  let ur := x.cut (Sl.from 1) (Sl.from 1)
  let v := if on.left && on.bottom then v.fill (Sl.one 0) (Sl.one 0) (S.tri (at' ul 0 0) (at' ur 0 0) (at' lr 0 0)) else v
  let v := if on.right && on.bottom then
    v.fill (Sl.one (-1)) (Sl.one 0) (S.tri (at' ur (-1) 0) (at' ul (-1) 0) (at' ll (-1) 0)) else v
  let v := if on.right && on.top then
    v.fill (Sl.one (-1)) (Sl.one (-1)) (S.tri (at' lr (-1) (-1)) (at' ll (-1) (-1)) (at' ul (-1) (-1))) else v
  if on.left && on.top then
    v.fill (Sl.one 0) (Sl.one (-1)) (S.tri (at' ll 0 (-1)) (at' lr 0 (-1)) (at' ur 0 (-1))) else v

/-- `_set_c_grid_west_edge_area`, 478-487. -/
def westArea (S : Ops P R) (d a : Arr P) (v : Arr R) : Except Err (Arr R) := do
  let yc ← zip S.half (d.cut (Sl.one 1) (Sl.span 0 1)) (d.cut (Sl.one 1) (Sl.from 1))
  let r ← zip4 S.rect (yc.cut Sl.all (Sl.span 0 1)) (a.cut (Sl.one 1) (Sl.span 0 1)) (a.cut (Sl.one 1) (Sl.from 1))
    (yc.cut Sl.all (Sl.from 1))
  v.put (Sl.one 0) Sl.all (r.map S.twice)
/-- `_set_c_grid_east_edge_area`, 490-493. -/
def eastArea (S : Ops P R) (d a : Arr P) (v : Arr R) : Except Err (Arr R) :=
  (westArea S (flipI d) (flipI a) (flipI v)).map flipI
/-- `_set_c_grid_south_edge_area`, 502-509. -/
def southArea (S : Ops P R) (d a : Arr P) (v : Arr R) : Except Err (Arr R) :=
  (westArea S (transp d) (transp a) (transp v)).map transp
/-- `_set_c_grid_north_edge_area`, 496-499. -/
def northArea (S : Ops P R) (d a : Arr P) (v : Arr R) : Except Err (Arr R) :=
  (southArea S (flipJ d) (flipJ a) (flipJ v)).map flipJ

/-- `set_c_grid_tile_border_area`, 418-475. -/
def borderArea (S : Ops P R) (on : OnTile) (d a : Arr P) (v : Arr R) : Except Err (Arr R) := do
  let v ← doIf on.left (westArea S d a) v
  let v ← doIf on.top (northArea S d a) v
  let v ← doIf on.right (eastArea S d a) v
  doIf on.bottom (southArea S d a) v

/-- `_compute_area_c_cube_sphere`, 2154-2181: `corners` is `set_corner_area_to_triangle_area` there. -/
def areaC (S : Ops P R) (on : OnTile) (corners : Arr P → Arr R → Arr R) (x a : Arr P) : Except Err (Arr R) := do
  let r ← getArea S (a.cut (Sl.span 2 3) (Sl.span 2 3))
  let ar ← (full x.n0 x.n1 S.zero).put (Sl.span 3 3) (Sl.span 3 3) r
  let v := corners (a.cut (Sl.span 2 3) (Sl.span 2 3)) (ar.cut (Sl.span 3 3) (Sl.span 3 3))
  let v ← borderArea S on (x.cut (Sl.span 2 2) (Sl.span 2 2))
    ((a.cut (Sl.span 0 1) (Sl.span 0 1)).cut (Sl.span 2 2) (Sl.span 2 2)) v
  ar.put (Sl.span 3 3) (Sl.span 3 3) v

/-- The values in the first `n` rows and columns of an array. -/
def values (a : Arr R) : List R :=
  (List.range a.n0.toNat).flatMap fun i => (List.range a.n1.toNat).map fun j => a.get (Int.ofNat i) (Int.ofNat j)

/-- `_reduce_global_area_minmaxes`, 3443-3455: the minimum (or maximum, with another `m`) of an array `[3:-4, 3:-4]`
over all ranks; `none` if there are no points. -/
def reduceAll (m : R → R → R) (ranks : List (Arr R)) : Option R :=
  let l : List R := ranks.flatMap fun a => values (a.cut (Sl.span 3 4) (Sl.span 3 4))
  match l with
  | [] => none
  | x :: l => some (l.foldl m x)

end NDSL.Sizes
