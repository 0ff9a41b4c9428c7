import Verif.Model.Translate
import Verif.Model.GridIndexing
import Verif.Model.Sizer
/-
Model of the rest of `Grid` for tests, `ndsl/stencils/testing/grid.py`: corners (155-158), ranges (233-252), windows (254-379),
shapes (381-391), edges (393-416), origins (418-428), the indexing of stencils (457-466) and the sizes (167-186). `Grid` itself
is in `Verif/Model/Translate.lean`.

Arrays have no negative indices; edges are those of arrays with two or three dimensions.
-/
namespace NDSL.Translate
open NDSL.Storage
variable {V : Type}

namespace Grid

/-- `sw_corner`, `se_corner`, `nw_corner`, `ne_corner`, 155-158. -/
def swCorner (g : Grid) : Bool := g.west && g.south
def seCorner (g : Grid) : Bool := g.east && g.south
def nwCorner (g : Grid) : Bool := g.west && g.north
def neCorner (g : Grid) : Bool := g.east && g.north

/-- `range(a, b)`. -/
def pyRange (a b : Int) : List Int := (List.range (b - a).toNat).map fun (n : Nat) => a + (n : Int)

/-- 233-252. -/
def irangeCompute (g : Grid) : List Int := pyRange g.is_ (g.ie + 1)
def irangeComputeX (g : Grid) : List Int := pyRange g.is_ (g.ie + 2)
def jrangeCompute (g : Grid) : List Int := pyRange g.js (g.je + 1)
def jrangeComputeY (g : Grid) : List Int := pyRange g.js (g.je + 2)
def irangeDomain (g : Grid) : List Int := pyRange g.isd (g.ied + 1)
def jrangeDomain (g : Grid) : List Int := pyRange g.jsd (g.jed + 1)
def krange (g : Grid) : List Int := pyRange 0 g.npz

/-- A dictionary with `istart`, `iend`, `jstart`, `jend`, `kstart`, `kend`: first and last index of each direction. -/
structure Window where
  istart : Int
  iend : Int
  jstart : Int
  jend : Int
  kstart : Int
  kend : Int
  deriving DecidableEq

/-- `slice_dict` with three dimensions, 274-283. -/
def Window.slices (w : Window) : Except Err (List (Nat × Nat)) :=
  sliceDict [(w.istart, w.iend), (w.jstart, w.jend), (w.kstart, w.kend)] 3

/-- `default_domain_dict`, 285-293. -/
def defaultDomainDict (g : Grid) : Window := ⟨g.isd, g.ied, g.jsd, g.jed, 0, g.npz - 1⟩
/-- `default_dict_buffer_2d`, 295-299. -/
def defaultDictBuffer2d (g : Grid) : Window :=
  { g.defaultDomainDict with iend := g.defaultDomainDict.iend + 1, jend := g.defaultDomainDict.jend + 1 }
/-- `compute_dict`, 301-309. -/
def computeDict (g : Grid) : Window := ⟨g.is_, g.ie, g.js, g.je, 0, g.npz - 1⟩
/-- `compute_dict_buffer_2d`, 311-315. -/
def computeDictBuffer2d (g : Grid) : Window :=
  { g.computeDict with iend := g.computeDict.iend + 1, jend := g.computeDict.jend + 1 }
/-- `default_buffer_k_dict`, 317-320. -/
def defaultBufferKDict (g : Grid) : Window := { g.defaultDomainDict with kend := g.npz }
/-- `compute_buffer_k_dict`, 322-325. -/
def computeBufferKDict (g : Grid) : Window := { g.computeDict with kend := g.npz }
/-- `x3d_domain_dict`, 327-334. -/
def x3dDomainDict (g : Grid) : Window :=
  { g.defaultDomainDict with istart := g.isd, iend := g.ied + 1, jstart := g.jsd, jend := g.jed }
/-- `y3d_domain_dict`, 336-343. -/
def y3dDomainDict (g : Grid) : Window :=
  { g.defaultDomainDict with istart := g.isd, iend := g.ied, jstart := g.jsd, jend := g.jed + 1 }
/-- `x3d_compute_dict`, 345-352. -/
def x3dComputeDict (g : Grid) : Window :=
  { g.defaultDomainDict with istart := g.is_, iend := g.ie + 1, jstart := g.js, jend := g.je }
/-- `y3d_compute_dict`, 354-361. -/
def y3dComputeDict (g : Grid) : Window :=
  { g.defaultDomainDict with istart := g.is_, iend := g.ie, jstart := g.js, jend := g.je + 1 }
/-- `x3d_compute_domain_y_dict`, 363-370. -/
def x3dComputeDomainYDict (g : Grid) : Window :=
  { g.defaultDomainDict with istart := g.is_, iend := g.ie + 1, jstart := g.jsd, jend := g.jed }
/-- `y3d_compute_domain_x_dict`, 372-379. -/
def y3dComputeDomainXDict (g : Grid) : Window :=
  { g.defaultDomainDict with istart := g.isd, iend := g.ied, jstart := g.js, jend := g.je + 1 }

/-- `domain_shape_full`, `domain_shape_compute`, 381-391. -/
def domainShapeFull (g : Grid) (add : Int × Int × Int) : Int × Int × Int :=
  (g.nid + add.1, g.njd + add.2.1, g.npz + add.2.2)
def domainShapeCompute (g : Grid) (add : Int × Int × Int) : Int × Int × Int :=
  (g.nic + add.1, g.njc + add.2.1, g.npz + add.2.2)

/-- `copy_right_edge`, 393-394, of an array with three dimensions. -/
def copyRightEdge (var : Nd V) (i j : Nat) : Except Err (Nd V × Nd V) :=
  match var.shape with
  | [n, m, l] => do
    let a ← cut var [(i, n), (0, m), (0, l)]
    let b ← cut var [(0, n), (j, m), (0, l)]
    return (a, b)
  | _ => .error .indexError

/-- `insert_left_edge`, 396-402. -/
def insertLeftEdge (var ei : Nd V) (i : Nat) (ej : Nd V) (j : Nat) : Except Err (Nd V) :=
  match var.shape with
  | [n, m] => do
    let v ← assign var [(0, i), (0, m)] ei
    assign v [(0, n), (0, j)] ej
  | [n, m, l] => do
    let v ← assign var [(0, i), (0, m), (0, l)] ei
    assign v [(0, n), (0, j), (0, l)] ej
  | _ => .error .indexError

/-- `insert_right_edge`, 404-410. -/
def insertRightEdge (var ei : Nd V) (i : Nat) (ej : Nd V) (j : Nat) : Except Err (Nd V) :=
  match var.shape with
  | [n, m] => do
    let v ← assign var [(i, n), (0, m)] ei
    assign v [(0, n), (j, m)] ej
  | [n, m, l] => do
    let v ← assign var [(i, n), (0, m), (0, l)] ei
    assign v [(0, n), (j, m), (0, l)] ej
  | _ => .error .indexError

/-- `uvar_edge_halo`, `vvar_edge_halo`, 412-416. -/
def uvarEdgeHalo (g : Grid) (var : Nd V) : Except Err (Nd V × Nd V) := copyRightEdge var (g.ie + 2).toNat (g.je + 1).toNat
def vvarEdgeHalo (g : Grid) (var : Nd V) : Except Err (Nd V × Nd V) := copyRightEdge var (g.ie + 1).toNat (g.je + 2).toNat

/-- `compute_origin`, `full_origin`, 418-428. -/
def computeOrigin (g : Grid) (add : Int × Int × Int) : Int × Int × Int := (g.is_ + add.1, g.js + add.2.1, add.2.2)
def fullOrigin (g : Grid) (add : Int × Int × Int) : Int × Int × Int := (g.isd + add.1, g.jsd + add.2.1, add.2.2)

/-- `grid_indexing`, 457-466. -/
def gridIndexing (g : Grid) : Indexing.GridIndexing :=
  ⟨g.domainShapeCompute (0, 0, 0), halo, g.south, g.north, g.west, g.east, 0⟩

/-- `sizer`, 167-186, without the data dimensions: sizes of the part of rank 0, the default. -/
def sizer (fl : FloatOps) (g : Grid) (layout : Int × Int) (pad : Bool) : Except Err Sizer :=
  Sizer.fromTileParams fl (g.npx - 1) (g.npy - 1) g.npz halo layout [] pad 0

end Grid
end NDSL.Translate
