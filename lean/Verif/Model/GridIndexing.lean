import Verif.Model.Basic
import Verif.Model.StateTransfer

/-
Model of `GridIndexing` (`ndsl/dsl/stencil.py` 634-964) and of the field origins of a
`FrozenStencil` (486-524). Indices are `Int`.
-/
namespace NDSL.Indexing

abbrev Index3 := Int × Int × Int

/-- `GridIndexing.__init__`, 642-670: `origin = (n_halo, n_halo, k_start)`. -/
structure GridIndexing where
  domain : Index3
  nHalo : Int
  southEdge : Bool
  northEdge : Bool
  westEdge : Bool
  eastEdge : Bool
  kStart : Int
  deriving DecidableEq, Repr

namespace GridIndexing

def origin (g : GridIndexing) : Index3 := (g.nHalo, g.nHalo, g.kStart)

/-- `isc`, `iec`, `jsc`, `jec`, 704-722. -/
def isc (g : GridIndexing) : Int := g.origin.1
def iec (g : GridIndexing) : Int := g.origin.1 + g.domain.1 - 1
def jsc (g : GridIndexing) : Int := g.origin.2.1
def jec (g : GridIndexing) : Int := g.origin.2.1 + g.domain.2.1 - 1

/-- `isd`, `ied`, `jsd`, `jed`, 724-742. -/
def isd (g : GridIndexing) : Int := g.origin.1 - g.nHalo
def ied (g : GridIndexing) : Int := g.isd + g.domain.1 + 2 * g.nHalo - 1
def jsd (g : GridIndexing) : Int := g.origin.2.1 - g.nHalo
def jed (g : GridIndexing) : Int := g.jsd + g.domain.2.1 + 2 * g.nHalo - 1

/-- `origin_full`, 760-764. -/
def originFull (g : GridIndexing) (add : Index3) : Index3 :=
  (g.isd + add.1, g.jsd + add.2.1, g.origin.2.2 + add.2.2)
/-- `origin_compute`, 766-770. -/
def originCompute (g : GridIndexing) (add : Index3) : Index3 :=
  (g.isc + add.1, g.jsc + add.2.1, g.origin.2.2 + add.2.2)
/-- `domain_full`, 772-780. -/
def domainFull (g : GridIndexing) (add : Index3) : Index3 :=
  (g.ied + 1 - g.isd + add.1, g.jed + 1 - g.jsd + add.2.1, g.domain.2.2 + add.2.2)
/-- `domain_compute`, 782-790. -/
def domainCompute (g : GridIndexing) (add : Index3) : Index3 :=
  (g.iec + 1 - g.isc + add.1, g.jec + 1 - g.jsc + add.2.1, g.domain.2.2 + add.2.2)
/-- `max_shape`, 691-702. -/
def maxShape (g : GridIndexing) : Index3 := g.domainFull (1, 1, 1 + g.origin.2.2)

/-- `_origin_from_dims`, 878-887: dimensions of no axis are skipped. -/
def originFromDims (g : GridIndexing) : List Dim → List Int
  | [] => []
  | d :: ds =>
    if d.isI then g.origin.1 :: g.originFromDims ds
    else if d.isJ then g.origin.2.1 :: g.originFromDims ds
    else if d.isK then g.origin.2.2 :: g.originFromDims ds
    else g.originFromDims ds

/-- `_domain_from_dims`, 889-904. -/
def domainFromDims (g : GridIndexing) : List Dim → List Int
  | [] => []
  | .i :: ds => g.domain.1 :: g.domainFromDims ds
  | .iInterface :: ds => (g.domain.1 + 1) :: g.domainFromDims ds
  | .j :: ds => g.domain.2.1 :: g.domainFromDims ds
  | .jInterface :: ds => (g.domain.2.1 + 1) :: g.domainFromDims ds
  | .k :: ds => g.domain.2.2 :: g.domainFromDims ds
  | .kInterface :: ds => (g.domain.2.2 + 1) :: g.domainFromDims ds
  | _ :: ds => g.domainFromDims ds

end GridIndexing

/-- `for i, n in enumerate(halos): xs[i] += c * n` (`IndexError` past the end). -/
def addHalos (c : Int) : List Int → List Int → Except Err (List Int)
  | xs, [] => .ok xs
  | [], _ :: _ => .error .indexError
  | x :: xs, n :: ns => do
    let r ← addHalos c xs ns
    .ok ((x + c * n) :: r)

/-- `for i, d in enumerate(dims): if d in I_DIMS + J_DIMS: shape[i] += n_halo`. -/
def addNHalo (nHalo : Int) : List Dim → List Int → Except Err (List Int)
  | [], ss => .ok ss
  | d :: ds, [] => if d.isHorizontal then .error .indexError else addNHalo nHalo ds []
  | d :: ds, s :: ss => do
    let r ← addNHalo nHalo ds ss
    .ok ((if d.isHorizontal then s + nHalo else s) :: r)

namespace GridIndexing

/-- `get_origin_domain`, 837-857. -/
def getOriginDomain (g : GridIndexing) (dims : List Dim) (halos : List Int) :
    Except Err (List Int × List Int) := do
  let o ← addHalos (-1) (g.originFromDims dims) halos
  let d ← addHalos 2 (g.domainFromDims dims) halos
  .ok (o, d)

/-- `get_2d_compute_origin_domain`, 859-876. -/
def get2dCompute (g : GridIndexing) (klevel : Int) : Index3 × Index3 :=
  ((g.isc, g.jsc, klevel), (g.iec + 1 - g.isc, g.jec + 1 - g.jsc, 1))

/-- `get_shape`, 906-930. -/
def getShape (g : GridIndexing) (dims : List Dim) (halos : List Int) :
    Except Err (List Int) := do
  let s ← addNHalo g.nHalo dims (g.domainFromDims dims)
  addHalos 1 s halos

/-- `restrict_vertical`, 932-964. -/
def restrictVertical (g : GridIndexing) (kStart : Int) (nk : Option Int) :
    Except Err GridIndexing :=
  if kStart < 0 then .error .valueError
  else if kStart > g.domain.2.2 then .error .valueError
  else
    match nk with
    | none => .ok { g with domain := (g.domain.1, g.domain.2.1, g.domain.2.2 - kStart),
                           kStart := g.kStart + kStart }
    | some n =>
      if n < 0 then .error .valueError
      else if n > g.domain.2.2 - kStart then .error .valueError
      else .ok { g with domain := (g.domain.1, g.domain.2.1, n), kStart := g.kStart + kStart }

end GridIndexing

/-! ### Axis offsets -/

/-- A `gtscript.AxisIndex`: `axis[0] + offset` or `axis[-1] + offset`. -/
inductive AxisIndex where
  | fromStart (off : Int)
  | fromEnd (off : Int)
  deriving DecidableEq, Repr

/-- `index + n`. -/
def AxisIndex.plus : AxisIndex → Int → AxisIndex
  | .fromStart o, n => .fromStart (o + n)
  | .fromEnd o, n => .fromEnd (o + n)

/-- `np.iinfo(np.int16).max`. -/
def int16Max : Int := 32767

/-- The entries of `axis_offsets` along the horizontal axes and the vertical, 792-835. -/
structure AxisOffsets where
  iStart : AxisIndex
  localIs : AxisIndex
  iEnd : AxisIndex
  localIe : AxisIndex
  jStart : AxisIndex
  localJs : AxisIndex
  jEnd : AxisIndex
  localJe : AxisIndex
  kStart : Int
  kEnd : Int
  deriving DecidableEq, Repr

/-- `axis_offsets`, 792-835, for three-dimensional origin and domain. -/
def axisOffsets (g : GridIndexing) (origin domain : Index3) : AxisOffsets where
  iStart := if g.westEdge then .fromStart (0 + g.origin.1 - origin.1)
    else .fromStart (0 - int16Max)
  localIs := .fromStart (0 + g.isc - origin.1)
  iEnd := if g.eastEdge then
      .fromEnd (0 + (g.origin.1 + g.domain.1) - (origin.1 + domain.1))
    else .fromEnd (0 + int16Max)
  localIe := .fromEnd (0 + g.iec - origin.1 - domain.1 + 1)
  jStart := if g.southEdge then .fromStart (0 + g.origin.2.1 - origin.2.1)
    else .fromStart (0 - int16Max)
  localJs := .fromStart (0 + g.jsc - origin.2.1)
  jEnd := if g.northEdge then
      .fromEnd (0 + (g.origin.2.1 + g.domain.2.1) - (origin.2.1 + domain.2.1))
    else .fromEnd (0 + int16Max)
  localJe := .fromEnd (0 + g.jec - origin.2.1 - domain.2.1 + 1)
  kStart := origin.2.2
  kEnd := origin.2.2 + (domain.2.2 - 1)

/-! ### Field origins of a stencil -/

/-- An axis of a GT4Py field. -/
inductive Axis where | I | J | K
  deriving DecidableEq, Repr

/-- The parts of GT4Py's `FieldInfo` used: its axes, and the mask entries of its data
dimensions. -/
structure FieldInfo where
  axes : List Axis
  dataMask : List Bool
  deriving DecidableEq, Repr

/-- `origin_tuple[{"I": 0, "J": 1, "K": 2}[ax]]`. -/
def originAt (o : Index3) : Axis → Int
  | .I => o.1
  | .J => o.2.1
  | .K => o.2.2

/-- The body of the loop of `_compute_field_origins`, 507-520. -/
def fieldOrigin (o : Index3) : Option FieldInfo → List Int
  | some fi => fi.axes.map (originAt o) ++ (fi.dataMask.filter id).map fun _ => 0
  | none => [o.1, o.2.1, o.2.2]

/-- The `origin` argument of a stencil: one index, or a mapping with an entry `_all_`
(kept separately as `all`) and origins of particular fields. -/
inductive OriginArg where
  | index (o : Index3)
  | mapping (all : Index3) (fields : List (String × List Int))

/-- `FrozenStencil._compute_field_origins`, 486-524: the origins by field name (the entry
`_all_` is not part of the result here). `fields` lists the names and infos of the stencil's
fields in order. -/
def computeFieldOrigins (fields : List (String × Option FieldInfo)) (origin : OriginArg) :
    List (String × List Int) :=
  let start : Index3 × List (String × List Int) := match origin with
    | .index o => (o, [])
    | .mapping o m => (o, m)
  fields.foldl (fun d f =>
    if (dictGet d f.1).isSome then d else dictSet d f.1 (fieldOrigin start.1 f.2)) start.2

end NDSL.Indexing
