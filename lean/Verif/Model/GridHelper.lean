import Mathlib.Algebra.Field.Defs
import Verif.Model.NDArray
/-
Model of `ndsl/grid/helper.py`: the vertical grid data (126-236), the parts of `GridData` that use it
(327-407, 536-594), and the data for the physics driver (709-832).

Simplifications: numbers of a field instead of floating point numbers (`log` is a parameter); division by
zero gives 0 instead of NaN or infinity; quantities on levels are lists of the values in the compute domain
(`view[:]`); units and backends are left out.
-/
namespace NDSL.GridHelper

inductive HErr where
  | valueError
  | indexError
  | attributeError
  deriving DecidableEq, Repr

/-- `VerticalGridData`, 126-145: the coefficients, what has been computed from them, and `ks`, which is not
there before it is set. -/
structure VGrid (R : Type) where
  ak : List R
  bk : List R
  pInterface : Option (List R) := none
  p : Option (List R) := none
  dp : Option (List R) := none
  ks : Option R := none
  deriving DecidableEq

variable {R : Type} [Field R] [DecidableEq R]

/-- `p_ref`, 177-180. -/
def pRef : R := 100000

/-- `ak.view[:] + bk.view[:] * p_ref`, 185. -/
def interfaceOf (ak bk : List R) : List R := List.zipWith (fun a b => a + b * pRef) ak bk

/-- `x[1:] - x[:-1]`. -/
def diffs (x : List R) : List R := List.zipWith (fun a b => a - b) x.tail x.dropLast

/-- `(p[1:] - p[:-1]) / log(p[1:] / p[:-1])`, 198-202. -/
def levelsOf (log : R → R) (p : List R) : List R :=
  List.zipWith (fun d q => d / log q) (diffs p) (List.zipWith (fun a b => a / b) p.tail p.dropLast)

/-- `ak[1:] - ak[:-1] + (bk[1:] - bk[:-1]) * p_ref`, 215-219. -/
def thicknessOf (ak bk : List R) : List R := List.zipWith (fun a b => a + b * pRef) (diffs ak) (diffs bk)

/-- What a user does with the vertical grid data, directly or through `GridData`, 536-594. -/
inductive VOp (R : Type) where
  | readPInterface
  | readP
  | readDp
  | readPtop
  | readKs
  | setAk (v : List R)
  | setBk (v : List R)
  | setPtop (v : R)
  | setKs (v : R)
  deriving DecidableEq

/-- The result of one operation. -/
inductive VRes (R : Type) where
  | values (l : List R)
  | value (v : R)
  | done
  | error (e : HErr)
  deriving DecidableEq

/-- `p_interface`, 182-193. -/
def VGrid.readPInterface (g : VGrid R) : VGrid R × List R :=
  match g.pInterface with
  | some v => (g, v)
  | none => ({ g with pInterface := some (interfaceOf g.ak g.bk) }, interfaceOf g.ak g.bk)

/-- `p`, 195-210. -/
def VGrid.readP (log : R → R) (g : VGrid R) : VGrid R × List R :=
  match g.p with
  | some v => (g, v)
  | none =>
    ({ g.readPInterface.1 with p := some (levelsOf log g.readPInterface.2) }, levelsOf log g.readPInterface.2)

/-- `dp`, 212-227. -/
def VGrid.readDp (g : VGrid R) : VGrid R × List R :=
  match g.dp with
  | some v => (g, v)
  | none => ({ g with dp := some (thicknessOf g.ak g.bk) }, thicknessOf g.ak g.bk)

/-- `ptop`, 229-236. -/
def VGrid.ptop (g : VGrid R) : VRes R :=
  match g.bk.head?, g.ak.head? with
  | some b, some a => if b ≠ 0 then .error .valueError else .value a
  | _, _ => .error .indexError

/-- One operation.  `ptop` has no setter on `VerticalGridData`, so setting it (588-590) raises; `ks` is not
an attribute of it before it is set, 575-581. -/
def VGrid.step (log : R → R) (g : VGrid R) : VOp R → VGrid R × VRes R
  | .readPInterface => (g.readPInterface.1, .values g.readPInterface.2)
  | .readP => ((g.readP log).1, .values (g.readP log).2)
  | .readDp => (g.readDp.1, .values g.readDp.2)
  | .readPtop => (g, g.ptop)
  | .readKs =>
    (g, match g.ks with
      | some v => .value v
      | none => .error .attributeError)
  | .setAk v => ({ g with ak := v }, .done)
  | .setBk v => ({ g with bk := v }, .done)
  | .setPtop _ => (g, .error .attributeError)
  | .setKs v => ({ g with ks := some v }, .done)

/-- A history of operations on newly made vertical grid data. -/
def VGrid.run (log : R → R) (g : VGrid R) : List (VOp R) → VGrid R × List (VRes R)
  | [] => (g, [])
  | o :: os => let r := g.step log o
    let s := r.1.run log os
    (s.1, r.2 :: s.2)

/-! ### The driver's grid data -/

/-- The parts of a quantity used here. -/
structure HQty (α : Type) where
  data : NArr α
  dims : List Dim
  origin : List Int
  extent : List Int

/-- `quantity[..., i]` as an array: indices are extended by `i`. -/
def lastAt {α : Type} (a : NArr α) (i : Int) : NArr α := ⟨a.shape.dropLast, fun idx => a.get (idx ++ [i])⟩

/-- `split_quantity_along_last_dim`, 810-832; `quantity.shape[-1]` raises for arrays without dimensions. -/
def splitLast {α : Type} (q : HQty α) : Except HErr (List (HQty α)) :=
  match q.data.shape.getLast? with
  | none => .error .indexError
  | some n => .ok ((List.range n.toNat).map fun (i : Nat) =>
      ⟨lastAt q.data (i : Int), q.dims.dropLast, q.origin.dropLast, q.extent.dropLast⟩)

/-- `DriverGridData`, 709-748. -/
structure Driver (α : Type) where
  vlon1 : HQty α
  vlon2 : HQty α
  vlon3 : HQty α
  vlat1 : HQty α
  vlat2 : HQty α
  vlat3 : HQty α
  es11 : HQty α
  es12 : HQty α
  es13 : HQty α
  ew21 : HQty α
  ew22 : HQty α
  ew23 : HQty α
  edgeW : HQty α
  edgeE : HQty α
  edgeS : HQty α
  edgeN : HQty α
  gridType : Int

/-- `a, b, c = split_quantity_along_last_dim(q)`: raises `ValueError` unless there are three. -/
def split3 {α : Type} (q : HQty α) : Except HErr (HQty α × HQty α × HQty α) :=
  match splitLast q with
  | .ok [a, b, c] => .ok (a, b, c)
  | .ok _ => .error .valueError
  | .error e => .error e

/-- `new_from_grid_variables`, 764-807, for quantities (the `except` branch for storages is not modelled). -/
def Driver.fromVariables {α : Type} (vlon vlat edgeN edgeS edgeE edgeW es1 ew2 : HQty α) (gridType : Int) :
    Except HErr (Driver α) := do
  let a ← split3 vlon
  let b ← split3 vlat
  let c ← split3 es1
  let d ← split3 ew2
  return { vlon1 := a.1, vlon2 := a.2.1, vlon3 := a.2.2, vlat1 := b.1, vlat2 := b.2.1, vlat3 := b.2.2,
           es11 := c.1, es12 := c.2.1, es13 := c.2.2, ew21 := d.1, ew22 := d.2.1, ew23 := d.2.2,
           edgeW := edgeW, edgeE := edgeE, edgeS := edgeS, edgeN := edgeN, gridType := gridType }

/-- The metric terms used by the driver. -/
structure Terms (α : Type) where
  vlon : HQty α
  vlat : HQty α
  edgeN : HQty α
  edgeS : HQty α
  edgeE : HQty α
  edgeW : HQty α
  es1 : HQty α
  ew2 : HQty α
  gridType : Int

/-- `new_from_metric_terms`, 750-762: `vlat=metric_terms.vlon`. -/
def Driver.fromTerms {α : Type} (m : Terms α) : Except HErr (Driver α) :=
  Driver.fromVariables m.vlon m.vlon m.edgeN m.edgeS m.edgeE m.edgeW m.es1 m.ew2 m.gridType

/-! ### The Coriolis parameter -/

/-- `GridData`, 323-347: the latitudes of corners and cells, and the Coriolis parameters. -/
structure CGrid (α : Type) where
  lat : HQty α
  latAgrid : HQty α
  fC : Option (HQty α)
  fCAgrid : Option (HQty α)

/-- `_fC_from_data`, 377-387. -/
def fromData {α : Type} (data : NArr α) (lat : HQty α) : HQty α := ⟨data, lat.dims, lat.origin, lat.extent⟩

/-- `__init__`, 340-347. -/
def CGrid.init {α : Type} (lat latAgrid : HQty α) (fc fcAgrid : Option (NArr α)) : CGrid α :=
  ⟨lat, latAgrid, fc.map (fromData · lat), fcAgrid.map (fromData · lat)⟩

/-- `_fC_from_lat`, 389-393; `omega2` is `2 * OMEGA`. -/
def fromLat {α : Type} [Mul α] (omega2 : α) (sin : α → α) (lat : HQty α) : HQty α :=
  fromData ⟨lat.data.shape, fun idx => omega2 * sin (lat.data.get idx)⟩ lat

/-- `fC`, 395-400, and `fC_agrid`, 402-407. -/
def CGrid.readFC {α : Type} [Mul α] (omega2 : α) (sin : α → α) (g : CGrid α) : CGrid α × HQty α :=
  match g.fC with
  | some v => (g, v)
  | none => ({ g with fC := some (fromLat omega2 sin g.lat) }, fromLat omega2 sin g.lat)

def CGrid.readFCAgrid {α : Type} [Mul α] (omega2 : α) (sin : α → α) (g : CGrid α) : CGrid α × HQty α :=
  match g.fCAgrid with
  | some v => (g, v)
  | none => ({ g with fCAgrid := some (fromLat omega2 sin g.latAgrid) }, fromLat omega2 sin g.latAgrid)

end NDSL.GridHelper
