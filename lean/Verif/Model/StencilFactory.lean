import Verif.Model.GridIndexing
import Verif.Model.Partitioner
import Verif.Model.Sizer
import Mathlib.Algebra.Order.Ring.Rat
import Mathlib.Algebra.Field.Rat
/-
Model of `StencilFactory`, `get_stencils_with_varied_bounds` (`ndsl/dsl/stencil.py` 970-1115), of
`GridIndexing.from_sizer_and_communicator` (672-689) and of the reports of `TimingCollector` (95-155).

A stencil that is made is described by what is handed to GT4Py: origin, domain, externals. Times are rational numbers; the
text of a report is left out, a line is its name, its value and the length of its bar.
-/
namespace NDSL.StencilFactory
open NDSL.Indexing

/-- A value of an external: an index of an axis, a level or what the user gives. -/
inductive Ext (E : Type) where
  | axis (a : AxisIndex)
  | level (k : Int)
  | user (e : E)
  deriving DecidableEq

/-- The dictionary that `axis_offsets` returns, 819-834. -/
def axisDict {E : Type} (g : GridIndexing) (origin domain : Index3) : List (String × Ext E) :=
  let a := axisOffsets g origin domain
  [("i_start", .axis a.iStart), ("local_is", .axis a.localIs), ("i_end", .axis a.iEnd), ("local_ie", .axis a.localIe),
    ("j_start", .axis a.jStart), ("local_js", .axis a.localJs), ("j_end", .axis a.jEnd), ("local_je", .axis a.localJe),
    ("k_start", .level a.kStart), ("k_end", .level a.kEnd)]

/-- `d.update(e)` -/
def update {E : Type} (d e : List (String × E)) : List (String × E) := e.foldl (fun d x => dictSet d x.1 x.2) d

/-- `FrozenStencil` or `CompareToNumpyStencil` (`compared`) as constructed: the three-dimensional origin, the domain and the
externals. -/
structure Made (E : Type) where
  compared : Bool
  origin : Index3
  domain : Index3
  externals : List (String × Ext E)
  deriving DecidableEq

/-- `cast_to_index3d`, ndsl/dsl/typing.py 121-124. -/
def castIndex3 : List Int → Except Err Index3
  | [a, b, c] => .ok (a, b, c)
  | _ => .error .valueError

/-- `StencilFactory`: `config.compare_to_numpy` and `grid_indexing`. -/
structure Factory where
  compareToNumpy : Bool
  grid : GridIndexing

/-- `from_origin_domain`, 996-1025, with the conversions of `FrozenStencil.__init__`, 291-294. -/
def fromOriginDomain {E : Type} (f : Factory) (origin domain : List Int) (externals : List (String × Ext E)) : Except Err (Made E) :=
  match castIndex3 origin, castIndex3 domain with
  | .ok o, .ok d => .ok ⟨f.compareToNumpy, o, d, externals⟩
  | .error e, _ => .error e
  | _, .error e => .error e

/-- `from_dims_halo`, 1027-1066. -/
def fromDimsHalo {E : Type} (f : Factory) (dims : List Dim) (halos : List Int) (externals : List (String × Ext E)) :
    Except Err (Made E) :=
  if dims.length ≠ 3 then .error .valueError
  else match f.grid.getOriginDomain dims halos with
    | .error e => .error e
    | .ok (origin, domain) =>
      match castIndex3 origin, castIndex3 domain with
      | .ok o, .ok d => fromOriginDomain f origin domain (update (axisDict f.grid o d) externals)
      | .error e, _ => .error e
      | _, .error e => .error e

/-- `get_stencils_with_varied_bounds`, 1086-1115; a failed assertion is `runtimeError`. -/
def variedBounds {E : Type} (f : Factory) (origins domains : List Index3) (externals : List (String × Ext E)) :
    Except Err (List (Made E)) :=
  if origins.length ≠ domains.length then .error .runtimeError
  else .ok ((origins.zip domains).map fun b => ⟨f.compareToNumpy, b.1, b.2, update externals (axisDict f.grid b.1 b.2)⟩)

/-- `StencilFactory.restrict_vertical`, 1068-1075. -/
def restrictVertical (f : Factory) (kStart : Int) (nk : Option Int) : Except Err Factory :=
  match f.grid.restrictVertical kStart nk with
  | .ok g => .ok { f with grid := g }
  | .error e => .error e

/-- `from_sizer_and_communicator`, 672-689: the extents of the sizer and the edges of the rank's place in its tile. -/
def gridOf (s : Sizer) (p : TilePart) (rank : Int) : GridIndexing where
  domain := (s.nx, s.ny, s.nz)
  nHalo := s.nHalo
  southEdge := p.onBottom rank
  northEdge := p.onTop rank
  westEdge := p.onLeft rank
  eastEdge := p.onRight rank
  kStart := 0

/-! ### Reports -/

/-- `build_info` and `exec_info` of a `TimingCollector`, 104-107, without the entry `__aggregate_data`. -/
structure Collector where
  build : List (String × List (String × ℚ))
  exec : List (String × List (String × ℚ))

/-- A stencil is built, 395-397: `build_info[name] = build_info`. -/
def built (c : Collector) (name : String) (info : List (String × ℚ)) : Collector := { c with build := dictSet c.build name info }

structure Line where
  name : String
  value : ℚ
  bar : Option Nat
  deriving DecidableEq

structure Report where
  total : ℚ
  lines : List Line
  deriving DecidableEq

structure Options where
  nameWidth : Nat := 40
  barWidth : Nat := 40
  showBar : Bool := true
  reverse : Bool := true

/-- `[(key, infos[key][secondary_key]) for key in keys]` -/
def collect (infos : List (String × List (String × ℚ))) (second : String) : List String → Except Err (List (String × ℚ))
  | [] => .ok []
  | k :: ks => match (dictGet infos k).bind fun i => dictGet i second with
    | some v => (collect infos second ks).map ((k, v) :: ·)
    | none => .error .keyError

/-- One line, 142-151: a name that is too long is cut, and its end is formatted as a number, which strings refuse. -/
def line (o : Options) (max : ℚ) (x : String × ℚ) : Except Err Line :=
  if x.1.length > o.nameWidth then .error .valueError
  else .ok ⟨x.1, x.2, if o.showBar && decide (max > 0) then some (x.2 / max * o.barWidth).floor.toNat else none⟩

/-- `for name, val in sorted_data` -/
def lines (o : Options) (max : ℚ) : List (String × ℚ) → Except Err (List Line)
  | [] => .ok []
  | x :: xs => match line o max x with
    | .ok l => (lines o max xs).map (l :: ·)
    | .error e => .error e

/-- `sorted(data, key=..., reverse=reverse)`: stable in both directions. -/
def sortData (reverse : Bool) (data : List (String × ℚ)) : List (String × ℚ) :=
  data.mergeSort fun a b => if reverse then decide (b.2 ≤ a.2) else decide (a.2 ≤ b.2)

/-- `_show_report`, 119-155. -/
def showReport (o : Options) (infos : List (String × List (String × ℚ))) (keys : List String) (second : String) : Except Err Report :=
  if ¬ o.nameWidth > 10 then .error .runtimeError
  else match collect infos second keys with
    | .error e => .error e
    | .ok data =>
      let sorted := sortData o.reverse data
      match (if o.reverse then sorted.head? else sorted.getLast?) with
      | none => .error .indexError
      | some m => (lines o m.2 sorted).map fun ls => ⟨(data.map fun d => d.2).sum, ls⟩

/-- `build_report` and `exec_report`, 109-117. -/
def buildReport (o : Options) (c : Collector) (key : String) : Except Err Report := showReport o c.build (c.build.map fun b => b.1) key
def execReport (o : Options) (c : Collector) (key : String) : Except Err Report := showReport o c.exec (c.build.map fun b => b.1) key

end NDSL.StencilFactory
