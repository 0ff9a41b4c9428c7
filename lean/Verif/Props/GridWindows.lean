import Verif.Props.GridIndexing
import Verif.Props.Restart
/-
C47: the windows of a grid given with offsets. C62: the table of properties when tracers are given.
-/
namespace NDSL.Indexing

/-- C47: the compute domain starts `n_halo` points inside the array (in the vertical at the first level of the window) and has the size of the
domain; the domain with halo starts at the first point and has `n_halo` points more on each side. An offset is added entry by entry. -/
theorem C47_windows (g : GridIndexing) (add : Index3) :
    g.originCompute add = (g.nHalo + add.1, g.nHalo + add.2.1, g.kStart + add.2.2) ∧
    g.domainCompute add = (g.domain.1 + add.1, g.domain.2.1 + add.2.1, g.domain.2.2 + add.2.2) ∧
    g.originFull add = (add.1, add.2.1, g.kStart + add.2.2) ∧
    g.domainFull add = (g.domain.1 + 2 * g.nHalo + add.1, g.domain.2.1 + 2 * g.nHalo + add.2.1, g.domain.2.2 + add.2.2) := by
  refine ⟨?_, ?_, ?_, ?_⟩ <;> refine Prod.ext ?_ (Prod.ext ?_ ?_) <;> simp only [GridIndexing.originCompute, GridIndexing.domainCompute, GridIndexing.originFull, GridIndexing.domainFull, GridIndexing.get2dCompute, GridIndexing.isc,
    GridIndexing.iec, GridIndexing.jsc, GridIndexing.jec, GridIndexing.isd, GridIndexing.ied, GridIndexing.jsd, GridIndexing.jed, GridIndexing.origin] <;> omega

/-- C47: the window on one level: the compute domain in the horizontal, one level, at the given one. -/
theorem C47_level (g : GridIndexing) (klevel : Int) :
    g.get2dCompute klevel = ((g.nHalo, g.nHalo, klevel), (g.domain.1, g.domain.2.1, 1)) := by
  refine Prod.ext (Prod.ext ?_ (Prod.ext ?_ ?_)) (Prod.ext ?_ (Prod.ext ?_ ?_)) <;> simp only [GridIndexing.originCompute, GridIndexing.domainCompute, GridIndexing.originFull, GridIndexing.domainFull, GridIndexing.get2dCompute, GridIndexing.isc,
    GridIndexing.iec, GridIndexing.jsc, GridIndexing.jec, GridIndexing.isd, GridIndexing.ied, GridIndexing.jsd, GridIndexing.jed, GridIndexing.origin] <;> omega

example : GridIndexing.domainCompute ⟨(4, 5, 10), 3, true, true, true, true, 2⟩ (1, 0, 1) = (5, 5, 11) ∧
    GridIndexing.originFull ⟨(4, 5, 10), 3, true, true, true, true, 2⟩ (0, 1, 0) = (0, 1, 2) := by decide +kernel

end NDSL.Indexing

namespace NDSL.Restart

/-- C62: with properties of tracers given, a name of the table has the table's properties, also if it is a tracer's; any other name has the
tracer's properties, if it is one. Without, the table is used as it is. -/
theorem C62_tracers (tracers table : List (String × Props)) (ht : (table.map (·.1)).Nodup) (name : String) :
    allProperties none table = table ∧
    (∀ p, (name, p) ∈ table → dictGet (allProperties (some tracers) table) name = some p) ∧
    (name ∉ table.map (·.1) → dictGet (allProperties (some tracers) table) name = dictGet tracers name) := by
  refine ⟨rfl, ?_, ?_⟩
  · intro p hp
    show dictGet (update tracers table) name = _
    rw [update_get, last_of_mem ht hp]; rfl
  · intro hn
    show dictGet (update tracers table) name = _
    rw [update_get, last_none hn]; rfl

example : dictGet (allProperties (some [("cloud_water", ⟨[.k], "liq_wat", "g/kg"⟩), ("ozone", ⟨[.k], "o3mr", "kg/kg"⟩)]) [("cloud_water", ⟨[.k], "lw", "kg/kg"⟩)]) "cloud_water" =
      some ⟨[.k], "lw", "kg/kg"⟩ ∧
    dictGet (allProperties (some [("cloud_water", ⟨[.k], "liq_wat", "g/kg"⟩), ("ozone", ⟨[.k], "o3mr", "kg/kg"⟩)]) [("cloud_water", ⟨[.k], "lw", "kg/kg"⟩)]) "ozone" =
      some ⟨[.k], "o3mr", "kg/kg"⟩ := by decide +kernel

/-- The axis of a dimension: of the first or second horizontal direction, or of the vertical. -/
def axisOf : Dim → Option Nat
  | .i => some 0
  | .iInterface => some 0
  | .j => some 1
  | .jInterface => some 1
  | .k => some 2
  | .kInterface => some 2
  | .kSoil => some 2
  | _ => none

/-- C62: every entry of the table lists dimensions of different axes, and at most one of them is an interface. Apart from the two pressures, whose
vertical axis is the middle one, and the two coefficients of the vertical coordinate, which have no other axis, the last axes are the second and
the first horizontal one, after at most one vertical axis. -/
theorem C62_table_dims : ∀ e ∈ restartTable,
    (e.2.dims.filter fun d => d == .iInterface || d == .jInterface || d == .kInterface).length ≤ 1 ∧
    (e.2.dims.map axisOf = [some 1, some 0] ∨ e.2.dims.map axisOf = [some 2, some 1, some 0] ∨
      (e.2.restartName ∈ ["ak", "bk"] ∧ e.2.dims = [.kInterface]) ∨
      (e.2.restartName ∈ ["pe", "peln"] ∧ e.2.dims = [.j, .kInterface, .i])) := by decide +kernel

/-- C62: the winds of the table are on the sides of the cells: the D grid's first component and the C grid's second one are given on the second
direction's interfaces, the others on the first one's. -/
theorem C62_table_winds :
    (dictGet restartTable "x_wind").map (·.dims) = some [.k, .jInterface, .i] ∧
    (dictGet restartTable "y_wind").map (·.dims) = some [.k, .j, .iInterface] ∧
    (dictGet restartTable "x_wind_on_c_grid").map (·.dims) = some [.k, .j, .iInterface] ∧
    (dictGet restartTable "y_wind_on_c_grid").map (·.dims) = some [.k, .jInterface, .i] := by decide +kernel

end NDSL.Restart
