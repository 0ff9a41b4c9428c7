import Mathlib.Algebra.Field.Rat
import Mathlib.Algebra.Order.Ring.Rat
import Verif.Model.StateTransfer
/-
Model of the static analyses of a built program in `ndsl/dsl/dace/utils.py`: `_is_ref` 39-48, `memory_static_analysis` 73-129,
`report_memory_static_analysis` 132-167 and `kernel_theoretical_timing` 212-314.

Simplifications: an SDFG is the tree of its nested SDFGs, each with its containers, the names of the access nodes in its own states
and the names its inter-state edges (branch and loop conditions, symbol assignments) read; sizes are known numbers (symbolic sizes
are not modelled); floats are rationals; the report is kept as the rows it prints, not as text.
-/
namespace NDSL.Memory

/-- A container of an SDFG: `total_size * dtype.bytes`, `storage`, `transient`, `pool`. -/
structure Arr where
  bytes : Nat
  storage : String
  transient : Bool
  pool : Bool
  deriving DecidableEq, Repr

/-- One SDFG without those nested in it: `arrays`, the data of the access nodes in its own states, the names read by its
inter-state edges. -/
structure Level where
  arrays : List (String × Arr)
  access : List String
  edgeReads : List String
  deriving DecidableEq, Repr

/-- An SDFG with the SDFGs nested in its states, in the order they are visited. -/
inductive Sdfg where
  | mk (own : Level) (nested : List Sdfg)

/-- The SDFGs below and including one, the order of `arrays_recursive` (used at line 86). -/
def levels : Sdfg → List Level
  | .mk own nested => own :: nested.flatMap levels

def Sdfg.own : Sdfg → Level
  | .mk own _ => own

def Sdfg.nested : Sdfg → List Sdfg
  | .mk _ nested => nested

/-- `_is_ref`, 39-48: only states whose parent is this SDFG, only access nodes. -/
def isRef (l : Level) (name : String) : Bool := l.access.contains name

/-- `ArrayReport`, 54-60. -/
structure ArrayReport where
  name : String
  bytes : Nat
  referenced : Bool
  transient : Bool
  pool : Bool
  topLevel : Bool
  deriving DecidableEq, Repr

/-- `StorageReport`, 63-70. -/
structure StorageReport where
  referenced : Nat := 0
  unreferenced : Nat := 0
  pooled : Nat := 0
  topLevel : Nat := 0
  details : List ArrayReport := []
  deriving DecidableEq, Repr

/-- The dictionary `allocations`: every storage type has an entry, 82-84. -/
abbrev Allocs := String → StorageReport

def Allocs.upd (a : Allocs) (s : String) (f : StorageReport → StorageReport) : Allocs :=
  fun t => if t = s then f (a t) else a t

/-- One pass of the loop 86-127; `top` says whether `sd is sdfg`. -/
def visit (top : Bool) (l : Level) (a : Allocs) (e : String × Arr) : Allocs :=
  let size := e.2.bytes
  let ref := isRef l e.1
  let pooled (r : StorageReport) : StorageReport := if e.2.pool then { r with pooled := r.pooled + size } else r
  let listed (t : Bool) (r : StorageReport) : StorageReport :=
    { r with details := r.details ++ [⟨e.1, size, ref, e.2.transient, e.2.pool, t⟩] }
  let counted (r : StorageReport) : StorageReport :=
    if ref then { r with referenced := r.referenced + size } else { r with unreferenced := r.unreferenced + size }
  if !top && e.2.transient then
    a.upd e.2.storage fun r => counted (listed false (pooled r))
  else if top then
    a.upd e.2.storage fun r =>
      let r' := listed true (pooled r)
      counted { r' with topLevel := r'.topLevel + size }
  else a

/-- `memory_static_analysis`, 73-129. -/
def analyse (g : Sdfg) : Allocs :=
  let a := g.own.arrays.foldl (visit true g.own) fun _ => {}
  (g.nested.flatMap levels).foldl (fun a l => l.arrays.foldl (visit false l) a) a

/-- A block of the report: the storage and its numbers in bytes (the text shows them in MB), and the rows of the details. -/
structure Block where
  storage : String
  referenced : Nat
  unreferenced : Nat
  pooled : Nat
  topLevel : Nat
  rows : List ArrayReport
  deriving DecidableEq, Repr

/-- `report_memory_static_analysis`, 132-167. `kinds` are the members of `dace.StorageType`. -/
def report (kinds : List String) (a : Allocs) (detail : Bool) : List Block :=
  kinds.filterMap fun s =>
    let r := a s
    if r.referenced ≠ 0 ∨ r.topLevel > 0 then
      some ⟨s, r.referenced, r.unreferenced, r.pooled, r.topLevel, if detail then r.details else []⟩
    else none

/-- What a memlet at a map moves: elements of its subset and bytes of an element. -/
structure Memlet where
  elements : Nat
  itemBytes : Nat
  deriving DecidableEq, Repr

/-- A map of the program; an edge without data has no memlet. -/
structure MapNode where
  label : String
  /-- `get_parent_map(state, me) is not None` -/
  inside : Bool
  reads : List (Option Memlet)
  writes : List (Option Memlet)
  deriving DecidableEq, Repr

/-- `sum([_prod(e.data.subset.size()) * bytes for e in edges])`, 277-291; `e.data.subset` is `None` on an edge without data. -/
def sumBytes : List (Option Memlet) → Option Nat
  | [] => some 0
  | none :: _ => none
  | some m :: es => (sumBytes es).map (m.elements * m.itemBytes + ·)

/-- 277-291. -/
def moved (m : MapNode) : Option Nat := do
  let r ← sumBytes m.reads
  let w ← sumBytes m.writes
  pure (r + w)

/-- 295-298. -/
def inMicroseconds (bw : ℚ) (bytes : Nat) : ℚ := bytes / bw * (1000 * 1000)

/-- The loop 271-312. -/
def timingLoop (bw : ℚ) : List MapNode → List (String × ℚ) → Option (List (String × ℚ))
  | [], result => some result
  | m :: ms, result => do
    let b ← moved m
    let new := inMicroseconds bw b
    let new := match dictGet result m.label with
      | some old => max old new
      | none => new
    timingLoop bw ms (dictSet result m.label new)

/-- `kernel_theoretical_timing` with a bandwidth in bytes per second, 261-314. -/
def timings (bw : ℚ) (maps : List MapNode) : Option (List (String × ℚ)) :=
  timingLoop bw (maps.filter fun m => !m.inside) []

/-- `hardware_bw_in_GB_s * 1024 * 1024 * 1024`, 252. -/
def givenBandwidth (gbs : ℚ) : ℚ := gbs * 1024 * 1024 * 1024

/-- The bandwidth measured by copying an array of `elements` numbers of `itemBytes` bytes in `median` seconds, 246-247. -/
def measuredBandwidth (elements itemBytes : Nat) (median : ℚ) : ℚ := ((elements * itemBytes * 8 : Nat) : ℚ) / median

/-- 249-253. -/
def bandwidth (given : Option ℚ) (elements itemBytes : Nat) (median : ℚ) : ℚ :=
  match given with
  | none => measuredBandwidth elements itemBytes median
  | some g => givenBandwidth g

/-- The label printed with the bandwidth, 254-258. -/
def bandwidthLabel (given : Option ℚ) : String :=
  match given with
  | none => "Given hardware bandwidth"
  | some g => if g = 0 then "Given hardware bandwidth" else "Hardware bandwidth computed"

/-- `command_line`, `ndsl/performance/tools.py` 63-65: zero, the default, stands for no bandwidth. -/
def commandBandwidth (option : ℚ) : Option ℚ := if option = 0 then none else some option

/-- The copying kernel that is timed, 185-187: it reads one array and writes one. -/
def copyKernel (elements itemBytes : Nat) : MapNode :=
  ⟨"copy", false, [some ⟨elements, itemBytes⟩], [some ⟨elements, itemBytes⟩]⟩

end NDSL.Memory
