import Verif.Model.StorageData
/-
Model of `ndsl/stencils/testing/serialbox_to_netcdf.py` 46-262 (Serialbox data to NetCDF) and of the reading of what it writes in
`ndsl/stencils/testing/savepoint.py` 11-92 (`DataLoader`, `SavepointCase`).

A Serialbox stream is the list of its savepoints in the order they were written, each with a name and fields. Arrays are shapes with
functions of indices (`Storage.Nd`).

Simplifications: data types are left out, so is the namelist file (its four numbers are given, the numbers of cells and the layout
positive); a savepoint has a field once; which of several errors ends the conversion of a savepoint is not modelled, only that there is
one; attributes, encoding and the names of the axes of data are left out; indices of ranks and calls are not negative.
-/
namespace NDSL.Serial
open NDSL.Storage (Nd fromOpt fits)

variable {V : Type}

/-- A savepoint of a stream. -/
structure Point (V : Type) where
  name : String
  fields : List (String × Nd V)

/-- Numbers of `input.nml`, 84-91, and the options. -/
structure Conf where
  gridType : Int
  layout : Nat × Nat
  npx : Nat
  npy : Nat
  merge : Bool
  dataName : Option String

/-- The values that conversion treats apart: NaN, 1e40 and 0. -/
structure Values (V : Type) where
  nan : V
  fill : V
  zero : V

/-- `total_ranks`, 85-88 -/
def Conf.ranks (c : Conf) : Nat :=
  if c.gridType ≤ 3 then 6 * c.layout.1 * c.layout.2 else c.layout.1 * c.layout.2

/-- `nx`, 89 -/
def Conf.nx (c : Conf) : Nat := (c.npx - 1) / c.layout.1

/-- `ny`, 90 -/
def Conf.ny (c : Conf) : Nat := (c.npy - 1) / c.layout.2

/-- `get_serializer`, 61-65: streams of a directory by name -/
def getSerializer (dir : String → Option (List (Point V))) (c : Conf) (rank : Nat) : Except Err (List (Point V)) :=
  fromOpt .runtimeError (dir (match c.dataName with
    | some n => if n = "" then "Generator_rank" ++ toString rank else n
    | none => "Generator_rank" ++ toString rank))

/-- `serializer.get_savepoint(name)` -/
def getSavepoint (s : List (Point V)) (name : String) : List (Point V) := s.filter (·.name == name)

/-- `read_serialized_data`, 46-51 -/
def read [DecidableEq V] (v : Values V) (var : String) (p : Point V) : Except Err (Nd V) :=
  match dictGet p.fields var with
  | none => .error .runtimeError
  | some d => if d.shape.foldl (· * ·) 1 = 1 then
      (match d.shape with
      | [] => .error .indexError
      | _ :: ns => .ok ⟨ns, fun idx => d.get (0 :: idx)⟩)
    else .ok ⟨d.shape, fun idx => if d.get idx = v.fill then v.zero else d.get idx⟩

/-- Blocks made one array, 125-144 -/
def mergeBlocks (c : Conf) (ds : List (Nd V)) : Except Err (List (Nd V)) :=
  match ds with
  | [] => .ok []
  | d :: _ =>
    if ds.all (fun e => e.shape == d.shape) then
      match d.shape with
      | [] => .ok [d]
      | m :: rest =>
        if c.nx * c.ny = ds.length * m then
          .ok [⟨c.nx :: c.ny :: rest, fun idx => match idx with
            | i :: j :: r => (ds.getD ((i * c.ny + j) / m) d).get ((i * c.ny + j) % m :: r)
            | _ => d.get idx⟩]
        else .ok [d]
    else .error .valueError

/-- `rank_data[name]`, 111-144; `prev` is the first array of the rank before -/
def rankVar [DecidableEq V] (v : Values V) (c : Conf) (var : String) (prev : Option (Nd V)) (pts : List (Point V)) :
    Except Err (List (Nd V)) :=
  match pts with
  | [] => .error .indexError
  | p :: _ =>
    if (dictGet p.fields var).isNone then
      match prev with
      | none => .error .indexError
      | some d => if d.shape = [] then .error .typeError else .ok [⟨d.shape, fun _ => v.nan⟩]
    else do
      let ds ← pts.mapM (read v var)
      if c.merge && decide (1 < ds.length) then mergeBlocks c ds else .ok ds

/-- `rank_list[0..][name]`, 105-145: arrays by rank and savepoint -/
def ranksVar [DecidableEq V] (v : Values V) (c : Conf) (var : String) : Option (Nd V) → List (List (Point V)) →
    Except Err (List (List (Nd V)))
  | _, [] => .ok []
  | prev, pts :: more => do
    let ds ← rankVar v c var prev pts
    let rest ← ranksVar v c var ds.head? more
    return ds :: rest

/-- Does a variable have different shapes on the ranks? 158-173 -/
def collapses (shape : List Nat) : List (List Nat) → Except Err Bool
  | [] => .ok false
  | s :: ss => if s ≠ shape then (if shape.length ≠ 1 then .error .valueError else .ok true) else collapses shape ss

/-- A variable of a file: the size of its axis `rank`, its other axes, its arrays by rank and savepoint. -/
structure Var (V : Type) where
  ranks : Nat
  shape : List Nat
  cells : List (List (Nd V))

/-- What `data[i_savepoint, rank, :] = d` stores in an array of shape `shape`, 258-261 -/
def spread (shape : List Nat) (d : Nd V) : Except Err (Nd V) :=
  let k := shape.length - d.shape.length
  if d.shape.length ≤ shape.length ∧ fits d.shape (shape.drop k) = true then
    .ok ⟨shape, fun idx => d.get (List.zipWith (fun i s => if s = 1 then 0 else i) (idx.drop k) d.shape)⟩
  else .error .valueError

/-- `output_list[rank][varname][0].shape` -/
def shapeOf (ds : List (Nd V)) : List Nat := (ds.head?.map (·.shape)).getD []

/-- `get_data`, 241-262 -/
def getData (shape : List Nat) (n : Nat) (data : List (List (Nd V))) : Except Err (Var V) := do
  let cells ← data.mapM fun ds => (List.range n).mapM fun i => do spread shape (← fromOpt .indexError ds[i]?)
  return ⟨data.length, shape, cells⟩

/-- `data[i_savepoint, 0, lo:lo + size] = d`, 236 -/
def writeAt (buf : List V) (lo : Nat) (d : List V) : Except Err (List V) :=
  if d.length = min (lo + d.length) buf.length - min lo buf.length then .ok (buf.take lo ++ d ++ buf.drop (lo + d.length))
  else if d.length = 1 then .ok buf
  else .error .valueError

/-- The values of an array of one axis. -/
def values1 (d : Nd V) : Except Err (List V) :=
  match d.shape with
  | [n] => .ok ((List.range n).map fun i => d.get [i])
  | _ => .error .indexError

/-- The inner loop of `get_data_collapse_all_ranks`, 232-237 -/
def collapseRank (ds : List (Nd V)) : List Nat → List (List V) × Nat → Except Err (List (List V) × Nat)
  | [], st => .ok st
  | i :: is, (bufs, last) => do
    let d ← fromOpt .indexError ds[i]?
    let xs ← values1 d
    let buf ← writeAt (bufs.getD i []) last xs
    collapseRank ds is (bufs.set i buf, last + xs.length)

/-- The outer loop, 231-237 -/
def collapseAll (n : Nat) : List (List (Nd V)) → List (List V) × Nat → Except Err (List (List V) × Nat)
  | [], st => .ok st
  | ds :: more, st => do collapseAll n more (← collapseRank ds (List.range n) st)

/-- `get_data_collapse_all_ranks`, 215-238 -/
def getCollapsed (v : Values V) (n : Nat) (data : List (List (Nd V))) : Except Err (Var V) :=
  if data.all (fun ds => (shapeOf ds).length == 1) then do
    let k := (data.map fun ds => (shapeOf ds).headD 0).sum
    let r ← collapseAll n data (List.replicate n (List.replicate k v.nan), 0)
    return ⟨1, [k], [r.1.map fun b => ⟨[k], fun idx => b.getD (idx.headD 0) v.nan⟩]⟩
  else .error .runtimeError

/-- `[:, :, 3:-3, 3:-3, :]`, 191 -/
def cutHalo (x : Var V) : Except Err (Var V) :=
  match x.shape with
  | a :: b :: k :: rest => .ok ⟨x.ranks, (a - 6) :: (b - 6) :: k :: rest, x.cells.map fun ds => ds.map fun d =>
      ⟨(a - 6) :: (b - 6) :: k :: rest, fun idx => match idx with
        | i :: j :: r => d.get ((i + 3) :: (j + 3) :: r)
        | _ => d.get idx⟩⟩
  | _ => .error .indexError

/-- The savepoints of 175-180. -/
def special (name : String) : Bool := name ∈ ["FVDynamics-In", "FVDynamics-Out", "Driver-In", "Driver-Out"]

/-- The variables of 181-190. -/
def tracer (var : String) : Bool := var ∈ ["qvapor", "qliquid", "qice", "qrain", "qsnow", "qgraupel", "qo3mr", "qsgs_tke"]

/-- `data_vars[varname]`, 153-205 -/
def exportVar (v : Values V) (name var : String) (n : Nat) (data : List (List (Nd V))) : Except Err (Var V) := do
  let shape := shapeOf (data.headD [])
  let col ← collapses shape (data.map shapeOf)
  if special name then
    if tracer var then cutHalo (← getData shape n data) else getData shape n data
  else if col then getCollapsed v n data
  else getData shape n data

/-- `xr.Dataset(data_vars=data_vars)`, 209: an axis has one size -/
def dataset (vars : List (String × Var V)) : Except Err (List (String × Var V)) :=
  match vars with
  | [] => .ok []
  | x :: xs => if xs.all (fun y => y.2.ranks == x.2.ranks) then .ok (x :: xs) else .error .valueError

/-- The conversion of one savepoint, 97-212. -/
def exportPoint [DecidableEq V] (v : Values V) (c : Conf) (dir : String → Option (List (Point V))) (first : List (Point V)) (name : String) :
    Except Err (List (String × Var V)) := do
  let p ← fromOpt .indexError (getSavepoint first name).head?
  let streams ← (List.range c.ranks).mapM fun r => do
    let s ← getSerializer dir c r
    return getSavepoint s name
  let n := if c.merge then 1 else (streams.getLastD []).length
  let vars ← ((p.fields.map (·.1)).filter (· ≠ "rank")).mapM fun var => do
    let data ← ranksVar v c var none streams
    let x ← exportVar v name var n data
    return (var, x)
  dataset vars

/-- The loop over savepoints, 96-212: files written, and the error that ends it. -/
def exportAll [DecidableEq V] (v : Values V) (c : Conf) (dir : String → Option (List (Point V))) (first : List (Point V)) :
    List String → List (String × List (String × Var V)) × Option Err
  | [] => ([], none)
  | name :: names => match exportPoint v c dir first name with
    | .error e => ([], some e)
    | .ok f => let r := exportAll v c dir first names; ((name, f) :: r.1, r.2)

/-- `main`, 68-212, the directory being empty before -/
def convert [DecidableEq V] (v : Values V) (c : Conf) (dir : String → Option (List (Point V))) :
    List (String × List (String × Var V)) × Option Err :=
  match getSerializer dir c 0 with
  | .error e => ([], some e)
  | .ok first => exportAll v c dir first (((first.map (·.name)).eraseDups).mergeSort fun a b => decide (a ≤ b))

/-- `xr.open_dataset(path).isel(rank=rank).isel(savepoint=call)` as a dictionary, savepoint.py 11-22, 34-42, 76-92 -/
def load (files : List (String × List (String × Var V))) (name : String) (rank call : Nat) : Except Err (List (String × Nd V)) :=
  match dictGet files name with
  | none => .error .runtimeError
  | some [] => .error .valueError
  | some vars => vars.mapM fun x => do
    let ds ← fromOpt .indexError x.2.cells[rank]?
    let d ← fromOpt .indexError ds[call]?
    return (x.1, d)

/-- `DataLoader.load`, savepoint.py 31-42 -/
def loader (files : List (String × List (String × Var V))) (rank call : Nat) (name post : String) (dynamic : Bool) :
    Except Err (List (String × Nd V)) :=
  load files (name ++ post) rank (if dynamic then call else 0)

/-- `SavepointCase.exists`, savepoint.py 67-74 -/
def present (files : List (String × List (String × Var V))) (name : String) (rank : Nat) : Except Err Bool :=
  match dictGet files (name ++ "-In") with
  | none => .error .runtimeError
  | some [] => .error .keyError
  | some (x :: _) => .ok (decide (rank < x.2.ranks))

end NDSL.Serial
