import Verif.Model.StorageData
/-
Model of the grid data of a test: `Grid.add_data`, `grid_data`, `set_grid_data` and `damping_coefficients` of
`ndsl/stencils/testing/grid.py` (228-231, 468-828), with `GridDefinitions` (`ndsl/grid/generation.py` 92-209),
`SubtileGridSizer.get_shape` (`ndsl/initialization/subtile_grid_sizer.py` 154-168) and `QuantityFactory.from_array`
(`ndsl/initialization/allocator.py` 128-149).

Simplifications: a quantity is its array; units and data types are left out. `fC` and `f0` are handed on as they are and are
left out, and so are the driver's data.
-/
namespace NDSL.TestGridData
open NDSL.Storage

variable {V : Type}

/-- Exceptions. -/
inductive Fault where
  | attribute | index | value
  deriving DecidableEq

/-- The dimensions in the definitions. -/
inductive D where
  | I | IInt | J | JInt | KInt | xyz
  deriving DecidableEq

/-- The domain of a rank, and whether the backend has memory as Fortran has. -/
structure Sizes where
  nic : Nat
  njc : Nat
  npz : Nat
  fortran : Bool

/-- `get_shape`, 154-168, for one dimension; the halo is 3. -/
def Sizes.size (s : Sizes) : D → Nat
  | .I => s.nic + (if s.fortran then 0 else 1) + 2 * 3
  | .IInt => s.nic + 1 + 2 * 3
  | .J => s.njc + (if s.fortran then 0 else 1) + 2 * 3
  | .JInt => s.njc + 1 + 2 * 3
  | .KInt => s.npz + 1
  | .xyz => 3

/-- The attributes of the object that hold data. -/
abbrev Attrs (V : Type) := String → Option (Nd V)

/-- A field of the grid data: its name, the attribute it is made from, its dimensions. -/
structure Field where
  name : String
  source : String
  dims : List D
  deriving DecidableEq

def same (dims : List D) (l : List String) : List Field := l.map fun n => ⟨n, n, dims⟩

/-- The fields of which a part is taken, 492-501, with their dimensions in `GridDefinitions`. -/
def clippedFields : List Field :=
  [⟨"ee1", "ee1", [.IInt, .JInt, .xyz]⟩, ⟨"ee2", "ee2", [.IInt, .JInt, .xyz]⟩, ⟨"es1", "es1", [.I, .JInt, .xyz]⟩,
   ⟨"ew2", "ew2", [.IInt, .JInt, .xyz]⟩, ⟨"edge_w", "edge_w", [.I, .JInt]⟩, ⟨"edge_e", "edge_e", [.I, .JInt]⟩,
   ⟨"edge_s", "edge_s", [.IInt]⟩, ⟨"edge_n", "edge_n", [.IInt]⟩]

/-- The other fields, 532-826. -/
def plainFields : List Field :=
  [⟨"lon", "bgrid1", [.IInt, .JInt]⟩, ⟨"lat", "bgrid2", [.IInt, .JInt]⟩, ⟨"lon_agrid", "agrid1", [.I, .J]⟩,
   ⟨"lat_agrid", "agrid2", [.I, .J]⟩] ++
  same [.I, .J] ["area", "area_64", "rarea"] ++ same [.IInt, .JInt] ["rarea_c"] ++
  same [.I, .JInt] ["dx"] ++ same [.IInt, .J] ["dy", "dxc"] ++ same [.I, .JInt] ["dyc"] ++ same [.I, .J] ["dxa", "dya"] ++
  same [.I, .JInt] ["rdx"] ++ same [.IInt, .J] ["rdy", "rdxc"] ++ same [.I, .JInt] ["rdyc"] ++
  same [.I, .J] ["rdxa", "rdya", "a11", "a12", "a21", "a22"] ++
  same [.KInt] ["ak", "bk"] ++
  same [.IInt, .JInt] ["cosa"] ++ same [.IInt, .J] ["cosa_u"] ++ same [.I, .JInt] ["cosa_v"] ++ same [.I, .J] ["cosa_s"] ++
  same [.IInt, .J] ["sina_u"] ++ same [.I, .JInt] ["sina_v"] ++ same [.IInt, .JInt] ["rsina"] ++ same [.IInt, .J] ["rsin_u"] ++
  same [.I, .JInt] ["rsin_v"] ++ same [.I, .J] ["rsin2"] ++
  same [.I, .J] ["sin_sg1", "sin_sg2", "sin_sg3", "sin_sg4", "sin_sg5", "sin_sg6", "sin_sg7", "sin_sg8", "sin_sg9",
    "cos_sg1", "cos_sg2", "cos_sg3", "cos_sg4", "cos_sg5", "cos_sg6", "cos_sg7", "cos_sg8", "cos_sg9"]

/-- `quantity[:] = data` for a quantity of zeros. -/
def setAll (z : V) (shape : List Nat) (a : Nd V) : Except Fault (Nd V) :=
  match assign (zeros z shape) [] a with
  | .ok b => .ok b
  | .error _ => .error .value

/-- The first `n` along an axis: `data[:, ..., :n]`. -/
def upTo (a : Nd V) (axis n : Nat) : Nd V := ⟨a.shape.modify axis fun m => min n m, a.get⟩

/-- 518-529: as many as the quantity has, along its last axis. -/
def clip (z : V) (shape : List Nat) (a : Nd V) : Except Fault (Nd V) :=
  let last := shape.length - 1
  if a.shape.length ≤ last then .error .index
  else setAll z shape (upTo a last (shape.getD last 0))

/-- One field. -/
def field (z : V) (s : Sizes) (attrs : Attrs V) (clipped : Bool) (f : Field) : Except Fault (String × Nd V) :=
  match attrs f.source with
  | none => .error .attribute
  | some a => match (if clipped then clip else setAll) z (f.dims.map s.size) a with
    | .ok b => .ok (f.name, b)
    | .error e => .error e

def fields (z : V) (s : Sizes) (attrs : Attrs V) (clipped : Bool) : List Field → Except Fault (List (String × Nd V))
  | [] => .ok []
  | f :: l => match field z s attrs clipped f with
    | .error e => .error e
    | .ok x => match fields z s attrs clipped l with
      | .error e => .error e
      | .ok r => .ok (x :: r)

/-- `grid_data` without what was made before, 484-828. -/
def make (z : V) (s : Sizes) (attrs : Attrs V) : Except Fault (List (String × Nd V)) :=
  match fields z s attrs true clippedFields with
  | .error e => .error e
  | .ok c => match fields z s attrs false plainFields with
    | .error e => .error e
    | .ok p => .ok (c ++ p)

/-- The object: its data and the grid data made before. -/
structure Obj (V : Type) where
  attrs : Attrs V
  cache : Option (List (String × Nd V))

inductive Op (V : Type) where
  | add (d : List (String × Nd V))
  | set (gd : List (String × Nd V))
  | read

/-- `add_data`, 228-231 (all that was added before is added again, which changes nothing), `set_grid_data`, 846-847, and reading
`grid_data`, 485-487 and 828. -/
def step (z : V) (s : Sizes) (o : Obj V) : Op V → Obj V × Option (Except Fault (List (String × Nd V)))
  | .add d => ({ o with attrs := d.foldl (fun t e n => if n = e.1 then some e.2 else t n) o.attrs }, none)
  | .set gd => ({ o with cache := some gd }, none)
  | .read => match o.cache with
    | some gd => (o, some (.ok gd))
    | none => match make z s o.attrs with
      | .ok gd => ({ o with cache := some gd }, some (.ok gd))
      | .error e => (o, some (.error e))

def run (z : V) (s : Sizes) (ops : List (Op V)) (o : Obj V) : Obj V := ops.foldl (fun o op => (step z s o op).1) o

end NDSL.TestGridData
