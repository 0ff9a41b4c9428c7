import Verif.Model.StorageData
import Verif.Model.Partitioner
/-
Model of the tests against reference data: the indices of `Grid` (`ndsl/stencils/testing/grid.py` 53-139, 189-226,
270-343, 373-386, 417-441) and `TranslateFortranData2Py` (`ndsl/stencils/testing/translate.py` 49-321), which brings
reference data into storages, runs the code under test and cuts its results out of the storages.

Simplifications: a division of sizes, `int(a / b)`, is exact; regions of a variable do not begin before the array (no
negative indices); arrays are values: what the code under test changes in place counts as what it returns, and of the
changes in place by the class only those of the caller's arrays are kept; the entries of a variable's description are those that occur below; backends only matter for the padding of storages.
-/
namespace NDSL.Translate
open NDSL.Storage
variable {V : Type}

/-! ### indices -/

/-- The indices of a rank. -/
structure Grid where
  npx : Int
  npy : Int
  npz : Int
  /-- `subtile_index`: row and column of the rank -/
  sub : Int × Int
  /-- `subtile_width_x`, `subtile_width_y` -/
  wx : Int
  wy : Int
  is_ : Int
  ie : Int
  isd : Int
  ied : Int
  js : Int
  je : Int
  jsd : Int
  jed : Int
  deriving DecidableEq

/-- `N_HALO_DEFAULT` -/
def halo : Int := 3

/-- The indices given to `Grid`. -/
structure Indices where
  is_ : Int
  ie : Int
  isd : Int
  ied : Int
  js : Int
  je : Int
  jsd : Int
  jed : Int

/-- `global_to_local_1d`, grid.py 189-192. -/
def globalToLocal (g sub width : Int) : Int := g - sub * width
/-- `local_to_global_1d`, grid.py 209-212. -/
def localToGlobal (l sub width : Int) : Int := l + sub * width

/-- `__init__`, grid.py 115-127; `layout` is (y, x). -/
def Grid.init (ix : Indices) (npx npy npz : Int) (rank : Int) (layout : Int × Int) (localIndices : Bool) : Grid :=
  let sub := subtileIndex rank (layout.1 * layout.2) layout
  let wx := (npx - 1) / layout.1
  let wy := (npy - 1) / layout.2
  let x := fun i => if localIndices then i else globalToLocal i sub.2 wx
  let y := fun j => if localIndices then j else globalToLocal j sub.1 wy
  ⟨npx, npy, npz, sub, wx, wy, x ix.is_, x ix.ie, x ix.isd, x ix.ied, y ix.js, y ix.je, y ix.jsd, y ix.jed⟩

/-- `_make`, grid.py 53-82. -/
def Grid.make (npx npy npz : Int) (layout : Int × Int) (rank : Int) : Grid :=
  let nx := (npx - 1) / layout.1
  let ny := (npy - 1) / layout.2
  Grid.init ⟨halo, nx + halo - 1, 0, nx + 2 * halo - 1, halo, ny + halo - 1, 0, ny + 2 * halo - 1⟩ npx npy npz rank
    layout true

/-- `TranslateGrid.__init__`, translate.py 369-373, with `python_grid`, 479-482: Fortran's indices plus 2. -/
def Grid.translated (ix : Indices) (npx npy npz : Int) (rank : Int) (layout : Int × Int) : Grid :=
  Grid.init ⟨ix.is_ + 2, ix.ie + 2, ix.isd + 2, ix.ied + 2, ix.js + 2, ix.je + 2, ix.jsd + 2, ix.jed + 2⟩ npx npy npz
    rank layout false

namespace Grid
/-- `nid`, `njd`, `nic`, `njc`, grid.py 128-131. -/
def nid (g : Grid) : Int := g.ied - g.isd + 1
def njd (g : Grid) : Int := g.jed - g.jsd + 1
def nic (g : Grid) : Int := g.ie - g.is_ + 1
def njc (g : Grid) : Int := g.je - g.js + 1
/-- `global_is` and so on, grid.py 133-140, by `local_to_global_indices`. -/
def globalI (g : Grid) (i : Int) : Int := localToGlobal i g.sub.2 g.wx
def globalJ (g : Grid) (j : Int) : Int := localToGlobal j g.sub.1 g.wy
/-- Edges, grid.py 141-144. -/
def west (g : Grid) : Bool := g.globalI g.is_ == halo
def east (g : Grid) : Bool := g.globalI g.ie == g.npx + halo - 2
def south (g : Grid) : Bool := g.globalJ g.js == halo
def north (g : Grid) : Bool := g.globalJ g.je == g.npy + halo - 2

/-- `horizontal_starts_from_shape`, grid.py 429-441. -/
def starts (g : Grid) (shape : List Nat) : Int × Int :=
  let s : List Int := (shape.take 2).map fun (n : Nat) => (n : Int)
  if s = [g.nic, g.njc] ∨ s = [g.nic + 1, g.njc] ∨ s = [g.nic, g.njc + 1] ∨ s = [g.nic + 1, g.njc + 1] then (g.is_, g.js)
  else if s = [g.nic + 2, g.njc + 2] then (g.is_ - 1, g.js - 1)
  else (0, 0)

end Grid

/-! ### descriptions of variables -/

/-- An index in a description: a number, or the name of an input that has it. -/
inductive Ix where
  | num (n : Int)
  | name (s : String)
  deriving DecidableEq

/-- The description of a variable. -/
structure Info where
  serialname : Option String := none
  istart : Option Ix := none
  iend : Option Ix := none
  jstart : Option Ix := none
  jend : Option Ix := none
  kstart : Option Ix := none
  kend : Option Ix := none
  indexVariable : Bool := false
  kaxis : Option Nat := none
  axis : Option Nat := none
  dummy : Option (List Nat) := none
  fullShape : Bool := false
  names4d : Option (List String) := none
  deriving DecidableEq

/-- `info["serialname"] if "serialname" in info else d` -/
def Info.serial (i : Info) (d : String) : String := i.serialname.getD d

/-- A value among the inputs: an array, the fields of a 4D array by name, or a number. -/
inductive In (V : Type) where
  | arr (a : Nd V)
  | dict (d : List (String × Nd V))
  | num (n : Int)

abbrev Dict (V : Type) := List (String × In V)

/-- `update_info` for one entry, translate.py 203-208. (A name that is an array's is not an index: left as it is.) -/
def Ix.update (inputs : Dict V) : Ix → Ix
  | .num n => .num n
  | .name s =>
    match dictGet inputs s with
    | some (.num n) => .num n
    | _ => .name s

/-- `update_info`, translate.py 203-208: the description itself is changed. -/
def Info.update (inputs : Dict V) (i : Info) : Info :=
  { i with
    istart := i.istart.map (Ix.update inputs), iend := i.iend.map (Ix.update inputs)
    jstart := i.jstart.map (Ix.update inputs), jend := i.jend.map (Ix.update inputs)
    kstart := i.kstart.map (Ix.update inputs), kend := i.kend.map (Ix.update inputs) }

/-- `int(...)` of an index; a name is not a number. -/
def Ix.int : Ix → Except Err Int
  | .num n => .ok n
  | .name _ => .error .valueError

/-- The entry of a description or a default, `get_index_from_info`, translate.py 197-201. -/
def ixOr (x : Option Ix) (default : Int) : Except Err Int :=
  match x with
  | none => .ok default
  | some i => i.int

/-- A number that is not negative. -/
def nat (n : Int) : Except Err Nat := if n < 0 then .error .notImplemented else .ok n.toNat

/-- `collect_start_indices`, translate.py 210-215. -/
def startIndices (g : Grid) (shape : List Nat) (i : Info) : Except Err (List Nat) := do
  let a ← ixOr i.istart (g.starts shape).1
  let b ← ixOr i.jstart (g.starts shape).2
  let c ← ixOr i.kstart 0
  let a ← nat a
  let b ← nat b
  let c ← nat c
  return [a, b, c]

/-- `np.moveaxis(a, k, 2)` for an array of rank 3. -/
def moveFrom (a : Nd V) (k : Nat) : Nd V :=
  ⟨a.shape.eraseIdx k ++ [a.shape.getD k 0], fun idx => a.get ((idx.take 2).take k ++ idx.getD 2 0 :: (idx.take 2).drop k)⟩

/-- The loop over the dummy axes, translate.py 143-145. -/
def setOnes : List Nat → List Nat → Nat → Except Err (List Nat × Nat)
  | [], shape, axis => .ok (shape, axis)
  | x :: l, shape, _ => if shape.length ≤ x then .error .indexError else setOnes l (shape.set x 1) x

/-- The shape and the axis for a storage, translate.py 142-147. -/
def useShape (maxshape : List Nat) (dummy : Option (List Nat)) (axis rank : Nat) (full : Bool) :
    Except Err (List Nat × Nat) :=
  if hasDummy dummy then setOnes (dummy.getD []) maxshape axis
  else if !full && rank < 3 && axis + 1 == rank then .ok (maxshape.set 1 1, axis)
  else .ok (maxshape, axis)

/-- `make_storage_data`, translate.py 122-190, without fields by name. -/
def storageData (z : V) (maxshape : List Nat) (a : Nd V) (start : List Nat) (i : Info) (readOnly : Bool) :
    Except Err (Nd V) := do
  let u ← useShape maxshape i.dummy (i.axis.getD 2) a.shape.length i.fullShape
  let four := a.shape.length == 4
  let start := if four then start ++ [0] else start
  let shape := if four then u.1 ++ [a.shape.getD 3 0] else u.1
  let m ← makeStorageData z a
    { shape := some shape, origin := start, start := start, dummy := i.dummy, axis := u.2, readOnly := readOnly }
  return m.array

/-- `make_storage_data`, translate.py 122-190, with fields by name. -/
def storageDict (z : V) (maxshape : List Nat) (a : Nd V) (start : List Nat) (i : Info) (names : List String) :
    Except Err (List (String × Nd V)) := do
  let u ← useShape maxshape i.dummy (i.axis.getD 2) a.shape.length i.fullShape
  let d ← makeStorageDict z a names { shape := some u.1, origin := start, start := start, dummy := i.dummy, axis := u.2 }
  return d.map fun e => (e.1, e.2.array)

/-- A test: descriptions of inputs and outputs, names of parameters and of written variables, default names of tracers,
the shape of storages. -/
structure Test where
  grid : Grid
  dataVars : List (String × Info)
  parameters : List String
  writeVars : List String
  outVars : List (String × Info)
  tracers : List String
  maxshape : List Nat

/-- `maxshape`, translate.py 80-83. -/
def maxshapeOf (g : Grid) (fortranAligned : Bool) : List Nat :=
  if fortranAligned then [g.nid.toNat, g.njd.toNat, g.npz.toNat]
  else [(g.nid + 1).toNat, (g.njd + 1).toNat, (g.npz + 1).toNat]

/-- The numbers of Python and Fortran: `-= 1` and `+= 1`. -/
structure Count (V : Type) where
  dec : V → V
  inc : V → V

def mapNd (f : V → V) (a : Nd V) : Nd V := ⟨a.shape, fun idx => f (a.get idx)⟩

/-- An array among the inputs. -/
def getArr (inputs : Dict V) (n : String) : Except Err (Nd V) :=
  match dictGet inputs n with
  | some (.arr a) => .ok a
  | some _ => .error .typeError
  | none => .error .keyError

/-- translate.py 245-250. -/
def moved (a : Nd V) (i : Info) : Nd V :=
  match i.kaxis with
  | none => a
  | some k => moveFrom a k

/-- translate.py 264-265: `-= 1` in place. -/
def counted (f : V → V) (i : Info) (a : Nd V) : Nd V := if i.indexVariable then mapNd f a else a

/-- The storage or storages for one variable, translate.py 251-277, from the array after `moved`. -/
def makeInput (z : V) (N : Count V) (t : Test) (d : String) (i : Info) (a : Nd V) : Except Err (In V) := do
  let start ← startIndices t.grid a.shape i
  let b := squeeze (counted N.dec i a)
  if a.shape.length = 4 then (storageDict z t.maxshape b start i (i.names4d.getD t.tracers)).map .dict
  else (storageData z t.maxshape b start i (decide (d ∉ t.writeVars))).map .arr

/-- The state of the loop of `make_storage_data_input_vars`: `inputs_in`, `inputs_out`, and the arrays as the caller
sees them. -/
structure Work (V : Type) where
  inp : Dict V
  out : Dict V
  caller : Dict V

/-- translate.py 238-277 for one variable. -/
def inputStep (z : V) (N : Count V) (t : Test) (w : Work V) (d : String) (i : Info) : Except Err (Work V) := do
  let s := i.serial d
  let a ← getArr w.inp s
  let a := moved a i
  let x ← makeInput z N t d i a
  let seen ← getArr w.caller s
  return ⟨dictSet w.inp s (.arr (counted N.dec i a)), dictSet w.out d x, dictSet w.caller s (.arr (counted N.dec i seen))⟩

/-- The loop over the variables, with the descriptions afterwards. -/
def inputLoop (z : V) (N : Count V) (t : Test) : List (String × Info) → Work V → Except Err (List (String × Info) × Work V)
  | [], w => .ok ([], w)
  | (d, i) :: l, w => do
    let i := i.update w.inp
    let w ← inputStep z N t w d i
    let r ← inputLoop z N t l w
    return ((d, i) :: r.1, r.2)

/-- translate.py 236-237. -/
def params (inputs : Dict V) : List String → Except Err (Dict V)
  | [] => .ok []
  | p :: l =>
    match dictGet inputs p with
    | none => .error .keyError
    | some v => (params inputs l).map fun d => (p, v) :: d

/-- `make_storage_data_input_vars`, translate.py 217-281: the test, the inputs and the caller's arrays afterwards. -/
def makeInputs (z : V) (N : Count V) (t : Test) (inputs : Dict V) : Except Err (Test × Dict V × Dict V) := do
  let p ← params inputs t.parameters
  let r ← inputLoop z N t t.dataVars ⟨inputs, p.foldl (fun d e => dictSet d e.1 e.2) [], inputs⟩
  return ({ t with dataVars := r.1 }, r.2.out, r.2.caller)

/-! ### results -/

/-- `a[lo0:hi0, lo1:hi1, ...]` -/
def cut (a : Nd V) (slices : List (Nat × Nat)) : Except Err (Nd V) :=
  match regions a.shape slices with
  | none => .error .indexError
  | some rs => .ok ⟨rs.map (·.2), fun idx => a.get (List.zipWith (fun (r : Nat × Nat) i => r.1 + i) rs idx)⟩

/-- The region of a result, translate.py 297-298 with `default_domain_dict`, grid.py 270-278: first and last index. -/
def region (g : Grid) (i : Info) : Except Err (List (Int × Int)) := do
  let a ← ixOr i.istart g.isd
  let b ← ixOr i.iend g.ied
  let c ← ixOr i.jstart g.jsd
  let d ← ixOr i.jend g.jed
  let e ← ixOr i.kstart 0
  let f ← ixOr i.kend (g.npz - 1)
  return [(a, b), (c, d), (e, f)]

/-- One slice, grid.py 260-268. -/
def sliceOf (r : Int × Int) : Except Err (Nat × Nat) := do
  let a ← nat r.1
  let b ← nat (r.2 + 1)
  return (a, b)

/-- `slice_dict`, grid.py 260-268: for one dimension that of `k`. -/
def sliceDict (r : List (Int × Int)) (ndim : Nat) : Except Err (List (Nat × Nat)) :=
  if ndim = 1 then (r.drop 2).mapM sliceOf else (r.take ndim).mapM sliceOf

/-- The array of a result that is an array, translate.py 320-332. -/
def cutArray (N : Count V) (g : Grid) (i : Info) (a : Nd V) : Except Err (Nd V) := do
  let r ← region g i
  let s ← sliceDict r (min a.shape.length 3)
  let c ← cut (counted N.inc i a) (s ++ (a.shape.drop 3).map fun n => (0, n))
  return squeeze c

/-- The position of a name, `names_4d.index(varname)`. -/
def nameIndex (names : List String) (n : String) : Except Err Nat :=
  match names.idxOf? n with
  | none => .error .valueError
  | some k => .ok k

/-- `var4d[:, :, :, index] = x`, for `x` of the shape of the first three axes. -/
def setField (b : Nd V) (k : Nat) (x : Nd V) : Except Err (Nd V) :=
  if b.shape.getD 3 0 ≤ k then .error .indexError
  else if x.shape = b.shape.take 3 then
    .ok ⟨b.shape, fun idx => if idx.getD 3 0 = k then x.get (idx.take 3) else b.get idx⟩
  else .error .valueError

/-- The loop over the fields, translate.py 314-318. -/
def setFields (names : List String) (s : List (Nat × Nat)) : List (String × Nd V) → Nd V → Except Err (Nd V)
  | [], b => .ok b
  | (n, a) :: l, b => do
    let k ← nameIndex names n
    let c ← cut a s
    let b ← setField b k (squeeze c)
    setFields names s l b

/-- The array of a result that is a dictionary, translate.py 304-319. -/
def cutDict (z : V) (t : Test) (i : Info) (d : List (String × Nd V)) : Except Err (Nd V) := do
  let r ← region t.grid i
  let s ← sliceDict r 3
  let sizes ← r.mapM fun e => nat (e.2 - e.1 + 1)
  setFields (i.names4d.getD t.tracers) s d (zeros z (sizes ++ [d.length]))

/-- One result, translate.py 299-334. -/
def output (z : V) (N : Count V) (t : Test) (i : Info) : In V → Except Err (Nd V)
  | .num _ => .error .typeError
  | .dict d => if i.indexVariable then .error .typeError else (cutDict z t i d).map fun b =>
    match i.kaxis with
    | none => b
    | some k => moveLast b k
  | .arr a => (cutArray N t.grid i a).map fun b =>
    match i.kaxis with
    | none => b
    | some k => moveLast b k

/-- The loop of `slice_output`, translate.py 289-334. -/
def outputLoop (z : V) (N : Count V) (t : Test) (vals : Dict V) :
    List (String × Info) → List (String × Nd V) → Except Err (List (String × Info) × List (String × Nd V))
  | [], out => .ok ([], out)
  | (v, i) :: l, out => do
    let i := i.update vals
    let x ← (match dictGet vals v with
      | none => .error .keyError
      | some x => .ok x)
    let b ← output z N t i x
    let r ← outputLoop z N t vals l (dictSet out (i.serial v) b)
    return ((v, i) :: r.1, r.2)

/-- `inputs.update(outputs)` -/
def updateDict (d e : Dict V) : Dict V := e.foldl (fun d x => dictSet d x.1 x.2) d

/-- translate.py 113-117: what the code under test returned, if anything, over its inputs. -/
def results (d : Dict V) : Option (Dict V) → Dict V
  | none => d
  | some o => updateDict d o

/-- `compute`, translate.py 98-118, of a test with the code `f` under test: the test afterwards, the results and the
caller's arrays. -/
def compute (z : V) (N : Count V) (t : Test) (f : Dict V → Except Err (Option (Dict V))) (inputs : Dict V) :
    Except Err (Test × List (String × Nd V) × Dict V) := do
  let m ← makeInputs z N t inputs
  let o ← f m.2.1
  let r ← outputLoop z N m.1 (results m.2.1 o) m.1.outVars []
  return ({ m.1 with outVars := r.1 }, r.2, m.2.2)

end NDSL.Translate
