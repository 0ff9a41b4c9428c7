import Verif.Model.StateUpdate
/-
Model of writing states to files and reading them: `State._netcdf_name`, `to_xarray`, `to_netcdf` and
`update_from_netcdf` (`ndsl/quantity/state.py` 491-597).

`xa` is `quantity.field_as_xarray`, `dims` gives the dimensions of an array with their sizes. From xarray the following
is modelled: an `xr.Dataset` refuses a dataset as a variable (TypeError) and variables that disagree about the size of
a dimension (ValueError); a variable whose only dimension has its name is a coordinate and not among `items()`; the
nodes of an `xr.DataTree` have to agree with the root about sizes; files hold what was written. Simplifications: every
field has dims in its metadata; variables with more dimensions one of which has the variable's name, and what xarray
decodes on reading (units of time), are left out; a file name is a directory and a list of characters.
-/
namespace NDSL.StateFiles
open NDSL.StateUpd
variable {F A : Type}

/-- exceptions -/
inductive XErr where
  | typeError
  | valueError
  | fileNotFound
  | update (e : SErr)
  deriving DecidableEq

/-- `xr.Dataset`: variables by name, in order. -/
abbrev Dataset (A : Type) := List (String × A)

/-- What `local_data` may hold. -/
inductive Entry (A : Type) where
  | arr (a : A)
  | ds (d : Dataset A)

/-- `xr.DataTree` of depth one: the root and its children. -/
structure Tree (A : Type) where
  root : Dataset A
  children : List (String × Dataset A)

/-- No two of the dimensions have the same name and different sizes. -/
def sizesAgree (l : List (String × Nat)) : Bool := l.all fun a => l.all fun b => a.1 != b.1 || a.2 == b.2

/-- All dimensions of the variables of a dataset. -/
def allDims (dims : A → List (String × Nat)) (d : Dataset A) : List (String × Nat) := d.flatMap fun e => dims e.2

/-- The variables, if all entries are arrays. -/
def variables : List (String × Entry A) → Except XErr (Dataset A)
  | [] => .ok []
  | (n, .arr a) :: l => (variables l).map ((n, a) :: ·)
  | (_, .ds _) :: _ => .error .typeError

/-- `xr.Dataset(data_vars=...)`. -/
def mkDataset (dims : A → List (String × Nat)) (l : List (String × Entry A)) : Except XErr (Dataset A) :=
  match variables l with
  | .error e => .error e
  | .ok d => if sizesAgree (allDims dims d) then .ok d else .error .valueError

/-- `_save_recursive`, 503-522. A nested state that is `None` has no fields (TypeError). -/
def saveRec (xa : F → A) (dims : A → List (String × Nat)) : St F → Except XErr (List (String × Entry A))
  | .nil => .ok []
  | .field _ _ none rest => saveRec xa dims rest
  | .field n _ (some f) rest => (saveRec xa dims rest).map ((n, .arr (xa f)) :: ·)
  | .nested n sub rest =>
    match saveRec xa dims sub with
    | .error e => .error e
    | .ok l =>
      match mkDataset dims l with
      | .error e => .error e
      | .ok d => (saveRec xa dims rest).map ((n, .ds d) :: ·)
  | .gone _ _ _ => .error .typeError

/-- 528-531: the entries for the root. -/
def topLevel : List (String × Entry A) → Dataset A
  | [] => []
  | (n, .arr a) :: l => (n, a) :: topLevel l
  | (_, .ds _) :: l => topLevel l

/-- 532-533: what is left. -/
def others : List (String × Entry A) → List (String × Dataset A)
  | [] => []
  | (_, .arr _) :: l => others l
  | (n, .ds d) :: l => (n, d) :: others l

/-- `xr.DataTree.from_dict`: nodes agree with the root. -/
def fromDict (dims : A → List (String × Nat)) (root : Dataset A) (ch : List (String × Dataset A)) :
    Except XErr (Tree A) :=
  if ch.all fun c => sizesAgree (allDims dims root ++ allDims dims c.2) then .ok ⟨root, ch⟩ else .error .valueError

/-- `to_xarray`, 498-536. -/
def toXarray (xa : F → A) (dims : A → List (String × Nat)) (s : St F) : Except XErr (Tree A) :=
  match saveRec xa dims s with
  | .error e => .error e
  | .ok l =>
    match mkDataset dims ((topLevel l).map fun e => (e.1, .arr e.2)) with
    | .error e => .error e
    | .ok root => fromDict dims root (others l)

/-- `dataset.items()`: coordinates are left out. -/
def items (dims : A → List (String × Nat)) (d : Dataset A) : Dataset A :=
  d.filter fun e => (dims e.2).map (·.1) != [e.1]

/-- The dictionary with the arrays of a dataset. -/
def arrays : Dataset A → Mem A → Mem A
  | [], m => m
  | (n, a) :: l, m => .arr n a (arrays l m)

/-- The children of the tree, with the leading `/` of their paths removed. -/
def subtrees (dims : A → List (String × Nat)) : List (String × Dataset A) → Mem A
  | [] => .nil
  | (n, d) :: l => .dict n (arrays (items dims d) .nil) (subtrees dims l)

/-- `_load_recursive`, 577-593. -/
def load (dims : A → List (String × Nat)) (t : Tree A) : Mem A :=
  arrays (items dims t.root) (subtrees dims t.children)

/-- The name of a file: directory and characters. -/
abbrev Path := String × List Char

/-- `_netcdf_name`, 491-496 (`postfix` is `post`). -/
def netcdfName (size rank : Nat) (dir : String) (cls post : List Char) : Path :=
  let rankPostfix := if size > 1 then "_rank".toList ++ Nat.toDigits 10 rank else []
  (dir, cls ++ rankPostfix ++ post ++ ".nc4".toList)

/-- Files, the newest first. -/
abbrev FS (A : Type) := List (Path × Tree A)

/-- `to_netcdf`, 538-554, by one rank. -/
def toNetcdf (xa : F → A) (dims : A → List (String × Nat)) (p : Path) (s : St F) (fs : FS A) :
    FS A × Option XErr :=
  match toXarray xa dims s with
  | .error e => (fs, some e)
  | .ok t => ((p, t) :: fs, none)

/-- `update_from_netcdf`, 556-597: the state afterwards. -/
def fromNetcdf (dims : A → List (String × Nat)) (assign : F → A → Except SErr F) (p : Path) (s : St F) (fs : FS A) :
    St F × Option XErr :=
  match fs.lookup p with
  | none => (s, some .fileNotFound)
  | some t =>
    let r := updateCopy assign (load dims t) s
    (r.1, r.2.map .update)

/-- One call of `to_netcdf`. -/
structure Save (F : Type) where
  rank : Nat
  dir : String
  cls : List Char
  post : List Char
  state : St F

/-- Calls of `to_netcdf`, one after the other, by `size` ranks with a common file system. -/
def saves (xa : F → A) (dims : A → List (String × Nat)) (size : Nat) : List (Save F) → FS A → FS A
  | [], fs => fs
  | v :: l, fs => saves xa dims size l (toNetcdf xa dims (netcdfName size v.rank v.dir v.cls v.post) v.state fs).1

end NDSL.StateFiles
