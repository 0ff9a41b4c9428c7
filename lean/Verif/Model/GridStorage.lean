import Verif.Model.StorageData
import Verif.Model.Translate
/-
Model of the grid of a test read from reference data: `TranslateGrid.make_grid_storage` with `_make_composite_var_storage`,
`_make_composite_vvar_storage` and `_edge_vector_storage`, `ndsl/stencils/testing/translate.py` 333-491.

Simplifications: those of `make_storage_data` (`Verif/Model/StorageData.lean`). The storages GT4Py makes are NumPy arrays on a CPU
(`cpu`), and are not on a GPU. What is not an array is not looked at.
-/
namespace NDSL.GridStorage
open NDSL.Storage NDSL.Translate

variable {V : Type}

/-- A value in the data: an array, and whether its type is `np.ndarray`, or something else. -/
inductive Val (V : Type) where
  | array (a : Nd V) (numpy : Bool)
  | other

abbrev Data (V : Type) := List (String × Val V)

/-- The names treated specially, 336-356. -/
def compositeVars : List String := ["sin_sg", "cos_sg"]
def vVars : List String := ["vlon", "vlat"]
def eeVars : List String := ["ee1", "ee2", "ew1", "ew2", "es1", "es2"]
def edgeAxis : List (String × Nat) := [("edge_w", 1), ("edge_e", 1), ("edge_s", 0), ("edge_n", 0)]
def edgeVectAxis : List (String × Nat) := [("edge_vect_s", 0), ("edge_vect_n", 0), ("edge_vect_w", 1), ("edge_vect_e", 1)]

/-- `pygrid.domain_shape_full(add=(1, 1, 1))`, 437. -/
def fullShape (g : Grid) : List Nat := [(g.nid + 1).toNat, (g.njd + 1).toNat, (g.npz + 1).toNat]

def stored (cpu : Bool) (r : Except Err (Made V)) : Except Err (Val V) :=
  match r with
  | .ok m => .ok (.array m.array cpu)
  | .error e => .error e

/-- `data3d[:, :, s]`, 393. -/
def component (a : Nd V) (s : Nat) : Except Err (Nd V) :=
  match a.shape with
  | [p, q, n] => if s < n then .ok ⟨[p, q], fun idx => a.get (idx ++ [s])⟩ else .error .indexError
  | _ => .error .indexError

/-- The name of a component, 392. -/
def componentName (key : String) (s : Nat) : String := key ++ toString (s + 1)

/-- `_make_composite_var_storage`, 390-397, with a count of 9. -/
def composite (z : V) (cpu : Bool) (shape : List Nat) (key : String) (a : Nd V) (d : Data V) : Except Err (Data V) :=
  (List.range 9).foldlM (fun d s => do
    let c ← component a s
    let v ← stored cpu (makeStorageData z (squeeze c) { shape := some shape, origin := [0, 0, 0] })
    return dictSet d (componentName key s) v) d

/-- `del self.data[key]`. -/
def delete (d : Data V) (key : String) : Data V := d.filter fun e => e.1 != key

/-- `_make_composite_vvar_storage`, 422-434. -/
def vvar (z : V) (cpu : Bool) (shape : List Nat) : Val V → Except Err (Val V)
  | .array a _ => match shape, a.shape with
    | n0 :: n1 :: _, p :: q :: _ => do
      let b ← assign (zeros z [n0, n1, 3]) [(1, 1 + p), (1, 1 + q)] a
      stored cpu (makeStorageData z b { shape := some b.shape, origin := [1, 1, 0] })
    | _, _ => .error .valueError
  | .other => .error .typeError

/-- 449-456: the first axis is moved to the end. -/
def unitVector (z : V) (cpu : Bool) (shape : List Nat) : Val V → Except Err (Val V)
  | .array a _ => match shape, a.shape with
    | n0 :: n1 :: _, [c, p, q] =>
      stored cpu (makeStorageData z ⟨[p, q, c], fun idx => a.get (idx.getD 2 0 :: idx.take 2)⟩
        { shape := some [n0, n1, 3], origin := [0, 0, 0] })
    | _, _ => .error .valueError
  | .other => .error .typeError

/-- 459-467, with `pygrid.halo`. -/
def edge (z : V) (cpu : Bool) (shape : List Nat) (axis : Nat) : Val V → Except Err (Val V)
  | .array a _ => stored cpu (makeStorageData z a { shape := some shape, start := [0, 0, 3], axis := axis })
  | .other => .error .typeError

/-- `_edge_vector_storage`, 399-420. -/
def edgeVect (z : V) (cpu : Bool) (shape : List Nat) (axis : Nat) : Val V → Except Err (Val V)
  | .array a _ => match shape with
    | n0 :: n1 :: _ =>
      if axis = 1 then do
        let b ← assign (zeros z [n1]) [(0, a.shape.headD 0)] a
        let b := repeatAxis (newaxis b 0) n0 0
        stored cpu (makeStorageData z b { shape := some b.shape, origin := [0, 0] })
      else do
        let b ← assign (zeros z [n0]) [(0, a.shape.headD 0)] a
        stored cpu (makeStorageData z b { shape := some b.shape, origin := [0], mask := some [true, false, false] })
    | _ => .error .valueError
  | .other => .error .typeError

/-- The last loop, 472-491: every NumPy array with dimensions. -/
def plain (z : V) (cpu : Bool) (g : Grid) (shape : List Nat) : Val V → Except Err (Val V)
  | .array a true =>
    if a.shape = [] then .ok (.array a true)
    else
      let o := [(g.starts a.shape).1.toNat, (g.starts a.shape).2.toNat, 0]
      stored cpu (makeStorageData z a { shape := some shape, origin := o, start := o })
  | v => .ok v

/-- `if key in self.data: self.data[key] = ...` -/
def update (f : Val V → Except Err (Val V)) (d : Data V) (key : String) : Except Err (Data V) :=
  match dictGet d key with
  | none => .ok d
  | some v => match f v with
    | .ok v' => .ok (dictSet d key v')
    | .error e => .error e

/-- 438-441 -/
def splitComposite (z : V) (cpu : Bool) (shape : List Nat) (d : Data V) (key : String) : Except Err (Data V) :=
  match dictGet d key with
  | none => .ok d
  | some .other => .error .typeError
  | some (.array a _) => match composite z cpu shape key a d with
    | .ok d => .ok (delete d key)
    | .error e => .error e

/-- A loop over names. -/
def each {α : Type} (f : Data V → α → Except Err (Data V)) : List α → Data V → Except Err (Data V)
  | [], d => .ok d
  | x :: l, d => match f d x with
    | .ok d => each f l d
    | .error e => .error e

/-- A loop over all values. -/
def eachValue (f : Val V → Except Err (Val V)) : Data V → Except Err (Data V)
  | [] => .ok []
  | (k, v) :: d => match f v with
    | .error e => .error e
    | .ok v => match eachValue f d with
      | .error e => .error e
      | .ok d => .ok ((k, v) :: d)

/-- The loops before the last, 438-470. -/
def special (z : V) (cpu : Bool) (shape : List Nat) (d : Data V) : Except Err (Data V) :=
  match each (splitComposite z cpu shape) compositeVars d with
  | .error e => .error e
  | .ok d => match each (update (vvar z cpu shape)) vVars d with
    | .error e => .error e
    | .ok d => match each (update (unitVector z cpu shape)) eeVars d with
      | .error e => .error e
      | .ok d => match each (fun d (x : String × Nat) => update (edge z cpu shape x.2) d x.1) edgeAxis d with
        | .error e => .error e
        | .ok d => each (fun d (x : String × Nat) => update (edgeVect z cpu shape x.2) d x.1) edgeVectAxis d

/-- `make_grid_storage`, 436-491. -/
def makeGridStorage (z : V) (cpu : Bool) (g : Grid) (d : Data V) : Except Err (Data V) :=
  match special z cpu (fullShape g) d with
  | .error e => .error e
  | .ok d => eachValue (plain z cpu g (fullShape g)) d

end NDSL.GridStorage
