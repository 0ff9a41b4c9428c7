import Verif.Model.Sizer

/-
Model of the data dimensions of quantity factories (`ndsl/initialization/allocator.py` 29-58,
`ndsl/quantity/field_bundle.py` 120-137) and of the allocation of states (`ndsl/quantity/state.py` 57-122, 137-262,
514-640).

Objects are numbers: a factory refers to a sizer, a sizer refers to a dictionary of data dimensions, so sharing is
visible. Field types, names and dims are modelled; units, data types and values of states are not. A nested class
that occurs in two fields is modelled as two classes.
-/
namespace NDSL.Factory

/-- a sizer object: sizes and a reference to its dictionary of data dimensions -/
structure SizerObj where
  nx : Int
  ny : Int
  nz : Int
  nHalo : Int
  pad : Bool
  ref : Nat
  deriving DecidableEq

/-- the dictionaries, sizers and factories of a program -/
structure World where
  dicts : List (List (Dim × Int))
  sizers : List SizerObj
  /-- the sizer of each factory -/
  factories : List Nat
  deriving DecidableEq

def noSizer : SizerObj := ⟨0, 0, 0, 0, false, 0⟩

namespace World

def sizerObj (w : World) (f : Nat) : SizerObj := w.sizers.getD (w.factories.getD f 0) noSizer

/-- `factory.sizer.data_dimensions` -/
def dims (w : World) (f : Nat) : List (Dim × Int) := w.dicts.getD (w.sizerObj f).ref []

/-- the sizer of a factory as it computes sizes now -/
def sizer (w : World) (f : Nat) : Sizer :=
  ⟨(w.sizerObj f).nx, (w.sizerObj f).ny, (w.sizerObj f).nz, (w.sizerObj f).nHalo, w.dims f, (w.sizerObj f).pad⟩

end World

/-- `d.update({k: v})` -/
def setKey : List (Dim × Int) → Dim → Int → List (Dim × Int)
  | [], k, v => [(k, v)]
  | e :: d, k, v => if e.1 = k then (k, v) :: d else e :: setKey d k v

/-- `d.update(ds)` -/
def updateDict (d ds : List (Dim × Int)) : List (Dim × Int) := ds.foldl (fun d e => setKey d e.1 e.2) d

/-- `update_data_dimensions`, `allocator.py` 29-40 -/
def updateData (w : World) (f : Nat) (ds : List (Dim × Int)) : World :=
  { w with dicts := w.dicts.set (w.sizerObj f).ref (updateDict (w.dims f) ds) }

/-- `add_data_dimensions`, `allocator.py` 42-60 -/
def addData (w : World) (f : Nat) (ds : List (Dim × Int)) : World × Except Err Unit :=
  if ds.any (fun e => (w.dims f).any fun x => decide (x.1 = e.1)) then (w, .error .valueError)
  else (updateData w f ds, .ok ())

/-- `extend_3D_quantity_factory`, `field_bundle.py` 120-137: `copy.copy` copies the reference to the sizer -/
def extend (w : World) (f : Nat) (ds : List (Dim × Int)) : World × Except Err Nat :=
  let copied : World := { w with factories := w.factories ++ [w.factories.getD f 0] }
  match addData copied w.factories.length ds with
  | (w', .ok ()) => (w', .ok w.factories.length)
  | (_, .error e) => (w, .error e)

/-- what a program does with factories -/
inductive Op where
  /-- a sizer with its own dictionary and a factory for it -/
  | create (s : SizerObj) (data : List (Dim × Int))
  /-- another factory for the sizer of a factory -/
  | again (f : Nat)
  | update (f : Nat) (ds : List (Dim × Int))
  | add (f : Nat) (ds : List (Dim × Int))
  | extend (f : Nat) (ds : List (Dim × Int))

/-- one operation (nothing happens if the factory named does not exist) -/
def step (w : World) : Op → World
  | .create s data =>
    ⟨w.dicts ++ [data], w.sizers ++ [{ s with ref := w.dicts.length }], w.factories ++ [w.sizers.length]⟩
  | .again f =>
    if f < w.factories.length then { w with factories := w.factories ++ [w.factories.getD f 0] } else w
  | .update f ds => if f < w.factories.length then updateData w f ds else w
  | .add f ds => if f < w.factories.length then (addData w f ds).1 else w
  | .extend f ds => if f < w.factories.length then (Factory.extend w f ds).1 else w

def run (h : List Op) : World := h.foldl step ⟨[], [], []⟩

/-! ### states -/

/-- the type of a field, `state.py` 84-119 -/
inductive FType where
  | quantity
  | optional
  | localField
  | other
  deriving DecidableEq

/-- a state class: its fields in order -/
inductive Cls where
  | nil
  /-- name, `init` flag, type, `metadata["dims"]` -/
  | field (name : String) (init : Bool) (ty : FType) (dims : Option (List Dim)) (rest : Cls)
  /-- a nested dataclass -/
  | nested (name : String) (init : Bool) (sub : Cls) (rest : Cls)
  deriving DecidableEq

/-- `_init_recursive`, 74-120: what is allocated, by path -/
def Cls.init (s : Sizer) : Cls → Except Err (List (List String × Alloc))
  | .nil => .ok []
  | .field _ false _ _ rest => rest.init s
  | .field name true ty dims rest =>
    if ty = .other then .error .typeError
    else
      match dims with
      | none => .error .valueError
      | some ds => do
        let q ← allocate s ds
        let r ← rest.init s
        return ([name], q) :: r
  | .nested _ false _ rest => rest.init s
  | .nested name true sub rest => do
    let a ← sub.init s
    let r ← rest.init s
    return a.map (fun e => (name :: e.1, e.2)) ++ r

/-- `_check_no_locals`, 166-178 -/
def Cls.checkNoLocals : Cls → Except Err Unit
  | .nil => .ok ()
  | .field _ _ ty _ rest => if ty = .localField then .error .typeError else rest.checkNoLocals
  | .nested _ _ sub rest => do sub.checkNoLocals; rest.checkNoLocals

/-- `_check_only_locals`, 528-540 -/
def Cls.checkOnlyLocals : Cls → Except Err Unit
  | .nil => .ok ()
  | .field _ _ ty _ rest => if ty = .quantity then .error .typeError else rest.checkOnlyLocals
  | .nested _ _ sub rest => do sub.checkOnlyLocals; rest.checkOnlyLocals

/-- `_FactorySwapDimensionsDefinitions` around `_init`, 150-164: `__exit__` runs also when the body raises -/
def withSwap (w : World) (f : Nat) (ddims : Option (List (Dim × Int))) (body : Sizer → Except Err β) :
    World × Except Err β :=
  let sid := w.factories.getD f 0
  let original := (w.sizerObj f).ref
  let entered : World :=
    { w with
      dicts := w.dicts ++ [ddims.getD []]
      sizers := w.sizers.set sid { w.sizerObj f with ref := w.dicts.length } }
  let r := body (entered.sizer f)
  ({ entered with sizers := entered.sizers.set sid { entered.sizerObj f with ref := original } }, r)

/-- `State.zeros`, 203-224 (and `empty`, `ones`, and `full` up to its fill) -/
def stateAlloc (w : World) (f : Nat) (cls : Cls) (ddims : Option (List (Dim × Int))) :
    World × Except Err (List (List String × Alloc)) :=
  match cls.checkNoLocals with
  | .error e => (w, .error e)
  | .ok () => withSwap w f ddims cls.init

/-- `LocalState.make_locals`, 542-563 (inside an `NDSLRuntime`) -/
def makeLocals (w : World) (f : Nat) (cls : Cls) (ddims : Option (List (Dim × Int))) :
    World × Except Err (List (List String × Alloc)) :=
  match cls.checkOnlyLocals with
  | .error e => (w, .error e)
  | .ok () => withSwap w f ddims cls.init

/-- `_swap_local_recursive`, 611-616: the class itself is changed -/
def Cls.swapLocal : Cls → Cls
  | .nil => .nil
  | .field n i ty d rest => .field n i (if ty = .localField then .quantity else ty) d rest.swapLocal
  | .nested n i sub rest => .nested n i sub.swapLocal rest.swapLocal

/-- `_restore_local_recursive`, 625-630 -/
def Cls.restoreLocal : Cls → Cls
  | .nil => .nil
  | .field n i ty d rest => .field n i (if ty = .quantity then .localField else ty) d rest.restoreLocal
  | .nested n i sub rest => .nested n i sub.restoreLocal rest.restoreLocal

/-- `LocalState.make_as_state`, 565-634: returns also the class as it is left -/
def makeAsState (w : World) (f : Nat) (cls : Cls) (ddims : Option (List (Dim × Int))) :
    World × Cls × Except Err (List (List String × Alloc)) :=
  match cls.checkOnlyLocals with
  | .error e => (w, cls, .error e)
  | .ok () =>
    let swapped := cls.swapLocal
    match withSwap w f ddims swapped.init with
    | (w', .error e) => (w', swapped, .error e)
    | (w', .ok l) => (w', swapped.restoreLocal, .ok l)

end NDSL.Factory
