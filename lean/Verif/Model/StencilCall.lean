import Verif.Model.GridIndexing
/-
Model of calling stencils: `FrozenStencil.__call__`, `_validate_quantity_sizes`, `_convert_quantities_to_storage`
(`ndsl/dsl/stencil.py` 419-491, 579-632), the comparison with a twin rank (`get_pair_rank`, `compare_ranks`, 233-256) and
with NumPy (`CompareToNumpyStencil`, `report_difference`, 58-80, 158-226).

Memory is a list of buffers with contents of an arbitrary type; an argument refers to a buffer or is a number. A stencil
compiled by GT4Py is a list of assignments to its parameters; parameters are bound as Python binds arguments. Whether
elements of two arrays differ (`np.sum(np.logical_and(~np.isnan(array), array != other))`) is a function given from outside.

Simplifications: the debugger, logging of each call and timing are left out. What GT4Py checks on the first call besides the
binding is left out. A stencil compared with NumPy has no twin rank.
-/
namespace NDSL.StencilCall
open NDSL.Indexing (Index3)

local notation "Buf" => Nat

structure Mem (V : Type) where
  data : Buf → V
  next : Buf

/-- An argument: a `Quantity` with the buffer of its `_data`, an `ndarray`, an object without `dims`/`_data` whose attribute
`data` is an `ndarray`, or a number. -/
inductive Arg (V : Type) where
  | quantity (b : Buf) (dims : List Dim) (extent : List Int) (nHalo : Int)
  | array (b : Buf)
  | boxed (b : Buf)
  | real (x : V)
  deriving DecidableEq

variable {V : Type}

def Arg.buf? : Arg V → Option Buf
  | .quantity b .. => some b
  | .array b => some b
  | .boxed b => some b
  | .real _ => none

/-- The buffer GT4Py uses: it takes arrays, and no quantities. -/
def Arg.storage? : Arg V → Option Buf
  | .array b => some b
  | .boxed b => some b
  | .quantity .. => none
  | .real _ => none

/-- `_convert_quantities_to_storage`, 613-632: `arg._data` for what has `dims`. -/
def convert : Arg V → Arg V
  | .quantity b .. => .array b
  | a => a

abbrev Kwargs (V : Type) := List (String × Arg V)

/-- A compiled stencil: names of the parameters, and assignments (parameter written, value from the parameters). -/
structure Stencil (V : Type) where
  names : List String
  body : List (Nat × ((Nat → V) → V))

/-- The value of a parameter; a missing one does not occur. -/
def value [Inhabited V] (params : List (Arg V)) (m : Mem V) (i : Nat) : V :=
  match params[i]? with
  | some (.real x) => x
  | some a => match a.storage? with
    | some b => m.data b
    | none => default
  | none => default

def write (m : Mem V) (b : Buf) (v : V) : Mem V := { m with data := fun b' => if b' = b then v else m.data b' }

/-- Running the assignments. -/
def run [Inhabited V] (body : List (Nat × ((Nat → V) → V))) (params : List (Arg V)) (m : Mem V) : Mem V :=
  body.foldl (fun m s => match (params[s.1]?).bind Arg.storage? with
    | some b => write m b (s.2 (value params m))
    | none => m) m

/-- Python's binding of `stencil_object(*args, **kwargs, ...)` to the parameters. -/
def bindCall (names : List String) (args : List (Arg V)) (kwargs : Kwargs V) : Except Err (List (Arg V)) :=
  if args.length > names.length then .error .typeError
  else if kwargs.any fun k => (names.take args.length).contains k.1 then .error .typeError
  else if kwargs.any fun k => !names.contains k.1 then .error .typeError
  else match (names.drop args.length).mapM fun n => dictGet kwargs n with
    | some rest => .ok (args ++ rest)
    | none => .error .typeError

/-- Python's binding of `stencil_object.run(**args_as_kwargs, **kwargs, ...)`, where
`args_as_kwargs = dict(zip(self._argument_names, args))`, 434 and 470-475. -/
def bindRun (names : List String) (args : List (Arg V)) (kwargs : Kwargs V) : Except Err (List (Arg V)) :=
  let given := names.zip args
  if kwargs.any fun k => (given.map fun g => g.1).contains k.1 then .error .typeError
  else if (given ++ kwargs).any fun k => !names.contains k.1 then .error .typeError
  else match names.mapM fun n => dictGet (given ++ kwargs) n with
    | some params => .ok params
    | none => .error .typeError

/-- `FrozenStencil`: `validate_args` of the configuration, `_arguments_already_checked`, and whether the run mode is
`RunMode.Build`, for which the instance gets an attribute `__call__` that does nothing (412-417). -/
structure Frozen (V : Type) where
  stencil : Stencil V
  validate : Bool
  checked : Bool
  buildOnly : Bool

/-- What comes of a call. -/
inductive Out (V : Type) where
  | ok (m : Mem V) (f : Frozen V)
  | raised (e : Err)
  | waits

/-- The arrays that `compare_ranks` sends, 246-251, by name: those with an attribute `data` that is an `ndarray`. The `data` of
an `ndarray` is a buffer object, and so is that of the `_data` of a `Quantity`. -/
def sent (all : List (String × Arg V)) : List (String × Buf) :=
  (all.mergeSort fun a b => decide (a.1 ≤ b.1)).filterMap fun a => match a.2 with
    | .boxed b => some (a.1, b)
    | _ => none

/-- `get_pair_rank`, 233-238. -/
def pairRank (rank size : Nat) : Nat :=
  let half := size / 2
  if rank < half then rank + half else rank - half

/-- `compare_ranks`, 241-256: the differences found, `none` if the twin sends fewer arrays and this rank waits for ever. -/
def compareRanks (diffs : V → V → Nat) (mine twin : List (String × Arg V)) (m mt : Mem V) : Option (List (String × Nat)) :=
  if (sent twin).length < (sent mine).length then none
  else some (((sent mine).zip (sent twin)).filterMap fun p =>
    let n := diffs (m.data p.1.2) (mt.data p.2.2)
    if n > 0 then some (p.1.1, n) else none)

/-- The twin rank: its arguments, and its memory before and after its own call. -/
structure Twin (V : Type) where
  all : List (String × Arg V)
  before : Mem V
  after : Mem V

/-- `FrozenStencil.__call__`, 419-491, as called by `stencil(*args, **kwargs)`: Python looks `__call__` up in the class. -/
def call [Inhabited V] (diffs : V → V → Nat) (f : Frozen V) (twin : Option (Twin V)) (args : List (Arg V)) (kwargs : Kwargs V)
    (m : Mem V) : Out V :=
  let args := args.map convert
  let kwargs := kwargs.map fun k => (k.1, convert k.2)
  let all := f.stencil.names.zip args ++ kwargs
  let go := fun (k : Mem V → Frozen V → Out V) =>
    if f.validate && !f.checked then
      match bindCall f.stencil.names args kwargs with
      | .ok params => k (run f.stencil.body params m) { f with checked := true }
      | .error e => .raised e
    else
      match bindRun f.stencil.names args kwargs with
      | .ok params => k (run f.stencil.body params m) f
      | .error e => .raised e
  match twin with
  | none => go fun m' f' => .ok m' f'
  | some t =>
    match compareRanks diffs all t.all m t.before with
    | none => .waits
    | some (_ :: _) => .raised .valueError
    | some [] => go fun m' f' =>
      match compareRanks diffs all t.all m' t.after with
      | none => .waits
      | some (_ :: _) => .raised .valueError
      | some [] => .ok m' f'

/-- `stencil.__call__(*args, **kwargs)` spelled out: the attribute of the instance is found first. -/
def callAttribute [Inhabited V] (diffs : V → V → Nat) (f : Frozen V) (twin : Option (Twin V)) (args : List (Arg V))
    (kwargs : Kwargs V) (m : Mem V) : Out V :=
  if f.buildOnly then .ok m f else call diffs f twin args kwargs m

/-! ### Sizes -/

/-- The size of the domain along a dimension, 587-591. -/
def domainSize (domain : Index3) : Dim → Option Int
  | .i | .iInterface => some domain.1
  | .j | .jInterface => some domain.2.1
  | .k | .kInterface => some domain.2.2
  | .kSoil | .tile | .other _ => none

/-- `I_DIMS + J_DIMS` -/
def isHorizontal : Dim → Bool
  | .i | .iInterface | .j | .jInterface => true
  | _ => false

/-- The warnings of `_validate_quantity_sizes` for one argument, 593-605: the dimensions that are too small. -/
def tooSmall (domain : Index3) : Arg V → List Dim
  | .quantity _ dims extent nHalo => (dims.zip extent).filterMap fun p =>
    match domainSize domain p.1 with
    | some n => if p.2 + (if isHorizontal p.1 then 2 * nHalo else 0) < n then some p.1 else none
    | none => none
  | _ => []

/-! ### Comparison with NumPy -/

/-- The distinct buffers of arguments, in order. -/
def buffers (args : List (Arg V)) : List Buf := (args.filterMap Arg.buf?).eraseDups

/-- The number of a buffer's copy: copies are made in order of first occurrence. -/
def copyOf (m : Mem V) (bs : List Buf) (b : Buf) : Buf := m.next + bs.idxOf b

def Arg.rename (r : Buf → Buf) : Arg V → Arg V
  | .quantity b d e h => .quantity (r b) d e h
  | .array b => .array (r b)
  | .boxed b => .boxed (r b)
  | .real x => .real x

/-- `copy.deepcopy` of a tuple or the values of a dictionary: a buffer that occurs twice is copied once. -/
def deepcopy (args : List (Arg V)) (m : Mem V) : List (Arg V) × Mem V :=
  let bs := buffers args
  (args.map (Arg.rename (copyOf m bs)),
    ⟨fun b => if m.next ≤ b then match bs[b - m.next]? with
      | some b' => m.data b'
      | none => m.data b
     else m.data b, m.next + bs.length⟩)

inductive Label where
  | pos (i : Nat)
  | name (s : String)
  deriving DecidableEq

/-- What `report_difference` compares, 58-80: label, contents after the stencil, contents after NumPy. -/
def report (args copies : List (Arg V)) (kwargs kcopies : Kwargs V) (m : Mem V) : List (Label × V × V) :=
  let pair := fun (l : Label) (a c : Arg V) => match a, c with
    | .quantity b .., .quantity b' .. => some (l, m.data b, m.data b')
    | .array b, .array b' => some (l, m.data b, m.data b')
    | _, _ => none
  ((args.zip copies).zipIdx.filterMap fun p => pair (.pos p.2) p.1.1 p.1.2) ++
    (kwargs.zip kcopies).filterMap fun p => pair (.name p.1.1) p.1.2 p.2.2

/-- `CompareToNumpyStencil.__call__`, 209-226. -/
def callCompared [Inhabited V] (diffs : V → V → Nat) (actual numpy : Frozen V) (args : List (Arg V)) (kwargs : Kwargs V)
    (m : Mem V) : Except (Out V) (Mem V × Frozen V × Frozen V × List (Label × V × V)) :=
  let c := deepcopy args m
  let k := deepcopy (kwargs.map fun k => k.2) c.2
  let kcopies := (kwargs.map fun k => k.1).zip k.1
  match call diffs actual none args kwargs k.2 with
  | .ok m' a' =>
    match call diffs numpy none c.1 kcopies m' with
    | .ok m'' n' => .ok (m'', a', n', report args c.1 kwargs kcopies m'')
    | o => .error o
  | o => .error o

end NDSL.StencilCall
