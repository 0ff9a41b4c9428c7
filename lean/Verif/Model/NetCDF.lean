import Verif.Model.StateTransfer
import Verif.Model.Backend
/-
Model of `ndsl/monitor/netcdf_monitor.py`, on the ranks that write (the first rank of each tile; the
gathering of a tile is modelled in `Verif.Model.StateTransfer`). A field of a state is its dimensions,
in order, and its content; the content is by name of dimension, so that transposing changes only the
order. The extents and the data types of a field are assumed not to change between states.
`store_constant` is not modelled here.
-/
namespace NDSL.NetCDF

/-- A field of a state: dimensions and content. -/
structure Field (C : Type) where
  dims : List String
  content : C
  deriving DecidableEq

/-- A state: its time, if it has one, and its fields. -/
structure St (T C : Type) where
  time : Option T
  fields : List (String × Field C)
  deriving DecidableEq

/-- `_TimeChunkedVariable`, 16-41: the dimensions of the first, and the contents so far. -/
structure Chunk (C : Type) where
  dims : List String
  data : List C
  deriving DecidableEq

/-- A file: the times and, for each variable, dimensions and contents along time. -/
structure File (T C : Type) where
  times : List (Option T)
  vars : List (String × Chunk C)
  deriving DecidableEq

/-- `_ChunkedNetCDFWriter`, 44-54 -/
structure Writer (T C : Type) where
  iTime : Nat
  chunked : Option (List (String × Chunk C))
  times : List (Option T)
  deriving DecidableEq

/-- A number with at least four digits, `{chunk:04d}` -/
def pad4 (n : Nat) : List Char :=
  List.replicate (4 - (Nat.toDigits 10 n).length) '0' ++ Nat.toDigits 10 n

/-- `FILENAME_FORMAT`, 45 and 86-92, in the directory of the monitor -/
def fileName (chunk tile : Nat) : List Char :=
  chars! "state_" ++ pad4 chunk ++ chars! "_tile" ++ Nat.toDigits 10 tile ++ chars! ".nc"

variable {T C : Type}

/-- `_TimeChunkedVariable.append`, 25-30, through 67: the field is transposed to the dimensions of
the first one, which needs the same dimensions, and put into the next row, of which there are
`c`. -/
def appendVar (c : Nat) (ch : List (String × Chunk C)) (e : String × Field C) :
    Except Err (List (String × Chunk C)) :=
  match dictGet ch e.1 with
  | none => .error .keyError
  | some k =>
      if e.2.dims.isPerm k.dims then
        if k.data.length < c then .ok (dictSet ch e.1 ⟨k.dims, k.data ++ [e.2.content]⟩)
        else .error .indexError
      else .error .valueError

abbrev FS (T C : Type) := List Char → Option (File T C)

/-- `flush`, 74-99 -/
def flush (c tile : Nat) (w : Writer T C) (fs : FS T C) : Writer T C × FS T C :=
  ({ w with chunked := none, times := [] },
    match w.chunked with
    | none => fs
    | some ch => fun n => if n = fileName (w.iTime / c) tile then some ⟨w.times, ch⟩ else fs n)

/-- 60-67: the first state of a chunk, or the next. A size of zero fails at the first state (19). -/
def nextChunk (c : Nat) (o : Option (List (String × Chunk C))) (fields : List (String × Field C)) :
    Except Err (List (String × Chunk C)) :=
  match o with
  | none => if c = 0 then .error .indexError
      else .ok (fields.map fun e => (e.1, Chunk.mk e.2.dims [e.2.content]))
  | some ch => fields.foldlM (appendVar c) ch

/-- `append`, 56-72 -/
def append (c tile : Nat) (w : Writer T C) (fs : FS T C) (s : St T C) :
    Except Err (Writer T C × FS T C) := do
  let ch ← nextChunk c w.chunked s.fields
  let w1 := { w with chunked := some ch, times := w.times ++ [s.time] }
  if (w.iTime + 1) % c = 0 then
    let r := flush c tile w1 fs
    return ({ r.1 with iTime := w.iTime + 1 }, r.2)
  else return ({ w1 with iTime := w.iTime + 1 }, fs)

/-- `NetCDFMonitor`, 102-144: the writer and the names expected. -/
structure Monitor (T C : Type) where
  writer : Writer T C
  expected : Option (List String)

def Monitor.new : Monitor T C := ⟨⟨0, none, []⟩, none⟩

/-- The names in a state; the time is one of them. -/
def St.keys (s : St T C) : List String :=
  (if s.time.isSome then ["time"] else []) ++ s.fields.map (·.1)

/-- The comparison of the sets of names, 161 -/
def sameSet (a b : List String) : Bool := a.all (fun x => b.contains x) && b.all fun x => a.contains x

/-- `store`, 146-172 -/
def store (c tile : Nat) (m : Monitor T C) (fs : FS T C) (s : St T C) :
    Except Err (Monitor T C × FS T C) :=
  match m.expected with
  | none => do
      let r ← append c tile m.writer fs s
      return (⟨r.1, some s.keys⟩, r.2)
  | some ks =>
      if sameSet ks s.keys then do
        let r ← append c tile m.writer fs s
        return (⟨r.1, some ks⟩, r.2)
      else .error .valueError

/-- `cleanup`, 207-208 -/
def cleanup (c tile : Nat) (m : Monitor T C) (fs : FS T C) : Monitor T C × FS T C :=
  let r := flush c tile m.writer fs
  ({ m with writer := r.1 }, r.2)

/-- The monitors of all tiles and the directory they share. -/
structure Sys (T C : Type) where
  monitors : Nat → Monitor T C
  fs : FS T C

inductive Op (T C : Type) where
  | store (tile : Nat) (s : St T C)
  | cleanup (tile : Nat)

def step (c : Nat) (y : Sys T C) : Op T C → Except Err (Sys T C)
  | .store tile s => do
      let r ← store c tile (y.monitors tile) y.fs s
      return ⟨fun t => if t = tile then r.1 else y.monitors t, r.2⟩
  | .cleanup tile =>
      let r := cleanup c tile (y.monitors tile) y.fs
      .ok ⟨fun t => if t = tile then r.1 else y.monitors t, r.2⟩

def run (c : Nat) (ops : List (Op T C)) : Except Err (Sys T C) :=
  ops.foldlM (step c) ⟨fun _ => .new, fun _ => none⟩

end NDSL.NetCDF
