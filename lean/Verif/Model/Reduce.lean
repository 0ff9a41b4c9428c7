import Verif.Model.Partitioner
/-
Model of reductions over all ranks and of the making of tile communicators: `Communicator.all_reduce`,
`all_reduce_per_element` and `all_reduce_per_element_in_place` (`ndsl/comm/communicator.py` 101-150), `MPIComm`
(`ndsl/comm/mpi.py` 17-93), `QuantityMetadata.duplicate_metadata` (`ndsl/quantity/metadata.py` 55-62),
`CubedSphereCommunicator.tile` (`ndsl/comm/communicator.py` 815-826) and `LocalComm.Split` (`ndsl/comm/local_comm.py`
182-195).

Simplifications: arrays are lists of elements with a shape and the arrays of all ranks have the same shape; an element type
comes with the functions of the operators. Operators with results that are no arrays (logical ones) or that need pairs
(`MAXLOC`, `MINLOC`) are left out, as is `OP_NULL`, which MPI refuses. What the layout of a backend does to the memory of a
quantity is left out.
-/
namespace NDSL.Reduce

/-- `ReductionOperator` without those left out, `ndsl/comm/comm_abc.py` 11-27. -/
inductive Op where
  | max | min | sum | prod | band | bor | bxor | replace | noOp
  deriving DecidableEq, Repr

/-- What the operators do with two elements. -/
structure Elem (V : Type) where
  add : V → V → V
  mul : V → V → V
  and : V → V → V
  or : V → V → V
  xor : V → V → V
  lt : V → V → Bool

/-- An array. -/
structure Arr (V : Type) where
  shape : List Nat
  data : List V
  deriving DecidableEq

variable {V : Type}

/-- An operator on elements, as MPI applies it to the elements of buffers. -/
def Op.elem (E : Elem V) : Op → V → V → V
  | .max, x, y => if E.lt x y then y else x
  | .min, x, y => if E.lt y x then y else x
  | .sum, x, y => E.add x y
  | .prod, x, y => E.mul x y
  | .band, x, y => E.and x y
  | .bor, x, y => E.or x y
  | .bxor, x, y => E.xor x y
  | .replace, _, y => y
  | .noOp, x, _ => x

/-- An operator on buffers: element by element. -/
def bufferOp (E : Elem V) (op : Op) (x y : Arr V) : Arr V := ⟨x.shape, List.zipWith (op.elem E) x.data y.data⟩

/-- `if y > x` (`if y < x`) with arrays: only arrays of one element have a truth value. -/
def pyChoose (test : V → V → Bool) (x y : Arr V) : Except Err (Arr V) :=
  match x.data, y.data with
  | [a], [b] => .ok (if test a b then y else x)
  | _, _ => .error .valueError

/-- An operator on objects, as mpi4py applies it to what `allreduce` is given (`MPI.SUM` is `x + y`, `MPI.MAX` is
`y if y > x else x`, ...). -/
def objectOp (E : Elem V) (op : Op) (x y : Arr V) : Except Err (Arr V) :=
  match op with
  | .max => pyChoose (fun a b => E.lt a b) x y
  | .min => pyChoose (fun a b => E.lt b a) x y
  | .replace => .ok y
  | .noOp => .ok x
  | _ => .ok (bufferOp E op x y)

/-- The order in which the ranks' contributions are put together, chosen by MPI: any way to put brackets around them. -/
inductive Tree where
  | rank (r : Nat)
  | node (l r : Tree)

/-- The ranks of a tree, from left to right. -/
def Tree.ranks : Tree → List Nat
  | .rank r => [r]
  | .node l r => l.ranks ++ r.ranks

/-- `MPIComm.allreduce`, mpi.py 84-87: objects. -/
def reduceObjects (E : Elem V) (op : Op) (x : Nat → Arr V) : Tree → Except Err (Arr V)
  | .rank r => .ok (x r)
  | .node l r =>
    match reduceObjects E op x l with
    | .error e => .error e
    | .ok a =>
      match reduceObjects E op x r with
      | .error e => .error e
      | .ok b => objectOp E op a b

/-- `MPIComm.Allreduce`, mpi.py 89-93: buffers. -/
def reduceBuffers (E : Elem V) (op : Op) (x : Nat → Arr V) : Tree → Arr V
  | .rank r => x r
  | .node l r => bufferOp E op (reduceBuffers E op x l) (reduceBuffers E op x r)

/-- `QuantityMetadata`, metadata.py 18-35, without the type of the array. -/
structure Meta where
  origin : List Int
  extent : List Int
  nHalo : Int
  dims : List String
  units : String
  dtype : String
  backend : String
  deriving DecidableEq, Repr

/-- A quantity: array, metadata, and the origin and extent its view was made with (quantity.py 143-145). -/
structure Qty (V : Type) where
  arr : Arr V
  info : Meta
  viewOrigin : List Int
  viewExtent : List Int
  deriving DecidableEq

/-- `duplicate_metadata`, metadata.py 55-62: all but `n_halo`. -/
def duplicate (source target : Meta) : Meta :=
  { target with
    origin := source.origin, extent := source.extent, dims := source.dims, units := source.units, dtype := source.dtype,
    backend := source.backend }

/-- `Quantity.__init__`, quantity.py 31-145, as `_create_all_reduce_quantity` calls it (communicator.py 101-114):
`number_of_halo_points` is not given; floating point data of another precision than configured are refused. -/
def newQty (floats : List String) (Float : String) (m : Meta) (a : Arr V) : Except Err (Qty V) :=
  if m.dtype ∈ floats ∧ m.dtype ≠ Float then .error .valueError
  else .ok ⟨a, { m with nHalo := 0 }, m.origin, m.extent⟩

/-- `Communicator.all_reduce` of a rank after the reduction, communicator.py 116-134. -/
def finish (floats : List String) (Float : String) (input : Qty V) (reduced : Arr V) : Option (Qty V) →
    Except Err (Qty V)
  | none => newQty floats Float input.info reduced
  | some out =>
    if out.arr.shape ≠ input.arr.shape then .error .typeError
    else .ok { out with arr := reduced, info := duplicate input.info out.info }

/-- `Communicator.all_reduce`, communicator.py 116-134, on rank `r`. -/
def allReduce (E : Elem V) (floats : List String) (Float : String) (op : Op) (t : Tree) (input : Nat → Qty V) (r : Nat)
    (out : Option (Qty V)) : Except Err (Qty V) :=
  match reduceObjects E op (fun r => (input r).arr) t with
  | .error e => .error e
  | .ok a => finish floats Float (input r) a out

/-- `all_reduce_per_element`, communicator.py 136-142: the output quantity afterwards. -/
def perElement (E : Elem V) (op : Op) (t : Tree) (input : Nat → Qty V) (out : Qty V) : Qty V :=
  { out with arr := ⟨out.arr.shape, (reduceBuffers E op (fun r => (input r).arr) t).data⟩ }

/-- `all_reduce_per_element_in_place`, communicator.py 144-150: rank `r`'s quantity afterwards. -/
def perElementInPlace (E : Elem V) (op : Op) (t : Tree) (input : Nat → Qty V) (r : Nat) : Qty V :=
  perElement E op t input (input r)

/-! ### Tile communicators -/

/-- `MPI_Comm_split`: the ranks of a colour in order of key, then of rank. The new rank and size of `r`. -/
def mpiSplit (n : Nat) (color key : Nat → Nat) (r : Nat) : Nat × Nat :=
  ((List.range n).countP fun m => color m = color r ∧ (key m < key r ∨ (key m = key r ∧ m < r)),
    (List.range n).countP fun m => color m = color r)

/-- What `LocalComm`s share: for each colour the sizes (`total_ranks`) of the communicators made for it. -/
abbrev Shared := Nat → List Nat

/-- `LocalComm.Split`, local_comm.py 182-195: the new communicator is the next of its colour; the others of the colour
learn of their number. -/
def localSplit (s : Shared) (color : Nat) : Shared × Nat :=
  let rank := (s color).length
  (fun c => if c = color then (s color).map (fun _ => rank + 1) ++ [rank + 1] else s c, rank)

/-- Splits called one after the other; the new ranks, in order of the calls. -/
def localSplits : Shared → List Nat → Shared × List Nat
  | s, [] => (s, [])
  | s, c :: cs => ((localSplits (localSplit s c).1 cs).1, (localSplit s c).2 :: (localSplits (localSplit s c).1 cs).2)

/-- The colour of a rank, `partitioner.tile_index(rank)`. -/
def tileColor (p : CubePart) (rank : Nat) : Nat :=
  match p.tileIndex rank with
  | .ok t => t.toNat
  | .error _ => 0

/-- `CubedSphereCommunicator._initialize_tile_communicator`, communicator.py 822-826: rank and size of the tile's
communicator on rank `r` of `n`. -/
def tileComm (p : CubePart) (n r : Nat) : Nat × Nat := mpiSplit n (tileColor p) id r

/-- What kind of communicator a `TileCommunicator` holds: `MPIComm` maps the operators for mpi4py, what its `Split`
(mpi.py 80-81) gives is mpi4py's own communicator. -/
inductive Comm where
  | wrapper
  | mpi4py

def Comm.split : Comm → Comm
  | _ => .mpi4py

/-- `comm.allreduce(data, op)` with an operator of NDSL: mpi4py calls it on two contributions, but it is not callable
(`TypeError`). -/
def Comm.allreduce (c : Comm) (E : Elem V) (op : Op) (x : Nat → Arr V) (t : Tree) : Except Err (Arr V) :=
  match c with
  | .wrapper => reduceObjects E op x t
  | .mpi4py =>
    match t with
    | .rank r => .ok (x r)
    | .node _ _ => .error .typeError

end NDSL.Reduce
