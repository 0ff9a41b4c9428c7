import Verif.Model.MemoryReport
/-
Specification for C113, independent of the loops of the model.
-/
namespace NDSL.Memory

/-- `l` is the SDFG itself or one nested in it, at any depth. -/
inductive Within : Sdfg → Level → Prop
  | own (l : Level) (ns : List Sdfg) : Within (.mk l ns) l
  | nested (l : Level) (ns : List Sdfg) (n : Sdfg) (m : Level) : n ∈ ns → Within n m → Within (.mk l ns) m

/-- A container of the program with the SDFG that declares it. -/
structure Item where
  top : Bool
  level : Level
  name : String
  arr : Arr

/-- The containers that stand for memory of their own: all of the outermost SDFG, and of the SDFGs nested in it the transient
ones; the others are memory that a nested SDFG is given from outside. -/
def owners (g : Sdfg) : List Item :=
  g.own.arrays.map (fun e => ⟨true, g.own, e.1, e.2⟩) ++
  (g.nested.flatMap levels).flatMap fun l =>
    (l.arrays.filter fun e => e.2.transient).map fun e => ⟨false, l, e.1, e.2⟩

/-- The containers of one storage. -/
def ownersIn (g : Sdfg) (s : String) : List Item := (owners g).filter fun x => x.arr.storage = s

/-- Bytes of the containers that satisfy a condition. -/
def bytesOf (xs : List Item) (p : Item → Bool) : Nat := ((xs.filter p).map fun x => x.arr.bytes).sum

/-- The SDFG that declares the container has an access node for it. -/
def Item.used (x : Item) : Bool := decide (x.name ∈ x.level.access)

/-- Bytes an edge moves; an edge without data has no subset. -/
def edgeBytes : Option Memlet → Nat
  | none => 0
  | some m => m.elements * m.itemBytes

/-- Bytes a map reads and writes. -/
def mapBytes (m : MapNode) : Nat := (m.reads.map edgeBytes).sum + (m.writes.map edgeBytes).sum

end NDSL.Memory
