import Mathlib.Algebra.Field.Defs
import Verif.Model.CartesianGrid
/-
The doubly periodic grid without reference to ranks.
-/
namespace NDSL.Cartesian

variable {K : Type} [Field K]

/-- Longitude of corner `I` of `np` corners spread evenly over the interval of width π/16 about 0. -/
def lonAt (c : Params K) (np I : Int) : K := ((I : K) / ((np - 1 : Int) : K) - 1 / 2) * (c.pi / 16)

/-- Latitude of corner `J`, evenly spread over the interval of width π/16 about the latitude given in degrees. -/
def latAt (c : Params K) (np J : Int) : K := c.deglat * c.pi / 180 + ((J : K) / ((np - 1 : Int) : K) - 1 / 2) * (c.pi / 16)

/-- The position of a rank among the `ly` by `lx` ranks of a tile: (x, y). -/
def rankX (ly lx rank : Int) : Int := ((TilePart.mk (ly, lx)).subtileIndex rank).2
def rankY (ly lx rank : Int) : Int := ((TilePart.mk (ly, lx)).subtileIndex rank).1

/-- The grid that a rank makes on a tile of `lx * nx` by `ly * ny` cells divided evenly, with halos of 3. -/
def rankGrid (fl : FloatOps) (c : Params K) (ly lx nx ny rank : Int) : Except Err (Deriv.Arr (Option (K × K))) :=
  match Edges.place ⟨(ly, lx)⟩ fl rank (lx * nx + 1) (ly * ny + 1) with
  | .ok pl => initGrid c 3 pl (lx * nx + 1) (ly * ny + 1) (nx + 7) (ny + 7)
  | .error e => .error e

/-- The dot product of two vectors. -/
def dot (a b : Vec K) : K := a 0 * b 0 + a 1 * b 1 + a 2 * b 2

/-- All values in the storage are the same. -/
def Is {α : Type} (a : Deriv.Arr α) (v : α) : Prop := ∀ i j, 0 ≤ i → i < a.n0 → 0 ≤ j → j < a.n1 → a.get i j = v

end NDSL.Cartesian
