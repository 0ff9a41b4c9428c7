import Verif.Model.CornerStencils

/-
Specification of corner fills, in terms of the places of the points on the plane of the tile.

Lengths are in half cells: cell `i` covers `2 i ≤ x ≤ 2 i + 2`; a value at cell centres has
index `i` at `2 i + 1`, a value at cell edges has index `i` at `2 i`.
-/
namespace NDSL.Corner

inductive Place where | centre | edge
  deriving DecidableEq, Repr

def Place.pos : Place → Int → Int
  | .centre, i => 2 * i + 1
  | .edge, i => 2 * i

/-- Where a variable lives along the two axes: `(centre, centre)` is the A grid, `(edge, edge)`
the B grid; the D grid has `x` at `(centre, edge)` and `y` at `(edge, centre)`, the C grid the
other way round. -/
abbrev Stagger := Place × Place

abbrev Point := Int × Int

/-- The corner of the tile: south-west, south-east, north-west or north-east vertex. -/
def vertex (e : Ext) (east north : Bool) : Int × Int :=
  (if east then 2 * (e.iE + 1) else 2 * e.iS, if north then 2 * (e.jE + 1) else 2 * e.jS)

/-- The displacement of a point from a corner of the tile. -/
def disp (e : Ext) (st : Stagger) (east north : Bool) (p : Point) : Int × Int :=
  (st.1.pos p.1 - (vertex e east north).1, st.2.pos p.2 - (vertex e east north).2)

/-- Beyond the edge on the side `plus` by at most `h` cells. -/
def Beyond (plus : Bool) (h : Nat) (d : Int) : Prop :=
  if plus then 0 < d ∧ d ≤ 2 * h else d < 0 ∧ -(2 * (h : Int)) ≤ d

/-- The point is in the halo corner next to the given corner of the tile, at most `hx` and `hy`
cells from it. -/
def InCorner (e : Ext) (st : Stagger) (hx hy : Nat) (east north : Bool) (p : Point) : Prop :=
  Beyond east hx (disp e st east north p).1 ∧ Beyond north hy (disp e st east north p).2

/-- Quarter turns. -/
def turnLeft (d : Int × Int) : Int × Int := (-d.2, d.1)
def turnRight (d : Int × Int) : Int × Int := (d.2, -d.1)

inductive Direction where | x | y
  deriving DecidableEq, Repr

def SameSide (a b : Int) : Prop := (0 < a ∧ 0 < b) ∨ (a < 0 ∧ b < 0)

instance (a b : Int) : Decidable (SameSide a b) := by unfold SameSide; infer_instance

/-- `p'` (of a variable at `st'`) is the image of `p` (of a variable at `st`) under a quarter turn
about the corner: the one that is beyond the same west or east edge for a fill in direction `x`,
beyond the same south or north edge for a fill in direction `y`. -/
def IsSource (e : Ext) (dir : Direction) (st st' : Stagger) (east north : Bool) (p p' : Point) :
    Prop :=
  let d := disp e st east north p
  let d' := disp e st' east north p'
  (d' = turnLeft d ∨ d' = turnRight d) ∧
    match dir with
    | .x => SameSide d.1 d'.1
    | .y => SameSide d.2 d'.2

/-- `new` is `old` with the halo corners filled from `src`: a corner point of the computation
domain is the value of its source, transformed by `f`; all other points are as before. -/
def Filled {K : Type} (e : Ext) (dom : Int → Int → Bool) (nk : Nat) (dir : Direction)
    (st st' : Stagger) (hx hy : Nat) (f : Bool → Bool → K → K) (src old new : Storage K) : Prop :=
  (∀ east north p p', InCorner e st hx hy east north p → IsSource e dir st st' east north p p' →
    dom p.1 p.2 = true → ∀ k, k < nk → new p.1 p.2 k = f east north (src p'.1 p'.2 k)) ∧
  (∀ p k, (∀ east north, ¬ InCorner e st hx hy east north p) ∨ dom p.1 p.2 = false ∨ nk ≤ k →
    new p.1 p.2 k = old p.1 p.2 k)

/-- The tile has at least `n` cells along each axis. -/
def AtLeast (e : Ext) (n : Int) : Prop := e.iS + n ≤ e.iE + 1 ∧ e.jS + n ≤ e.jE + 1

end NDSL.Corner
