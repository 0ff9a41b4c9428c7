import Verif.Model.Compile

/-
Specification for the distributed compilation properties: the kind of place a rank has on its
tile, told from its row `y` and column `x` on a tile of `rows × cols` ranks alone.
-/
namespace NDSL.Compile

/-- Where a coordinate lies on a side of `n` ranks. -/
inductive Third where
  | low | mid | high
  deriving DecidableEq, Repr

def thirdOf (n a : Int) : Third := if a = 0 then .low else if a = n - 1 then .high else .mid

/-- The code path that belongs to a place: (vertical, horizontal). -/
def pathAt : Third → Third → CodePath
  | .low, .low => .bottomLeft
  | .low, .mid => .bottom
  | .low, .high => .bottomRight
  | .mid, .low => .left
  | .mid, .mid => .center
  | .mid, .high => .right
  | .high, .low => .topLeft
  | .high, .mid => .top
  | .high, .high => .topRight

/-- Rank `r` sits on tile `t` at row `y` and column `x`. -/
def Sits (p : Part) (r t y x : Int) : Prop :=
  0 ≤ y ∧ y < p.layout.1 ∧ 0 ≤ x ∧ x < p.layout.2 ∧
    r = t * (p.layout.1 * p.layout.2) + (y * p.layout.2 + x)

/-- Every rank has a code path and exactly one rank compiles that code path. -/
def CompiledOnce (p : Part) (single : Bool) : Prop :=
  ∀ r, 0 ≤ r → r < p.totalRanks →
    ∃ path, identifyCodePath r p single = .ok path ∧
      ∃ c, (0 ≤ c ∧ c < p.totalRanks ∧ determineCompilingRank c p single = .ok true ∧
          identifyCodePath c p single = .ok path) ∧
        ∀ c', 0 ≤ c' → c' < p.totalRanks → determineCompilingRank c' p single = .ok true →
          identifyCodePath c' p single = .ok path → c' = c

/-- How many of the hash-relevant options are switched on, counting the run mode by its
number. -/
def weight (c : SConfig) : Nat :=
  c.rebuild.toNat + c.validateArgs.toNat + c.minimalCaching.toNat + c.compareToNumpy.toNat
    + c.formatSource.toNat + c.deviceSync.toNat + c.runMode.value

end NDSL.Compile
