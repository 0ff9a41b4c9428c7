import Verif.Model.Gnomonic
/-
Model of `global_mirror_grid` (`ndsl/grid/global_setup.py` 92-281), which makes the six tiles from the grid of one tile,
all on one rank.

Simplifications: real numbers; the two components of `grid_global` are two functions of a tile's indices, counted from
its first corner (`ng` is subtracted); rows of points are treated point by point.
-/
namespace NDSL.Sphere
open Real

/-- `grid_global[i, j, ...] = v` -/
def putAt (A : Nat → Nat → ℝ) (i j : Nat) (v : ℝ) : Nat → Nat → ℝ := fun a b => if a = i ∧ b = j then v else A a b

/-- `grid_global[i, j, ...] = np.copysign(x1, grid_global[i, j, ...])` -/
noncomputable def signAt (x1 : ℝ) (A : Nat → Nat → ℝ) (i j : Nat) : Nat → Nat → ℝ := putAt A i j (copysign x1 (A i j))

/-- global_setup.py 106-124 for the first component, 126-145 for the second: the mean of the four mirrored points. -/
noncomputable def mirrorFour (npx npy : Nat) (A : Nat → Nat → ℝ) (i j : Nat) : Nat → Nat → ℝ :=
  let x1 := 1 / 4 * (|A i j| + |A (npx - (i + 1)) j| + |A i (npy - (j + 1))| + |A (npx - (i + 1)) (npy - (j + 1))|)
  signAt x1 (signAt x1 (signAt x1 (signAt x1 A i j) (npx - (i + 1)) j) i (npy - (j + 1))) (npx - (i + 1)) (npy - (j + 1))

/-- "force dateline/greenwich-meridian consistency", global_setup.py 148-151. -/
def zeroMiddle (npx npy : Nat) (A : Nat → Nat → ℝ) (i j : Nat) : Nat → Nat → ℝ :=
  if npx % 2 ≠ 0 ∧ i = (npx - 1) / 2 then putAt (putAt A i j 0) i (npy - (j + 1)) 0 else A

/-- The indices of the loops, global_setup.py 104-105: `math.ceil(npy / 2)` and `math.ceil(npx / 2)`. -/
def quarter (npx npy : Nat) : List (Nat × Nat) :=
  (List.range ((npy + 1) / 2)).flatMap fun j => (List.range ((npx + 1) / 2)).map fun i => (i, j)

/-- The base region, global_setup.py 102-151. -/
noncomputable def globalBase (npx npy : Nat) (X Y : Nat → Nat → ℝ) : (Nat → Nat → ℝ) × (Nat → Nat → ℝ) :=
  (quarter npx npy).foldl (fun s e => (zeroMiddle npx npy (mirrorFour npx npy s.1 e.1 e.2) e.1 e.2,
    mirrorFour npx npy s.2 e.1 e.2)) (X, Y)

/-- "force North Pole and dateline/Greenwich-Meridian consistency", global_setup.py 191-197; `iMid` and `jMid` of
153-154. -/
noncomputable def globalFix2 (npx npy : Nat) (i j : Nat) (p : ℝ × ℝ) : ℝ × ℝ :=
  let iMid := (npx - 1) / 2
  let jMid := (npy - 1) / 2
  if npx % 2 ≠ 0 then
    let p := if j = iMid ∧ i = iMid then (0, π / 2) else p
    if j = jMid then (if i < iMid + 1 then 0 else π, p.2) else p
  else p

/-- global_setup.py 219-222. -/
noncomputable def globalFix3 (npx npy : Nat) (_i j : Nat) (p : ℝ × ℝ) : ℝ × ℝ :=
  if npx % 2 ≠ 0 then (if j = (npy - 1) / 2 then (π, p.2) else p) else p

/-- "force South Pole and dateline/Greenwich-Meridian consistency", global_setup.py 268-276. -/
noncomputable def globalFix5 (npx npy : Nat) (i j : Nat) (p : ℝ × ℝ) : ℝ × ℝ :=
  let iMid := (npx - 1) / 2
  let jMid := (npy - 1) / 2
  if npx % 2 ≠ 0 then
    let p := if j = iMid ∧ i = iMid then (0, -π / 2) else p
    if j > jMid then (if i = iMid then 0 else p.1, p.2)
    else if j < jMid then (if i = iMid then π else p.1, p.2)
    else p
  else p

/-- `global_mirror_grid`, global_setup.py 92-281: longitude and latitude of corner `(i, j)` of a tile. The rotations of
155-266 are those of `mirror_grid`. -/
noncomputable def globalMirror (rightHand : Bool) (radius : ℝ) (npx npy : Nat) (X Y : Nat → Nat → ℝ) (tile i j : Nat) :
    ℝ × ℝ :=
  let b := globalBase npx npy X Y
  let p := rotateTile rightHand radius tile (b.1 i j, b.2 i j)
  match tile with
  | 2 => globalFix2 npx npy i j p
  | 3 => globalFix3 npx npy i j p
  | 5 => globalFix5 npx npy i j p
  | _ => p

end NDSL.Sphere
