import Verif.Model.Basic
/-
Model of the arrays derived from the positions of grid points in `ndsl/grid/geometry.py`:
`get_center_vector`, `calc_unit_vector_west`, `calc_unit_vector_south`, `calculate_l2c_vu`,
`calculate_xy_unit_vectors`, `calculate_trig_uv`, `calculate_divg_del6`, `_fill_halo_corners`.

Simplifications, in the whole file: points, vectors and numbers are of any types with any operations (so that the
results also hold for floating point numbers); an array is a function of its first two indices together with its
shape, the last index (longitude and latitude, three components, nine points of a cell) belongs to the element;
numpy's check of shapes is made, a row or column that does not exist is not noticed.
-/
namespace NDSL.Deriv

/-- A two-dimensional array. -/
structure Arr (α : Type) where
  n0 : Int
  n1 : Int
  get : Int → Int → α

/-- A slice, `start:stop`, resolved in a dimension of a given length. -/
structure Sl where
  start : Int → Int
  stop : Int → Int

/-- `:` -/
def Sl.all : Sl := ⟨fun _ => 0, fun n => n⟩
/-- `a:-b`; for `b = 0` numpy reads `a:0`, which is empty. -/
def Sl.span (a b : Int) : Sl := ⟨fun _ => a, fun n => if b = 0 then 0 else n - b⟩
/-- `a:` -/
def Sl.from (a : Int) : Sl := ⟨fun _ => a, fun n => n⟩
/-- `:a` -/
def Sl.to (a : Int) : Sl := ⟨fun _ => 0, fun _ => a⟩
/-- `-a:` -/
def Sl.last (a : Int) : Sl := ⟨fun n => n - a, fun n => n⟩
/-- A single row or column `k`, counted from the end if negative. -/
def Sl.one (k : Int) : Sl := ⟨fun n => if k < 0 then n + k else k, fun n => (if k < 0 then n + k else k) + 1⟩

def Sl.len (s : Sl) (n : Int) : Int := max 0 (s.stop n - s.start n)
def Sl.has (s : Sl) (n i : Int) : Bool := decide (s.start n ≤ i) && decide (i < s.stop n)

variable {α β γ : Type}

/-- `a[s, t]` -/
def Arr.cut (a : Arr α) (s t : Sl) : Arr α :=
  ⟨s.len a.n0, t.len a.n1, fun i j => a.get (s.start a.n0 + i) (t.start a.n1 + j)⟩

/-- `np.zeros((n0, n1)) + v` -/
def full (n0 n1 : Int) (v : α) : Arr α := ⟨n0, n1, fun _ _ => v⟩

/-- An operation on every element. -/
def Arr.map (f : α → β) (a : Arr α) : Arr β := ⟨a.n0, a.n1, fun i j => f (a.get i j)⟩

/-- An operation on two arrays of the same shape. -/
def zip (f : α → β → γ) (a : Arr α) (b : Arr β) : Except Err (Arr γ) :=
  if a.n0 = b.n0 ∧ a.n1 = b.n1 then .ok ⟨a.n0, a.n1, fun i j => f (a.get i j) (b.get i j)⟩
  else .error .valueError

/-- The array after `a[s, t] = b`, for `b` of the right shape. -/
def Arr.over (a : Arr α) (s t : Sl) (b : Arr α) : Arr α :=
  ⟨a.n0, a.n1, fun i j => if s.has a.n0 i && t.has a.n1 j then b.get (i - s.start a.n0) (j - t.start a.n1)
    else a.get i j⟩

/-- `a[s, t] = b` -/
def Arr.put (a : Arr α) (s t : Sl) (b : Arr α) : Except Err (Arr α) :=
  if s.len a.n0 = b.n0 ∧ t.len a.n1 = b.n1 then .ok (a.over s t b) else .error .valueError

/-- `a[s, t] = v` for a number `v`. -/
def Arr.fill (a : Arr α) (s t : Sl) (v : α) : Arr α :=
  ⟨a.n0, a.n1, fun i j => if s.has a.n0 i && t.has a.n1 j then v else a.get i j⟩

/-- Which sides of the tile a rank lies on: `on_tile_left` and so on. -/
structure OnTile where
  left : Bool
  right : Bool
  bottom : Bool
  top : Bool

/-- `_fill_halo_corners`, 892-908. -/
def fillHaloCorners (on : OnTile) (h : Int) (v : α) (a : Arr α) : Arr α :=
  let a := if on.left && on.bottom then a.fill (Sl.to h) (Sl.to h) v else a
  let a := if on.left && on.top then a.fill (Sl.to h) (Sl.last h) v else a
  let a := if on.right && on.bottom then a.fill (Sl.last h) (Sl.to h) v else a
  if on.right && on.top then a.fill (Sl.last h) (Sl.last h) v else a

/-- Operations on points: `xyz_midpoint` of two and four points, `np.cross`, `normalize_xyz`, the vector with all
components `v` and the unit vectors of the axes. -/
structure Geo (P : Type) where
  mid : P → P → P
  mid4 : P → P → P → P → P
  cross : P → P → P
  unit : P → P
  zero : P
  big : P
  axis : Nat → P

variable {P : Type}

/-- `get_center_vector`, 15-60. -/
def centerVector (G : Geo P) (gridType h : Int) (on : OnTile) (x : Arr P) : Except Err (Arr P × Arr P) := do
  if gridType < 3 then
    let sw := x.cut (Sl.span 0 1) (Sl.span 0 1)
    let se := x.cut (Sl.from 1) (Sl.span 0 1)
    let nw := x.cut (Sl.span 0 1) (Sl.from 1)
    let ne := x.cut (Sl.from 1) (Sl.from 1)
    let s ← zip (·, ·) sw se
    let n ← zip (·, ·) nw ne
    let center ← zip (fun a b => G.mid4 a.1 a.2 b.1 b.2) s n
    let p1 ← zip G.mid sw nw
    let p2 ← zip G.mid se ne
    let p3 ← zip G.cross p2 p1
    let v1 ← zip G.cross center p3
    let q1 ← zip G.mid sw se
    let q2 ← zip G.mid nw ne
    let q3 ← zip G.cross q2 q1
    let v2 ← zip G.cross center q3
    return (fillHaloCorners on h G.big (v1.map G.unit), fillHaloCorners on h G.big (v2.map G.unit))
  else
    return (full (x.n0 - 1) (x.n1 - 1) (G.axis 0), full (x.n0 - 1) (x.n1 - 1) (G.axis 1))

/-- `if on_tile_...: a[s, t] = ...` -/
def putIf (b : Bool) (a : Arr α) (s t : Sl) (v : Except Err (Arr α)) : Except Err (Arr α) :=
  if b then do
    let v ← v
    a.put s t v
  else .ok a

/-- `calc_unit_vector_west`, 63-102. -/
def westVector (G : Geo P) (gridType h : Int) (on : OnTile) (x a : Arr P) : Except Err (Arr P × Arr P) := do
  let ew1 := full x.n0 a.n1 G.zero
  let ew2 := full x.n0 a.n1 G.zero
  if gridType < 3 then
    let pp ← zip G.mid (x.cut (Sl.span 1 1) (Sl.span 0 1)) (x.cut (Sl.span 1 1) (Sl.from 1))
    let p2 ← zip G.cross (a.cut (Sl.span 0 1) Sl.all) (a.cut (Sl.from 1) Sl.all)
    let p2 ← putIf on.left p2 (Sl.one (h - 1)) Sl.all
      (zip G.cross (pp.cut (Sl.one (h - 1)) Sl.all) (a.cut (Sl.one h) Sl.all))
    let p2 ← putIf on.right p2 (Sl.one (-h)) Sl.all
      (zip G.cross (a.cut (Sl.one (-h - 1)) Sl.all) (pp.cut (Sl.one (-h)) Sl.all))
    let v1 ← zip G.cross p2 pp
    let ew1 ← ew1.put (Sl.span 1 1) Sl.all (v1.map G.unit)
    let p1 ← zip G.cross (x.cut (Sl.span 1 1) (Sl.span 0 1)) (x.cut (Sl.span 1 1) (Sl.from 1))
    let v2 ← zip G.cross p1 pp
    let ew2 ← ew2.put (Sl.span 1 1) Sl.all (v2.map G.unit)
    return ((fillHaloCorners on h G.zero ew1).cut (Sl.span 1 1) Sl.all,
      (fillHaloCorners on h G.zero ew2).cut (Sl.span 1 1) Sl.all)
  else
    return ((full x.n0 a.n1 (G.axis 1)).cut (Sl.span 1 1) Sl.all, (full x.n0 a.n1 (G.axis 2)).cut (Sl.span 1 1) Sl.all)

/-- `calc_unit_vector_south`, 105-145. -/
def southVector (G : Geo P) (gridType h : Int) (on : OnTile) (x a : Arr P) : Except Err (Arr P × Arr P) := do
  let es1 := full a.n0 x.n1 G.zero
  let es2 := full a.n0 x.n1 G.zero
  if gridType < 3 then
    let pp ← zip G.mid (x.cut (Sl.span 0 1) (Sl.span 1 1)) (x.cut (Sl.from 1) (Sl.span 1 1))
    let p2 ← zip G.cross (a.cut Sl.all (Sl.span 0 1)) (a.cut Sl.all (Sl.from 1))
    let p2 ← putIf on.bottom p2 Sl.all (Sl.one (h - 1))
      (zip G.cross (pp.cut Sl.all (Sl.one (h - 1))) (a.cut Sl.all (Sl.one h)))
    let p2 ← putIf on.top p2 Sl.all (Sl.one (-h))
      (zip G.cross (a.cut Sl.all (Sl.one (-h - 1))) (pp.cut Sl.all (Sl.one (-h))))
    let v2 ← zip G.cross p2 pp
    let es2 ← es2.put Sl.all (Sl.span 1 1) (v2.map G.unit)
    let p1 ← zip G.cross (x.cut (Sl.span 0 1) (Sl.span 1 1)) (x.cut (Sl.from 1) (Sl.span 1 1))
    let v1 ← zip G.cross p1 pp
    let es1 ← es1.put Sl.all (Sl.span 1 1) (v1.map G.unit)
    return ((fillHaloCorners on h G.zero es1).cut Sl.all (Sl.span 1 1),
      (fillHaloCorners on h G.zero es2).cut Sl.all (Sl.span 1 1))
  else
    return ((full a.n0 x.n1 (G.axis 1)).cut Sl.all (Sl.span 1 1), (full a.n0 x.n1 (G.axis 2)).cut Sl.all (Sl.span 1 1))

/-- `calculate_xy_unit_vectors`, 267-307. -/
def xyUnitVectors (G : Geo P) (h : Int) (on : OnTile) (x : Arr P) : Except Err (Arr P × Arr P) := do
  let inner := Sl.span h h
  let cx ← zip G.cross (x.cut (Sl.span (h - 1) (h + 1)) inner) (x.cut (Sl.span (h + 1) (h - 1)) inner)
  let cx ← putIf on.left cx (Sl.one 0) Sl.all
    (zip G.cross (x.cut (Sl.one h) inner) (x.cut (Sl.one (h + 1)) inner))
  let cx ← putIf on.right cx (Sl.one (-1)) Sl.all
    (zip G.cross (x.cut (Sl.one (-h - 2)) inner) (x.cut (Sl.one (-h - 1)) inner))
  let ux ← zip G.cross cx (x.cut inner inner)
  let cy ← zip G.cross (x.cut inner (Sl.span (h - 1) (h + 1))) (x.cut inner (Sl.span (h + 1) (h - 1)))
  let cy ← putIf on.bottom cy Sl.all (Sl.one 0)
    (zip G.cross (x.cut inner (Sl.one h)) (x.cut inner (Sl.one (h + 1))))
  let cy ← putIf on.top cy Sl.all (Sl.one (-1))
    (zip G.cross (x.cut inner (Sl.one (-h - 2))) (x.cut inner (Sl.one (-h - 1))))
  let uy ← zip G.cross cy (x.cut inner inner)
  return (ux.map G.unit, uy.map G.unit)

variable {R : Type}

/-- `calculate_l2c_vu`, 237-264: `corr` gives the cosine of the latitude of the middle of a side times the eastward
part of its direction. -/
def l2c (corr : P → P → R) (h : Int) (x : Arr P) : Except Err (Arr R × Arr R) := do
  let v ← zip corr (x.cut (Sl.span h h) (Sl.span h (h + 1))) (x.cut (Sl.span h h) (Sl.span (h + 1) h))
  let u ← zip corr (x.cut (Sl.span h (h + 1)) (Sl.span h h)) (x.cut (Sl.span (h + 1) h) (Sl.span h h))
  return (v, u)

variable [Add R] [Mul R] [Div R] [Neg R] [Zero R] [One R] [LT R] [DecidableLT R]

/-- The constants `0.5`, `big_number` and `tiny_number`. -/
structure Consts (R : Type) where
  half : R
  big : R
  tiny : R

/-- `0.5 * (a + b)` -/
def mean (K : Consts R) (a b : R) : R := K.half * (a + b)

/-- `1.0 / s` with `s = x ** 2; s[s < tiny_number] = tiny_number` -/
def recipSquare (K : Consts R) (x : R) : R := 1 / (if x * x < K.tiny then K.tiny else x * x)

/-- `abs` -/
def abs' (x : R) : R := if x < 0 then -x else x

/-- `np.sign` -/
def sign (x : R) : R := if x < 0 then -1 else if 0 < x then 1 else x

/-- `s[abs(s) < tiny_number] = tiny_number * np.sign(s[abs(s) < tiny_number])` -/
def limit (K : Consts R) (x : R) : R := if abs' x < K.tiny then K.tiny * sign x else x

/-- `cos_sg[:, :, k]` -/
def point (k : Nat) (a : Arr (Nat → R)) : Arr R := a.map (· k)

/-- The results of `calculate_trig_uv`, and `cos_sg` afterwards. -/
structure Trig (R : Type) where
  cosa : Arr R
  sina : Arr R
  cosaU : Arr R
  cosaV : Arr R
  cosaS : Arr R
  sinaU : Arr R
  sinaV : Arr R
  rsinU : Arr R
  rsinV : Arr R
  rsina : Arr R
  rsin2 : Arr R
  cosSg : Arr (Nat → R)

/-- The special values at one side of the tile, 371-398, for `sina` (whose line is a view, so that it is limited,
too) and `rsin`: `s`, `t` select the line. -/
def limitLine (K : Consts R) (b : Bool) (s t : Sl) (sina rsin : Arr R) : Except Err (Arr R × Arr R) := do
  if b then
    let line := (sina.cut s t).map (limit K)
    let sina ← sina.put s t line
    let rsin ← rsin.put s t (line.map (1 / ·))
    return (sina, rsin)
  else
    return (sina, rsin)

/-- `if on_tile_...: rsina[s, t] = big_number` -/
def fillIf (b : Bool) (a : Arr α) (s t : Sl) (v : α) : Arr α := if b then a.fill s t v else a

/-- `calculate_trig_uv`, 311-412, the values at corners: `cosa` and `sina`, 328-329, 337-344. -/
def trigCorner (K : Consts R) (h d0 d1 : Int) (c : Arr (Nat → R)) : Except Err (Arr R) := do
  let mc ← zip (mean K) ((point 7 c).cut (Sl.span (h - 1) h) (Sl.span (h - 1) h))
    ((point 5 c).cut (Sl.span h (h - 1)) (Sl.span h (h - 1)))
  (full d0 d1 K.big).put (Sl.span h h) (Sl.span h h) mc

/-- `rsina`, 366-368, 372, 379, 386, 393. -/
def trigRsina (K : Consts R) (h : Int) (on : OnTile) (sina : Arr R) : Arr R :=
  let rsina := (sina.cut (Sl.span h h) (Sl.span h h)).map (recipSquare K)
  let rsina := fillIf on.left rsina (Sl.one 0) Sl.all K.big
  let rsina := fillIf on.right rsina (Sl.one (-1)) Sl.all K.big
  let rsina := fillIf on.bottom rsina Sl.all (Sl.one 0) K.big
  fillIf on.top rsina Sl.all (Sl.one (-1)) K.big

/-- Means on the west sides, 330-331, 346-347. -/
def trigMeanU (K : Consts R) (d0 d1 : Int) (c : Arr (Nat → R)) : Except Err (Arr R) := do
  let mcu ← zip (mean K) ((point 2 c).cut (Sl.span 0 1) Sl.all) ((point 0 c).cut (Sl.from 1) Sl.all)
  (full d0 (d1 - 1) K.big).put (Sl.span 1 1) Sl.all mcu

/-- Means on the south sides, 333-334, 352-353. -/
def trigMeanV (K : Consts R) (d0 d1 : Int) (c : Arr (Nat → R)) : Except Err (Arr R) := do
  let mcv ← zip (mean K) ((point 3 c).cut Sl.all (Sl.span 0 1)) ((point 1 c).cut Sl.all (Sl.from 1))
  (full (d0 - 1) d1 K.big).put Sl.all (Sl.span 1 1) mcv

/-- `sina_u` and `rsin_u` with their values at the tile's edges, 332, 347-350, 371-384. -/
def trigSinU (K : Consts R) (h : Int) (on : OnTile) (d0 d1 : Int) (s : Arr (Nat → R)) : Except Err (Arr R × Arr R) := do
  let sinaU ← trigMeanU K d0 d1 s
  let rsinU ← (full d0 (d1 - 1) K.big).put (Sl.span 1 1) Sl.all
    ((sinaU.cut (Sl.span 1 1) Sl.all).map (recipSquare K))
  let (sinaU, rsinU) ← limitLine K on.left (Sl.one h) Sl.all sinaU rsinU
  limitLine K on.right (Sl.one (-h - 1)) Sl.all sinaU rsinU

/-- `sina_v` and `rsin_v` with their values at the tile's edges, 335, 353-356, 385-398. -/
def trigSinV (K : Consts R) (h : Int) (on : OnTile) (d0 d1 : Int) (s : Arr (Nat → R)) : Except Err (Arr R × Arr R) := do
  let sinaV ← trigMeanV K d0 d1 s
  let rsinV ← (full (d0 - 1) d1 K.big).put Sl.all (Sl.span 1 1)
    ((sinaV.cut Sl.all (Sl.span 1 1)).map (recipSquare K))
  let (sinaV, rsinV) ← limitLine K on.bottom Sl.all (Sl.one h) sinaV rsinV
  limitLine K on.top Sl.all (Sl.one (-h - 1)) sinaV rsinV

/-- `calculate_trig_uv`, 311-412. The statements are grouped by the arrays they write: those of different groups do
not touch the same array. `cosa_s` is a view of `cos_sg[:, :, 4]`, so that filling its corners changes `cos_sg`. -/
def trigUV (K : Consts R) (h : Int) (on : OnTile) (d0 d1 : Int) (c s : Arr (Nat → R)) : Except Err (Trig R) := do
  let cosa ← trigCorner K h d0 d1 c
  let sina ← trigCorner K h d0 d1 s
  let cosaU ← trigMeanU K d0 d1 c
  let sinU ← trigSinU K h on d0 d1 s
  let cosaV ← trigMeanV K d0 d1 c
  let sinV ← trigSinV K h on d0 d1 s
  let rsin2 := (point 4 s).map (recipSquare K)
  let cosaS := fillHaloCorners on h K.big (point 4 c)
  let cosSg ← zip (fun f v k => if k = 4 then v else f k) c cosaS
  return ⟨cosa, sina, cosaU, cosaV, cosaS, sinU.1, sinV.1, sinU.2, sinV.2, trigRsina K h on sina, rsin2, cosSg⟩

/-- `sina * a / b` for arrays. -/
def ratio (sina a b : Arr R) : Except Err (Arr R) := do
  let p ← zip (· * ·) sina a
  zip (· / ·) p b

/-- `0.5 * (x + y) * a / b` for lines. -/
def meanRatio (K : Consts R) (x y a b : Arr R) : Except Err (Arr R) := do
  let m ← zip (mean K) x y
  ratio m a b

/-- `calculate_divg_del6`, 499-569: `divg_u`, `divg_v`, `del6_u`, `del6_v`. -/
def divgDel6 (K : Consts R) (h : Int) (on : OnTile) (s : Arr (Nat → R)) (sinaU sinaV dx dy dxc dyc : Arr R) :
    Except Err (Arr R × Arr R × Arr R × Arr R) := do
  let divgU ← ratio sinaV dyc dx
  let del6U ← ratio sinaV dx dyc
  let divgV ← ratio sinaU dxc dy
  let del6V ← ratio sinaU dy dxc
  let lineJ := fun (k l m : Int) (a b : Arr R) =>
    meanRatio K ((point 1 s).cut Sl.all (Sl.one k)) ((point 3 s).cut Sl.all (Sl.one l))
      (a.cut Sl.all (Sl.one m)) (b.cut Sl.all (Sl.one m))
  let lineI := fun (k l m : Int) (a b : Arr R) =>
    meanRatio K ((point 0 s).cut (Sl.one k) Sl.all) ((point 2 s).cut (Sl.one l) Sl.all)
      (a.cut (Sl.one m) Sl.all) (b.cut (Sl.one m) Sl.all)
  let divgU ← putIf on.bottom divgU Sl.all (Sl.one h) (lineJ h (h - 1) h dyc dx)
  let del6U ← putIf on.bottom del6U Sl.all (Sl.one h) (lineJ h (h - 1) h dx dyc)
  let divgU ← putIf on.top divgU Sl.all (Sl.one (-h - 1)) (lineJ (-h) (-h - 1) (-h - 1) dyc dx)
  let del6U ← putIf on.top del6U Sl.all (Sl.one (-h - 1)) (lineJ (-h) (-h - 1) (-h - 1) dx dyc)
  let divgV ← putIf on.left divgV (Sl.one h) Sl.all (lineI h (h - 1) h dxc dy)
  let del6V ← putIf on.left del6V (Sl.one h) Sl.all (lineI h (h - 1) h dy dxc)
  let divgV ← putIf on.right divgV (Sl.one (-h - 1)) Sl.all (lineI (-h) (-h - 1) (-h - 1) dxc dy)
  let del6V ← putIf on.right del6V (Sl.one (-h - 1)) Sl.all (lineI (-h) (-h - 1) (-h - 1) dy dxc)
  return (divgU, divgV, del6U, del6V)

end NDSL.Deriv
