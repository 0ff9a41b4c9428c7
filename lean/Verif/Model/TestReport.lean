import Mathlib.Algebra.Order.Ring.Rat
import Mathlib.Algebra.Field.Rat
import Verif.Model.PlotPrep
/-
Model of what `ndsl/stencils/testing/test_translate.py` saves and prints about a test: `_get_thresholds` (115-140), the names of the files of
`_report_results` (455-475), `_save_datatree` (478-538) and `save_netcdf` (541-569). Attributes and prints are left out. xarray's `DataArray`
is a list of named dimensions and an array; of the errors of numpy and xarray only the kind is kept.
-/
namespace NDSL.TestReport

open PlotPrep (DArr)

/-- An array of numpy. -/
structure Arr (V : Type) where
  shape : List Nat
  get : List Nat → V

/-! ### Saved data -/

/-- `np.stack` along a new first axis: at least one array, all of one shape. -/
def stack {V : Type} [Inhabited V] (l : List (Arr V)) : Except Err (Arr V) :=
  match l with
  | [] => .error .valueError
  | a :: t =>
    if t.all fun b => b.shape == a.shape then .ok ⟨l.length :: a.shape, fun pos => ((l[pos.headD 0]?).map fun b => b.get pos.tail).getD default⟩
    else .error .valueError

/-- `xr.DataArray(data, dims=...)`: a name for every dimension. -/
def dataArray {V : Type} (a : Arr V) (dims : List String) : Except Err (DArr V) :=
  if dims.length = a.shape.length then .ok ⟨dims, a.shape, a.get⟩ else .error .valueError

/-- `a - b` of two `DataArray`s with the same dimensions: the lengths have to be the same. -/
def minus {V : Type} [Sub V] (a b : DArr V) : Except Err (DArr V) :=
  if a.shape = b.shape then .ok ⟨a.dims, a.shape, fun pos => a.get pos - b.get pos⟩ else .error .valueError

/-- The `Dataset` of one variable, 504-536. -/
structure Dataset (V : Type) where
  input : Option (DArr V)
  reference : DArr V
  computed : DArr V
  error : DArr V

/-- What the ranks have under a name; `none` when one of them raises `KeyError`. -/
def ofRanks {V : Type} (l : List (String → Option (Arr V))) (name : String) : Option (List (Arr V)) := l.mapM fun d => d name

/-- The dimensions of a variable, 492-509: `outputs` of the test, `none` when it is not there or empty, gives names of dimensions; `text j` is `str(j)`. -/
def dimsOf {V : Type} (text : Nat → String) (outputs : Option (String → Option (List String))) (ref : String → Option (List (Arr V))) (index : Nat) (name : String) :
    Except Err (List String) :=
  match outputs with
  | some o =>
    match o name with
    | none => .error .keyError
    | some dims => .ok (dims.map fun d => d ++ "_" ++ text index)
  | none =>
    match ref name with
    | none => .error .keyError
    | some [] => .error .indexError
    | some (a :: _) => .ok ((List.range a.shape.length).map fun j => "dim_" ++ name ++ "_" ++ text j)

/-- One turn of the loop of `_save_datatree`, 488-536. `xr.Dataset` refuses different numbers of ranks. -/
def saveVar {V : Type} [Inhabited V] [Sub V] (text : Nat → String) (outputs : Option (String → Option (List String))) (inputs outs : List (String → Option (Arr V)))
    (ref : String → Option (List (Arr V))) (index : Nat) (name : String) : Except Err (Dataset V) := do
  let dims ← dimsOf text outputs ref index name
  let input ← match ofRanks inputs name with
    | none => .ok none
    | some l => do
      let s ← stack l
      let d ← dataArray s ("rank" :: dims.map fun d => d ++ "_in")
      pure (some d)
  let refs ← match ref name with
    | none => .error .keyError
    | some l => .ok l
  let r ← stack refs
  let reference ← dataArray r ("rank" :: dims.map fun d => d ++ "_out")
  let comp ← match ofRanks outs name with
    | none => .error .keyError
    | some l => .ok l
  let c ← stack comp
  let computed ← dataArray c ("rank" :: dims.map fun d => d ++ "_out")
  let error ← minus reference computed
  match input with
  | some i => if i.shape.head? = reference.shape.head? then pure ⟨input, reference, computed, error⟩ else .error .valueError
  | none => pure ⟨input, reference, computed, error⟩

/-- The loop of `_save_datatree` and the dictionary it fills, 486-538. `order` stands for `np.argsort(names)`. -/
def saveTree {V : Type} [Inhabited V] [Sub V] (text : Nat → String) (outputs : Option (String → Option (List String))) (inputs outs : List (String → Option (Arr V)))
    (ref : String → Option (List (Arr V))) (names : List String) : List Nat → (String → Option (Dataset V)) → Except Err (String → Option (Dataset V))
  | [], t => .ok t
  | i :: l, t =>
    match names[i]? with
    | none => .error .indexError
    | some n => do
      let d ← saveVar text outputs inputs outs ref i n
      saveTree text outputs inputs outs ref names l fun m => if m = n then some d else t m

/-- `save_netcdf`, 541-569: the groups `Fail` and `Pass` of the file. -/
def saveNetcdf {V : Type} [Inhabited V] [Sub V] (text : Nat → String) (order : List String → List Nat) (outputs : Option (String → Option (List String)))
    (inputs outs : List (String → Option (Arr V))) (ref : String → Option (List (Arr V))) (failing passing : List String) :
    Except Err ((String → Option (Dataset V)) × (String → Option (Dataset V))) := do
  let f ← saveTree text outputs inputs outs ref failing (order failing) fun _ => none
  let p ← saveTree text outputs inputs outs ref passing (order passing) fun _ => none
  return (f, p)

/-- The end of a test, 434-452: when a variable failed the file is written, and any error on the way is printed only. The file, when there is one. -/
def saved {V : Type} [Inhabited V] [Sub V] (text : Nat → String) (order : List String → List Nat) (outputs : Option (String → Option (List String)))
    (inputs outs : List (String → Option (Arr V))) (ref : String → Option (List (Arr V))) (failing passing : List String) :
    Option ((String → Option (Dataset V)) × (String → Option (Dataset V))) :=
  if failing = [] then none
  else match saveNetcdf text order outputs inputs outs ref failing passing with
    | .ok r => some r
    | .error _ => none

/-- The name of the file with the details of one variable, 470-474. -/
def detailFile (digits : Nat → List Char) (savepoint name : List Char) (rank : Nat) : List Char :=
  savepoint ++ '-' :: name ++ '-' :: digits rank ++ ['.', 'l', 'o', 'g']

/-! ### Thresholds -/

/-- Result of the arithmetic of `_get_thresholds` for one point or all. -/
inductive Ext where
  | nan
  | inf
  | fin (q : ℚ)
  deriving DecidableEq

/-- The values of all samples at point `i`; `none` in the list is NaN. -/
def atPoint (samples : List (List (Option ℚ))) (i : Nat) : List (Option ℚ) := samples.map fun s => (s[i]?).getD none

/-- `np.max(l)`, where NaN wins -/
def maxOf : List (Option ℚ) → Option ℚ
  | [] => none
  | [x] => x
  | x :: l => do
    let a ← x
    let b ← maxOf l
    return max a b

/-- `np.min(l)`, where NaN wins -/
def minOf : List (Option ℚ) → Option ℚ
  | [] => none
  | [x] => x
  | x :: l => do
    let a ← x
    let b ← minOf l
    return min a b

/-- `np.max(samples, axis=0) - np.min(samples, axis=0)` at one point, 132 -/
def spread (l : List (Option ℚ)) : Option ℚ := do
  let a ← maxOf l
  let b ← minOf l
  return a - b

/-- `pointwise_max_abs_errors / np.min(np.abs(samples), axis=0)` at one point, 134: 0/0 is NaN and anything else over 0 infinite. -/
def relative (l : List (Option ℚ)) : Ext :=
  match spread l, minOf (l.map fun x => x.map abs) with
  | some d, some m => if m = 0 then (if d = 0 then .nan else .inf) else .fin (d / m)
  | _, _ => .nan

/-- The larger of two results; NaN does not count. -/
def Ext.larger : Ext → Ext → Ext
  | .nan, y => y
  | x, .nan => x
  | .inf, _ => .inf
  | _, .inf => .inf
  | .fin a, .fin b => .fin (max a b)

/-- `np.nanmax`: an error without entries, NaN when there is nothing else. -/
def nanmax : List Ext → Except Err Ext
  | [] => .error .valueError
  | x :: l => .ok (l.foldl Ext.larger x)

/-- The two numbers printed for a variable of `n` points, 131-139: the largest relative and the largest absolute difference. -/
def thresholds (samples : List (List (Option ℚ))) (n : Nat) : Except Err (Ext × Ext) := do
  let rel ← nanmax ((List.range n).map fun i => relative (atPoint samples i))
  let dif ← nanmax ((List.range n).map fun i => match spread (atPoint samples i) with
    | some d => .fin d
    | none => .nan)
  return (rel, dif)

end NDSL.TestReport
